import Verif.Props.DalitzGrid
import Verif.Props.SerialClosure

/-! Property C129 for deserialized models: evaluation on a grid over the Dalitz plot. -/
namespace Verif.Serialization
open Verif Verif.Spec Verif.ThreeBody

variable {m : ModelDefinition} {D : Distribution} {rd : ChainDefinition → Reading} {cl : Bool} {tl : String → String}
  {add : Option (PyDict String PropagatorBuilder)} {a : AmplitudeModel} {ref i j k : ℤ} {M : ℤ → ℚ}

theorem serial_mass (hm : ReadsModel m D rd) (h : formulate m cl tl add = .ok a)
    (hM : ∀ d ∈ D.kinematics.initialState :: D.kinematics.finalState, M d.index = d.mass) {n : ℤ}
    (hn : n ∈ ([0, 1, 2, 3] : List ℤ)) : (a.decay.st n).mass = M n := by
  obtain ⟨K, E, P, Θ, ref, ids, zetas, terms, hf⟩ := formulate_inv hm.head hm.kinematics h
  have key : ∃ d ∈ D.kinematics.initialState :: D.kinematics.finalState, d.index = n := by
    rcases List.mem_cons.1 hn with rfl | hn
    · exact ⟨_, List.mem_cons_self .., hm.kinematics.initial⟩
    · obtain ⟨d, hd, rfl⟩ := List.mem_map.1 (hm.kinematics.final.mem_iff.2 hn)
      exact ⟨d, List.mem_cons_of_mem _ hd, rfl⟩
  obtain ⟨d, hd, rfl⟩ := key
  have h1 := C58_state_masses hm h hd
  rw [mass_value hf hn] at h1
  rw [hM d hd]
  injection h1 with h1
  injection h1

theorem serialPlotReady (hm : ReadsModel m D rd) (href : IsSpectator D.referenceTopology ref) (href' : ref ∈ ([1, 2, 3] : List ℤ))
    (hM : ∀ d ∈ D.kinematics.initialState :: D.kinematics.finalState, M d.index = d.mass)
    (h : formulate m cl tl add = .ok a) : PlotReady a M := by
  refine ⟨?_, ?_, ?_, fun x hx => serial_angle_symbols hm href href' h hx⟩
  · have hmass := fun n hn => serial_mass (M := M) hm h hM (n := n) hn
    obtain ⟨K, E, P, Θ, ref', ids, zetas, terms, hf⟩ := formulate_inv hm.head hm.kinematics h
    rw [hf.masses, ← hmass 0 (by simp), ← hmass 1 (by simp), ← hmass 2 (by simp), ← hmass 3 (by simp)]
    rfl
  · obtain ⟨K, E, P, Θ, ref', ids, zetas, terms, hf⟩ := formulate_inv hm.head hm.kinematics h
    rw [hf.invariants]
    rfl
  · intro s hs
    obtain ⟨y, hy, rfl⟩ := List.mem_map.1 hs
    rcases serial_angleDefs hm href href' h hy with ⟨c, -, -, h7⟩ | ⟨i, -, k, -, rfl⟩
    · rw [h7]; rfl
    · rfl

/-- C129: for a deserialized model with the masses `M` in its file, the definitions for the plot over `σi` and `σj` define all
angles and the third Mandelstam variable, depend on `σi` and `σj` only and have the value of the definitions of the model. -/
theorem C129_serial_definitions (hm : ReadsModel m D rd) (href : IsSpectator D.referenceTopology ref)
    (href' : ref ∈ ([1, 2, 3] : List ℤ))
    (hM : ∀ d ∈ D.kinematics.initialState :: D.kinematics.finalState, M d.index = d.mass)
    (h : formulate m cl tl add = .ok a) (hijk : IsPerm123 i j k) : ∃ D, dalitzDefinitions a i j = .ok D ∧
    PyDict.keys D = PyDict.keys a.angleDefs ++ [⟨"sigma" ++ toString k, .nonneg⟩] ∧
    (∀ x ∈ D, ∀ s ∈ kinematicSymbols x.2, s = ⟨"sigma" ++ toString i, .nonneg⟩ ∨ s = ⟨"sigma" ++ toString j, .nonneg⟩) ∧
    ∀ ρ : Sym → ℝ, (∀ n ∈ ([0, 1, 2, 3] : List ℤ), ρ ⟨"m" ++ toString n, .nonneg⟩ = M n) → SumRule ρ →
      (∀ e, (⟨"sigma" ++ toString k, .nonneg⟩, e) ∈ D → e.eval ρ = some (ρ ⟨"sigma" ++ toString k, .nonneg⟩)) ∧
      ∀ s e, PyDict.get? a.angleDefs s = some e → ∃ e', PyDict.get? D s = some e' ∧ e'.eval ρ = e.eval ρ :=
  grid_definitions (serialPlotReady hm href href' hM h) hijk

/-- C129: at every point of the Dalitz plot, also on its boundary, and for all parameters, there are data with the values of these
definitions, and the value of the deserialized model for such data is its value at the point with these `σi` and `σj`. -/
theorem C129_serial_intensity (hm : ReadsModel m D rd) (h0 : NonnegativeSpins D) (href : IsSpectator D.referenceTopology ref)
    (href' : ref ∈ ([1, 2, 3] : List ℤ))
    (hadd : ∀ defs, add = some defs → ∀ x ∈ defs, ∀ p R e, x.2 p R m = .ok e → ClosedLineshape e)
    (hM : ∀ d ∈ D.kinematics.initialState :: D.kinematics.finalState, M d.index = d.mass)
    (h : formulate m cl tl add = .ok a) (hijk : IsPerm123 i j k) {E : PyDict Sym RExpr} (hE : dalitzDefinitions a i j = .ok E)
    {ι : Interp} (hmass : ∀ n ∈ ([0, 1, 2, 3] : List ℤ), ι.sym ⟨"m" ++ toString n, .nonneg⟩ = (M n : ℂ)) :
    ((ι.sym ⟨"sigma" ++ toString k, .nonneg⟩).im = 0 → (DalitzRegion fun s => (ι.sym s).re) →
      ∃ ι' : Interp, SameFunctions ι ι' ∧ ι'.idx = ι.idx ∧ (∀ s, s ∉ PyDict.keys a.angleDefs → ι'.sym s = ι.sym s) ∧
        ∀ x ∈ E, Computes ι' x) ∧
    ((∀ x ∈ E, Computes ι x) →
      ((∀ x ∈ a.angleDefs, Computes ι x) ∧ SumRule fun s => (ι.sym s).re) ∧
      ∀ ι' : Interp, SameFunctions ι ι' → SameParameters a ι ι' →
        ι.sym ⟨"sigma" ++ toString i, .nonneg⟩ = ι'.sym ⟨"sigma" ++ toString i, .nonneg⟩ →
        ι.sym ⟨"sigma" ++ toString j, .nonneg⟩ = ι'.sym ⟨"sigma" ++ toString j, .nonneg⟩ →
        (∀ x ∈ a.angleDefs, Computes ι' x) → (∀ x ∈ a.invariants, Computes ι' x) →
        ∀ η η', a.fullExpression.eval ι η = a.fullExpression.eval ι' η') := by
  have hp := serialPlotReady hm href href' hM h
  refine ⟨fun hreal hρ => grid_evaluable hp hijk hE hmass hreal hρ (C75_evaluable hm href href' h hρ), fun hdata => ?_⟩
  obtain ⟨h1, -, h2⟩ := grid_data hp hijk hE hmass hdata
  exact ⟨⟨h1, h2⟩, fun ι' hf hpar hi hj hangles hinv η η' =>
    grid_intensity hp (C75_closed hm h0 href href' hadd h) hijk hE hf hpar hmass hdata hi hj hangles hinv η η'⟩

/-- C129: the range of the plot of docs/serialization.ipynb is the exact range of the two Mandelstam variables inside the Dalitz
plot for the masses in the file, widened by a twentieth on both sides. -/
theorem C129_serial_range (hm : ReadsModel m D rd) (href : IsSpectator D.referenceTopology ref)
    (href' : ref ∈ ([1, 2, 3] : List ℤ))
    (hM : ∀ d ∈ D.kinematics.initialState :: D.kinematics.finalState, M d.index = d.mass)
    (h : formulate m cl tl add = .ok a) (hijk : IsPerm123 i j k)
    (hpos : ∀ n ∈ ([0, 1, 2, 3] : List ℤ), 0 < M n) (hsum : M 1 + M 2 + M 3 < M 0) :
    ∃ x y, dalitzRange a i j = .ok (x, y) ∧ ∀ n r, (n = i ∧ r = x ∨ n = j ∧ r = y) →
      ∃ lo hi : ℚ, r.min = lo - (hi - lo) / 20 ∧ r.max = hi + (hi - lo) / 20 ∧ lo < hi ∧ ∀ s : ℝ,
        (∃ ρ : Sym → ℝ, (∀ n ∈ ([0, 1, 2, 3] : List ℤ), ρ ⟨"m" ++ toString n, .nonneg⟩ = M n) ∧
          DalitzInterior ρ ∧ ρ ⟨"sigma" ++ toString n, .nonneg⟩ = s) ↔ (lo : ℝ) < s ∧ s < hi :=
  grid_range (serialPlotReady hm href href' hM h) hijk hpos hsum

/-- The masses in the file of the example model. -/
def exFileMass (n : ℤ) : ℚ := if n = 0 then 2286 / 1000 else if n = 1 then 938 / 1000 else if n = 2 then 140 / 1000 else 494 / 1000

theorem exFileMass_eq : ∀ d ∈ exDistribution.kinematics.initialState :: exDistribution.kinematics.finalState,
    exFileMass d.index = d.mass := by
  intro d hd
  change d ∈ [_, _, _, _] at hd
  simp only [List.mem_cons, List.not_mem_nil, or_false] at hd
  rcases hd with rfl | rfl | rfl | rfl <;> rfl

/-- The example model over `σ2` and `σ1`, as in the notebook: the range of the plot, and data for a point inside the Dalitz plot
with `σ2 = 3`. -/
example : ∃ a E ι x y, formulate exModel true id none = .ok a ∧ dalitzRange a 2 1 = .ok (x, y) ∧
    (∃ lo hi : ℚ, x.min = lo - (hi - lo) / 20 ∧ x.max = hi + (hi - lo) / 20 ∧ lo < hi) ∧ dalitzDefinitions a 2 1 = .ok E ∧
    (∀ n ∈ ([0, 1, 2, 3] : List ℤ), ι.sym ⟨"m" ++ toString n, .nonneg⟩ = (exFileMass n : ℂ)) ∧
    ι.sym ⟨"sigma2", .nonneg⟩ = 3 ∧ (∀ x ∈ E, Computes ι x) ∧ (∀ x ∈ a.angleDefs, Computes ι x) := by
  obtain ⟨a, h⟩ := exModel_ok id true
  have hp : IsPerm123 2 1 3 := by unfold IsPerm123; decide
  have hpos : ∀ n ∈ ([0, 1, 2, 3] : List ℤ), 0 < exFileMass n := by decide +kernel
  have hsum : exFileMass 1 + exFileMass 2 + exFileMass 3 < exFileMass 0 := by decide +kernel
  have href : (1 : ℤ) ∈ ([1, 2, 3] : List ℤ) := by simp
  obtain ⟨x, y, hxy, hr⟩ := C129_serial_range exModel_reads exModel_reference href exFileMass_eq h hp hpos hsum
  obtain ⟨lo, hi, r1, r2, r3, -⟩ := hr 2 x (.inl ⟨rfl, rfl⟩)
  obtain ⟨E, hE, -, -, -⟩ := C129_serial_definitions exModel_reads exModel_reference href exFileMass_eq h hp
  obtain ⟨ρ, hm, hin, h3⟩ := (sigma_range (M := exFileMass) hpos hsum hp 3).2 (by
    constructor
    · have : (exFileMass 1 + exFileMass 3) ^ 2 < 3 := by decide +kernel
      exact_mod_cast this
    · have : 3 < (exFileMass 0 - exFileMass 2) ^ 2 := by decide +kernel
      exact_mod_cast this)
  let ι₀ : Interp := { ThreeBody.exInterp ρ with sym := fun s => (ρ s : ℂ) }
  have hmass : ∀ n ∈ ([0, 1, 2, 3] : List ℤ), ι₀.sym ⟨"m" ++ toString n, .nonneg⟩ = (exFileMass n : ℂ) := by
    intro n hn
    show ((ρ (mSym n) : ℝ) : ℂ) = _
    rw [hm n hn]
    norm_cast
  obtain ⟨ι, -, -, hs, hc⟩ := (C129_serial_intensity exModel_reads exDistribution_nonneg exModel_reference href
    (by intro _ h; cases h) exFileMass_eq h hp hE (ι := ι₀) hmass).1 (Complex.ofReal_im _) hin.region
  have hp' := serialPlotReady exModel_reads exModel_reference href exFileMass_eq h
  have hmass' : ∀ n ∈ ([0, 1, 2, 3] : List ℤ), ι.sym ⟨"m" ++ toString n, .nonneg⟩ = (exFileMass n : ℂ) := fun n hn => by
    rw [hs _ (not_key hp' rfl)]; exact hmass n hn
  refine ⟨a, E, ι, x, y, h, hxy, ⟨lo, hi, r1, r2, r3⟩, hE, hmass', ?_, hc, ?_⟩
  · rw [hs _ (not_key hp' rfl)]
    show ((ρ (sSym 2) : ℝ) : ℂ) = 3
    rw [h3]; norm_cast
  · exact ((C129_serial_intensity exModel_reads exDistribution_nonneg exModel_reference href
      (by intro _ h; cases h) exFileMass_eq h hp hE hmass').2 hc).1.1

end Verif.Serialization
