import Verif.Props.TwoVariables
import Verif.Props.Lc2ppiK

/-! Property C132 for the published model of docs/Lc2ppiK.json with the lineshapes of docs/serialization.ipynb. -/
namespace Verif.Serialization
open Verif Verif.Spec Verif.ThreeBody

variable {cl : Bool} {tl : String → String} {a : AmplitudeModel} {i j k : ℤ}

theorem lcTwoBody : TwoBodyPropagators lcDistribution := by
  unfold TwoBodyPropagators
  apply lc_forall <;>
  · intro p hp
    cases List.mem_singleton.1 hp
    exact ⟨_, _, rfl⟩

theorem docs_plain {m : ModelDefinition} {p : Propagator} {R : String} {e : DefExpr}
    (h : formulateBuggBreitWigner p R m = .ok e) : PlainKeys e.parameters := by
  obtain ⟨f, i, j, s, m1, m2, final, mass, width, ma, mb, d, -, -, -, h1, h2, -, -, -, h3, h4, -, rfl⟩ := bugg_ok.1 h
  have hmass : ∀ {t : Tree} {s : Sym} {q : ℚ}, toMassSymbol t = .ok s → finalStateMass final t = .ok q → PlainSym s := by
    intro t s q ht hq
    cases t with
    | id i => cases ht; exact plain_state i
    | seq l => cases hq
  intro x hx
  have hx := PyDict.mem_ofItems hx
  simp only [List.mem_cons, List.not_mem_nil, or_false] at hx
  rcases hx with rfl | rfl | rfl | rfl | rfl
  · exact ⟨_, rfl, plain_of_head (s := massNamed R) (by simp [massNamed]) (head_massNamed _) (by decide)⟩
  · exact ⟨_, rfl, plain_of_head (s := widthNamed R) (by simp [widthNamed]) (head_widthNamed _) (by decide)⟩
  · exact ⟨_, rfl, hmass h1 h3⟩
  · exact ⟨_, rfl, hmass h2 h4⟩
  · exact ⟨_, rfl, plain_of_head (c := '\\') (by simp) (by simp [String.toList_append]) (by decide)⟩

theorem docs_wigner {m : ModelDefinition} {p : Propagator} {R : String} {e : DefExpr}
    (h : formulateBuggBreitWigner p R m = .ok e) : wigAngles e.expression = [] := by
  obtain ⟨f, i, j, s, m1, m2, final, mass, width, ma, mb, d, -, -, -, -, -, -, -, -, -, -, -, rfl⟩ := bugg_ok.1 h
  rfl

/-- The masses in docs/Lc2ppiK.json. -/
def lcMass (n : ℤ) : ℚ := ((lcKinematics.initialState :: lcKinematics.finalState).find? fun d => d.index = n).elim 0 (·.mass)

/-- C132 for the notebook: the published model has, for every `k`, a function of at most the two other Mandelstam variables.
At every point of the Dalitz plot for the masses of the file there are data for it, and for all data its value is the value of
the published model with the default values of all its parameters. -/
theorem C132_published (h : formulate lcModel cl tl (some docsBuilders) = .ok a) (hijk : IsPerm123 i j k) :
    ∃ f, PyDict.get? (intensityFuncs a) k = some f ∧ f.expression.indexeds = [] ∧
      (∀ s ∈ f.arguments, s = ⟨"sigma" ++ toString i, .nonneg⟩ ∨ s = ⟨"sigma" ++ toString j, .nonneg⟩) ∧
      (∀ ι : Interp, (∀ n ∈ ([0, 1, 2, 3] : List ℤ), ι.sym ⟨"m" ++ toString n, .nonneg⟩ = (lcMass n : ℂ)) →
        (ι.sym ⟨"sigma" ++ toString k, .nonneg⟩).im = 0 → (DalitzRegion fun s => (ι.sym s).re) →
        ∃ ι' : Interp, SameFunctions ι ι' ∧ (∀ s, s ∉ PyDict.keys a.angleDefs → ι'.sym s = ι.sym s) ∧
          ∀ x ∈ f.definitions, Computes ι' x) ∧
      ∀ ι : Interp, (∀ x ∈ f.definitions, Computes ι x) → (∀ x ∈ a.angleDefs, Computes (atDefaults a ι) x) ∧
        (SumRule fun s => ((atDefaults a ι).sym s).re) ∧
        ∀ η, f.expression.eval ι η = a.fullExpression.eval (atDefaults a ι) η := by
  have href : (2 : ℤ) ∈ ([1, 2, 3] : List ℤ) := by simp
  have ho : OrdinaryParameters a := C132_parameters lcModel_reads lcTwoBody lcModel_reference href
    (fun d hd x hx p R e he k hk => by
      obtain ⟨y, hy, rfl⟩ := List.mem_map.1 hk
      exact docs_plain (docs_builders d hd x hx p R e he) y hy) h
  have hadd : ∀ defs, some docsBuilders = some defs → ∀ x ∈ defs, ∀ p R e, x.2 p R lcModel = .ok e →
      ClosedLineshape e ∧ wigAngles e.expression = [] := fun d hd x hx p R e he =>
    ⟨(docs_closed (docs_builders d hd x hx p R e he)).1, docs_wigner (docs_builders d hd x hx p R e he)⟩
  have hM : ∀ d ∈ lcDistribution.kinematics.initialState :: lcDistribution.kinematics.finalState, lcMass d.index = d.mass := by
    intro d hd
    change d ∈ [_, _, _, _] at hd
    simp only [List.mem_cons, List.not_mem_nil, or_false] at hd
    rcases hd with rfl | rfl | rfl | rfl <;> rfl
  obtain ⟨f, hf, hx, harg⟩ := C132_arguments lcModel_reads lcDistribution_nonneg lcModel_reference href hadd h ho hijk
  have hval := fun ι => C132_value lcModel_reads lcDistribution_nonneg lcModel_reference href hadd hM h ho hijk hf ι
  refine ⟨f, hf, hx, harg, fun ι h1 h2 h3 => ?_, fun ι hc => ?_⟩
  · obtain ⟨ι', g1, -, g2, g3⟩ := (hval ι).1 h1 h2 h3
    exact ⟨ι', g1, g2, g3⟩
  · obtain ⟨g1, g2, g3, -⟩ := (hval ι).2 hc
    exact ⟨g1, g2, g3⟩

/-- The published model: data for the function without `σ1` at a point inside the Dalitz plot with `σ2 = 3`. -/
example : ∃ a f ι, formulate lcModel true id (some docsBuilders) = .ok a ∧ PyDict.get? (intensityFuncs a) 1 = some f ∧
    (∀ x ∈ f.definitions, Computes ι x) ∧ ι.sym ⟨"sigma2", .nonneg⟩ = 3 := by
  obtain ⟨a, h⟩ := C122_returns id true
  have hp : IsPerm123 2 3 1 := by unfold IsPerm123; decide
  have hpos : ∀ n ∈ ([0, 1, 2, 3] : List ℤ), 0 < lcMass n := by decide +kernel
  have hsum : lcMass 1 + lcMass 2 + lcMass 3 < lcMass 0 := by decide +kernel
  obtain ⟨f, hf, -, -, hdata, -⟩ := C132_published h hp
  obtain ⟨ρ, hm, hin, h3⟩ := (sigma_range (M := lcMass) hpos hsum hp 3).2 (by
    constructor
    · have : (lcMass 3 + lcMass 1) ^ 2 < 3 := by decide +kernel
      exact_mod_cast this
    · have : 3 < (lcMass 0 - lcMass 2) ^ 2 := by decide +kernel
      exact_mod_cast this)
  obtain ⟨ι, -, hs, hc⟩ := hdata { ThreeBody.exInterp ρ with sym := fun s => (ρ s : ℂ) } (fun n hn => by
    show ((ρ (mSym n) : ℝ) : ℂ) = _
    rw [hm n hn]
    norm_cast) (Complex.ofReal_im _) hin.region
  refine ⟨a, f, ι, h, hf, hc, ?_⟩
  rw [hs _ fun hk => ?_]
  · show ((ρ (sSym 2) : ℝ) : ℂ) = 3
    rw [h3]; norm_cast
  · obtain ⟨y, hy, hk⟩ := List.mem_map.1 hk
    rcases serial_angleDefs lcModel_reads lcModel_reference (by simp) h hy with ⟨c, -, -, h7⟩ | ⟨i, -, k, -, rfl⟩
    · rw [h7] at hk; cases congrArg Sym.asm hk
    · cases congrArg Sym.asm hk

end Verif.Serialization
