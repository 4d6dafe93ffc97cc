import Verif.Props.Recoupling
import Verif.Proofs.LsMatrix
import Verif.Proofs.Parity

/-! Property C95: a model with helicity couplings is a model with LS couplings. -/
namespace Verif.ThreeBody
open Verif Verif.Spec Verif.Spin Verif.Angles

variable {b b' : Builder} {dyn dyn' : Chain → DefExpr} {cl cl' : Bool}
  {m m' : AmplitudeModel} {ι ι' : Interp}

theorem ls_swap (J s1 s2 : ℚ) (maxL : ℤ) : generateLsCouplings J s2 s1 maxL = generateLsCouplings J s1 s2 maxL := by
  unfold generateLsCouplings
  rw [abs_sub_comm, add_comm s2 s1]

/-- Reversal of a pair. -/
def flip (keep : Bool) (x : ℚ × ℚ) : ℚ × ℚ := if keep then x else (x.2, x.1)

/-- Sum over both vertices. -/
theorem two_vertices {J s1 s2 R t1 t2 : ℚ} (hcg : UsesClebschGordan ι) (hs : DecaySpins J s1 s2)
    (ht : DecaySpins R t1 t2) {maxL : ℤ} (hmax : J + s1 + s2 ≤ maxL) (hmax' : R + t1 + t2 ≤ maxL)
    (H : ℚ × ℚ → ℚ × ℚ → ℂ) {x y : ℚ × ℚ} (hx : x ∈ vertexHelicities J s1 s2) (hy : y ∈ vertexHelicities R t1 t2) :
    ((generateLsCouplings J s1 s2 maxL).map fun p => ((generateLsCouplings R t1 t2 maxL).map fun q =>
      (∑ x' ∈ vertexHelicities J s1 s2, ∑ y' ∈ vertexHelicities R t1 t2,
        H x' y' * lsFactor ι J s1 s2 ⟨p.1, p.2⟩ x'.1 x'.2 * lsFactor ι R t1 t2 ⟨q.1, q.2⟩ y'.1 y'.2) *
      lsFactor ι R t1 t2 ⟨q.1, q.2⟩ y.1 y.2 * lsFactor ι J s1 s2 ⟨p.1, p.2⟩ x.1 x.2).sum).sum = H x y := by
  simp only [← List.sum_toFinset _ (Cg.ls_nodup _ _ _ _)]
  have hq : ∀ p : ℤ × ℚ, ∑ q ∈ (generateLsCouplings R t1 t2 maxL).toFinset,
      (∑ x' ∈ vertexHelicities J s1 s2, ∑ y' ∈ vertexHelicities R t1 t2,
        H x' y' * lsFactor ι J s1 s2 ⟨p.1, p.2⟩ x'.1 x'.2 * lsFactor ι R t1 t2 ⟨q.1, q.2⟩ y'.1 y'.2) *
      lsFactor ι R t1 t2 ⟨q.1, q.2⟩ y.1 y.2 * lsFactor ι J s1 s2 ⟨p.1, p.2⟩ x.1 x.2 =
      ∑ x' ∈ vertexHelicities J s1 s2, H x' y *
        (lsFactor ι J s1 s2 ⟨p.1, p.2⟩ x'.1 x'.2 * lsFactor ι J s1 s2 ⟨p.1, p.2⟩ x.1 x.2) := by
    intro p
    simp only [Finset.sum_mul]
    rw [Finset.sum_comm]
    refine Finset.sum_congr rfl fun x' _ => ?_
    rw [Finset.sum_comm]
    have : ∀ y' ∈ vertexHelicities R t1 t2, ∑ q ∈ (generateLsCouplings R t1 t2 maxL).toFinset,
        H x' y' * lsFactor ι J s1 s2 ⟨p.1, p.2⟩ x'.1 x'.2 * lsFactor ι R t1 t2 ⟨q.1, q.2⟩ y'.1 y'.2 *
          lsFactor ι R t1 t2 ⟨q.1, q.2⟩ y.1 y.2 * lsFactor ι J s1 s2 ⟨p.1, p.2⟩ x.1 x.2 =
        H x' y' * (lsFactor ι J s1 s2 ⟨p.1, p.2⟩ x'.1 x'.2 * lsFactor ι J s1 s2 ⟨p.1, p.2⟩ x.1 x.2) *
          if y' = y then 1 else 0 := by
      intro y' hy'
      rw [← Cg.ls_complete_spins hcg ht hmax' hy' hy, ← List.sum_toFinset _ (Cg.ls_nodup _ _ _ _), Finset.mul_sum]
      exact Finset.sum_congr rfl fun q _ => by ring
    rw [Finset.sum_congr rfl this]
    simp [hy]
  simp only [hq]
  rw [Finset.sum_comm]
  have : ∀ x' ∈ vertexHelicities J s1 s2, ∑ p ∈ (generateLsCouplings J s1 s2 maxL).toFinset,
      H x' y * (lsFactor ι J s1 s2 ⟨p.1, p.2⟩ x'.1 x'.2 * lsFactor ι J s1 s2 ⟨p.1, p.2⟩ x.1 x.2) =
      H x' y * if x' = x then 1 else 0 := by
    intro x' hx'
    rw [← Cg.ls_complete_spins hcg hs hmax hx' hx, ← List.sum_toFinset _ (Cg.ls_nodup _ _ _ _), Finset.mul_sum]
  rw [Finset.sum_congr rfl this]
  simp [hx]

theorem coefficientName_injective_ls {R R' : String} (h : coefficientName R false false = coefficientName R' false false) :
    R = R' := by
  have h : ("\\mathcal{H}^\\mathrm{LS," ++ R ++ "}").toList = ("\\mathcal{H}^\\mathrm{LS," ++ R' ++ "}").toList :=
    congrArg String.toList h
  rw [String.toList_append, String.toList_append, String.toList_append, String.toList_append] at h
  exact String.toList_inj.1 (List.append_cancel_left (List.append_cancel_right h))

open Classical in
/-- The LS coefficient of the chain `c` for the couplings `p`, `q` that belongs to helicity coefficients: the sum of the
helicity coefficients times the factors of both vertices. -/
noncomputable def lsCoefficient (ι : Interp) (c : Chain) (p q : LS) : ℂ :=
  let s := flip (decide (ResonanceFirst c)) (c.resonance.toP.spin, c.spectator.spin)
  ∑ x ∈ vertexHelicities c.parent.spin s.1 s.2,
    ∑ y ∈ vertexHelicities c.resonance.toP.spin c.product1.spin c.product2.spin,
      let R := flip (decide (ResonanceFirst c)) x
      let D := flip (decide (c.product1.index = (prodIds c.spectator.index).1)) y
      ι.idx (coefficientName c.resonance.toP.latex true true) none [R.1, R.2, D.1, D.2] *
        lsFactor ι c.parent.spin s.1 s.2 p x.1 x.2 *
        lsFactor ι c.resonance.toP.spin c.product1.spin c.product2.spin q y.1 y.2

open Classical in
/-- All LS coefficients. -/
noncomputable def lsCoefficients (ι : Interp) (b' : Builder) (name : String) (x : List ℚ) : ℂ :=
  match b'.decay.chains.find? fun c' => name = coefficientName c'.resonance.toP.latex false false, x with
  | some c', [L, S, L', S'] => lsCoefficient ι c' ⟨⌊L⌋, S⟩ ⟨⌊L'⌋, S'⟩
  | _, _ => 0

/-- C95: for every model in the helicity basis and all values of its coefficients there are values of the LS coefficients
for which the model in the LS basis has the same value, with all other parameters and variables the same, if the model in
the LS basis has one chain for each combination of LS couplings that `generate_ls_couplings` lists for the vertices of a
chain of the helicity basis. `base c` is the chain in the helicity basis that the chain `c` belongs to. -/
theorem C95_every_helicity_model (base : Chain → Chain) (hd : Standard b.decay) (hd' : Standard b'.decay)
    (hs : b'.decay.states = b.decay.states)
    (hp : b.useProdHel = false) (hq : b.useDecHel = false)
    (hp' : b'.useProdHel = true) (hq' : b'.useDecHel = true)
    (hbase : ∀ c ∈ b.decay.chains, base c ∈ b'.decay.chains ∧ SameParticles (base c) c)
    {maxL : ℤ} (hall : ∀ c' ∈ b'.decay.chains, ChainSpins c' ∧ MaxL maxL c' ∧
      AllCouplings maxL (b.decay.chains.filter fun c => base c = c') c')
    (hn : (b'.decay.chains.map fun c => c.resonance.toP.latex).Nodup)
    (hdyn : Lineshapes b dyn) (hdyn' : Lineshapes b' dyn')
    (hfree : ∀ c ∈ b.decay.chains, HelicityFree (dyn c).expression)
    (hfree' : ∀ c ∈ b'.decay.chains, HelicityFree (dyn' c).expression)
    (hres : ∀ c ∈ b.decay.chains, c.resonance ≠ .state c.spectator)
    {r : ℤ} (hr : r = 1 ∨ r = 2 ∨ r = 3)
    (h : b.formulate (some r) cl true = .ok m) (h' : b'.formulate (some r) cl' true = .ok m')
    {η : Sym → ℚ} (ι : Interp) (hcg : UsesClebschGordan ι) (hw : VanishingWigner ι)
    (hline : ∀ c ∈ b.decay.chains, ∀ idx, (dyn c).expression.eval { ι with idx := idx } η =
      (dyn' (base c)).expression.eval ι η) :
    ∃ idx, m.fullExpression.eval { ι with idx := idx } η = m'.fullExpression.eval ι η := by
  classical
  refine ⟨fun name _ x => lsCoefficients ι b' name x, ?_⟩
  refine C79_recoupling base hd hd' hs hp hq hp' hq'
    (fun c hc => ⟨(hbase c hc).1, (hbase c hc).2.resonance, congrArg State.index (hbase c hc).2.spectator⟩)
    hn.of_map hdyn hdyn' hfree hfree' hres hr h h'
    ⟨rfl, rfl, rfl, rfl, rfl⟩ rfl (fun c hc => hline c hc _) ?_
  intro c' hc' i j hijk l hl hR hwig
  obtain ⟨⟨hs1, hs2⟩, ⟨hm1, hm2⟩, hperm⟩ := hall c' hc'
  have hfind : (b'.decay.chains.find? fun c => coefficientName c'.resonance.toP.latex false false =
      coefficientName c.resonance.toP.latex false false) = some c' := by
    rw [List.find?_eq_some_iff_append]
    refine ⟨by simp, ?_⟩
    obtain ⟨u, v, huv⟩ := List.append_of_mem hc'
    refine ⟨u, v, huv, fun x hx => ?_⟩
    simp only [Bool.not_eq_true', decide_eq_false_iff_not]
    intro he
    have he := coefficientName_injective_ls he
    rw [huv, List.map_append, List.nodup_append] at hn
    exact hn.2.2 _ (List.mem_map.2 ⟨x, hx, rfl⟩) _ (List.mem_map.2 ⟨c', List.mem_cons_self, rfl⟩) he.symm
  have hidx : ∀ p q : LS, lsCoefficients ι b' (coefficientName c'.resonance.toP.latex false false)
      (couplingIndices false (some p) 0 0 ++ couplingIndices false (some q) 0 0) = lsCoefficient ι c' p q := by
    intro p q
    unfold lsCoefficients
    rw [hfind]
    simp [couplingIndices]
  -- the helicities at the two vertices
  obtain ⟨c0, cs, cn⟩ := Standard.chain hd' hc'
  have f1 := cs c'.product1 (by simp)
  have f2 := cs c'.product2 (by simp)
  have f3 := cs c'.spectator (by simp)
  have hp0 : ∀ n ∈ ([0, 1, 2, 3] : List ℤ), Projection (b'.decay.spin n) (l n) := by
    intro n hn
    have hh : IsHalfInteger (b.decay.spin n) := Standard.half hd hn
    rw [spin_eq hs]
    apply (mem_projections hh _).1
    simp only [List.mem_cons, List.not_mem_nil, or_false] at hn
    rcases hn with rfl | rfl | rfl | rfl
    · exact hl 0
    · exact hl 1
    · exact hl 2
    · exact hl 3
  have e0 : c'.parent.spin = b'.decay.spin 0 := by rw [c0]; rfl
  have e1 : c'.product1.spin = b'.decay.spin c'.product1.index := congrArg (fun s : State => s.spin) f1.2
  have e2 : c'.product2.spin = b'.decay.spin c'.product2.index := congrArg (fun s : State => s.spin) f2.2
  have e3 : c'.spectator.spin = b'.decay.spin c'.spectator.index := congrArg (fun s : State => s.spin) f3.2
  have q1 : Projection c'.product1.spin (l c'.product1.index) := by rw [e1]; exact hp0 _ (mem0 f1.1)
  have q2 : Projection c'.product2.spin (l c'.product2.index) := by rw [e2]; exact hp0 _ (mem0 f2.1)
  have q3 : Projection c'.spectator.spin (l c'.spectator.index) := by rw [e3]; exact hp0 _ (mem0 f3.1)
  have q0 : Projection c'.parent.spin (l 0) := by rw [e0]; exact hp0 _ (by simp)
  have hprod : ((prodIds c'.spectator.index).1, (prodIds c'.spectator.index).2) = (i, j) := by
    rcases hijk with g | g | g <;> simp only [Prod.mk.injEq] at g <;> obtain ⟨rfl, rfl, g⟩ := g <;> rw [g] <;> rfl
  obtain ⟨hi, hj⟩ := Prod.mk.inj hprod
  have hij : c'.product1.index = i ∧ c'.product2.index = j ∨
      c'.product1.index = j ∧ c'.product2.index = i ∧ c'.product1.index ≠ i := by
    obtain ⟨g1, g2, gn⟩ := prodIds_nodup f3.1
    rw [hi, hj] at gn
    rw [hi] at g1
    rw [hj] at g2
    have h1 := f1.1
    have h2 := f2.1
    have h3 := f3.1
    simp only [List.mem_cons, List.not_mem_nil, or_false, List.nodup_cons, not_or, not_false_eq_true,
      List.nodup_nil, and_true] at h1 h2 h3 g1 g2 gn cn
    clear hl hfind hidx
    obtain ⟨⟨gij, gik⟩, gjk⟩ := gn
    obtain ⟨⟨n12, n13⟩, n23⟩ := cn
    rcases hijk with g | g | g <;> simp only [Prod.mk.injEq] at g <;> obtain ⟨rfl, rfl, g⟩ := g <;> omega
  have hRh := hd'.resonances c' hc'
  have hwp : Projection c'.resonance.toP.spin (l i - l j) := by
    by_contra hc
    exact hwig (hw _ _ _ _ hc)
  have hy : (l c'.product1.index, l c'.product2.index) ∈
      vertexHelicities c'.resonance.toP.spin c'.product1.spin c'.product2.spin := by
    unfold vertexHelicities
    rw [Finset.mem_filter, Finset.mem_product]
    refine ⟨⟨(mem_projections hs2.2.1.2 _).2 q1, (mem_projections hs2.2.2.1.2 _).2 q2⟩, ?_⟩
    rcases hij with ⟨a, d⟩ | ⟨a, d, -⟩
    · rw [a, d]; exact hwp
    · rw [a, d]
      show Projection _ (l j - l i)
      rw [show l j - l i = -(l i - l j) by ring]
      exact (projection_neg hRh).2 hwp
  have hD : flip (decide (c'.product1.index = (prodIds c'.spectator.index).1))
      (l c'.product1.index, l c'.product2.index) = (l i, l j) := by
    rw [hi]
    unfold flip
    rcases hij with ⟨a, d⟩ | ⟨a, d, n⟩
    · simp [a, d]
    · rw [if_neg (by simpa using n)]
      simp [a, d]
  obtain ⟨rf, hrf⟩ : ∃ rf, rf = decide (ResonanceFirst c') := ⟨_, rfl⟩
  obtain ⟨s, hsd⟩ : ∃ s, s = flip rf (c'.resonance.toP.spin, c'.spectator.spin) := ⟨_, rfl⟩
  obtain ⟨x, hxd⟩ : ∃ x, x = flip rf (l 0 + l c'.spectator.index, l c'.spectator.index) := ⟨_, rfl⟩
  have hX : flip rf x = (l 0 + l c'.spectator.index, l c'.spectator.index) := by
    rw [hxd]; cases rf <;> rfl
  have hS : DecaySpins c'.parent.spin s.1 s.2 := by
    rw [hsd]
    cases rf
    · obtain ⟨a, b, c, z, hz⟩ := hs1
      exact ⟨a, c, b, z, by rw [← hz]; exact add_right_comm _ _ _⟩
    · exact hs1
  have hmS : c'.parent.spin + s.1 + s.2 ≤ maxL := by
    rw [hsd]
    cases rf
    · show _ + c'.spectator.spin + c'.resonance.toP.spin ≤ _
      linarith
    · exact hm1
  have hlist : generateLsCouplings c'.parent.spin c'.resonance.toP.spin c'.spectator.spin maxL =
      generateLsCouplings c'.parent.spin s.1 s.2 maxL := by
    rw [hsd]
    cases rf
    · exact (ls_swap _ _ _ _).symm
    · rfl
  have hx : x ∈ vertexHelicities c'.parent.spin s.1 s.2 := by
    unfold vertexHelicities
    rw [Finset.mem_filter, Finset.mem_product, hsd, hxd]
    have r1 := (mem_projections hs1.2.1.2 _).2 hR
    have r2 := (mem_projections hs1.2.2.1.2 _).2 q3
    cases rf
    · refine ⟨⟨r2, r1⟩, ?_⟩
      show Projection _ (l c'.spectator.index - (l 0 + l c'.spectator.index))
      rw [show l c'.spectator.index - (l 0 + l c'.spectator.index) = -l 0 by ring]
      exact (projection_neg hs1.1.2).2 q0
    · refine ⟨⟨r1, r2⟩, ?_⟩
      show Projection _ (l 0 + l c'.spectator.index - l c'.spectator.index)
      rw [add_sub_cancel_right]
      exact q0
  -- one summand
  let Φ : Option LS × Option LS → ℂ := fun o => match o with
    | (some p, some q) => lsCoefficient ι c' p q *
      lsFactor ι c'.resonance.toP.spin c'.product1.spin c'.product2.spin q (l c'.product1.index) (l c'.product2.index) *
      lsFactor ι c'.parent.spin s.1 s.2 p x.1 x.2
    | _ => 0
  have hΦ' : ∀ p q, Φ (some p, some q) = lsCoefficient ι c' p q *
      lsFactor ι c'.resonance.toP.spin c'.product1.spin c'.product2.spin q (l c'.product1.index) (l c'.product2.index) *
      lsFactor ι c'.parent.spin s.1 s.2 p x.1 x.2 := fun _ _ => rfl
  have hΦ : ∀ c ∈ b.decay.chains.filter fun c => base c = c',
      lsCoefficients ι b' (coefficientName c'.resonance.toP.latex false false)
        (couplingIndices false c.incomingLs 0 0 ++ couplingIndices false c.outgoingLs 0 0) *
      decayFactor { ι with idx := fun name _ x => lsCoefficients ι b' name x } b c l *
      productionFactor { ι with idx := fun name _ x => lsCoefficients ι b' name x } b c
        (l 0 + l c'.spectator.index) (l c'.spectator.index) = Φ (c.incomingLs, c.outgoingLs) := by
    intro c hc
    have hmem := hperm.subset (List.mem_map.2 ⟨c, hc, rfl⟩)
    obtain ⟨p, -, hmem⟩ := List.mem_flatMap.1 hmem
    obtain ⟨q, -, hmem⟩ := List.mem_map.1 hmem
    simp only [Prod.mk.injEq] at hmem
    obtain ⟨hin, hout⟩ := hmem
    obtain ⟨hc, hb⟩ := List.mem_filter.1 hc
    have hb : base c = c' := of_decide_eq_true hb
    have hsame := (hbase c hc).2
    rw [hb] at hsame
    rw [← hin, ← hout, hidx, hΦ']
    refine congrArg₂ (· * ·) (congrArg _ ?_) ?_
    · unfold decayFactor
      rw [hq, ← hout, ← hsame.resonance, ← hsame.product1, ← hsame.product2]
      rfl
    · unfold productionFactor
      rw [hp, ← hin, ← hsame.resonance, ← hsame.parent, ← hsame.spectator, hsd, hxd]
      simp only
      by_cases ho : ResonanceFirst c
      · rw [if_pos ho, hrf, decide_eq_true (hsame.order.2 ho)]
        rfl
      · rw [if_neg ho, hrf, decide_eq_false fun h => ho (hsame.order.1 h)]
        rfl
  show _ = ((b.decay.chains.filter fun c => base c = c').map fun c =>
      lsCoefficients ι b' (coefficientName c'.resonance.toP.latex false false)
        (couplingIndices false c.incomingLs 0 0 ++ couplingIndices false c.outgoingLs 0 0) *
      decayFactor { ι with idx := fun name _ x => lsCoefficients ι b' name x } b c l *
      productionFactor { ι with idx := fun name _ x => lsCoefficients ι b' name x } b c
        (l 0 + l c'.spectator.index) (l c'.spectator.index)).sum
  rw [List.map_congr_left hΦ]
  have hmm : ((b.decay.chains.filter fun c => base c = c').map fun c => Φ (c.incomingLs, c.outgoingLs)) =
      ((b.decay.chains.filter fun c => base c = c').map fun c => (c.incomingLs, c.outgoingLs)).map Φ := by
    rw [List.map_map]; rfl
  rw [hmm, (hperm.map Φ).sum_eq, List.map_flatMap, sum_flatMap]
  simp only [List.map_map]
  have key := two_vertices hcg hS hs2 hmS hm2 (fun x y =>
    ι.idx (coefficientName c'.resonance.toP.latex true true) none
      [(flip rf x).1, (flip rf x).2, (flip (decide (c'.product1.index = (prodIds c'.spectator.index).1)) y).1,
        (flip (decide (c'.product1.index = (prodIds c'.spectator.index).1)) y).2]) hx hy
  simp only [hX, hD] at key
  rw [← key, hlist]
  simp only [Function.comp_def, hΦ']
  unfold lsCoefficient
  simp only [← hrf, ← hsd]

/-! ### The example decay with all LS couplings -/

/-- The `K*` chain with production coupling `p` and decay coupling `q`. -/
def exKls (p q : ℤ × ℚ) : Chain :=
  { exChainK with
    decay := .isobar (.state (exState "Lc" (1/2) 2 0))
      (.isobar (.particle ⟨"K*", "K^*", 1, some (-1), 9/10, 1/20⟩)
        (.leaf (.state (exState "pi" 0 (1/7) 2))) (.leaf (.state (exState "K" 0 (1/2) 3))) (some ⟨q.1, q.2⟩))
      (.leaf (.state (exState "p" (1/2) 1 1))) (some ⟨p.1, p.2⟩)
    incomingLs := some ⟨p.1, p.2⟩
    outgoingLs := some ⟨q.1, q.2⟩ }

/-- The `Λ*` chain with production coupling `p` and decay coupling `q`. -/
def exLls (p q : ℤ × ℚ) : Chain :=
  { exChainL with
    decay := .isobar (.state (exState "Lc" (1/2) 2 0))
      (.isobar (.particle ⟨"L*", "L^*", 3/2, some (-1), 3/2, 1/60⟩)
        (.leaf (.state (exState "K" 0 (1/2) 3))) (.leaf (.state (exState "p" (1/2) 1 1))) (some ⟨q.1, q.2⟩))
      (.leaf (.state (exState "pi" 0 (1/7) 2))) (some ⟨p.1, p.2⟩)
    incomingLs := some ⟨p.1, p.2⟩
    outgoingLs := some ⟨q.1, q.2⟩ }

/-- The chains of the `K*` with all couplings. -/
def exAllK : List Chain :=
  (generateLsCouplings (1/2) 1 (1/2) 3).flatMap fun p => (generateLsCouplings 1 0 0 3).map fun q => exKls p q

/-- The chains of the `Λ*` with all couplings. -/
def exAllL : List Chain :=
  (generateLsCouplings (1/2) (3/2) 0 3).flatMap fun p => (generateLsCouplings (3/2) 0 (1/2) 3).map fun q => exLls p q

def exDecayAll : Decay := ⟨exStates, exAllK ++ exAllL⟩

def exBuilderAll : Builder := ⟨exDecayAll, Configurator.init exDecayAll, false, false, false⟩

theorem exAll_cases {c : Chain} (hc : c ∈ exDecayAll.chains) : (∃ p q, c = exKls p q) ∨ ∃ p q, c = exLls p q := by
  rcases List.mem_append.1 hc with hc | hc
  · obtain ⟨p, -, hc⟩ := List.mem_flatMap.1 hc
    obtain ⟨q, -, rfl⟩ := List.mem_map.1 hc
    exact .inl ⟨p, q, rfl⟩
  · obtain ⟨p, -, hc⟩ := List.mem_flatMap.1 hc
    obtain ⟨q, -, rfl⟩ := List.mem_map.1 hc
    exact .inr ⟨p, q, rfl⟩

theorem exDecayAll_standard : Standard exDecayAll := by
  have h := exDecay_standard
  refine ⟨⟨?_, ?_⟩, h.keys, h.index, h.spins, ?_⟩
  · obtain ⟨-, s0, h0, hall⟩ := (decayNew_ok _ _ _).1 h.valid.1
    rw [decayNew_ok]
    refine ⟨rfl, s0, h0, fun c hc => ?_⟩
    rcases exAll_cases hc with ⟨p, q, rfl⟩ | ⟨p, q, rfl⟩
    · exact hall exChainK (by simp [exDecay])
    · exact hall exChainL (by simp [exDecay])
  · intro c hc
    rcases exAll_cases hc with ⟨p, q, rfl⟩ | ⟨p, q, rfl⟩
    · exact (chainNew_shape _ _ _ _ _ _ _ _ (.inl rfl)).trans rfl
    · exact (chainNew_shape _ _ _ _ _ _ _ _ (.inl rfl)).trans rfl
  · intro c hc
    rcases exAll_cases hc with ⟨p, q, rfl⟩ | ⟨p, q, rfl⟩
    · exact h.resonances exChainK (by simp [exDecay])
    · exact h.resonances exChainL (by simp [exDecay])

theorem exBuilderAll_lineshapes : Lineshapes exBuilderAll (fun _ => {}) :=
  unit_lineshapes exDecayAll false false false

theorem exBuilderAll_ok (cl uc : Bool) : ∃ m, exBuilderAll.formulate (some 1) cl uc = .ok m := by
  have := C36_missing_ls (b := exBuilderAll) (reference := some 1) exDecayAll_standard
    exBuilderAll_lineshapes (by rintro x ⟨⟩; simp) (by simp) cl uc
  apply this.2
  rw [Ne, this.1]
  rintro ⟨-, c, hc, h⟩
  rcases exAll_cases hc with ⟨p, q, rfl⟩ | ⟨p, q, rfl⟩ <;>
    exact h ⟨fun _ => by simp [exKls, exLls], fun _ => by simp [exKls, exLls]⟩

theorem exK_first (p q : ℤ × ℚ) : ResonanceFirst exChainK ↔ ResonanceFirst (exKls p q) :=
  ⟨fun _ => ⟨_, _, _, _, _, _, _, rfl⟩, fun _ => ⟨_, _, _, _, _, _, _, rfl⟩⟩

theorem exL_first (p q : ℤ × ℚ) : ResonanceFirst exChainL ↔ ResonanceFirst (exLls p q) :=
  ⟨fun _ => ⟨_, _, _, _, _, _, _, rfl⟩, fun _ => ⟨_, _, _, _, _, _, _, rfl⟩⟩

/-- The chain of the helicity basis. -/
def exBase (c : Chain) : Chain := if c.resonance = exChainK.resonance then exChainK else exChainL

theorem exBase_K (p q : ℤ × ℚ) : exBase (exKls p q) = exChainK := if_pos rfl

theorem exBase_L (p q : ℤ × ℚ) : exBase (exLls p q) = exChainL := if_neg (by simp [exChainK, exLls, exChainL])

theorem exK_ne_L : exChainK ≠ exChainL := fun h => by
  have := congrArg Chain.incomingLs h
  simp [exChainK, exChainL] at this

theorem filter_exAllK (c' : Chain) : exAllK.filter (fun c => exBase c = c') = if exChainK = c' then exAllK else [] := by
  split_ifs with h
  · rw [List.filter_eq_self]
    intro c hc
    obtain ⟨p, -, hc⟩ := List.mem_flatMap.1 hc
    obtain ⟨q, -, rfl⟩ := List.mem_map.1 hc
    rw [exBase_K]
    exact decide_eq_true h
  · rw [List.filter_eq_nil_iff]
    intro c hc
    obtain ⟨p, -, hc⟩ := List.mem_flatMap.1 hc
    obtain ⟨q, -, rfl⟩ := List.mem_map.1 hc
    rw [exBase_K]
    simpa using h

theorem filter_exAllL (c' : Chain) : exAllL.filter (fun c => exBase c = c') = if exChainL = c' then exAllL else [] := by
  split_ifs with h
  · rw [List.filter_eq_self]
    intro c hc
    obtain ⟨p, -, hc⟩ := List.mem_flatMap.1 hc
    obtain ⟨q, -, rfl⟩ := List.mem_map.1 hc
    rw [exBase_L]
    exact decide_eq_true h
  · rw [List.filter_eq_nil_iff]
    intro c hc
    obtain ⟨p, -, hc⟩ := List.mem_flatMap.1 hc
    obtain ⟨q, -, rfl⟩ := List.mem_map.1 hc
    rw [exBase_L]
    simpa using h

theorem half_integer (n : ℕ) {j : ℚ} (h : j = n / 2) : 0 ≤ j ∧ IsHalfInteger j :=
  ⟨by rw [h]; positivity, n, by rw [h]; push_cast; rfl⟩

theorem exSpins {c' : Chain} (hc : c' ∈ exDecay.chains) : ChainSpins c' ∧ MaxL 3 c' := by
  have g0 : 0 ≤ (0 : ℚ) ∧ IsHalfInteger 0 := half_integer 0 (by norm_num)
  have g1 : 0 ≤ (1/2 : ℚ) ∧ IsHalfInteger (1/2) := half_integer 1 (by norm_num)
  have g2 : 0 ≤ (1 : ℚ) ∧ IsHalfInteger 1 := half_integer 2 (by norm_num)
  have g3 : 0 ≤ (3/2 : ℚ) ∧ IsHalfInteger (3/2) := half_integer 3 (by norm_num)
  simp only [exDecay, List.mem_cons, List.not_mem_nil, or_false] at hc
  rcases hc with rfl | rfl
  · refine ⟨⟨⟨g1, g2, g1, 2, ?_⟩, ⟨g2, g0, g0, 1, ?_⟩⟩, ?_, ?_⟩
    all_goals norm_num [exChainK, exState, Obj.toP]
  · refine ⟨⟨⟨g1, g3, g0, 2, ?_⟩, ⟨g3, g0, g1, 2, ?_⟩⟩, ?_, ?_⟩
    all_goals norm_num [exChainL, exState, Obj.toP]

theorem exAll_couplings {c' : Chain} (hc : c' ∈ exDecay.chains) :
    AllCouplings 3 (exDecayAll.chains.filter fun c => exBase c = c') c' := by
  unfold AllCouplings exDecayAll
  simp only
  rw [List.filter_append, filter_exAllK, filter_exAllL]
  simp only [exDecay, List.mem_cons, List.not_mem_nil, or_false] at hc
  rcases hc with rfl | rfl
  · rw [if_pos rfl, if_neg exK_ne_L.symm, List.append_nil]
    unfold exAllK
    rw [List.map_flatMap]
    simp only [List.map_map]
    exact List.Perm.refl _
  · rw [if_neg exK_ne_L, if_pos rfl, List.nil_append]
    unfold exAllL
    rw [List.map_flatMap]
    simp only [List.map_map]
    exact List.Perm.refl _

/-- The example decay with helicity couplings is the example decay with all LS couplings; the production of the `K*` has,
for example, the coupling `L = 2`, `S = 3/2`. -/
example (ι : Interp) (η : Sym → ℚ) (hcg : UsesClebschGordan ι) (hw : VanishingWigner ι) :
    exKls (2, 3/2) (1, 0) ∈ exDecayAll.chains ∧
    ∃ m m' idx, exBuilderAll.formulate (some 1) true true = .ok m ∧
      (exBuilder true true false).formulate (some 1) true true = .ok m' ∧
      m.fullExpression.eval { ι with idx := idx } η = m'.fullExpression.eval ι η := by
  constructor
  · apply List.mem_append_left
    refine List.mem_flatMap.2 ⟨(2, 3/2), ?_, List.mem_map.2 ⟨(1, 0), ?_, rfl⟩⟩
    · rw [(C04_ls_contents _ _ _ _).1]
      refine ⟨by norm_num, by norm_num, ⟨1, by norm_num⟩, by norm_num, by norm_num, by norm_num⟩
    · rw [(C04_ls_contents _ _ _ _).1]
      refine ⟨by norm_num, by norm_num, ⟨0, by norm_num⟩, by norm_num, by norm_num, by norm_num⟩
  obtain ⟨m, hm⟩ := exBuilderAll_ok true true
  obtain ⟨m', hm'⟩ := exBuilder_ok true true false true true
  obtain ⟨idx, h⟩ := C95_every_helicity_model (b := exBuilderAll) (b' := exBuilder true true false) exBase
    exDecayAll_standard exDecay_standard rfl rfl rfl rfl rfl
    (by
      intro c hc
      rcases exAll_cases hc with ⟨p, q, rfl⟩ | ⟨p, q, rfl⟩
      · rw [exBase_K]
        exact ⟨by simp [exBuilder, exDecay], ⟨rfl, rfl, rfl, rfl, rfl, exK_first p q⟩⟩
      · rw [exBase_L]
        exact ⟨by simp [exBuilder, exDecay], ⟨rfl, rfl, rfl, rfl, rfl, exL_first p q⟩⟩)
    (fun c' hc' => ⟨(exSpins hc').1, (exSpins hc').2, exAll_couplings hc'⟩)
    (by simp [exBuilder, exDecay, exChainK, exChainL, Obj.toP]) exBuilderAll_lineshapes
    (exBuilder_lineshapes _ _ _) (fun _ _ => exFree) (fun _ _ => exFree)
    (by
      intro c hc
      rcases exAll_cases hc with ⟨p, q, rfl⟩ | ⟨p, q, rfl⟩ <;> simp [exKls, exLls, exChainK, exChainL])
    (.inl rfl) hm hm' ι hcg hw (fun _ _ _ => rfl)
  exact ⟨m, m', idx, hm, hm', h⟩

/-- There are interpretations with the actual Clebsch-Gordan coefficients and such Wigner functions, with any values of
the parameters. -/
example (ι : Interp) : ∃ ι' : Interp, ι'.sym = ι.sym ∧ ι'.idx = ι.idx ∧ UsesClebschGordan ι' ∧ VanishingWigner ι' := by
  classical
  exact ⟨{ ι with
    cg := fun j1 m1 j2 m2 J M => clebschGordan j1 m1 j2 m2 J M
    wig := fun j m m' x => if Projection j m' then ι.wig j m m' x else 0 }, rfl, rfl, fun _ _ _ _ _ _ => rfl,
    fun _ _ _ _ h => if_neg h⟩

end Verif.ThreeBody
