import Verif.Props.WeightNames

/-! C54: chains with missing or too few helicities are refused with a `ValueError`. -/
namespace Verif.Serialization
open Verif Verif.ThreeBody Verif.Spec

variable {c : ChainDefinition} {tl : String → String} {m : ModelDefinition}

/-- All helicities that are written down are rational numbers. -/
def ReadableHelicities (vs : List Vertex) : Prop :=
  ∀ v ∈ vs, ∀ hs, v.helicities = some hs → ∀ h ∈ hs, ∃ q : ℚ, h = some q

/-- The vertex has one helicity for each of its children. -/
def OneHelicityPerChild (v : Vertex) : Prop :=
  ∃ hs, v.helicities = some hs ∧ hs.length = v.node.length

private theorem collectInVertex_ok : ∀ (hs : List (Option ℚ)) (ns : List Tree) (acc : PyDict ℤ ℚ),
    (∀ h ∈ hs, ∃ q : ℚ, h = some q) → hs.length = ns.length → ∃ acc', collectInVertex hs ns acc = .ok acc'
  | [], [], acc, _, _ => ⟨acc, rfl⟩
  | h :: hs, n :: ns, acc, hr, hl => by
    obtain ⟨q, rfl⟩ := hr h List.mem_cons_self
    have hr' : ∀ h ∈ hs, ∃ q : ℚ, h = some q := fun x hx => hr x (List.mem_cons_of_mem _ hx)
    cases n with
    | id i =>
      simp only [collectInVertex, toRational, bind, Except.bind]
      exact collectInVertex_ok hs ns _ hr' (by simpa using hl)
    | seq l =>
      simp only [collectInVertex]
      exact collectInVertex_ok hs ns _ hr' (by simpa using hl)
  | [], _ :: _, _, _, hl => by cases hl
  | _ :: _, [], _, _, hl => by cases hl

private theorem collectInVertex_error : ∀ (hs : List (Option ℚ)) (ns : List Tree) (acc : PyDict ℤ ℚ),
    (∀ h ∈ hs, ∃ q : ℚ, h = some q) → hs.length ≠ ns.length → collectInVertex hs ns acc = .error .valueError
  | [], [], _, _, hl => absurd rfl hl
  | h :: hs, n :: ns, acc, hr, hl => by
    obtain ⟨q, rfl⟩ := hr h List.mem_cons_self
    have hr' : ∀ h ∈ hs, ∃ q : ℚ, h = some q := fun x hx => hr x (List.mem_cons_of_mem _ hx)
    have hl' : hs.length ≠ ns.length := by simpa using hl
    cases n with
    | id i =>
      simp only [collectInVertex, toRational, bind, Except.bind]
      exact collectInVertex_error hs ns _ hr' hl'
    | seq l =>
      simp only [collectInVertex]
      exact collectInVertex_error hs ns _ hr' hl'
  | [], _ :: _, _, _, _ => rfl
  | _ :: _, [], _, _, _ => rfl

private theorem collectHelicities_error : ∀ (vs : List Vertex) (acc : PyDict ℤ ℚ), ReadableHelicities vs →
    (∃ v ∈ vs, ¬ OneHelicityPerChild v) → collectHelicities vs acc = .error .valueError
  | [], _, _, h => by simp at h
  | v :: t, acc, hr, h => by
    unfold collectHelicities
    split
    · rfl
    · rename_i hs hh
      by_cases hl : hs.length = v.node.length
      · obtain ⟨acc', e⟩ := collectInVertex_ok hs v.node acc (hr v List.mem_cons_self hs hh) hl
        simp only [e, bind, Except.bind]
        refine collectHelicities_error t acc' (fun w hw => hr w (List.mem_cons_of_mem _ hw)) ?_
        obtain ⟨w, hw, hb⟩ := h
        rcases List.mem_cons.1 hw with rfl | hw
        · exact absurd ⟨hs, hh, hl⟩ hb
        · exact ⟨w, hw, hb⟩
      · simp only [collectInVertex_error hs v.node acc (hr v List.mem_cons_self hs hh) hl, bind, Except.bind]

private theorem resonanceInVertex_readable : ∀ (hs : List (Option ℚ)) (ns : List Tree),
    (∀ h ∈ hs, ∃ q : ℚ, h = some q) → ∀ e, resonanceInVertex hs ns = .error e → e = .valueError := by
  intro hs ns
  fun_induction resonanceInVertex hs ns with
  | case1 => intro _ e h; cases h
  | case2 h hs ns x y =>
    intro hr e he
    obtain ⟨q, rfl⟩ := hr h List.mem_cons_self
    cases he
  | case3 h hs n ns hn ih => exact fun hr e he => ih (fun x hx => hr x (List.mem_cons_of_mem _ hx)) e he
  | case4 => intro _ e h; cases h; rfl

private theorem resonance_readable : ∀ (vs : List Vertex), ReadableHelicities vs → ∀ e,
    getResonanceHelicity vs = .error e → e = .valueError
  | [], _, e, h => by cases h; rfl
  | v :: t, hr, e, h => by
    have hr' : ReadableHelicities t := fun w hw => hr w (List.mem_cons_of_mem _ hw)
    unfold getResonanceHelicity at h
    split at h
    · exact resonance_readable t hr' e h
    · split at h
      · cases h; rfl
      · rename_i hs hh
        rcases hx : resonanceInVertex hs v.node with e' | o
        · rw [hx] at h
          cases h
          exact resonanceInVertex_readable _ _ (hr v List.mem_cons_self hs hh) _ hx
        · rw [hx] at h
          cases o with
          | none => exact resonance_readable t hr' e h
          | some r => cases h

/-- C54: if some vertex has no helicities (an LS vertex) or not exactly one for each child, the helicities of
the final state, and with them the weight of the chain, cannot be determined: `ValueError`. -/
theorem C54_bad_vertex (hr : ReadableHelicities c.vertices) (h : ∃ v ∈ c.vertices, ¬ OneHelicityPerChild v) :
    getFinalStateHelicities c = .error .valueError ∧ ∀ tl, getWeight c tl = .error .valueError := by
  have e : getFinalStateHelicities c = .error .valueError := by
    unfold getFinalStateHelicities
    simp only [collectHelicities_error _ _ hr h, bind, Except.bind]
  refine ⟨e, fun tl => ?_⟩
  unfold getWeight
  simp only [bind, Except.bind, e]
  split
  · rfl
  · rcases hx : getResonanceHelicity c.vertices with e' | r
    · simp [resonance_readable _ hr _ hx]
    · rfl

/-- C54: such a chain never gets an amplitude. The error is a `ValueError` if nothing is wrong with the
dynamics, which is formulated first. -/
theorem C54_bad_vertex_amplitude {cs : List ChainDefinition} {n : ℕ} {l0 l1 l2 l3 : ℚ}
    {add : Option (PyDict String PropagatorBuilder)} (hm : getDecayChains m = .ok cs) (hc : cs[n]? = some c)
    (hr : ReadableHelicities c.vertices) (h : ∃ v ∈ c.vertices, ¬ OneHelicityPerChild v) :
    (∀ a, formulateChainAmplitude l0 l1 l2 l3 m n tl add ≠ .ok a) ∧
    ∀ d d', formulateDynamics c m tl add = .ok d → formFactorLoop m c.vertices d = .ok d' →
      formulateChainAmplitude l0 l1 l2 l3 m n tl add = .error .valueError := by
  have hw := (C54_bad_vertex hr h).2 tl
  unfold formulateChainAmplitude
  constructor
  · intro a ha
    simp only [hm, bind, Except.bind, item_ok.2 hc, hw] at ha
    split at ha
    · cases ha
    · split at ha <;> cases ha
  · intro d d' hd hd'
    simp only [hm, bind, Except.bind, item_ok.2 hc, hw, hd, hd']

private theorem zipHelicities_spec : ∀ (ns : List Tree) (hs : List (Option ℚ)), (∀ t ∈ ns, ∃ i, t = .id i) →
    (∀ h ∈ hs, ∃ q : ℚ, h = some q) →
    (ns.length ≠ hs.length → zipHelicities ns hs = .error .valueError) ∧
    (ns.length = hs.length → ∃ l, zipHelicities ns hs = .ok l ∧ l.length = ns.length)
  | [], [], _, _ => ⟨fun h => absurd rfl h, fun _ => ⟨[], rfl, rfl⟩⟩
  | n :: ns, h :: hs, hn, hr => by
    obtain ⟨i, rfl⟩ := hn n List.mem_cons_self
    obtain ⟨q, rfl⟩ := hr h List.mem_cons_self
    have ih := zipHelicities_spec ns hs (fun x hx => hn x (List.mem_cons_of_mem _ hx))
      (fun x hx => hr x (List.mem_cons_of_mem _ hx))
    simp only [zipHelicities, toRational, bind, Except.bind]
    refine ⟨fun hl => ?_, fun hl => ?_⟩
    · rw [ih.1 (by simpa using hl)]
    · obtain ⟨l, e, hl'⟩ := ih.2 (by simpa using hl)
      exact ⟨(i, q) :: l, by rw [e]; rfl, by simp [hl']⟩
  | [], _ :: _, _, _ => ⟨fun _ => rfl, fun h => by cases h⟩
  | n :: _, [], hn, _ => by
    obtain ⟨i, rfl⟩ := hn n List.mem_cons_self
    exact ⟨fun _ => rfl, fun h => by cases h⟩

/-- C54: the helicities of the decay products come from the first vertex of which all children are final
states. It must have exactly two children and one helicity for each of them; otherwise, and if there is no such
vertex, a `ValueError` is raised. -/
theorem C54_decay_products_error {vs : List Vertex} (hr : ReadableHelicities vs)
    (h : (∀ v ∈ vs, ∃ l, Tree.seq l ∈ v.node) ∨
      ∃ pre v post, vs = pre ++ v :: post ∧ (∀ w ∈ pre, ∃ l, Tree.seq l ∈ w.node) ∧
        (∀ t ∈ v.node, ∃ i, t = .id i) ∧ (¬ OneHelicityPerChild v ∨ v.node.length ≠ 2)) :
    getDecayProductHelicities vs = .error .valueError := by
  have hseq : ∀ w : Vertex, (∃ l, Tree.seq l ∈ w.node) → allInt w.node = false := by
    intro w ⟨l, hl⟩
    unfold allInt
    rw [List.all_eq_false]
    exact ⟨_, hl, by simp [Tree.isInt]⟩
  induction vs with
  | nil => rfl
  | cons w t ih =>
    have ih := ih fun x hx => hr x (List.mem_cons_of_mem _ hx)
    unfold getDecayProductHelicities
    rcases h with h | ⟨pre, v, post, e, hpre, hint, hbad⟩
    · rw [if_neg (by simp [hseq w (h w List.mem_cons_self)])]
      exact ih (.inl fun x hx => h x (List.mem_cons_of_mem _ hx))
    · cases pre with
      | cons p pre =>
        cases e
        rw [if_neg (by simp [hseq w (hpre w List.mem_cons_self)])]
        exact ih (.inr ⟨pre, v, post, rfl, fun x hx => hpre x (List.mem_cons_of_mem _ hx), hint, hbad⟩)
      | nil =>
        cases e
        have hall : allInt w.node = true := by
          unfold allInt
          rw [List.all_eq_true]
          intro t ht
          obtain ⟨i, rfl⟩ := hint t ht
          rfl
        rw [if_pos hall]
        split
        · rfl
        · rename_i hs hh
          have hz := zipHelicities_spec w.node hs hint (hr w List.mem_cons_self hs hh)
          by_cases hl : w.node.length = hs.length
          · obtain ⟨l, e, hl'⟩ := hz.2 hl
            have h2 : l.length ≠ 2 := by
              rcases hbad with hb | hb
              · exact absurd ⟨hs, hh, hl.symm⟩ hb
              · omega
            simp only [e, bind, Except.bind]
            unfold unpack2
            split
            · simp at h2
            · rfl
          · simp only [hz.1 hl, bind, Except.bind]

/-- A chain with an LS vertex, and a vertex with one helicity only. -/
def exNoHelicities : List Vertex := [
  { type := "helicity", node := [.seq [.id 3, .id 1], .id 2], helicities := some [some 0, some 0] },
  { type := "ls", node := [.id 3, .id 1], l := some 1, s := some (some (1 / 2)) }]
def exOneHelicity : List Vertex := [
  { type := "helicity", node := [.seq [.id 3, .id 1], .id 2], helicities := some [some 0, some 0] },
  { type := "helicity", node := [.id 3, .id 1], helicities := some [some 1] }]

theorem exNoHelicities_readable : ReadableHelicities exNoHelicities := by
  intro v hv hs hh h hm
  simp only [exNoHelicities, List.mem_cons, List.not_mem_nil, or_false] at hv
  rcases hv with rfl | rfl
  · cases hh
    simp only [List.mem_cons, List.not_mem_nil, or_false, or_self] at hm
    exact ⟨0, hm⟩
  · cases hh

theorem exOneHelicity_readable : ReadableHelicities exOneHelicity := by
  intro v hv hs hh h hm
  simp only [exOneHelicity, List.mem_cons, List.not_mem_nil, or_false] at hv
  rcases hv with rfl | rfl
  · cases hh
    simp only [List.mem_cons, List.not_mem_nil, or_false, or_self] at hm
    exact ⟨0, hm⟩
  · cases hh
    simp only [List.mem_cons, List.not_mem_nil, or_false] at hm
    exact ⟨1, hm⟩

example : getWeight { exKstar with vertices := exNoHelicities } id = .error .valueError :=
  (C54_bad_vertex exNoHelicities_readable 
    ⟨_, List.mem_cons_of_mem _ List.mem_cons_self, by rintro ⟨_, h, -⟩; cases h⟩).2 id

example : getWeight { exKstar with vertices := exOneHelicity } id = .error .valueError :=
  (C54_bad_vertex exOneHelicity_readable
    ⟨_, List.mem_cons_of_mem _ List.mem_cons_self, by rintro ⟨_, h, h'⟩; cases h; cases h'⟩).2 id

example : getDecayProductHelicities exOneHelicity = .error .valueError :=
  C54_decay_products_error exOneHelicity_readable (.inr ⟨[_], _, [], rfl, by simp, by simp,
    .inl (by rintro ⟨_, h, h'⟩; cases h; cases h')⟩)

example : getDecayProductHelicities exNoHelicities = .error .valueError :=
  C54_decay_products_error exNoHelicities_readable (.inr ⟨[_], _, [], rfl, by simp, by simp,
    .inl (by rintro ⟨_, h, -⟩; cases h)⟩)

end Verif.Serialization
