import Verif.Props.Pipeline
import Verif.Proofs.QrulesOrder

/-! C85: neither the order nor repetitions of the transitions matter. -/
namespace Verif.Qrules
open Verif Verif.ThreeBody Verif.Spec

variable {ts ts' : List (Transition QObj QNode)} {a f1 f2 f3 r : ℤ} {S : ℤ → State} {ls : ℤ → Bool}

theorem oneDecay_of_mem (h : OneDecay ts a f1 f2 f3 r S ls) (hmem : ∀ t, t ∈ ts' ↔ t ∈ ts) :
    OneDecay ts' a f1 f2 f3 r S ls where
  nonempty := by
    obtain ⟨t, ht⟩ := List.exists_mem_of_ne_nil _ h.nonempty
    exact List.ne_nil_of_mem ((hmem t).2 ht)
  increasing := h.increasing
  states := h.states
  body := fun t ht => h.body t ((hmem t).1 ht)
  nodes := fun t ht => h.nodes t ((hmem t).1 ht)
  resonance := fun t ht => h.resonance t ((hmem t).1 ht)
  outer := fun t ht => h.outer t ((hmem t).1 ht)
  couplings := fun t ht => h.couplings t ((hmem t).1 ht)

theorem rel_of_same {us us' : List (Transition Obj (Option LS))} (hs : List.Forall₂ Same us us') :
    (∀ u ∈ us, Good r S ls u) → (∀ u ∈ us', Good r S ls u) → List.Forall₂ (Rel r S ls) us us' := by
  induction hs with
  | nil => intros; exact .nil
  | cons a b ih =>
    intro ha hb
    exact .cons ⟨a, ha _ (List.mem_cons_self ..), hb _ (List.mem_cons_self ..)⟩
      (ih (fun u hu => ha u (List.mem_cons_of_mem _ hu)) (fun u hu => hb u (List.mem_cons_of_mem _ hu)))

theorem Same.refl {E N : Type} (c : Transition E N) : Same c c :=
  ⟨⟨rfl, fun _ => rfl⟩, fun _ => rfl, fun _ => rfl⟩

/-- Decay objects, if the converted transitions are `==` in both directions. -/
theorem decay_of_converted (h : OneDecay ts 0 1 2 3 r S ls) (h' : OneDecay ts' 0 1 2 3 r S ls)
    (hc : ∀ t ∈ ts, ∃ t' ∈ ts', ∀ c c', convertTransition t = .ok c → convertTransition t' = .ok c' → Same c c')
    (hc' : ∀ t' ∈ ts', ∃ t ∈ ts, ∀ c c', convertTransition t = .ok c → convertTransition t' = .ok c' → Same c c')
    (m : MinLsArg) : toThreeBodyDecay ts m = toThreeBodyDecay ts' m := by
  obtain ⟨cs, rs, g1, g2, g3, g4, g5⟩ := oneDecay_converted h
  obtain ⟨cs', rs', k1, k2, k3, k4, k5⟩ := oneDecay_converted h'
  rw [g5, k5]
  rcases C45_depends_on_set ts ts' cs cs' (g1.imp fun _ _ x => x.1) (k1.imp fun _ _ x => x.1) (by
      intro c hcm
      obtain ⟨t, ht, e, -⟩ := forall₂_mem_right g1 hcm
      obtain ⟨t', ht', hall⟩ := hc t ht
      obtain ⟨c', hcm', e', -⟩ := forall₂_mem_left k1 ht'
      exact ⟨c', hcm', hall c c' e e'⟩) (by
      intro c' hcm'
      obtain ⟨t', ht', e', -⟩ := forall₂_mem_right k1 hcm'
      obtain ⟨t, ht, hall⟩ := hc' t' ht'
      obtain ⟨c, hcm, e, -⟩ := forall₂_mem_left g1 ht
      exact ⟨c, hcm, hall c c' e e'⟩) with ⟨us, us', e, e', hs⟩ | ⟨e, -⟩
  · rw [g2] at e
    rw [k2] at e'
    cases e
    cases e'
    exact Rel.decayOfNormalized g2 k2 g3 (rel_of_same hs g4 k4) m
  · rw [g2] at e
    cases e

/-- C85: the decay object does not depend on the order in which the transitions are given, nor on how
often each of them is given. -/
theorem C85_decay (h : OneDecay ts a f1 f2 f3 r S ls) (hmem : ∀ t, t ∈ ts' ↔ t ∈ ts) (m : MinLsArg) :
    toThreeBodyDecay ts' m = toThreeBodyDecay ts m := by
  obtain ⟨r1, ts1, g1, g2, g3, g4⟩ := oneDecay_normalized h
  obtain ⟨r1', ts1', k1, k2, k3, k4⟩ := oneDecay_normalized (oneDecay_of_mem h hmem)
  rw [g2, k2]
  have hr : r1' = r1 := by
    by_cases hn : a = 0 ∧ f1 = 1 ∧ f2 = 2 ∧ f3 = 3
    · rw [(g3 hn).1, (k3 hn).1]
    · rw [(g4 hn).1, (k4 hn).1]
  subst hr
  have hm : ∀ t, t ∈ ts1' ↔ t ∈ ts1 := by
    by_cases hn : a = 0 ∧ f1 = 1 ∧ f2 = 2 ∧ f3 = 3
    · rw [(g3 hn).2, (k3 hn).2]; exact hmem
    · have aux : ∀ {l l' m m' : List (Transition QObj QNode)},
          List.Forall₂ (fun t t' => normalizeTransition t = .ok t') l m →
          List.Forall₂ (fun t t' => normalizeTransition t = .ok t') l' m' →
          (∀ t ∈ l, t ∈ l') → ∀ u ∈ m, u ∈ m' := by
        intro l l' m m' e e' hl u hu
        obtain ⟨t, ht, x⟩ := forall₂_mem_right e hu
        obtain ⟨u', hu', x'⟩ := forall₂_mem_left e' (hl t ht)
        rw [x] at x'
        cases x'
        exact hu'
      exact fun t => ⟨aux (k4 hn).2 (g4 hn).2 (fun t => (hmem t).1) t,
        aux (g4 hn).2 (k4 hn).2 (fun t => (hmem t).2) t⟩
  have hself : ∀ t : Transition QObj QNode, ∀ c c', convertTransition t = .ok c →
      convertTransition t = .ok c' → Same c c' := by
    intro t c c' e e'
    rw [e] at e'
    cases e'
    exact Same.refl c
  exact decay_of_converted k1 g1 (fun t ht => ⟨t, (hm t).1 ht, hself t⟩)
    (fun t ht => ⟨t, (hm t).2 ht, hself t⟩) m

/-- C85: so the amplitude model does not depend on it either: it is the same object, with the same
expressions and the same dictionaries in the same order. -/
theorem C85_model (h : OneDecay ts a f1 f2 f3 r S ls) (hmem : ∀ t, t ∈ ts' ↔ t ∈ ts) (m : MinLsArg)
    (helicity : MinLs) (al : Bool) (lineshape : Option BreitWignerBuilder) (reference : Option ℤ)
    (cl uc : Bool) :
    amplitudeModel ts' m helicity al lineshape reference cl uc =
      amplitudeModel ts m helicity al lineshape reference cl uc := by
  unfold amplitudeModel
  rw [C85_decay h hmem m]

/-- The two transitions of the example in the other order, one of them twice. -/
example (m : MinLsArg) :
    toThreeBodyDecay [exTransition (.props (some 2) (some 1)) (.ls ⟨2, 1⟩),
      exTransition (.ls ⟨0, 1⟩) (.ls ⟨2, 1⟩), exTransition (.props (some 2) (some 1)) (.ls ⟨2, 1⟩)] m =
    toThreeBodyDecay [exTransition (.ls ⟨0, 1⟩) (.ls ⟨2, 1⟩),
      exTransition (.props (some 2) (some 1)) (.ls ⟨2, 1⟩)] m :=
  C85_decay (exQrules_oneDecay ⟨0, 1⟩ ⟨2, 1⟩ ⟨2, 1⟩ ⟨2, by norm_num⟩ ⟨2, by norm_num⟩ ⟨2, by norm_num⟩)
    (fun t => by simp only [List.mem_cons, List.not_mem_nil, or_false]; tauto) m

end Verif.Qrules
