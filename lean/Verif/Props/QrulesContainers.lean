import Verif.Props.QrulesCommute
import Mathlib.Data.Finset.Max

/-!
# C89: nested arguments of `normalize_state_ids` and `permute_equal_final_states`
# C90: `normalize_state_ids` of a `MutableTransition`
-/
namespace Verif.Qrules
open Verif

variable {E N : Type}

/-! ### C89: normalisation -/

/-- C89: `normalize_state_ids` of a nested argument keeps the nesting and treats each item on its
own. -/
theorem C89_normalize_items (nr : NewReaction) (a b : Arg E N) (h : normalize nr a = .ok b) :
    nesting b = nesting a ∧
      List.Forall₂ (fun x y => normalize nr x = .ok y) (leaves a) (leaves b) :=
  ((normalize_spec nr).1 a).1 b h

/-- C89: `normalize_state_ids` raises the error of the first item for which it raises, and returns if
there is none. -/
theorem C89_normalize_raises (nr : NewReaction) (a : Arg E N) :
    (∀ e, normalize nr a = .error e ↔ RaisesAtFirst (normalize nr) (leaves a) e) ∧
    ((∃ b, normalize nr a = .ok b) ↔ ∀ x ∈ leaves a, ∃ y, normalize nr x = .ok y) := by
  have hret : ∀ b, normalize nr a = .ok b → ∀ x ∈ leaves a, ∃ y, normalize nr x = .ok y := by
    intro b h x hx
    obtain ⟨y, -, hy⟩ := forall₂_left (C89_normalize_items nr a b h).2 hx
    exact ⟨y, hy⟩
  refine ⟨fun e => ⟨((normalize_spec nr).1 a).2 e, fun h => ?_⟩, fun ⟨b, h⟩ => hret b h, fun h => ?_⟩
  · cases hn : normalize nr a with
    | ok b => exact absurd (hret b hn) (raises_not_returns h)
    | error e' => rw [raises_unique (((normalize_spec nr).1 a).2 e' hn) h]
  · cases hn : normalize nr a with
    | ok b => exact ⟨b, rfl⟩
    | error e' => exact absurd h (raises_not_returns (((normalize_spec nr).1 a).2 e' hn))

theorem normalizeMutable_eq (t : Mutable E N) :
    normalizeMutable t = .ok ⟨normalizeTopology t.topology, normStates t.states, t.interactions⟩ := by
  unfold normalizeMutable enumerateStates
  rw [normStates_mapM]
  rfl

/-- C89: which single objects `normalize_state_ids` accepts. Strings lead to unlimited recursion. -/
theorem C89_normalize_kinds (nr : NewReaction) (a : Arg E N) (hv : ValidLeaf a) :
    (∀ e, normalize nr a = .error e → (∀ xs, a ≠ .iterable xs) →
      (a = .other ∧ e = .notImplementedError) ∨
      (∃ s, s ≠ "" ∧ a = .text s ∧ e = .recursionError) ∨
      ∃ r ts, a = .reaction r ∧ normalizeTransitions r.transitions = .ok ts ∧
        nr ts r.formalism = .error e) ∧
    normalize nr (.other : Arg E N) = .error .notImplementedError ∧
    ∀ s, s ≠ "" → normalize nr (.text s : Arg E N) = .error .recursionError := by
  refine ⟨?_, by simp [normalize], fun s hs => by simp [normalize, hs]⟩
  intro e h hit
  cases a with
  | topology t => simp [normalize] at h
  | frozen t =>
    simp only [normalize, normalizeTransition_eq t hv] at h
    cases h
  | mutable t =>
    simp only [normalize, normalizeMutable_eq] at h
    cases h
  | reaction r =>
    obtain ⟨ts, hts, -⟩ := C88_iterable r.transitions hv
    refine .inr (.inr ⟨r, ts, rfl, hts, ?_⟩)
    simp only [normalize, show r.transitions.mapM normalizeTransition = .ok ts from hts] at h
    simp only [bind, Except.bind] at h
    cases hr : nr ts r.formalism with
    | error e' => rw [hr] at h; injection h with h; rw [h]
    | ok x => rw [hr] at h; cases h
  | problemSet f s t =>
    simp only [normalize, normalizeMutable_eq] at h
    cases h
  | text s =>
    by_cases hs : s = ""
    · simp [normalize, hs] at h
    · simp only [normalize, if_neg hs] at h
      injection h with h
      exact .inr (.inl ⟨s, hs, rfl, h.symm⟩)
  | iterable xs => exact absurd rfl (hit xs)
  | other =>
    simp only [normalize] at h
    injection h with h
    exact .inl ⟨rfl, h.symm⟩

/-- C89: `normalize_state_ids` of a `ProblemSet` treats facts, settings and topology like the same objects on their
own. -/
theorem C89_normalize_problem_set (nr : NewReaction) (f s : Mutable E N) (t : Topology) (b : Arg E N) :
    normalize nr (.problemSet f s t) = .ok b ↔ ∃ f' s' t', b = .problemSet f' s' t' ∧
      normalize nr (.mutable f : Arg E N) = .ok (.mutable f') ∧
      normalize nr (.mutable s : Arg E N) = .ok (.mutable s') ∧
      normalize nr (.topology t : Arg E N) = .ok (.topology t') := by
  simp only [normalize, normalizeMutable_eq]
  constructor
  · intro h
    exact ⟨_, _, _, (Except.ok.inj h).symm, rfl, rfl, rfl⟩
  · rintro ⟨f', s', t', rfl, h1, h2, h3⟩
    cases h1
    cases h2
    cases h3
    rfl

/-- C89: `normalize_state_ids` of a `ReactionInfo` treats the transitions like transitions on their own, and passes
them with the same formalism to the constructor. -/
theorem C89_normalize_reaction (nr : NewReaction) (r : Reaction) (b : Arg E N) :
    normalize nr (.reaction r : Arg E N) = .ok b ↔ ∃ ts r', b = .reaction r' ∧
      List.Forall₂ (fun t t' => normalize nr (.frozen t : Arg E N) = .ok (.frozen t')) r.transitions ts ∧
      nr ts r.formalism = .ok r' := by
  have key : ∀ t t', normalize nr (.frozen t : Arg E N) = .ok (.frozen t') ↔ normalizeTransition t = .ok t' := by
    intro t t'
    simp only [normalize]
    cases normalizeTransition t with
    | error e => exact ⟨fun h => (nomatch h), fun h => (nomatch h)⟩
    | ok x => exact ⟨fun h => (by cases h; rfl), fun h => (by cases h; rfl)⟩
  simp only [key, ← mapM_ok_iff]
  simp only [normalize]
  cases r.transitions.mapM normalizeTransition with
  | error e =>
    refine ⟨fun h => (nomatch h), ?_⟩
    rintro ⟨ts, r', -, h, -⟩
    cases h
  | ok ts =>
    simp only [bind, Except.bind]
    cases hn : nr ts r.formalism with
    | error e =>
      refine ⟨fun h => (nomatch h), ?_⟩
      rintro ⟨ts', r', -, h, h'⟩
      cases h
      cases hn.symm.trans h'
    | ok r' =>
      constructor
      · intro h
        exact ⟨ts, r', (Except.ok.inj h).symm, rfl, hn⟩
      · rintro ⟨ts', r'', rfl, h, h'⟩
        cases h
        cases hn.symm.trans h'
        rfl

theorem normalize_idem (nr : NewReaction) (hnr : ReactionClass nr) :
    (∀ a : Arg E N, (∀ x ∈ leaves a, ValidLeaf x) → ∀ b, normalize nr a = .ok b →
      normalize nr b = .ok b) ∧
    ∀ xs : List (Arg E N), (∀ x ∈ leavesOf xs, ValidLeaf x) → ∀ ys, normalizeItems nr xs = .ok ys →
      normalizeItems nr ys = .ok ys := by
  apply Arg.induction
  · intro a ha hv b h
    have hva := hv a (by rw [ha.leaves]; exact .head _)
    cases a with
    | topology t =>
      simp only [normalize] at h
      injection h with h
      subst h
      simp only [normalize, normalizeTopology_idem t hva]
    | frozen t =>
      simp only [normalize] at h
      obtain ⟨t', h1, h⟩ := bind_ok h
      injection h with h
      subst h
      simp only [normalize, C43_idempotent t t' hva h1]
      rfl
    | mutable t =>
      simp only [normalize, normalizeMutable_eq] at h
      injection h with h
      subst h
      simp only [normalize, normalizeMutable_eq, normalizeTopology_idem t.topology hva,
        normStates_idem]
      rfl
    | reaction r =>
      simp only [normalize] at h
      obtain ⟨ts, h1, h⟩ := bind_ok h
      obtain ⟨r', h2, h⟩ := bind_ok h
      injection h with h
      subst h
      have hmem : ∀ t ∈ r'.transitions, normalizeTransition t = .ok t := by
        intro t ht
        have ht' := (hnr.transitions _ _ _ h2).mem_iff.1 ht
        obtain ⟨u, hu, hut⟩ := mapM_mem h1 ht'
        exact C43_idempotent u t (hva u hu) hut
      have h3 : r'.transitions.mapM normalizeTransition = .ok r'.transitions := by
        rw [mapM_ok_iff, List.forall₂_same]
        exact hmem
      simp only [normalize, h3]
      show (nr r'.transitions r'.formalism >>= fun x => pure (Arg.reaction x)) = _
      rw [hnr.again _ _ _ h2]
      rfl
    | problemSet f s t =>
      simp only [normalize, normalizeMutable_eq] at h
      injection h with h
      subst h
      simp only [normalize, normalizeMutable_eq, normalizeTopology_idem f.topology hva.1,
        normalizeTopology_idem s.topology hva.2.1, normalizeTopology_idem t hva.2.2,
        normStates_idem]
      rfl
    | text s =>
      have : s ≠ "" := fun hs => ha.2 (by rw [hs])
      simp [normalize, this] at h
    | iterable xs => exact absurd rfl (ha.1 xs)
    | other => simp [normalize] at h
  · intro _ b h
    simp only [normalize, if_true] at h
    injection h with h
    subst h
    rfl
  · intro xs ih hv b h
    simp only [normalize] at h
    obtain ⟨ys, h1, h⟩ := bind_ok h
    injection h with h
    subst h
    rw [leaves_iterable] at hv
    simp only [normalize, ih hv ys h1]
    rfl
  · intro _ ys h
    simp only [normalizeItems] at h
    injection h with h
    subst h
    rfl
  · intro x xs h1 h2 hv ys h
    simp only [normalizeItems] at h
    obtain ⟨y, hy, h⟩ := bind_ok h
    obtain ⟨zs, hzs, h⟩ := bind_ok h
    injection h with h
    subst h
    simp only [leavesOf, List.mem_append] at hv
    simp only [normalizeItems, h1 (fun z hz => hv z (.inl hz)) y hy,
      h2 (fun z hz => hv z (.inr hz)) zs hzs]
    rfl

/-- C89: for every type of argument, a second normalisation changes nothing. -/
theorem C89_normalize_idempotent (nr : NewReaction) (hnr : ReactionClass nr) (a b : Arg E N)
    (hv : ∀ x ∈ leaves a, ValidLeaf x) (h : normalize nr a = .ok b) : normalize nr b = .ok b :=
  (normalize_idem nr hnr).1 a hv b h

/-! ### C89: permutation -/

/-- C89: `permute_equal_final_states` of an iterable does not depend on how its items are nested. -/
theorem C89_permute_flat (nr : NewReaction) (xs ys : List (Arg E N))
    (h : leavesOf xs = leavesOf ys) : permute nr (.iterable xs) = permute nr (.iterable ys) := by
  simp only [permute]
  rw [(permute_flat nr).2 xs, (permute_flat nr).2 ys, h]

theorem permuteItems_ok (nr : NewReaction) (xs zs : List (Arg E N)) :
    permuteItems nr xs = .ok zs ↔
      ∃ bs, List.Forall₂ (fun x us => permute nr x = .ok (.iterable us)) xs bs ∧ zs = bs.flatten := by
  induction xs generalizing zs with
  | nil =>
    simp only [permuteItems]
    constructor
    · intro h; injection h with h; exact ⟨[], .nil, by rw [← h]; rfl⟩
    · rintro ⟨bs, h, rfl⟩; cases h; rfl
  | cons x xs ih =>
    simp only [permuteItems]
    constructor
    · intro h
      obtain ⟨a, ha, h⟩ := bind_ok h
      obtain ⟨us, hus, h⟩ := bind_ok h
      obtain ⟨ws, hws, h⟩ := bind_ok h
      injection h with h
      obtain ⟨bs, hbs, rfl⟩ := (ih ws).1 hws
      cases a with
      | iterable vs =>
        simp only [extendItems] at hus
        injection hus with hus
        subst hus
        exact ⟨vs :: bs, .cons ha hbs, by rw [← h]; rfl⟩
      | _ => simp [extendItems] at hus
    · rintro ⟨bs, h, rfl⟩
      cases h with
      | @cons _ us _ bs h1 h2 =>
        rw [h1, (ih bs.flatten).2 ⟨bs, h2, rfl⟩]
        rfl

/-- C89: `permute_equal_final_states` of an iterable is the concatenation of the lists for its items,
at any depth. -/
theorem C89_permute_items (nr : NewReaction) (xs : List (Arg E N)) (b : Arg E N) :
    permute nr (.iterable xs) = .ok b ↔
      ∃ bs, List.Forall₂ (fun x us => permute nr x = .ok (.iterable us)) (leavesOf xs) bs ∧
        b = .iterable bs.flatten := by
  simp only [permute]
  rw [(permute_flat nr).2 xs]
  constructor
  · intro h
    obtain ⟨zs, hzs, h⟩ := bind_ok h
    injection h with h
    obtain ⟨bs, hbs, rfl⟩ := (permuteItems_ok nr _ _).1 hzs
    exact ⟨bs, hbs, h.symm⟩
  · rintro ⟨bs, hbs, rfl⟩
    rw [(permuteItems_ok nr _ _).2 ⟨bs, hbs, rfl⟩]
    rfl

theorem permuteItems_raises (nr : NewReaction) (xs : List (Arg E N)) (e : PyErr) :
    permuteItems nr xs = .error e → RaisesAtFirst (fun x => permute nr (.iterable [x])) xs e := by
  induction xs with
  | nil => intro h; simp [permuteItems] at h
  | cons x xs ih =>
    intro h
    rw [show x :: xs = [x] ++ xs from rfl, append_raises]
    rw [show x :: xs = [x] ++ xs from rfl, permuteItems_append] at h
    cases h1 : permuteItems nr [x] with
    | error e' =>
      rw [h1] at h
      injection h with h
      subst h
      refine .inl (raises_one.2 ?_)
      simp only [permute, h1]
      rfl
    | ok us =>
      rw [h1] at h
      refine .inr ⟨?_, ih ?_⟩
      · intro z hz
        rw [List.mem_singleton] at hz
        subst hz
        exact ⟨.iterable us, by simp only [permute, h1]; rfl⟩
      · simp only [bind, Except.bind] at h
        cases h2 : permuteItems nr xs with
        | error e' => rw [h2] at h; injection h with h; rw [h]
        | ok vs => rw [h2] at h; cases h

/-- C89: `permute_equal_final_states` of an iterable raises exactly if it raises for a list of one of
its items, at any depth, and raises the error of the first of these. -/
theorem C89_permute_raises (nr : NewReaction) (xs : List (Arg E N)) (e : PyErr) :
    permute nr (.iterable xs) = .error e ↔
      RaisesAtFirst (fun x => permute nr (.iterable [x])) (leavesOf xs) e := by
  have hflat : permute nr (.iterable xs) = permute nr (.iterable (leavesOf xs)) := by
    simp only [permute]
    rw [← (permute_flat nr).2 xs]
  have hfwd : ∀ e, permute nr (.iterable xs) = .error e →
      RaisesAtFirst (fun x => permute nr (.iterable [x])) (leavesOf xs) e := by
    intro e h
    rw [hflat] at h
    simp only [permute] at h
    apply permuteItems_raises
    cases h2 : permuteItems nr (leavesOf xs) with
    | error e' => rw [h2] at h; injection h with h; rw [h]
    | ok vs => rw [h2] at h; cases h
  refine ⟨hfwd e, fun h => ?_⟩
  cases hn : permute nr (.iterable xs) with
  | error e' => rw [raises_unique (hfwd e' hn) h]
  | ok b =>
    exfalso
    obtain ⟨bs, hbs, -⟩ := (C89_permute_items nr xs b).1 hn
    refine raises_not_returns h fun x hx => ?_
    obtain ⟨us, -, hus⟩ := forall₂_left hbs hx
    refine ⟨.iterable us, ?_⟩
    simp only [permute, permuteItems, hus, extendItems, bind, Except.bind, pure, Except.pure,
      List.append_nil]

/-- C89: which objects `permute_equal_final_states` accepts. A transition becomes a list of transitions,
a `ReactionInfo` stays a `ReactionInfo`, but cannot be an item of an iterable; `Topology`,
`MutableTransition`, `ProblemSet` and other objects are not accepted. -/
theorem C89_permute_kinds (nr : NewReaction) :
    (∀ t us, permuteEqualFinalStates t = .ok us →
      permute nr (.frozen t : Arg E N) = .ok (.iterable (us.map .frozen)) ∧
      permute nr (.iterable [.frozen t] : Arg E N) = .ok (.iterable (us.map .frozen))) ∧
    (∀ r (b : Arg E N), permute nr (.reaction r) = .ok b ↔
      ∃ ts r', permuteAll r.transitions = .ok ts ∧ nr ts r.formalism = .ok r' ∧ b = .reaction r') ∧
    (∀ r (b : Arg E N), permute nr (.reaction r) = .ok b →
      permute nr (.iterable [.reaction r] : Arg E N) = .error .typeError) ∧
    (∀ t, permute nr (.topology t : Arg E N) = .error .notImplementedError) ∧
    (∀ t, permute nr (.mutable t : Arg E N) = .error .notImplementedError) ∧
    (∀ f s t, permute nr (.problemSet f s t : Arg E N) = .error .notImplementedError) ∧
    permute nr (.other : Arg E N) = .error .notImplementedError ∧
    ∀ s, s ≠ "" → permute nr (.text s : Arg E N) = .error .recursionError := by
  have hr : ∀ r (b : Arg E N), permute nr (.reaction r) = .ok b ↔
      ∃ ts r', permuteAll r.transitions = .ok ts ∧ nr ts r.formalism = .ok r' ∧ b = .reaction r' := by
    intro r b
    simp only [permute]
    constructor
    · intro h
      obtain ⟨ts, h1, h⟩ := bind_ok h
      obtain ⟨r', h2, h⟩ := bind_ok h
      injection h with h
      exact ⟨ts, r', h1, h2, h.symm⟩
    · rintro ⟨ts, r', h1, h2, rfl⟩
      rw [h1]
      show (nr ts r.formalism >>= fun x => pure (Arg.reaction x)) = _
      rw [h2]
      rfl
  refine ⟨?_, hr, ?_, fun t => by simp [permute], fun t => by simp [permute],
    fun f s t => by simp [permute], by simp [permute], fun s hs => by simp [permute, hs]⟩
  · intro t us h
    simp only [permute, permuteItems, h]
    exact ⟨rfl, by simp [extendItems, bind, Except.bind, pure, Except.pure]⟩
  · intro r b h
    obtain ⟨ts, r', h1, h2, rfl⟩ := (hr r b).1 h
    rw [show permute nr (.iterable [.reaction r] : Arg E N)
      = (permuteItems nr [.reaction r] >>= fun x => pure (.iterable x)) by simp only [permute],
      permuteItems_one, h]
    rfl

/-! ### C88 for nested iterables -/

theorem frozen_leaves {xs : List (Arg E N)} (h : ∀ x ∈ xs, ∃ t, x = .frozen t ∧ Valid t) :
    ∃ ts : List (Transition QObj QNode), xs = ts.map .frozen ∧ ∀ t ∈ ts, Valid t := by
  induction xs with
  | nil => exact ⟨[], rfl, fun t ht => by cases ht⟩
  | cons x xs ih =>
    obtain ⟨ts, rfl, h1⟩ := ih fun y hy => h y (.tail _ hy)
    obtain ⟨t, rfl, ht⟩ := h x (.head _)
    refine ⟨t :: ts, rfl, fun u hu => ?_⟩
    rcases List.mem_cons.1 hu with rfl | hu
    · exact ht
    · exact h1 u hu

theorem permuteItems_frozen (nr : NewReaction) (ts : List (Transition QObj QNode)) :
    permuteItems nr (ts.map .frozen : List (Arg E N)) = (permuteAll ts).map (List.map .frozen) := by
  induction ts with
  | nil => rfl
  | cons t ts ih =>
    simp only [List.map_cons, permuteItems, permute, ih]
    unfold permuteAll
    rw [List.mapM_cons]
    cases permuteEqualFinalStates t with
    | error e => rfl
    | ok a =>
      cases ts.mapM permuteEqualFinalStates with
      | error e => rfl
      | ok b =>
        simp [bind, Except.bind, pure, Except.pure, Except.map, extendItems]

theorem normalizeItems_frozen (nr : NewReaction) (ts : List (Transition QObj QNode)) :
    normalizeItems nr (ts.map .frozen : List (Arg E N))
      = (normalizeTransitions ts).map (List.map .frozen) := by
  induction ts with
  | nil => rfl
  | cons t ts ih =>
    simp only [List.map_cons, normalizeItems, normalize, ih]
    unfold normalizeTransitions
    rw [List.mapM_cons]
    cases normalizeTransition t with
    | error e => rfl
    | ok a => cases ts.mapM normalizeTransition <;> rfl

/-- C88 for iterables of transitions, nested to any depth. -/
theorem C88_nested (nr : NewReaction) (xs : List (Arg E N))
    (hv : ∀ x ∈ leavesOf xs, ∃ t, x = .frozen t ∧ Valid t) :
    ∃ ys, normalize nr (.iterable xs) = .ok (.iterable ys) ∧
      permute nr (.iterable ys) = (permute nr (.iterable xs) >>= normalize nr) := by
  obtain ⟨ts, hts, hvs⟩ := frozen_leaves hv
  obtain ⟨ts', h1, h2⟩ := C88_iterable ts hvs
  have hitems : ∀ x ∈ leaves (.iterable xs), ∃ y, normalize nr x = .ok y := by
    intro x hx
    rw [leaves_iterable] at hx
    obtain ⟨t, rfl, ht⟩ := hv x hx
    exact ⟨.frozen (normT t), by simp only [normalize, normalizeTransition_eq t ht]; rfl⟩
  obtain ⟨b, hb⟩ := ((C89_normalize_raises nr (.iterable xs)).2).2 hitems
  have hb' := hb
  simp only [normalize] at hb'
  obtain ⟨ys, hys, hb'⟩ := bind_ok hb'
  injection hb' with hb'
  subst hb'
  refine ⟨ys, hb, ?_⟩
  have hl := (C89_normalize_items nr _ _ hb).2
  rw [leaves_iterable, leaves_iterable, hts] at hl
  have hys' : leavesOf ys = ts'.map .frozen := by
    have h3 : List.Forall₂ (fun t y => normalize nr (.frozen t : Arg E N) = .ok y) ts (leavesOf ys) :=
      List.forall₂_map_left_iff.1 hl
    have h4 : List.Forall₂ (fun t t' => normalizeTransition t = .ok t') ts ts' := (mapM_ok_iff _ _ _).1 h1
    clear hl hys hb h1 h2 hts hvs
    revert h3
    generalize leavesOf ys = ls
    intro h3
    induction h4 generalizing ls with
    | nil => cases h3; rfl
    | cons h5 _ ih =>
      cases h3 with
      | cons h6 h7 =>
        rw [List.map_cons, ih _ h7]
        simp only [normalize, h5] at h6
        injection h6 with h6
        rw [← h6]
  simp only [permute]
  rw [(permute_flat nr).2 ys, (permute_flat nr).2 xs, hts, hys', permuteItems_frozen,
    permuteItems_frozen, h2]
  cases permuteAll ts with
  | error e => rfl
  | ok us =>
    simp only [Except.map, bind, Except.bind, pure, Except.pure, normalize, normalizeItems_frozen]

/-! ### Concrete cases -/

/-- A constructor of `ReactionInfo` that requires at least one transition. -/
def exNewReaction : NewReaction := fun ts f => if ts.isEmpty then .error .valueError else .ok ⟨ts, f⟩

theorem exNewReaction_class : ReactionClass exNewReaction where
  transitions := fun ts f r h => by
    unfold exNewReaction at h
    split_ifs at h
    injection h with h; rw [← h]
  formalism := fun ts f r h => by
    unfold exNewReaction at h
    split_ifs at h
    injection h with h; rw [← h]
  again := fun ts f r h => by
    have h' := h
    unfold exNewReaction at h
    split_ifs at h with hc
    injection h with h
    rw [← h] at h' ⊢
    exact h'

/-- A transition, a list with a reaction in a list, and an empty string. -/
def exNested : Arg Unit Unit :=
  .iterable [.frozen (exEqual "rho"),
    .iterable [.iterable [.reaction ⟨[exEqual "rho", exEqual "pi0"], "helicity"⟩]], .text ""]

theorem exNested_leaves : leaves exNested = [.frozen (exEqual "rho"),
    .reaction ⟨[exEqual "rho", exEqual "pi0"], "helicity"⟩] := by
  simp [exNested, leaves, leavesOf]

theorem exNested_valid : ∀ x ∈ leaves exNested, ValidLeaf x := by
  rw [exNested_leaves]
  intro x hx
  simp only [List.mem_cons, List.not_mem_nil, or_false] at hx
  rcases hx with rfl | rfl
  · exact (exEqual_threeBody "rho").valid
  · intro t ht
    simp only [List.mem_cons, List.not_mem_nil, or_false] at ht
    rcases ht with rfl | rfl
    · exact (exEqual_threeBody "rho").valid
    · exact (exEqual_threeBody "pi0").valid

/-- It can be normalised, with the same nesting; a second normalisation changes nothing. -/
example : ∃ b, normalize exNewReaction exNested = .ok b ∧ normalize exNewReaction b = .ok b ∧
    nesting b = .list [.leaf, .list [.list [.leaf]], .list []] := by
  have hex : ∃ b, normalize exNewReaction exNested = .ok b := by
    rw [(C89_normalize_raises exNewReaction exNested).2]
    intro x hx
    cases hn : normalize exNewReaction x with
    | ok y => exact ⟨y, rfl⟩
    | error e =>
      exfalso
      have hv := exNested_valid x hx
      rcases (C89_normalize_kinds exNewReaction x hv).1 e hn
        (fun xs h => (isLeaf_of_mem.1 exNested x hx).1 xs h) with ⟨rfl, -⟩ | ⟨s, -, rfl, -⟩ | ⟨r, ts, rfl, h1, h2⟩
      · rw [exNested_leaves] at hx; simp at hx
      · rw [exNested_leaves] at hx; simp at hx
      · rw [exNested_leaves] at hx
        simp only [List.mem_cons, List.not_mem_nil, or_false, reduceCtorEq, false_or,
          Arg.reaction.injEq] at hx
        subst hx
        unfold exNewReaction at h2
        have hlen := ((mapM_ok_iff _ _ _).1 h1).length_eq
        split_ifs at h2 with hc
        rw [List.isEmpty_iff] at hc
        rw [hc] at hlen
        simp at hlen
  obtain ⟨b, hb⟩ := hex
  refine ⟨b, hb, C89_normalize_idempotent _ exNewReaction_class _ _ exNested_valid hb, ?_⟩
  rw [(C89_normalize_items _ _ _ hb).1]
  simp [exNested, nesting, nestings]

/-- It cannot be permuted, because of the reaction in the list. -/
example : ∃ e, permute exNewReaction exNested = .error e ∧
    RaisesAtFirst (fun x => permute exNewReaction (.iterable [x])) (leaves exNested) e := by
  cases h : permute exNewReaction exNested with
  | error e =>
    refine ⟨e, rfl, ?_⟩
    have := (C89_permute_raises exNewReaction _ e).1 (show permute exNewReaction (.iterable _) = _ from h)
    rwa [← leaves_iterable] at this
  | ok b =>
    exfalso
    obtain ⟨bs, hbs, -⟩ := (C89_permute_items exNewReaction _ b).1
      (show permute exNewReaction (.iterable _) = _ from h)
    obtain ⟨us, -, hus⟩ := forall₂_left hbs
      (a := .reaction ⟨[exEqual "rho", exEqual "pi0"], "helicity"⟩) (by
        rw [← leaves_iterable]
        show _ ∈ leaves exNested
        rw [exNested_leaves]; simp)
    obtain ⟨_, _, _, _, h⟩ := ((C89_permute_kinds exNewReaction).2.1 _ _).1 hus
    cases h

/-- Nesting of transitions does not matter. -/
example : permute exNewReaction (.iterable [.frozen (exEqual "rho"), .iterable [.frozen (exEqual "pi0")]]
      : Arg Unit Unit)
    = permute exNewReaction (.iterable [.iterable [.iterable [.frozen (exEqual "rho")],
      .frozen (exEqual "pi0")]]) :=
  C89_permute_flat _ _ _ (by simp [leaves, leavesOf])

/-! ### C90 -/

/-- C90: normalisation of a `MutableTransition` relabels its edges and its states. Every edge keeps its
state exactly if no edge without state has a smaller ID than an edge with a state. -/
theorem C90_mutable (nr : NewReaction) (t : Mutable E N) (he : (PyDict.keys t.topology.edges).Nodup)
    (hs : ∀ i ∈ PyDict.keys t.states, i ∈ PyDict.keys t.topology.edges) :
    ∃ t', normalize nr (.mutable t) = .ok (.mutable t') ∧
      t'.interactions = t.interactions ∧ t'.topology.nodes = t.topology.nodes ∧
      Relabelled (rank (PyDict.keys t.topology.edges)) t.topology.edges t'.topology.edges ∧
      ((∀ i ∈ PyDict.keys t.topology.edges,
          PyDict.get? t'.states (rank (PyDict.keys t.topology.edges) i) = PyDict.get? t.states i) ↔
        ∀ i ∈ PyDict.keys t.topology.edges, i ∉ PyDict.keys t.states →
          ∀ j ∈ PyDict.keys t.states, j < i) := by
  refine ⟨⟨normalizeTopology t.topology, normStates t.states, t.interactions⟩, ?_, rfl,
    (C43_topology t.topology he).1, (C43_topology t.topology he).2.1, ?_⟩
  · simp only [normalize, normalizeMutable_eq]; rfl
  have hrel := normStates_relabelled t.states
  constructor
  · intro h i hi hmiss j hj
    by_contra hlt
    have hij : i < j := lt_of_le_of_ne (not_lt.1 hlt) (by rintro rfl; exact hmiss hj)
    -- the largest ID with a state gets a larger ID than there are states
    obtain ⟨m, hm, hmax⟩ : ∃ m ∈ PyDict.keys t.states, ∀ k ∈ PyDict.keys t.states, k ≤ m := by
      obtain ⟨m, hm⟩ := Finset.exists_max_image (PyDict.keys t.states).toFinset id
        ⟨j, List.mem_toFinset.2 hj⟩
      exact ⟨m, List.mem_toFinset.1 hm.1, fun k hk => hm.2 k (List.mem_toFinset.2 hk)⟩
    have h1 := h m (hs m hm)
    obtain ⟨v, hv⟩ := PyDict.mem_keys_iff.1 hm
    rw [hv] at h1
    have h2 : rank (PyDict.keys t.topology.edges) m ∈ PyDict.keys (normStates t.states) :=
      PyDict.mem_keys_iff.2 ⟨v, h1⟩
    obtain ⟨k, hk, hkm⟩ := (hrel.1 _).1 h2
    have h3 : rank (PyDict.keys t.states) k ≤ rank (PyDict.keys t.states) m := by
      rcases lt_or_eq_of_le (hmax k hk) with h | h
      · exact (rank_lt hk h).le
      · rw [h]
    have h4 : rank (PyDict.keys t.states) m < rank (PyDict.keys t.topology.edges) m := by
      unfold rank
      have hsub : (i :: (PyDict.keys t.states).dedup.filter fun x => decide (x < m)).Subperm
          ((PyDict.keys t.topology.edges).dedup.filter fun x => decide (x < m)) := by
        apply List.subperm_of_subset
        · rw [List.nodup_cons]
          refine ⟨fun h => ?_, (List.nodup_dedup _).filter _⟩
          exact hmiss (List.mem_dedup.1 (List.mem_filter.1 h).1)
        · intro z hz
          rcases List.mem_cons.1 hz with rfl | hz
          · rw [List.mem_filter, List.mem_dedup, decide_eq_true_eq]
            exact ⟨hi, lt_of_lt_of_le hij (hmax j hj)⟩
          · rw [List.mem_filter, List.mem_dedup] at hz ⊢
            exact ⟨hs z hz.1, hz.2⟩
      have := hsub.length_le
      rw [List.length_cons] at this
      exact_mod_cast this
    omega
  · intro h i hi
    by_cases hst : i ∈ PyDict.keys t.states
    · have hr : rank (PyDict.keys t.topology.edges) i = rank (PyDict.keys t.states) i := by
        unfold rank
        have hp : ((PyDict.keys t.topology.edges).dedup.filter fun x => decide (x < i)).Perm
            ((PyDict.keys t.states).dedup.filter fun x => decide (x < i)) := by
          rw [List.perm_ext_iff_of_nodup ((List.nodup_dedup _).filter _)
            ((List.nodup_dedup _).filter _)]
          intro z
          rw [List.mem_filter, List.mem_filter, List.mem_dedup, List.mem_dedup, decide_eq_true_eq]
          constructor
          · rintro ⟨hz, hzi⟩
            refine ⟨?_, hzi⟩
            by_contra hno
            exact absurd (h z hz hno i hst) (not_lt_of_gt hzi)
          · rintro ⟨hz, hzi⟩
            exact ⟨hs z hz, hzi⟩
        rw [hp.length_eq]
      rw [hr]
      exact hrel.2 i hst
    · have hnone : PyDict.get? t.states i = none := PyDict.get?_eq_none.2 hst
      rw [hnone]
      apply PyDict.get?_eq_none.2
      intro hmem
      obtain ⟨k, hk, hki⟩ := (hrel.1 _).1 hmem
      have h1 : rank (PyDict.keys t.states) k ≤ rank (PyDict.keys t.topology.edges) k := by
        unfold rank
        have hsub : ((PyDict.keys t.states).dedup.filter fun x => decide (x < k)).Subperm
            ((PyDict.keys t.topology.edges).dedup.filter fun x => decide (x < k)) := by
          apply List.subperm_of_subset ((List.nodup_dedup _).filter _)
          intro z hz
          rw [List.mem_filter, List.mem_dedup] at hz ⊢
          exact ⟨hs z hz.1, hz.2⟩
        exact_mod_cast hsub.length_le
      have h2 := rank_lt (hs k hk) (h i hi hst k hk)
      omega

/-- Initial facts of a problem set: states at the initial and final edges only. With the resonance as
last edge the states stay at their edges; with the resonance as edge 0 they do not. -/
example :
    (∀ i ∈ PyDict.keys (exTopology (-1) 0 3 1 2).edges, i ∉ ([-1, 0, 1, 2] : List ℤ) →
      ∀ j ∈ ([-1, 0, 1, 2] : List ℤ), j < i) ∧
    ¬ ∀ i ∈ PyDict.keys (exTopology (-1) 3 0 1 2).edges, i ∉ ([-1, 1, 2, 3] : List ℤ) →
      ∀ j ∈ ([-1, 1, 2, 3] : List ℤ), j < i := by decide

/-- C90: so there is a `MutableTransition` of which a state moves to another edge: the state of edge 3
is gone, and the resonance has the state of edge 1. -/
theorem C90_moved (nr : NewReaction) : ∃ (t t' : Mutable String Unit),
    normalize nr (.mutable t) = .ok (.mutable t') ∧ (PyDict.keys t.topology.edges).Nodup ∧
    (∀ i ∈ PyDict.keys t.states, i ∈ PyDict.keys t.topology.edges) ∧
    PyDict.get? t.states 0 = none ∧
    PyDict.get? t'.states (rank (PyDict.keys t.topology.edges) 0) = PyDict.get? t.states 1 ∧
    PyDict.get? t'.states (rank (PyDict.keys t.topology.edges) 3) = none ∧
    PyDict.get? t.states 3 ≠ none := by
  let t : Mutable String Unit :=
    ⟨exTopology (-1) 3 0 1 2, [(-1, "J/psi"), (1, "a"), (2, "b"), (3, "c")], []⟩
  have hk : PyDict.keys t.states = [-1, 1, 2, 3] := rfl
  have he : (PyDict.keys t.topology.edges).Nodup := by decide
  have hr : ∀ i ∈ ([-1, 0, 1, 2, 3] : List ℤ),
      rank (PyDict.keys t.topology.edges) i = i + 1 := by decide
  have hr' : rank (PyDict.keys t.states) 1 = 1 := by decide
  have hrel := normStates_relabelled t.states
  refine ⟨t, ⟨normalizeTopology t.topology, normStates t.states, t.interactions⟩, ?_, he, by decide,
    rfl, ?_, ?_, by decide⟩
  · simp only [normalize, normalizeMutable_eq]; rfl
  · rw [hr 0 (by decide)]
    have := hrel.2 1 (by decide)
    rw [hr'] at this
    exact this
  · rw [hr 3 (by decide)]
    apply PyDict.get?_eq_none.2
    intro hmem
    obtain ⟨k, hk', hk4⟩ := (hrel.1 _).1 hmem
    have : ∀ k ∈ ([-1, 1, 2, 3] : List ℤ), rank (PyDict.keys t.states) k ≠ 3 + 1 := by decide
    exact this k hk' hk4

end Verif.Qrules
