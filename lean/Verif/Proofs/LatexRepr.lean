import Verif.Spec.LatexRepr

namespace Verif.LatexRepr
open Verif

theorem strFormat_plain (kwargs : PyDict String String) (c : Char) (t : List Char) (h1 : c ≠ '{') (h2 : c ≠ '}') :
    strFormat kwargs none (c :: t) = (do return c :: (← strFormat kwargs none t)) := by
  rw [strFormat]
  all_goals first | (intros; simp_all) | skip

theorem strFormat_escape (kwargs : PyDict String String) (r : List Char) : ∀ t : List Char,
    strFormat kwargs none (escape t ++ r) = (do return t ++ (← strFormat kwargs none r))
  | [] => by
    cases h : strFormat kwargs none r <;> simp [escape, h, bind, Except.bind, pure, Except.pure]
  | c :: t => by
    have ih := strFormat_escape kwargs r t
    unfold escape
    by_cases h : c = '{' ∨ c = '}'
    · rw [if_pos h]
      rcases h with rfl | rfl
      · rw [List.cons_append, List.cons_append, strFormat, ih]
        cases strFormat kwargs none r <;> rfl
      · rw [List.cons_append, List.cons_append, strFormat, ih]
        cases strFormat kwargs none r <;> rfl
    · rw [if_neg h, List.cons_append, strFormat_plain _ _ _ (fun e => h (.inl e)) (fun e => h (.inr e)), ih]
      cases strFormat kwargs none r <;> rfl

theorem strFormat_name (kwargs : PyDict String String) (r : List Char) : ∀ (name acc : List Char),
    '{' ∉ name → '}' ∉ name →
    strFormat kwargs (some acc) (name ++ '}' :: r) = (do
      let value ← PyDict.get kwargs (String.ofList (acc.reverse ++ name))
      return value.toList ++ (← strFormat kwargs none r))
  | [], acc, _, _ => by
    rw [List.nil_append, strFormat, List.append_nil]
  | c :: t, acc, h1, h2 => by
    have ih := strFormat_name kwargs r t (c :: acc) (fun h => h1 (List.mem_cons_of_mem _ h))
      (fun h => h2 (List.mem_cons_of_mem _ h))
    rw [List.cons_append, strFormat]
    · rw [ih]
      simp
    · intro h; exact h1 (by simp [h])
    · intro h; exact h2 (by simp [h])
theorem strFormat_field (kwargs : PyDict String String) (r : List Char) (name : String) (h1 : '{' ∉ name.toList)
    (h2 : '}' ∉ name.toList) :
    strFormat kwargs none ('{' :: name.toList ++ '}' :: r) = (do
      let value ← PyDict.get kwargs name
      return value.toList ++ (← strFormat kwargs none r)) := by
  have hs : strFormat kwargs none ('{' :: name.toList ++ '}' :: r) =
      strFormat kwargs (some []) (name.toList ++ '}' :: r) := by
    rw [List.cons_append, strFormat]
    intro t h
    cases hn : name.toList with
    | nil => rw [hn] at h; simp at h
    | cons c cs =>
      rw [hn] at h
      simp only [List.cons_append, List.cons.injEq] at h
      exact h1 (by rw [hn, h.1]; simp)
  rw [hs, strFormat_name kwargs r _ [] h1 h2]
  simp

theorem strFormat_write (kwargs : PyDict String String) (value : String → String) : ∀ (ps : List Piece),
    (∀ n ∈ fieldNames ps, PyDict.get? kwargs n = some (value n)) →
    (∀ n ∈ fieldNames ps, '{' ∉ n.toList ∧ '}' ∉ n.toList) →
    strFormat kwargs none (writeTemplate ps) = .ok (fill value ps).toList
  | [], _, _ => rfl
  | .text t :: ps, hv, hb => by
    rw [writeTemplate, strFormat_escape, strFormat_write kwargs value ps hv hb, fill, String.toList_append]
    rfl
  | .field n :: ps, hv, hb => by
    obtain ⟨h1, h2⟩ := hb n (by simp [fieldNames])
    rw [writeTemplate, strFormat_field _ _ _ h1 h2,
      strFormat_write kwargs value ps (fun x hx => hv x (by simp [fieldNames, hx]))
        (fun x hx => hb x (by simp [fieldNames, hx])), fill, String.toList_append]
    unfold PyDict.get
    rw [hv n (by simp [fieldNames])]
    rfl

theorem strFormat_missing (kwargs : PyDict String String) (value : String → String) : ∀ (ps qs : List Piece)
    (name : String), (∀ n ∈ fieldNames ps, PyDict.get? kwargs n = some (value n)) →
    (∀ n ∈ fieldNames ps ++ [name], '{' ∉ n.toList ∧ '}' ∉ n.toList) → PyDict.get? kwargs name = none →
    strFormat kwargs none (writeTemplate (ps ++ .field name :: qs)) = .error .keyError
  | [], qs, name, _, hb, hn => by
    obtain ⟨h1, h2⟩ := hb name (by simp)
    rw [List.nil_append, writeTemplate, strFormat_field _ _ _ h1 h2]
    unfold PyDict.get
    rw [hn]
    rfl
  | .text t :: ps, qs, name, hv, hb, hn => by
    rw [List.cons_append, writeTemplate, strFormat_escape, strFormat_missing kwargs value ps qs name hv hb hn]
    rfl
  | .field n :: ps, qs, name, hv, hb, hn => by
    obtain ⟨h1, h2⟩ := hb n (by simp [fieldNames])
    rw [List.cons_append, writeTemplate, strFormat_field _ _ _ h1 h2,
      strFormat_missing kwargs value ps qs name (fun x hx => hv x (by simp [fieldNames, hx]))
        (fun x hx => hb x (by simp only [fieldNames, List.cons_append, List.mem_cons]; exact .inr hx)) hn]
    unfold PyDict.get
    rw [hv n (by simp [fieldNames])]
    rfl

/-- The values of the fields of an instance. -/
def valueOf (fields args : List String) (n : String) : String :=
  (PyDict.get? (PyDict.ofItems (fields.zip args)) n).getD ""

theorem latex_of_pieces (c : Unevaluated) (args : List String) (ps : List Piece)
    (ht : c.template.toList = writeTemplate ps)
    (hv : ∀ n ∈ fieldNames ps, (PyDict.get? (PyDict.ofItems (c.fields.zip args)) n).isSome)
    (hb : ∀ n ∈ fieldNames ps, '{' ∉ n.toList ∧ '}' ∉ n.toList) :
    c.latex args = .ok (fill (valueOf c.fields args) ps) := by
  unfold Unevaluated.latex
  rw [ht, strFormat_write _ (valueOf c.fields args) ps (fun n hn => ?_) hb]
  · show Except.ok _ = _
    rw [String.ofList_toList]
  · obtain ⟨v, h⟩ := Option.isSome_iff_exists.1 (hv n hn)
    rw [valueOf, h]
    rfl
/-- The values of the keyword arguments. -/
def valueIn (kwargs : PyDict String String) (n : String) : String := (PyDict.get? kwargs n).getD ""

/-- The characters `t` are a format string with the value `r`. -/
def Formats (kwargs : PyDict String String) (t r : List Char) : Prop :=
  ∃ ps, t = writeTemplate ps ∧
    (∀ n ∈ fieldNames ps, '{' ∉ n.toList ∧ '}' ∉ n.toList ∧ PyDict.get? kwargs n = some (valueIn kwargs n)) ∧
    r = (fill (valueIn kwargs) ps).toList

theorem Formats.text {kwargs : PyDict String String} {t r : List Char} (c : Char) (h : Formats kwargs t r) :
    Formats kwargs (escape [c] ++ t) (c :: r) := by
  obtain ⟨ps, rfl, hf, rfl⟩ := h
  refine ⟨.text (String.ofList [c]) :: ps, ?_, hf, ?_⟩
  · rw [writeTemplate, String.toList_ofList]
  · rw [fill, String.toList_append, String.toList_ofList]
    rfl

private theorem bind_ok {c : Char} {x : Py (List Char)} {r : List Char} (h : (do return c :: (← x)) = Except.ok r) :
    ∃ r', x = .ok r' ∧ r = c :: r' := by
  cases x with
  | error e => cases h
  | ok r' => cases h; exact ⟨r', rfl, rfl⟩

theorem strFormat_ok (kwargs : PyDict String String) : ∀ (f : Option (List Char)) (t r : List Char),
    strFormat kwargs f t = .ok r →
    (f = none → Formats kwargs t r) ∧
    (∀ acc, f = some acc → ∃ n rest v r', t = n ++ '}' :: rest ∧ '{' ∉ n ∧ '}' ∉ n ∧
      PyDict.get? kwargs (String.ofList (acc.reverse ++ n)) = some v ∧ Formats kwargs rest r' ∧ r = v.toList ++ r') := by
  intro f t
  fun_induction strFormat kwargs f t with
  | case1 =>
    intro r h
    cases h
    exact ⟨fun _ => ⟨[], rfl, by simp [fieldNames], rfl⟩, by simp⟩
  | case2 => intro r h; cases h
  | case3 t ih =>
    intro r h
    obtain ⟨r', h', rfl⟩ := bind_ok h
    exact ⟨fun _ => ((ih r' h').1 rfl).text '{', by simp⟩
  | case4 t ih =>
    intro r h
    obtain ⟨r', h', rfl⟩ := bind_ok h
    exact ⟨fun _ => ((ih r' h').1 rfl).text '}', by simp⟩
  | case5 t hn ih =>
    intro r h
    obtain ⟨n, rest, v, r', rfl, h1, h2, hv, ⟨ps, rfl, hf, rfl⟩, rfl⟩ := (ih r h).2 [] rfl
    refine ⟨fun _ => ⟨.field (String.ofList n) :: ps, ?_, ?_, ?_⟩, by simp⟩
    · rw [writeTemplate, String.toList_ofList]
      rfl
    · intro m hm
      rcases List.mem_cons.1 hm with rfl | hm
      · rw [String.toList_ofList]
        exact ⟨h1, h2, by rw [valueIn]; simp only [List.reverse_nil, List.nil_append] at hv; rw [hv]; rfl⟩
      · exact hf m hm
    · simp only [List.reverse_nil, List.nil_append] at hv
      rw [fill, String.toList_append, valueIn, hv]
      rfl
  | case6 => intro r h; cases h
  | case7 c t h1 h2 h3 h4 ih =>
    intro r h
    obtain ⟨r', h', rfl⟩ := bind_ok h
    have := ((ih r' h').1 rfl).text c
    unfold escape at this
    rw [if_neg (by rintro (rfl | rfl) <;> simp_all)] at this
    exact ⟨fun _ => this, by simp⟩
  | case8 => intro r h; cases h
  | case9 name t ih =>
    intro r h
    refine ⟨by simp, fun acc hacc => ?_⟩
    cases hacc
    unfold PyDict.get at h
    cases hg : PyDict.get? kwargs (String.ofList name.reverse) with
    | none => rw [hg] at h; cases h
    | some v =>
      rw [hg] at h
      cases hs : strFormat kwargs none t with
      | error e => rw [hs] at h; cases h
      | ok r' =>
        rw [hs] at h
        cases h
        exact ⟨[], t, v, r', rfl, by simp, by simp, by rw [List.append_nil]; exact hg, (ih r' hs).1 rfl, rfl⟩
  | case10 name c t h1 h2 ih =>
    intro r h
    refine ⟨by simp, fun acc hacc => ?_⟩
    cases hacc
    obtain ⟨n, rest, v, r', rfl, hn1, hn2, hv, hf, rfl⟩ := (ih r h).2 _ rfl
    refine ⟨c :: n, rest, v, r', rfl, ?_, ?_, by simpa using hv, hf, rfl⟩
    · simp only [List.mem_cons, not_or]; exact ⟨fun e => h1 e.symm, hn1⟩
    · simp only [List.mem_cons, not_or]; exact ⟨fun e => h2 e.symm, hn2⟩
theorem strFormat_prefix (kwargs : PyDict String String) (value : String → String) (r : List Char) (e : PyErr)
    (hr : strFormat kwargs none r = .error e) : ∀ (ps : List Piece),
    (∀ n ∈ fieldNames ps, PyDict.get? kwargs n = some (value n)) →
    (∀ n ∈ fieldNames ps, '{' ∉ n.toList ∧ '}' ∉ n.toList) →
    strFormat kwargs none (writeTemplate ps ++ r) = .error e
  | [], _, _ => hr
  | .text t :: ps, hv, hb => by
    rw [writeTemplate, List.append_assoc, strFormat_escape, strFormat_prefix kwargs value r e hr ps hv hb]
    rfl
  | .field n :: ps, hv, hb => by
    obtain ⟨h1, h2⟩ := hb n (by simp [fieldNames])
    rw [writeTemplate, List.append_assoc, List.cons_append (a := '}'), strFormat_field _ _ _ h1 h2,
      strFormat_prefix kwargs value r e hr ps (fun x hx => hv x (by simp [fieldNames, hx]))
        (fun x hx => hb x (by simp [fieldNames, hx]))]
    unfold PyDict.get
    rw [hv n (by simp [fieldNames])]
    rfl

theorem strFormat_open (kwargs : PyDict String String) : ∀ (n acc : List Char), '}' ∉ n →
    strFormat kwargs (some acc) n = .error .valueError
  | [], _, _ => rfl
  | c :: t, acc, h => by
    by_cases hc : c = '{'
    · subst hc; rfl
    · rw [strFormat]
      · exact strFormat_open kwargs t _ (fun hm => h (List.mem_cons_of_mem _ hm))
      · exact hc
      · intro e; exact h (by simp [e])


end Verif.LatexRepr
