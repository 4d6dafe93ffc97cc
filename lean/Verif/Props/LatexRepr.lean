import Verif.Spec.LatexRepr
import Verif.Proofs.LatexRepr
import Verif.Proofs.PyDict
import Verif.Proofs.IoExpression

/-! Property C112: the LaTeX of lineshapes and recouplings. -/
namespace Verif.LatexRepr
open Verif

/-- **C112** `str.format` does what it is for: if the format string was written for a list of pieces (with braces in
texts doubled, and names of fields without braces), it returns the texts with the values in between, unchanged,
whatever characters the values contain. -/
theorem C112_format (kwargs : PyDict String String) (value : String → String) (ps : List Piece)
    (hv : ∀ n ∈ fieldNames ps, PyDict.get? kwargs n = some (value n))
    (hb : ∀ n ∈ fieldNames ps, '{' ∉ n.toList ∧ '}' ∉ n.toList) :
    (do return String.ofList (← strFormat kwargs none (writeTemplate ps)) : Py String) = .ok (fill value ps) := by
  rw [strFormat_write kwargs value ps hv hb]
  show Except.ok _ = _
  rw [String.ofList_toList]

/-- **C112** If a field has no value, `KeyError` is raised. -/
theorem C112_missing (kwargs : PyDict String String) (value : String → String) (ps qs : List Piece) (name : String)
    (hv : ∀ n ∈ fieldNames ps, PyDict.get? kwargs n = some (value n))
    (hb : ∀ n ∈ fieldNames ps ++ [name], '{' ∉ n.toList ∧ '}' ∉ n.toList) (hn : PyDict.get? kwargs name = none) :
    strFormat kwargs none (writeTemplate (ps ++ .field name :: qs)) = .error .keyError :=
  strFormat_missing kwargs value ps qs name hv hb hn

/-- **C112** Nothing else can be formatted: if there is a result, the format string was written for some list of pieces, in
which all fields have a value, and the result is its text. So a brace without a partner is always an error. -/
theorem C112_format_only (kwargs : PyDict String String) (t r : List Char) (h : strFormat kwargs none t = .ok r) :
    ∃ ps, t = writeTemplate ps ∧ (∀ n ∈ fieldNames ps, ('{' ∉ n.toList ∧ '}' ∉ n.toList) ∧ (PyDict.get? kwargs n).isSome) ∧
      r = (fill (fun n => (PyDict.get? kwargs n).getD "") ps).toList := by
  obtain ⟨ps, h1, h2, h3⟩ := (strFormat_ok kwargs none t r h).1 rfl
  exact ⟨ps, h1, fun n hn => ⟨⟨(h2 n hn).1, (h2 n hn).2.1⟩, by rw [(h2 n hn).2.2]; rfl⟩, h3⟩

/-- **C112** A brace without a partner is a `ValueError`: one that closes nothing, and one that is not closed. -/
theorem C112_unmatched (kwargs : PyDict String String) (value : String → String) (ps : List Piece)
    (hv : ∀ n ∈ fieldNames ps, PyDict.get? kwargs n = some (value n))
    (hb : ∀ n ∈ fieldNames ps, '{' ∉ n.toList ∧ '}' ∉ n.toList) :
    (∀ t, t.head? ≠ some '}' → strFormat kwargs none (writeTemplate ps ++ '}' :: t) = .error .valueError) ∧
    (∀ t, t.head? ≠ some '{' → '}' ∉ t → strFormat kwargs none (writeTemplate ps ++ '{' :: t) = .error .valueError) := by
  refine ⟨fun t ht => strFormat_prefix kwargs value _ _ ?_ ps hv hb, fun t ht hn => strFormat_prefix kwargs value _ _ ?_ ps hv hb⟩
  · rw [strFormat]
    rintro u rfl
    exact ht rfl
  · rw [strFormat]
    · exact strFormat_open kwargs t [] hn
    · rintro u rfl
      exact ht rfl

example : strFormat (PyDict.ofItems [("s", "x")]) none "f{s}}".toList = .error .valueError ∧
    strFormat (PyDict.ofItems [("s", "x")]) none "f{s".toList = .error .valueError ∧
    strFormat (PyDict.ofItems [("s", "x")]) none "f{s{s}".toList = .error .valueError ∧
    strFormat (PyDict.ofItems [("s", "x")]) none "f{t}".toList = .error .keyError := by decide +kernel

/-- **C112** The LaTeX of the lineshapes, whatever the LaTeX of the arguments: a frame with the LaTeX of some of the
arguments. What is missing is `ChannelArguments`, see `C112_channel_arguments_fail`. -/
theorem C112_lineshapes_partial (s m0 g0 m1 m2 L R phsp M mk l r γ g : String) :
    relativisticBreitWigner.latex [s, m0, g0, m1, m2, L, R, phsp] =
      .ok ("\\mathcal{R}_{" ++ L ++ "}\\left(" ++ s ++ ", " ++ m0 ++ ", " ++ g0 ++ "\\right)") ∧
    breitWignerMinL.latex [s, M, mk, m0, g0, m2, m1, l, L, r, R, phsp] =
      .ok ("\\mathcal{R}^\\mathrm{BW}_{" ++ l ++ "," ++ L ++ "}\\left(" ++ s ++ "\\right)") ∧
    buggBreitWigner.latex [s, m0, g0, m1, m2, γ] =
      .ok ("\\mathcal{R}^\\mathrm{Bugg}\\left(" ++ s ++ "\\right)") ∧
    flatteSWave.latex [s, m0, g, m1, m2] =
      .ok ("\\mathcal{R}^\\mathrm{Flatté}\\left(" ++ s ++ "\\right)") ∧
    simpleBreitWigner.latex [s, m0, g0] =
      .ok ("\\mathcal{R}^\\mathrm{BW}\\left(" ++ s ++ "; " ++ m0 ++ ", " ++ g0 ++ "\\right)") := by
  refine ⟨?_, ?_, ?_, ?_, ?_⟩
  · rw [latex_of_pieces _ _ [.text "\\mathcal{R}_{", .field "angular_momentum", .text "}\\left(", .field "s", .text ", ", .field "mass0", .text ", ", .field "gamma0", .text "\\right)"]
      (by decide +kernel) (by simp only [fieldNames, List.forall_mem_cons]; exact ⟨rfl, rfl, rfl, rfl, by simp⟩) (by decide +kernel)]
    simp only [fill, String.append_assoc, String.append_empty]
    rfl
  · rw [latex_of_pieces _ _ [.text "\\mathcal{R}^\\mathrm{BW}_{", .field "l_dec", .text ",", .field "l_prod", .text "}\\left(", .field "s", .text "\\right)"]
      (by decide +kernel) (by simp only [fieldNames, List.forall_mem_cons]; exact ⟨rfl, rfl, rfl, by simp⟩) (by decide +kernel)]
    simp only [fill, String.append_assoc, String.append_empty]
    rfl
  · rw [latex_of_pieces _ _ [.text "\\mathcal{R}^\\mathrm{Bugg}\\left(", .field "s", .text "\\right)"]
      (by decide +kernel) (by simp only [fieldNames, List.forall_mem_cons]; exact ⟨rfl, by simp⟩) (by decide +kernel)]
    simp only [fill, String.append_assoc, String.append_empty]
    rfl
  · rw [latex_of_pieces _ _ [.text "\\mathcal{R}^\\mathrm{Flatté}\\left(", .field "s", .text "\\right)"]
      (by decide +kernel) (by simp only [fieldNames, List.forall_mem_cons]; exact ⟨rfl, by simp⟩) (by decide +kernel)]
    simp only [fill, String.append_assoc, String.append_empty]
    rfl
  · rw [latex_of_pieces _ _ [.text "\\mathcal{R}^\\mathrm{BW}\\left(", .field "s", .text "; ", .field "mass", .text ", ", .field "width", .text "\\right)"]
      (by decide +kernel) (by simp only [fieldNames, List.forall_mem_cons]; exact ⟨rfl, rfl, rfl, by simp⟩) (by decide +kernel)]
    simp only [fill, String.append_assoc, String.append_empty]
    rfl

/-- **C112** The LaTeX of the recouplings, whatever the LaTeX of the arguments. The last two have the same symbol. -/
theorem C112_recouplings (a b a0 b0 f l s ja jb j : String) :
    helicityRecoupling.latex [a, b, a0, b0] =
      .ok ("\\mathcal{H}^\\text{helicity}\\left(" ++ a ++ "," ++ b ++ "|" ++ a0 ++ "," ++ b0 ++ "\\right)") ∧
    parityRecoupling.latex [a, b, a0, b0, f] =
      .ok ("\\mathcal{H}^\\text{parity}\\left(" ++ a ++ "," ++ b ++ "|" ++ a0 ++ "," ++ b0 ++ "," ++ f ++ "\\right)") ∧
    lsRecoupling.latex [a, b, l, s, ja, jb, j] =
      .ok ("\\mathcal{H}^\\text{parity}\\left(" ++ a ++ "," ++ b ++ "|" ++ l ++ "," ++ s ++ "," ++ ja ++ "," ++ jb ++ "," ++ j ++ "\\right)") := by
  refine ⟨?_, ?_, ?_⟩
  · rw [latex_of_pieces _ _ [.text "\\mathcal{H}^\\text{helicity}\\left(", .field "λa", .text ",", .field "λb", .text "|", .field "λa0", .text ",", .field "λb0", .text "\\right)"]
      (by decide +kernel) (by simp only [fieldNames, List.forall_mem_cons]; exact ⟨rfl, rfl, rfl, rfl, by simp⟩) (by decide +kernel)]
    simp only [fill, String.append_assoc, String.append_empty]
    rfl
  · rw [latex_of_pieces _ _ [.text "\\mathcal{H}^\\text{parity}\\left(", .field "λa", .text ",", .field "λb", .text "|", .field "λa0", .text ",", .field "λb0", .text ",", .field "f", .text "\\right)"]
      (by decide +kernel) (by simp only [fieldNames, List.forall_mem_cons]; exact ⟨rfl, rfl, rfl, rfl, rfl, by simp⟩) (by decide +kernel)]
    simp only [fill, String.append_assoc, String.append_empty]
    rfl
  · rw [latex_of_pieces _ _ [.text "\\mathcal{H}^\\text{parity}\\left(", .field "λa", .text ",", .field "λb", .text "|", .field "l", .text ",", .field "s", .text ",", .field "ja", .text ",", .field "jb", .text ",", .field "j", .text "\\right)"]
      (by decide +kernel) (by simp only [fieldNames, List.forall_mem_cons]; exact ⟨rfl, rfl, rfl, rfl, rfl, rfl, rfl, by simp⟩) (by decide +kernel)]
    simp only [fill, String.append_assoc, String.append_empty]
    rfl

/-- **C112** `ChannelArguments` cannot be rendered, whatever the arguments: the braces in its format string are doubled
where they should be single and the other way around, so that `channel` is taken as the name of a field. -/
theorem C112_channel_arguments_fail (args : List String) : channelArguments.latex args = .error .keyError := by
  have hk : ∀ x ∈ channelArguments.fields.zip args, x.1 ≠ "channel" := by
    intro x hx h
    have h1 := (List.of_mem_zip (a := x.1) (b := x.2) hx).1
    rw [h] at h1
    exact absurd h1 (by decide +kernel)
  have hn : PyDict.get? (PyDict.ofItems (channelArguments.fields.zip args)) "channel" = none := by
    rw [PyDict.get?_ofItems, PyDict.get?_eq_none]
    intro h
    obtain ⟨x, hx, he⟩ := List.mem_map.1 h
    exact hk x (List.mem_reverse.1 hx) he
  have ht : channelArguments.template.toList = writeTemplate ([.text "\\Gamma^\\text"] ++
      .field "channel" :: [.text "\\left({s}, {m0}, {width}\\right)"]) := by decide +kernel
  unfold Unevaluated.latex
  rw [ht, strFormat_missing _ (fun _ => "") _ _ _ (by simp [fieldNames]) (by decide +kernel) hn]
  rfl

private theorem ok_inj {a b : String} (h : (Except.ok a : Py String) = .ok b) : a = b := by injection h

/-- **C112** The LaTeX of a simple Breit-Wigner determines the LaTeX of its arguments, if that of `s` has no semicolon and
that of the mass no comma. -/
theorem C112_simple_injective {s m g s' m' g' : String} (hs : ';' ∉ s.toList) (hs' : ';' ∉ s'.toList)
    (hm : ',' ∉ m.toList) (hm' : ',' ∉ m'.toList)
    (h : simpleBreitWigner.latex [s, m, g] = simpleBreitWigner.latex [s', m', g']) : s = s' ∧ m = m' ∧ g = g' := by
  have f := fun s m g => (C112_lineshapes_partial s m g "" "" "" "" "" "" "" "" "" "" "").2.2.2.2
  rw [f, f] at h
  have h := congrArg String.toList (ok_inj h)
  simp only [String.append_assoc, String.toList_append] at h
  have h := List.append_cancel_left h
  have h1 := split_unique hs hs' h
  have h2 := List.append_cancel_left (List.cons.inj h1.2).2
  have h3 := split_unique hm hm' h2
  have h4 : g.toList ++ _ = g'.toList ++ _ := (List.cons.inj h3.2).2
  have h4 := List.append_cancel_right h4
  exact ⟨String.toList_injective h1.1, String.toList_injective h3.1, String.toList_injective h4⟩

/-- **C112** Although they have the same symbol, the LaTeX of a parity vertex and that of an LS vertex are different, if
there are no commas in the LaTeX of the arguments. -/
theorem C112_recouplings_distinct {a b a0 b0 f a' b' l s ja jb j : String}
    (h : ∀ x ∈ [a, b, a0, b0, f, a', b', l, s, ja, jb, j], ',' ∉ x.toList) :
    parityRecoupling.latex [a, b, a0, b0, f] ≠ lsRecoupling.latex [a', b', l, s, ja, jb, j] := by
  have hc : ∀ x ∈ [a, b, a0, b0, f, a', b', l, s, ja, jb, j], x.toList.count ',' = 0 :=
    fun x hx => List.count_eq_zero.2 (h x hx)
  intro he
  rw [(C112_recouplings a b a0 b0 f "" "" "" "" "").2.1, (C112_recouplings a' b' "" "" "" l s ja jb j).2.2] at he
  have he := congrArg (fun t => t.toList.count ',') (ok_inj he)
  simp only [List.forall_mem_cons] at hc
  obtain ⟨h1, h2, h3, h4, h5, h6, h7, h8, h9, h10, h11, h12, -⟩ := hc
  simp only [String.toList_append, List.count_append, h1, h2, h3, h4, h5, h6, h7, h8, h9, h10, h11, h12] at he
  exact absurd he (by decide +kernel)

/-- **C112** The widths of the channels are shown in the LaTeX of a multichannel Breit-Wigner in their order, and determine
it together with `s`: if there are no commas in them and there is a channel, they can be read off. -/
theorem C112_multichannel {s : String} {ws ws' : List String} (hne : ws ≠ []) (hne' : ws' ≠ [])
    (hw : ∀ w ∈ ws, ',' ∉ w.toList) (hw' : ∀ w ∈ ws', ',' ∉ w.toList)
    (h : latexMultichannel s ws = latexMultichannel s ws') : ws = ws' := by
  unfold latexMultichannel at h
  have h := congrArg String.toList h
  simp only [String.toList_append] at h
  have h := List.append_cancel_left (List.append_cancel_right h)
  rw [String.toList_intercalate, String.toList_intercalate] at h
  have h := Io.intercalate_inj (p := []) (c := ',') (q := [' ']) (by simp) (by simpa using hw) (by simpa using hw')
    (by simpa using hne) (by simpa using hne') h
  exact List.map_injective_iff.2 (fun _ _ => String.toList_injective) h

example : latexMultichannel "\\sigma_{1}" ["\\Gamma_1", "\\Gamma_2"] =
    "\\mathcal{R}^\\mathrm{BW}_\\mathrm{multi}\\left(\\sigma_{1}; \\Gamma_1, \\Gamma_2\\right)" := by decide +kernel

/-- The angular momentum in the LaTeX of a Breit-Wigner, as number and as symbol. -/
example : latexBreitWigner "s" "m" "w" "1" true = "\\mathcal{R}^\\mathrm{BW}_{L=1}\\left(s; m, w\\right)" ∧
    latexBreitWigner "s" "m" "w" "L" false = "\\mathcal{R}^\\mathrm{BW}_{L}\\left(s; m, w\\right)" := by decide +kernel

/-- Braces in the LaTeX of an argument are left as they are. -/
example : simpleBreitWigner.latex ["\\sigma_{1}", "m_{K^{*}}", "\\Gamma_{{K}}"] =
    .ok "\\mathcal{R}^\\mathrm{BW}\\left(\\sigma_{1}; m_{K^{*}}, \\Gamma_{{K}}\\right)" :=
  (C112_lineshapes_partial _ _ _ "" "" "" "" "" "" "" "" "" "" "").2.2.2.2

private theorem latexBreitWigner_toList (s m g L : String) (b : Bool) : (latexBreitWigner s m g L b).toList =
    "\\mathcal{R}^\\mathrm{BW}_{".toList ++ ((if b then "L=".toList else []) ++ L.toList ++ '}' :: ("\\left(".toList ++
      (s.toList ++ ';' :: ' ' :: (m.toList ++ ',' :: ' ' :: (g.toList ++ "\\right)".toList))))) := by
  cases b <;> simp [latexBreitWigner, String.toList_append]

/-- **C112** Breit-Wigners with a numerical and with a symbolic angular momentum can be told apart, and the shown arguments
can be read off, if the LaTeX of the angular momentum has no closing brace and no equals sign, that of `s` no semicolon and
that of the mass no comma. -/
theorem C112_breit_wigner_injective {s m g L s' m' g' L' : String} {b b' : Bool}
    (hL : '}' ∉ L.toList ∧ '=' ∉ L.toList) (hL' : '}' ∉ L'.toList ∧ '=' ∉ L'.toList)
    (hs : ';' ∉ s.toList) (hs' : ';' ∉ s'.toList) (hm : ',' ∉ m.toList) (hm' : ',' ∉ m'.toList)
    (h : latexBreitWigner s m g L b = latexBreitWigner s' m' g' L' b') :
    s = s' ∧ m = m' ∧ g = g' ∧ L = L' ∧ b = b' := by
  have h := congrArg String.toList h
  rw [latexBreitWigner_toList, latexBreitWigner_toList] at h
  have h := List.append_cancel_left h
  have hn : '}' ∉ (if b then "L=".toList else []) ++ L.toList := by cases b <;> simp [hL.1]
  have hn' : '}' ∉ (if b' then "L=".toList else []) ++ L'.toList := by cases b' <;> simp [hL'.1]
  have h0 := split_unique hn hn' h
  have h1 := split_unique hs hs' (List.append_cancel_left h0.2)
  have h2 := split_unique hm hm' (List.cons.inj h1.2).2
  have h3 := List.append_cancel_right (List.cons.inj h2.2).2
  have hLb : L = L' ∧ b = b' := by
    have h0 := h0.1
    cases b <;> cases b'
    · exact ⟨String.toList_injective (by simpa using h0), rfl⟩
    · have h0 : L.toList = 'L' :: '=' :: L'.toList := by simpa using h0
      exact absurd (by rw [h0]; simp) hL.2
    · have h0 : 'L' :: '=' :: L.toList = L'.toList := by simpa using h0
      exact absurd (by rw [← h0]; simp) hL'.2
    · exact ⟨String.toList_injective (by simpa using h0), rfl⟩
  exact ⟨String.toList_injective h1.1, String.toList_injective h2.1, String.toList_injective h3, hLb⟩

/-- Arguments with braces in them meet the hypotheses. -/
example : ('}' ∉ "1".toList ∧ '=' ∉ "1".toList) ∧ ';' ∉ "\\sigma_{1}".toList ∧ ',' ∉ "m_{K^{*}}".toList := by decide +kernel

/-- Arguments without commas. -/
example : ∀ x ∈ ["\\lambda_R", "\\lambda_{2}", "\\frac{1}{2}", "0", "-1"], ',' ∉ x.toList := by decide +kernel

/-- A format string with a field, a doubled brace and text, as in `str.format`. -/
example : strFormat (PyDict.ofItems [("s", "x"), ("m", "{y}")]) none "f_{{1}}({s};{m})".toList = .ok "f_{1}(x;{y})".toList := by
  decide +kernel

end Verif.LatexRepr
