import Verif.Props.SerialDynamics

/-! Properties C59 and C73: the errors that the lineshapes and form factors of a file can raise. -/
namespace Verif.Serialization
open Verif Verif.ThreeBody Verif.Spec

variable {m : ModelDefinition}

/-- C73: the errors of a Breit-Wigner propagator: an unknown function and a missing entry of the function are a
`KeyError`, a node that does not have two children is a `ValueError`. -/
theorem C73_breit_wigner_errors {p : Propagator} {R : String} :
    ((∀ f ∈ m.functions, f.name ≠ p.parametrization) → formulateBreitWigner p R m = .error .keyError) ∧
    ∀ f, FunctionNamed m p.parametrization f →
      (p.node.length ≠ 2 → formulateBreitWigner p R m = .error .valueError) ∧
      ∀ i j k, p.node = [.id i, .id j] → [i, j, k].Perm [1, 2, 3] →
        (∃ x ∈ ["l", "mass", "width", "ma", "mb", "d"], PyDict.get? f.fields x = none) →
        formulateBreitWigner p R m = .error .keyError := by
  refine ⟨fun h => ?_, fun f hf => ⟨fun hn => ?_, fun i j k hn hp hx => ?_⟩⟩
  · unfold formulateBreitWigner
    rw [(C51_function _ m).2.1.2 h]
    rfl
  · unfold formulateBreitWigner
    rw [functionNamed_iff.2 hf]
    match hnode : p.node with
    | [] => rfl
    | [a] => rfl
    | [a, b] => rw [hnode] at hn; exact absurd rfl hn
    | a :: b :: c :: t => rfl
  · unfold formulateBreitWigner
    rw [functionNamed_iff.2 hf]
    have hs := mandelstam_of hn hp
    simp only [bind, Except.bind, hs]
    rw [hn]
    simp only [unpack2, toMassSymbol]
    obtain ⟨x, hx, hnone⟩ := hx
    have key : ∀ x, PyDict.get? f.fields x = none → PyDict.get f.fields x = .error .keyError := by
      intro x hx
      unfold PyDict.get
      rw [hx]
    have any : ∀ x, (∃ v, PyDict.get f.fields x = .ok v) ∨ PyDict.get f.fields x = .error .keyError := by
      intro x
      unfold PyDict.get
      cases PyDict.get? f.fields x with
      | none => exact .inr rfl
      | some v => exact .inl ⟨v, rfl⟩
    rcases any "l" with ⟨v1, h1⟩ | h1 <;> rw [h1]
    rcases any "mass" with ⟨v2, h2⟩ | h2 <;> rw [h2]
    rcases any "width" with ⟨v3, h3⟩ | h3 <;> rw [h3]
    rcases any "ma" with ⟨v4, h4⟩ | h4 <;> rw [h4]
    rcases any "mb" with ⟨v5, h5⟩ | h5 <;> rw [h5]
    rcases any "d" with ⟨v6, h6⟩ | h6 <;> rw [h6]
    have := key x hnone
    simp only [List.mem_cons, List.not_mem_nil, or_false] at hx
    rcases hx with rfl | rfl | rfl | rfl | rfl | rfl
    · rw [h1] at this; cases this
    · rw [h2] at this; cases this
    · rw [h3] at this; cases this
    · rw [h4] at this; cases this
    · rw [h5] at this; cases this
    · rw [h6] at this; cases this

/-- C73: a multichannel propagator with a node that does not have two children is a `ValueError`. -/
theorem C73_multichannel_errors {p : Propagator} {R : String} :
    ((∀ f ∈ m.functions, f.name ≠ p.parametrization) → formulateMultichannelBreitWigner p R m = .error .keyError) ∧
    ∀ f cs, FunctionNamed m p.parametrization f → f.channels = some cs → 2 ≤ cs.length → p.node.length ≠ 2 →
      formulateMultichannelBreitWigner p R m = .error .valueError := by
  refine ⟨fun h => ?_, fun f cs hf hc hl hn => ?_⟩
  · unfold formulateMultichannelBreitWigner
    rw [(C51_function _ m).2.1.2 h]
    rfl
  · match cs, hl with
    | c1 :: c2 :: cs, _ =>
      unfold formulateMultichannelBreitWigner
      rw [functionNamed_iff.2 hf]
      simp only [bind, Except.bind, hc]
      match hnode : p.node with
      | [] => rfl
      | [a] => rfl
      | [a, b] => rw [hnode] at hn; exact absurd rfl hn
      | a :: b :: c :: t => rfl

/-- C59: the errors of a form factor: an unknown function is a `KeyError`, a function of another type than
`BlattWeisskopf` is a `NotImplementedError`, and a missing entry of the function is a `KeyError`. -/
theorem C59_errors {v : Vertex} {name : String} (hv : v.formfactor = some name) (hne : name ≠ "") :
    ((∀ f ∈ m.functions, f.name ≠ name) → formulateFormFactor v m = .error .keyError) ∧
    ∀ f, FunctionNamed m name f →
      (f.type ≠ "BlattWeisskopf" → formulateFormFactor v m = .error .notImplementedError) ∧
      ∀ i j k, v.node = [.id i, .id j] → [i, j, k].Perm [1, 2, 3] → f.type = "BlattWeisskopf" →
        (PyDict.get? f.fields "l" = none ∨ PyDict.get? f.fields "radius" = none) →
        formulateFormFactor v m = .error .keyError := by
  refine ⟨fun h => ?_, fun f hf => ⟨fun ht => ?_, fun i j k hn hp ht hx => ?_⟩⟩
  · unfold formulateFormFactor
    rw [hv]
    simp only [hne, if_false]
    rw [(C51_function _ m).2.1.2 h]
    rfl
  · unfold formulateFormFactor
    rw [hv]
    simp only [hne, if_false]
    rw [functionNamed_iff.2 hf]
    simp only [bind, Except.bind, ht, if_false]
  · have hint : allInt v.node = true := by rw [hn]; rfl
    have hs : toMandelstamSymbol v.node = .ok (mandelstam k) := by
      unfold toMandelstamSymbol
      rw [hint, if_pos rfl, hn, mandelstam_node hp]
    unfold formulateFormFactor
    rw [hv]
    simp only [hne, if_false]
    rw [functionNamed_iff.2 hf]
    simp only [bind, Except.bind, ht, if_true, hs, hint]
    rw [hn]
    rcases hx with hx | hx
    · have : PyDict.get f.fields "l" = .error .keyError := by unfold PyDict.get; rw [hx]
      simp only [List.mapM_cons, List.mapM_nil, toMassSymbol, bind, Except.bind, pure, Except.pure, unpack2, this]
    · have : PyDict.get f.fields "radius" = .error .keyError := by unfold PyDict.get; rw [hx]
      simp only [List.mapM_cons, List.mapM_nil, toMassSymbol, bind, Except.bind, pure, Except.pure, unpack2, this]
      have any : (∃ v, PyDict.get f.fields "l" = .ok v) ∨ PyDict.get f.fields "l" = .error .keyError := by
        unfold PyDict.get
        cases PyDict.get? f.fields "l" with
        | none => exact .inr rfl
        | some v => exact .inl ⟨v, rfl⟩
      rcases any with ⟨v, h⟩ | h <;> rw [h]

/-- Definitions with errors: functions without `d`, without `radius`, and of an unknown type. -/
def badModel : ModelDefinition where
  distributions := []
  functions := [
    ⟨"BW", "BreitWigner", [("mass", 1), ("width", 1 / 10), ("l", 1), ("ma", 1 / 10), ("mb", 1 / 2)], none⟩,
    ⟨"FF", "BlattWeisskopf", [("l", 1)], none⟩,
    ⟨"Exp", "ExponentialFormFactor", [("radius", 1)], none⟩]

theorem badModel_bw : FunctionNamed badModel "BW" badModel.functions[0] := ⟨[], _, rfl, rfl, by simp⟩

theorem badModel_ff : FunctionNamed badModel "FF" badModel.functions[1] := ⟨[_], _, rfl, rfl, by simp⟩

theorem badModel_exp : FunctionNamed badModel "Exp" badModel.functions[2] :=
  ⟨[_, _], _, rfl, rfl, by simp⟩

/-- The errors of these definitions. -/
example (v : Vertex) :
    formulateBreitWigner ⟨some 1, [.id 2, .id 3], "BW"⟩ "K" badModel = .error .keyError ∧
    formulateBreitWigner ⟨some 1, [.id 2, .id 3], "Flatte"⟩ "K" badModel = .error .keyError ∧
    formulateBreitWigner ⟨some 1, [.id 2], "BW"⟩ "K" badModel = .error .valueError ∧
    formulateMultichannelBreitWigner ⟨some 0, [.id 2, .id 3, .id 1], "F0"⟩ "f0" mcModel = .error .valueError ∧
    formulateFormFactor { v with formfactor := some "Exp" } badModel = .error .notImplementedError ∧
    formulateFormFactor { v with formfactor := some "Gauss" } badModel = .error .keyError ∧
    formulateFormFactor { v with formfactor := some "FF", node := [.id 3, .id 1] } badModel = .error .keyError := by
  refine ⟨?_, ?_, ?_, ?_, ?_, ?_, ?_⟩
  · exact (C73_breit_wigner_errors.2 _ badModel_bw).2 2 3 1 rfl (by decide) ⟨"d", by simp, rfl⟩
  · exact C73_breit_wigner_errors.1 (by simp [badModel])
  · exact (C73_breit_wigner_errors.2 _ badModel_bw).1 (by simp)
  · exact C73_multichannel_errors.2 mcModel.functions[0] _ ⟨[], _, rfl, rfl, by simp⟩ rfl (by simp) (by simp)
  · exact ((C59_errors rfl (by decide)).2 _ badModel_exp).1 (by decide)
  · exact (C59_errors rfl (by decide)).1 (by simp [badModel])
  · exact ((C59_errors rfl (by decide)).2 _ badModel_ff).2 3 1 2 rfl (by decide) rfl (.inr rfl)

end Verif.Serialization
