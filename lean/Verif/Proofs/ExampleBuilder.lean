import Verif.Proofs.Formulate
import Mathlib.Tactic.NormNum

/-! A concrete builder, used to show that the hypotheses of the theorems can be met. -/
namespace Verif.ThreeBody
open Verif Verif.Spec

theorem exDecay_standard : Standard exDecay := by
  refine ⟨exDecay_valid, by decide, ?_, ?_, ?_⟩
  · intro x hx
    simp only [exDecay, exStates, List.mem_cons, List.not_mem_nil, or_false] at hx
    rcases hx with rfl | rfl | rfl | rfl <;> rfl
  · intro x hx
    simp only [exDecay, exStates, List.mem_cons, List.not_mem_nil, or_false] at hx
    rcases hx with rfl | rfl | rfl | rfl
    · exact ⟨1, by norm_num [exState]⟩
    · exact ⟨1, by norm_num [exState]⟩
    · exact ⟨0, by norm_num [exState]⟩
    · exact ⟨0, by norm_num [exState]⟩
  · intro c hc
    simp only [exDecay, List.mem_cons, List.not_mem_nil, or_false] at hc
    rcases hc with rfl | rfl
    · exact ⟨2, by norm_num [exChainK, Obj.toP]⟩
    · exact ⟨3, by norm_num [exChainL, Obj.toP]⟩

theorem exDecay_nonneg : NonnegSpins exDecay := by
  intro x hx
  simp only [exDecay, exStates, List.mem_cons, List.not_mem_nil, or_false] at hx
  rcases hx with rfl | rfl | rfl | rfl <;> norm_num [exState]

/-- A builder without registered dynamics. -/
def exBuilder (p q a : Bool) : Builder := ⟨exDecay, Configurator.init exDecay, p, q, a⟩

theorem unit_lineshapes (d : Decay) (p q a : Bool) :
    Lineshapes ⟨d, Configurator.init d, p, q, a⟩ (fun _ => {}) := by
  intro c hc
  refine ⟨unitDynamics, ?_, rfl⟩
  show Configurator.getBuilder (Configurator.init d) unitDynamics (.name c.resonance.toP.name) = _
  cases hf : d.findChain c.resonance.toP.name with
  | ok c' =>
    show (Except.bind (d.findChain c.resonance.toP.name) _) = _
    rw [hf]
    rfl
  | error e =>
    exfalso
    unfold Decay.findChain at hf
    cases hf' : d.chains.find? fun c' => c'.resonance.toP.name = c.resonance.toP.name with
    | some c' => rw [hf'] at hf; cases hf
    | none =>
      rw [List.find?_eq_none] at hf'
      exact hf' c hc (by simp)

theorem exBuilder_lineshapes (p q a : Bool) : Lineshapes (exBuilder p q a) (fun _ => {}) := by
  intro c hc
  simp only [exBuilder, exDecay, List.mem_cons, List.not_mem_nil, or_false] at hc
  rcases hc with rfl | rfl <;> exact ⟨unitDynamics, rfl, rfl⟩

theorem exBuilder_ls (p q a : Bool) {c : Chain} (hc : c ∈ exDecay.chains) :
    HasLS (exBuilder p q a) c := by
  simp only [exDecay, List.mem_cons, List.not_mem_nil, or_false] at hc
  rcases hc with rfl | rfl <;> exact ⟨fun _ => by simp [exChainK, exChainL], fun _ => by simp [exChainK, exChainL]⟩

theorem exBuilder_ok (p q a : Bool) (cl uc : Bool) :
    ∃ m, (exBuilder p q a).formulate (some 1) cl uc = .ok m := by
  obtain ⟨P, h, -⟩ := formulate_ok (b := exBuilder p q a) (reference := some 1) (ref := 1)
    exDecay_standard (exBuilder_lineshapes p q a) rfl (by simp) cl uc (by
      rw [missing_iff (b := exBuilder p q a) exDecay_standard]
      rintro ⟨-, c, hc, h⟩
      exact h (exBuilder_ls p q a hc))
  exact ⟨_, h⟩

end Verif.ThreeBody
