import Verif.Proofs.Decay

/-! A concrete decay, used to show that the hypotheses of the theorems can be met. -/
namespace Verif.ThreeBody
open Verif Verif.Spec

/-! ### Concrete objects for the examples -/

/-- A spin-`s` state. -/
def exState (name : String) (s : ℚ) (m : ℚ) (i : ℤ) : State := ⟨⟨name, name, s, some (-1), m, 0⟩, i⟩
/-- Λc → p K π. -/
def exStates : PyDict ℤ State :=
  [(0, exState "Lc" (1/2) 2 0), (1, exState "p" (1/2) 1 1), (2, exState "pi" 0 (1/7) 2),
   (3, exState "K" 0 (1/2) 3)]
def exK : Node :=
  .isobar (.state (exState "Lc" (1/2) 2 0))
    (.isobar (.particle ⟨"K*", "K^*", 1, some (-1), 9/10, 1/20⟩)
      (.leaf (.state (exState "pi" 0 (1/7) 2))) (.leaf (.state (exState "K" 0 (1/2) 3))) (some ⟨1, 0⟩))
    (.leaf (.state (exState "p" (1/2) 1 1))) (some ⟨0, 1/2⟩)
def exL : Node :=
  .isobar (.state (exState "Lc" (1/2) 2 0))
    (.isobar (.particle ⟨"L*", "L^*", 3/2, some (-1), 3/2, 1/60⟩)
      (.leaf (.state (exState "K" 0 (1/2) 3))) (.leaf (.state (exState "p" (1/2) 1 1))) (some ⟨2, 1/2⟩))
    (.leaf (.state (exState "pi" 0 (1/7) 2))) (some ⟨1, 3/2⟩)

def exChainK : Chain :=
  ⟨exK, exState "Lc" (1/2) 2 0, .particle ⟨"K*", "K^*", 1, some (-1), 9/10, 1/20⟩,
    exState "pi" 0 (1/7) 2, exState "K" 0 (1/2) 3, exState "p" (1/2) 1 1, some ⟨0, 1/2⟩,
    some ⟨1, 0⟩⟩
def exChainL : Chain :=
  ⟨exL, exState "Lc" (1/2) 2 0, .particle ⟨"L*", "L^*", 3/2, some (-1), 3/2, 1/60⟩,
    exState "K" 0 (1/2) 3, exState "p" (1/2) 1 1, exState "pi" 0 (1/7) 2, some ⟨1, 3/2⟩,
    some ⟨2, 1/2⟩⟩
/-- A decay with two chains in two subsystems. -/
def exDecay : Decay := ⟨exStates, [exChainK, exChainL]⟩

theorem exK_ok : Chain.new exK = .ok exChainK := by
  rw [chainNew_shape _ _ _ _ _ _ _ exK (.inl rfl)]; rfl

theorem exL_ok : Chain.new exL = .ok exChainL := by
  rw [chainNew_shape _ _ _ _ _ _ _ exL (.inl rfl)]; rfl

theorem exDecay_valid : exDecay.Valid := by
  refine ⟨?_, ?_⟩
  · have hf : (finalStateDict exStates).map Prod.snd =
        [exState "p" (1/2) 1 1, exState "pi" 0 (1/7) 2, exState "K" 0 (1/2) 3] := rfl
    have : checkChains (exState "Lc" (1/2) 2 0) ((finalStateDict exStates).map Prod.snd)
        exDecay.chains = .ok () := by
      rw [checkChains_ok, hf]
      intro c hc
      rcases List.mem_cons.1 hc with rfl | hc
      · refine ⟨rfl, fun s => ?_⟩
        simp only [exChainK, List.mem_cons, List.not_mem_nil, or_false]
      · rcases List.mem_cons.1 hc with rfl | hc
        · refine ⟨rfl, fun s => ?_⟩
          simp only [exChainL, List.mem_cons, List.not_mem_nil, or_false]
          tauto
        · simp at hc
    have h0 : initialState exDecay.states = .ok (exState "Lc" (1/2) 2 0) := rfl
    unfold Decay.new
    rw [h0]
    simp only [bind, Except.bind]
    rw [show exDecay.states = exStates from rfl, this]; rfl
  intro c hc
  rcases List.mem_cons.1 hc with rfl | hc
  · exact exK_ok
  · rcases List.mem_cons.1 hc with rfl | hc
    · exact exL_ok
    · simp at hc

end Verif.ThreeBody
