import Verif.Spec.Serialization
import Mathlib.Tactic.NormNum

/-! A serialized model of `Λc⁺ → p π⁺ K⁻`-like decays, for the examples. -/
namespace Verif.Serialization
open Verif Verif.ThreeBody Verif.Spec

/-- The states: `Lc → p pi K`, in an order that is not sorted. -/
def exKinematics : Kinematics where
  initialState := ⟨0, "Lc", some (1 / 2), 2286 / 1000⟩
  finalState := [⟨3, "K", some 0, 494 / 1000⟩, ⟨1, "p", some (1 / 2), 938 / 1000⟩,
    ⟨2, "pi", some 0, 140 / 1000⟩]

/-- `Lc → (K* → pi K) p` with parity decay vertex. -/
def exKstar : ChainDefinition where
  name := "K892"
  propagators := [⟨some 1, [.id 2, .id 3], "K892_BW"⟩]
  vertices := [
    { type := "helicity", node := [.seq [.id 2, .id 3], .id 1], helicities := some [some 0, some (1 / 2)] },
    { type := "parity", node := [.id 2, .id 3], helicities := some [some 0, some 0],
      parityFactor := some "+" }]
  topology := [.seq [.id 2, .id 3], .id 1]
  weight := some (1, 0)

/-- `Lc → (L → K p) pi`, with the decay vertex first and a complex weight. -/
def exLambda : ChainDefinition where
  name := "L1520"
  propagators := [⟨some (3 / 2), [.id 3, .id 1], "L1520_BW"⟩]
  vertices := [
    { type := "parity", node := [.id 3, .id 1], helicities := some [some 0, some (1 / 2)],
      parityFactor := some "-" },
    { type := "helicity", node := [.id 2, .seq [.id 3, .id 1]],
      helicities := some [some 0, some (-1 / 2)] }]
  topology := [.id 2, .seq [.id 3, .id 1]]
  weight := some (1 / 2, -3)

def exFunctions : List FunctionDefinition := [
  ⟨"K892_BW", "BreitWigner", [("mass", 892 / 1000), ("width", 50 / 1000), ("l", 1), ("ma", 140 / 1000),
    ("mb", 494 / 1000), ("d", 3 / 2)], none⟩,
  ⟨"L1520_BW", "BreitWigner", [("mass", 1520 / 1000), ("width", 16 / 1000), ("l", 2),
    ("ma", 494 / 1000), ("mb", 938 / 1000), ("d", 5)], none⟩,
  ⟨"FF1", "BlattWeisskopf", [("l", 1), ("radius", 3 / 2)], none⟩]

def exModel : ModelDefinition where
  distributions := [⟨exKinematics, [.id 1, .seq [.id 2, .id 3]], [exLambda, exKstar, exKstar]⟩]
  functions := exFunctions

theorem half_half : IsHalfInteger (1 / 2) := ⟨1, by norm_num⟩
theorem half_zero : IsHalfInteger 0 := ⟨0, by norm_num⟩

theorem exKinematics_wf : WellFormedKinematics exKinematics where
  initial := rfl
  final := by decide
  spins := by
    intro d hd
    simp only [exKinematics, List.mem_cons, List.not_mem_nil, or_false] at hd
    rcases hd with rfl | rfl | rfl | rfl
    · exact ⟨_, rfl, half_half⟩
    · exact ⟨_, rfl, half_zero⟩
    · exact ⟨_, rfl, half_half⟩
    · exact ⟨_, rfl, half_zero⟩

theorem exKstar_two : TwoVertices exKstar exKstar.vertices[0] exKstar.vertices[1] 2 3 1 :=
  ⟨.inl rfl, ⟨_, _, .inl rfl⟩, rfl⟩

theorem exLambda_two : TwoVertices exLambda exLambda.vertices[1] exLambda.vertices[0] 3 1 2 :=
  ⟨.inr rfl, ⟨_, _, .inr rfl⟩, rfl⟩

theorem exKstar_wf : WellFormedChain exKstar :=
  ⟨_, _, 2, 3, 1, 1, exKstar_two, by decide, ⟨_, _, rfl, rfl⟩, 2, by norm_num⟩

theorem exLambda_wf : WellFormedChain exLambda :=
  ⟨_, _, 3, 1, 2, 3 / 2, exLambda_two, by decide, ⟨_, _, rfl, rfl⟩, 3, by norm_num⟩

end Verif.Serialization
