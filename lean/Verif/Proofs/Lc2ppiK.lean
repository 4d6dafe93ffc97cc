import Verif.Spec.Serialization

/-!
The amplitude model of `Λc⁺ → p π⁺ K⁻` that comes with the code, `/repo/docs/Lc2ppiK.json`, as used in
`/repo/tests/io_serialization` and `/repo/docs`. Generated by `/verif/tools/lc2ppik.py`, do not edit.
Only the keys of format.py are taken over.
-/
namespace Verif.Serialization
open Verif Verif.ThreeBody

/-- `kinematics` (docs/Lc2ppiK.json). -/
def lcKinematics : Kinematics where
  initialState := ⟨0, "Lc", some (1 / 2), 114323 / 50000⟩
  finalState := [⟨1, "p", some (1 / 2), 469136023 / 500000000⟩,
    ⟨2, "pi", some 0, 6978509 / 50000000⟩,
    ⟨3, "K", some 0, 493677 / 1000000⟩]

/-- Chain 0 (docs/Lc2ppiK.json). -/
def lc0 : ChainDefinition where
  name := "L1405"
  propagators := [⟨some (1 / 2), [.id 3, .id 1], "L1405_Flatte"⟩]
  vertices := [
    { type := "helicity", node := [.seq [.id 3, .id 1], .id 2], formfactor := some "",
      helicities := some [some (1 / 2), some 0] },
    { type := "parity", node := [.id 3, .id 1], formfactor := some "",
      helicities := some [some 0, some (1 / 2)], parityFactor := some "+" }]
  topology := [.seq [.id 3, .id 1], .id 2]
  weight := some (738649400481717 / 100000000000000, 1971018433257411 / 1000000000000000)

/-- Chain 1 (docs/Lc2ppiK.json). -/
def lc1 : ChainDefinition where
  name := "L1405"
  propagators := [⟨some (1 / 2), [.id 3, .id 1], "L1405_Flatte"⟩]
  vertices := [
    { type := "helicity", node := [.seq [.id 3, .id 1], .id 2], formfactor := some "",
      helicities := some [some ((-1) / 2), some 0] },
    { type := "parity", node := [.id 3, .id 1], formfactor := some "",
      helicities := some [some 0, some (1 / 2)], parityFactor := some "+" }]
  topology := [.seq [.id 3, .id 1], .id 2]
  weight := some ((-6466471714961103) / 2000000000000000, 5639431138403943 / 2500000000000000)

/-- Chain 2 (docs/Lc2ppiK.json). -/
def lc2 : ChainDefinition where
  name := "L1520"
  propagators := [⟨some (3 / 2), [.id 3, .id 1], "L1520_BW"⟩]
  vertices := [
    { type := "helicity", node := [.seq [.id 3, .id 1], .id 2], formfactor := some "BlattWeisskopf_b_decay_l1",
      helicities := some [some ((-1) / 2), some 0] },
    { type := "parity", node := [.id 3, .id 1], formfactor := some "BlattWeisskopf_resonance_l2",
      helicities := some [some 0, some (1 / 2)], parityFactor := some "-" }]
  topology := [.seq [.id 3, .id 1], .id 2]
  weight := some (146999 / 1000000, 11081 / 500000)

/-- Chain 3 (docs/Lc2ppiK.json). -/
def lc3 : ChainDefinition where
  name := "L1520"
  propagators := [⟨some (3 / 2), [.id 3, .id 1], "L1520_BW"⟩]
  vertices := [
    { type := "helicity", node := [.seq [.id 3, .id 1], .id 2], formfactor := some "BlattWeisskopf_b_decay_l1",
      helicities := some [some (1 / 2), some 0] },
    { type := "parity", node := [.id 3, .id 1], formfactor := some "BlattWeisskopf_resonance_l2",
      helicities := some [some 0, some (1 / 2)], parityFactor := some "-" }]
  topology := [.seq [.id 3, .id 1], .id 2]
  weight := some ((-160687) / 2000000, 1498833 / 2000000)

/-- Chain 4 (docs/Lc2ppiK.json). -/
def lc4 : ChainDefinition where
  name := "L1600"
  propagators := [⟨some (1 / 2), [.id 3, .id 1], "L1600_BW"⟩]
  vertices := [
    { type := "helicity", node := [.seq [.id 3, .id 1], .id 2], formfactor := some "",
      helicities := some [some (1 / 2), some 0] },
    { type := "parity", node := [.id 3, .id 1], formfactor := some "BlattWeisskopf_resonance_l1",
      helicities := some [some 0, some (1 / 2)], parityFactor := some "-" }]
  topology := [.seq [.id 3, .id 1], .id 2]
  weight := some (4929406127531439 / 1000000000000000, (-5956915012088891) / 10000000000000000)

/-- Chain 5 (docs/Lc2ppiK.json). -/
def lc5 : ChainDefinition where
  name := "L1600"
  propagators := [⟨some (1 / 2), [.id 3, .id 1], "L1600_BW"⟩]
  vertices := [
    { type := "helicity", node := [.seq [.id 3, .id 1], .id 2], formfactor := some "",
      helicities := some [some ((-1) / 2), some 0] },
    { type := "parity", node := [.id 3, .id 1], formfactor := some "BlattWeisskopf_resonance_l1",
      helicities := some [some 0, some (1 / 2)], parityFactor := some "-" }]
  topology := [.seq [.id 3, .id 1], .id 2]
  weight := some ((-8557139333109699) / 2500000000000000, (-272482360693369) / 125000000000000)

/-- Chain 6 (docs/Lc2ppiK.json). -/
def lc6 : ChainDefinition where
  name := "L1670"
  propagators := [⟨some (1 / 2), [.id 3, .id 1], "L1670_BW"⟩]
  vertices := [
    { type := "helicity", node := [.seq [.id 3, .id 1], .id 2], formfactor := some "",
      helicities := some [some ((-1) / 2), some 0] },
    { type := "parity", node := [.id 3, .id 1], formfactor := some "",
      helicities := some [some 0, some (1 / 2)], parityFactor := some "+" }]
  topology := [.seq [.id 3, .id 1], .id 2]
  weight := some ((-12006142814461687) / 50000000000000000, (-10230279488850731) / 100000000000000000)

/-- Chain 7 (docs/Lc2ppiK.json). -/
def lc7 : ChainDefinition where
  name := "L1670"
  propagators := [⟨some (1 / 2), [.id 3, .id 1], "L1670_BW"⟩]
  vertices := [
    { type := "helicity", node := [.seq [.id 3, .id 1], .id 2], formfactor := some "",
      helicities := some [some (1 / 2), some 0] },
    { type := "parity", node := [.id 3, .id 1], formfactor := some "",
      helicities := some [some 0, some (1 / 2)], parityFactor := some "+" }]
  topology := [.seq [.id 3, .id 1], .id 2]
  weight := some ((-40374241570833247) / 100000000000000000, 3577369878641639 / 5000000000000000)

/-- Chain 8 (docs/Lc2ppiK.json). -/
def lc8 : ChainDefinition where
  name := "L1690"
  propagators := [⟨some (3 / 2), [.id 3, .id 1], "L1690_BW"⟩]
  vertices := [
    { type := "helicity", node := [.seq [.id 3, .id 1], .id 2], formfactor := some "BlattWeisskopf_b_decay_l1",
      helicities := some [some ((-1) / 2), some 0] },
    { type := "parity", node := [.id 3, .id 1], formfactor := some "BlattWeisskopf_resonance_l2",
      helicities := some [some 0, some (1 / 2)], parityFactor := some "-" }]
  topology := [.seq [.id 3, .id 1], .id 2]
  weight := some ((-96443) / 500000, (-22047) / 400000)

/-- Chain 9 (docs/Lc2ppiK.json). -/
def lc9 : ChainDefinition where
  name := "L1690"
  propagators := [⟨some (3 / 2), [.id 3, .id 1], "L1690_BW"⟩]
  vertices := [
    { type := "helicity", node := [.seq [.id 3, .id 1], .id 2], formfactor := some "BlattWeisskopf_b_decay_l1",
      helicities := some [some (1 / 2), some 0] },
    { type := "parity", node := [.id 3, .id 1], formfactor := some "BlattWeisskopf_resonance_l2",
      helicities := some [some 0, some (1 / 2)], parityFactor := some "-" }]
  topology := [.seq [.id 3, .id 1], .id 2]
  weight := some ((-85331) / 62500, (-353613) / 2000000)

/-- Chain 10 (docs/Lc2ppiK.json). -/
def lc10 : ChainDefinition where
  name := "L2000"
  propagators := [⟨some (1 / 2), [.id 3, .id 1], "L2000_BW"⟩]
  vertices := [
    { type := "helicity", node := [.seq [.id 3, .id 1], .id 2], formfactor := some "",
      helicities := some [some (1 / 2), some 0] },
    { type := "parity", node := [.id 3, .id 1], formfactor := some "",
      helicities := some [some 0, some (1 / 2)], parityFactor := some "+" }]
  topology := [.seq [.id 3, .id 1], .id 2]
  weight := some ((-15330976577270363) / 5000000000000000, (-1342156552943061) / 500000000000000)

/-- Chain 11 (docs/Lc2ppiK.json). -/
def lc11 : ChainDefinition where
  name := "L2000"
  propagators := [⟨some (1 / 2), [.id 3, .id 1], "L2000_BW"⟩]
  vertices := [
    { type := "helicity", node := [.seq [.id 3, .id 1], .id 2], formfactor := some "",
      helicities := some [some ((-1) / 2), some 0] },
    { type := "parity", node := [.id 3, .id 1], formfactor := some "",
      helicities := some [some 0, some (1 / 2)], parityFactor := some "+" }]
  topology := [.seq [.id 3, .id 1], .id 2]
  weight := some ((-1416839933735117) / 250000000000000, (-269195763729753) / 50000000000000)

/-- Chain 12 (docs/Lc2ppiK.json). -/
def lc12 : ChainDefinition where
  name := "D1232"
  propagators := [⟨some (3 / 2), [.id 1, .id 2], "D1232_BW"⟩]
  vertices := [
    { type := "helicity", node := [.seq [.id 1, .id 2], .id 3], formfactor := some "BlattWeisskopf_b_decay_l1",
      helicities := some [some ((-1) / 2), some 0] },
    { type := "parity", node := [.id 1, .id 2], formfactor := some "BlattWeisskopf_resonance_l1",
      helicities := some [some (1 / 2), some 0], parityFactor := some "+" }]
  topology := [.seq [.id 1, .id 2], .id 3]
  weight := some ((-6778191) / 2000000, 610361 / 400000)

/-- Chain 13 (docs/Lc2ppiK.json). -/
def lc13 : ChainDefinition where
  name := "D1232"
  propagators := [⟨some (3 / 2), [.id 1, .id 2], "D1232_BW"⟩]
  vertices := [
    { type := "helicity", node := [.seq [.id 1, .id 2], .id 3], formfactor := some "BlattWeisskopf_b_decay_l1",
      helicities := some [some (1 / 2), some 0] },
    { type := "parity", node := [.id 1, .id 2], formfactor := some "BlattWeisskopf_resonance_l1",
      helicities := some [some (1 / 2), some 0], parityFactor := some "+" }]
  topology := [.seq [.id 1, .id 2], .id 3]
  weight := some ((-12987193) / 2000000, 283021 / 125000)

/-- Chain 14 (docs/Lc2ppiK.json). -/
def lc14 : ChainDefinition where
  name := "D1600"
  propagators := [⟨some (3 / 2), [.id 1, .id 2], "D1600_BW"⟩]
  vertices := [
    { type := "helicity", node := [.seq [.id 1, .id 2], .id 3], formfactor := some "BlattWeisskopf_b_decay_l1",
      helicities := some [some ((-1) / 2), some 0] },
    { type := "parity", node := [.id 1, .id 2], formfactor := some "BlattWeisskopf_resonance_l1",
      helicities := some [some (1 / 2), some 0], parityFactor := some "+" }]
  topology := [.seq [.id 1, .id 2], .id 3]
  weight := some (2280317 / 400000, (-3125511) / 2000000)

/-- Chain 15 (docs/Lc2ppiK.json). -/
def lc15 : ChainDefinition where
  name := "D1600"
  propagators := [⟨some (3 / 2), [.id 1, .id 2], "D1600_BW"⟩]
  vertices := [
    { type := "helicity", node := [.seq [.id 1, .id 2], .id 3], formfactor := some "BlattWeisskopf_b_decay_l1",
      helicities := some [some (1 / 2), some 0] },
    { type := "parity", node := [.id 1, .id 2], formfactor := some "BlattWeisskopf_resonance_l1",
      helicities := some [some (1 / 2), some 0], parityFactor := some "+" }]
  topology := [.seq [.id 1, .id 2], .id 3]
  weight := some (6729211 / 2000000, (-1002383) / 2000000)

/-- Chain 16 (docs/Lc2ppiK.json). -/
def lc16 : ChainDefinition where
  name := "D1700"
  propagators := [⟨some (3 / 2), [.id 1, .id 2], "D1700_BW"⟩]
  vertices := [
    { type := "helicity", node := [.seq [.id 1, .id 2], .id 3], formfactor := some "BlattWeisskopf_b_decay_l1",
      helicities := some [some ((-1) / 2), some 0] },
    { type := "parity", node := [.id 1, .id 2], formfactor := some "BlattWeisskopf_resonance_l2",
      helicities := some [some (1 / 2), some 0], parityFactor := some "-" }]
  topology := [.seq [.id 1, .id 2], .id 3]
  weight := some ((-259457) / 50000, (-179359) / 250000)

/-- Chain 17 (docs/Lc2ppiK.json). -/
def lc17 : ChainDefinition where
  name := "D1700"
  propagators := [⟨some (3 / 2), [.id 1, .id 2], "D1700_BW"⟩]
  vertices := [
    { type := "helicity", node := [.seq [.id 1, .id 2], .id 3], formfactor := some "BlattWeisskopf_b_decay_l1",
      helicities := some [some (1 / 2), some 0] },
    { type := "parity", node := [.id 1, .id 2], formfactor := some "BlattWeisskopf_resonance_l2",
      helicities := some [some (1 / 2), some 0], parityFactor := some "-" }]
  topology := [.seq [.id 1, .id 2], .id 3]
  weight := some ((-6437051) / 1000000, (-210557) / 200000)

/-- Chain 18 (docs/Lc2ppiK.json). -/
def lc18 : ChainDefinition where
  name := "K700"
  propagators := [⟨some 0, [.id 2, .id 3], "K700_BuggBW"⟩]
  vertices := [
    { type := "helicity", node := [.seq [.id 2, .id 3], .id 1], formfactor := some "",
      helicities := some [some 0, some (1 / 2)] },
    { type := "parity", node := [.id 2, .id 3], formfactor := some "",
      helicities := some [some 0, some 0], parityFactor := some "+" }]
  topology := [.seq [.id 2, .id 3], .id 1]
  weight := some (17227 / 250000, 630361 / 250000)

/-- Chain 19 (docs/Lc2ppiK.json). -/
def lc19 : ChainDefinition where
  name := "K700"
  propagators := [⟨some 0, [.id 2, .id 3], "K700_BuggBW"⟩]
  vertices := [
    { type := "helicity", node := [.seq [.id 2, .id 3], .id 1], formfactor := some "",
      helicities := some [some 0, some ((-1) / 2)] },
    { type := "parity", node := [.id 2, .id 3], formfactor := some "",
      helicities := some [some 0, some 0], parityFactor := some "+" }]
  topology := [.seq [.id 2, .id 3], .id 1]
  weight := some ((-268563) / 100000, 3849 / 100000)

/-- Chain 20 (docs/Lc2ppiK.json). -/
def lc20 : ChainDefinition where
  name := "K892"
  propagators := [⟨some 1, [.id 2, .id 3], "K892_BW"⟩]
  vertices := [
    { type := "helicity", node := [.seq [.id 2, .id 3], .id 1], formfactor := some "",
      helicities := some [some (-1), some ((-1) / 2)] },
    { type := "parity", node := [.id 2, .id 3], formfactor := some "BlattWeisskopf_resonance_l1",
      helicities := some [some 0, some 0], parityFactor := some "+" }]
  topology := [.seq [.id 2, .id 3], .id 1]
  weight := some (1721390034848291 / 2500000000000000, (-1480634972596217) / 2500000000000000)

/-- Chain 21 (docs/Lc2ppiK.json). -/
def lc21 : ChainDefinition where
  name := "K892"
  propagators := [⟨some 1, [.id 2, .id 3], "K892_BW"⟩]
  vertices := [
    { type := "helicity", node := [.seq [.id 2, .id 3], .id 1], formfactor := some "",
      helicities := some [some 0, some (1 / 2)] },
    { type := "parity", node := [.id 2, .id 3], formfactor := some "BlattWeisskopf_resonance_l1",
      helicities := some [some 0, some 0], parityFactor := some "+" }]
  topology := [.seq [.id 2, .id 3], .id 1]
  weight := some ((-839634722979781) / 2000000000000000, (-2398905956940163) / 1000000000000000)

/-- Chain 22 (docs/Lc2ppiK.json). -/
def lc22 : ChainDefinition where
  name := "K892"
  propagators := [⟨some 1, [.id 2, .id 3], "K892_BW"⟩]
  vertices := [
    { type := "helicity", node := [.seq [.id 2, .id 3], .id 1], formfactor := some "",
      helicities := some [some 0, some ((-1) / 2)] },
    { type := "parity", node := [.id 2, .id 3], formfactor := some "BlattWeisskopf_resonance_l1",
      helicities := some [some 0, some 0], parityFactor := some "+" }]
  topology := [.seq [.id 2, .id 3], .id 1]
  weight := some (2886751345948129 / 5000000000000000, 0)

/-- Chain 23 (docs/Lc2ppiK.json). -/
def lc23 : ChainDefinition where
  name := "K892"
  propagators := [⟨some 1, [.id 2, .id 3], "K892_BW"⟩]
  vertices := [
    { type := "helicity", node := [.seq [.id 2, .id 3], .id 1], formfactor := some "",
      helicities := some [some 1, some (1 / 2)] },
    { type := "parity", node := [.id 2, .id 3], formfactor := some "BlattWeisskopf_resonance_l1",
      helicities := some [some 0, some 0], parityFactor := some "+" }]
  topology := [.seq [.id 2, .id 3], .id 1]
  weight := some ((-3627429387489347) / 2000000000000000, (-2376813937564757) / 1250000000000000)

/-- Chain 24 (docs/Lc2ppiK.json). -/
def lc24 : ChainDefinition where
  name := "K1430"
  propagators := [⟨some 0, [.id 2, .id 3], "K1430_BuggBW"⟩]
  vertices := [
    { type := "helicity", node := [.seq [.id 2, .id 3], .id 1], formfactor := some "",
      helicities := some [some 0, some (1 / 2)] },
    { type := "parity", node := [.id 2, .id 3], formfactor := some "",
      helicities := some [some 0, some 0], parityFactor := some "+" }]
  topology := [.seq [.id 2, .id 3], .id 1]
  weight := some ((-167879) / 25000, 10479411 / 1000000)

/-- Chain 25 (docs/Lc2ppiK.json). -/
def lc25 : ChainDefinition where
  name := "K1430"
  propagators := [⟨some 0, [.id 2, .id 3], "K1430_BuggBW"⟩]
  vertices := [
    { type := "helicity", node := [.seq [.id 2, .id 3], .id 1], formfactor := some "",
      helicities := some [some 0, some ((-1) / 2)] },
    { type := "parity", node := [.id 2, .id 3], formfactor := some "",
      helicities := some [some 0, some 0], parityFactor := some "+" }]
  topology := [.seq [.id 2, .id 3], .id 1]
  weight := some (109877 / 500000, 2185299 / 250000)

/-- `chains` (docs/Lc2ppiK.json). -/
def lcChains : List ChainDefinition := [lc0, lc1, lc2, lc3, lc4, lc5, lc6, lc7, lc8, lc9, lc10, lc11, lc12,
  lc13, lc14, lc15, lc16, lc17, lc18, lc19, lc20, lc21, lc22, lc23, lc24, lc25]

/-- `functions` (docs/Lc2ppiK.json). -/
def lcFunctions : List FunctionDefinition := [
  ⟨"L1405_Flatte", "MultichannelBreitWigner", [("mass", 14051 / 10000)],
    some [[("gsq", 23395150538434703 / 100000000000000000), ("ma", 469136023 / 500000000), ("mb", 493677 / 1000000), ("l", 0), ("d", 0)],
      [("gsq", 23395150538434703 / 100000000000000000), ("ma", 118937 / 100000), ("mb", 6978509 / 50000000), ("l", 0), ("d", 0)]]⟩,
  ⟨"L1690_BW", "BreitWigner", [("l", 2), ("mb", 469136023 / 500000000), ("d", 3 / 2), ("mass", 169 / 100), ("ma", 493677 / 1000000), ("width", 7 / 100)],
    none⟩,
  ⟨"D1232_BW", "BreitWigner", [("l", 1), ("mb", 6978509 / 50000000), ("d", 3 / 2), ("mass", 154 / 125), ("ma", 469136023 / 500000000), ("width", 117 / 1000)],
    none⟩,
  ⟨"L1520_BW", "BreitWigner", [("l", 2), ("mb", 469136023 / 500000000), ("d", 3 / 2), ("mass", 1518467 / 1000000), ("ma", 493677 / 1000000), ("width", 3039 / 200000)],
    none⟩,
  ⟨"L1600_BW", "BreitWigner", [("l", 1), ("mb", 469136023 / 500000000), ("d", 3 / 2), ("mass", 163 / 100), ("ma", 493677 / 1000000), ("width", 1 / 4)],
    none⟩,
  ⟨"L2000_BW", "BreitWigner", [("l", 0), ("mb", 469136023 / 500000000), ("d", 3 / 2), ("mass", 198819 / 100000), ("ma", 493677 / 1000000), ("width", 8963 / 50000)],
    none⟩,
  ⟨"D1600_BW", "BreitWigner", [("l", 1), ("mb", 6978509 / 50000000), ("d", 3 / 2), ("mass", 41 / 25), ("ma", 469136023 / 500000000), ("width", 3 / 10)],
    none⟩,
  ⟨"D1700_BW", "BreitWigner", [("l", 2), ("mb", 6978509 / 50000000), ("d", 3 / 2), ("mass", 169 / 100), ("ma", 469136023 / 500000000), ("width", 19 / 50)],
    none⟩,
  ⟨"K892_BW", "BreitWigner", [("l", 1), ("mb", 493677 / 1000000), ("d", 3 / 2), ("mass", 1791 / 2000), ("ma", 6978509 / 50000000), ("width", 9459999999999999 / 200000000000000000)],
    none⟩,
  ⟨"K700_BuggBW", "BreitWignerWidthExpLikeBugg", [("slope", 47053 / 50000), ("mass", 103 / 125), ("width", 239 / 500)],
    none⟩,
  ⟨"K1430_BuggBW", "BreitWignerWidthExpLikeBugg", [("slope", 20981 / 1000000), ("mass", 11 / 8), ("width", 19 / 100)],
    none⟩,
  ⟨"L1670_BW", "BreitWigner", [("l", 0), ("mb", 469136023 / 500000000), ("d", 3 / 2), ("mass", 167 / 100), ("ma", 493677 / 1000000), ("width", 3 / 100)],
    none⟩,
  ⟨"BlattWeisskopf_resonance_l1", "BlattWeisskopf", [("radius", 3 / 2), ("l", 1)],
    none⟩,
  ⟨"BlattWeisskopf_resonance_l2", "BlattWeisskopf", [("radius", 3 / 2), ("l", 2)],
    none⟩,
  ⟨"BlattWeisskopf_b_decay_l1", "BlattWeisskopf", [("radius", 5), ("l", 1)],
    none⟩]

/-- The first item of `distributions` (docs/Lc2ppiK.json). -/
def lcDistribution : Distribution := ⟨lcKinematics, [.seq [.id 3, .id 1], .id 2], lcChains⟩

/-- docs/Lc2ppiK.json. -/
def lcModel : ModelDefinition := ⟨[lcDistribution], lcFunctions⟩

end Verif.Serialization
