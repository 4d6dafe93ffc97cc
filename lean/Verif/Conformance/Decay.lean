import Verif.Model.Builder
import Verif.Model.Dynamics
import Verif.Model.Io
import Verif.Model.Qrules
import Verif.Model.Warnings

/-!
The assertions of `/repo/tests` (without `io_serialization`) on the model of the code. These are tests of
the model against the expectations of the authors of the code, not proofs of a property. The transitions
that `qrules.generate_transitions` returns are written down here, without the other spin projections.
-/
namespace Verif.Conformance
open Verif Verif.ThreeBody Verif.Qrules Verif.Angles Verif.RExpr Verif.Io

/-- The returned value satisfies the test. -/
def returns {α : Type} (x : Py α) (test : α → Bool) : Bool :=
  match x with
  | .ok a => test a
  | .error _ => false

/-! ### test_io.py -/

/-- `p`, `π`, `K`, `Λ1520` (test_io.py:13-18, test_decay.py:17-22). -/
def p : Particle := ⟨"p", "p", 1 / 2, some 1, 0, 0⟩
@[inherit_doc p] def pion : Particle := ⟨"π+", "\\pi^+", 0, some (-1), 0, 0⟩
@[inherit_doc p] def K : Particle := ⟨"K-", "K^-", 0, some (-1), 0, 0⟩
@[inherit_doc p] def L1520 : Particle := ⟨"Λ(1520)", "\\Lambda(1520)", 3 / 2, some (-1), 0, 0⟩

-- `test_aslatex_particle` (test_io.py:21-27)
#guard latexParticle L1520 false false = L1520.latex
#guard latexParticle L1520 false true = "\\frac{3}{2}^-"
#guard latexParticle L1520 true false = L1520.latex ++ "\\left[\\frac{3}{2}^-\\right]"

/-- `IsobarNode(Λ1520, p, K)` (test_io.py:31, test_decay.py:27). -/
def isobar (interaction : LSArg) : Py Node :=
  Node.new (.particle L1520) (.leaf (.particle p)) (.leaf (.particle K)) interaction

-- `test_aslatex_isobar_node` (test_io.py:30-43)
#guard returns (isobar .none) fun n => latexNode false false n = "\\left(\\Lambda(1520) \\to p K^-\\right)"
#guard returns (isobar .none) fun n => latexNode true false n =
  "\\left(\\Lambda(1520)\\left[\\frac{3}{2}^-\\right] \\to p\\left[\\frac{1}{2}^+\\right] K^-\\left[0^-\\right]\\right)"
#guard returns (isobar (.pair 2 1)) fun n => latexNode false false n =
  "\\left(\\Lambda(1520) \\xrightarrow[S=1]{L=2} p K^-\\right)"

-- `test_as_markdown_table_particles` (test_io.py:46-58)
#guard returns (asMarkdownTable (.sequence [.obj (.state ⟨p, 1⟩), .obj (.state ⟨K, 2⟩), .obj (.particle pion)])) fun s =>
  s = "| index | name | LaTeX | $J^P$ | mass (MeV) | width (MeV) |\n" ++
    "| --- | --- | --- | --- | --- | --- |\n" ++
    "| 1 | `p` | $p$ | $\\frac{1}{2}^+$ | 0 | 0 |\n" ++
    "| 2 | `K-` | $K^-$ | $0^-$ | 0 | 0 |\n" ++
    "|   | `π+` | $\\pi^+$ | $0^-$ | 0 | 0 |\n"

/-! ### test_decay.py -/

-- `TestIsobarNode.test_children`, `TestIsobarNode.test_ls` (test_decay.py:26-36)
#guard returns (isobar .none) fun n => n.children = [.leaf (.particle p), .leaf (.particle K)]
#guard returns (isobar (.pair 2 1)) fun n => n.interaction = some ⟨2, 1⟩

/-! ### test_angles.py -/

/-- The values of `m0`, ..., `sigma3` (test_angles.py:8-9). -/
def m0 := m 0
@[inherit_doc m0] def m1 := m 1
@[inherit_doc m0] def m2 := m 2
@[inherit_doc m0] def m3 := m 3
@[inherit_doc m0] def σ1 := σ 1
@[inherit_doc m0] def σ2 := σ 2
@[inherit_doc m0] def σ3 := σ 3

-- `test_formulate_scattering_angle` (test_angles.py:12-23), up to the order of the operands, which SymPy
-- does not distinguish
#guard returns (formulateScatteringAngle 2 3) fun x => x.2 = acos ((2 * σ1 * (σ3 - m1 ^ 2 - m2 ^ 2) -
  (σ1 + m2 ^ 2 - m3 ^ 2) * (m0 ^ 2 - σ1 - m1 ^ 2)) / (sqrt (kallen (m0 ^ 2) (m1 ^ 2) σ1) * sqrt (kallen σ1 (m2 ^ 2) (m3 ^ 2))))
#guard returns (formulateScatteringAngle 3 1) fun x => x.2 = acos ((2 * σ2 * (σ1 - m2 ^ 2 - m3 ^ 2) -
  (σ2 + m3 ^ 2 - m1 ^ 2) * (m0 ^ 2 - σ2 - m2 ^ 2)) / (sqrt (kallen (m0 ^ 2) (m2 ^ 2) σ2) * sqrt (kallen σ2 (m3 ^ 2) (m1 ^ 2))))

-- `test_formulate_theta_hat_angle` (test_angles.py:26-33)
#guard returns (formulateThetaHatAngle 1 2) fun x => x.2 = acos (((m0 ^ 2 + m1 ^ 2 - σ1) * (m0 ^ 2 + m2 ^ 2 - σ2) -
  2 * m0 ^ 2 * (σ3 - m1 ^ 2 - m2 ^ 2)) / (sqrt (kallen (m0 ^ 2) (m2 ^ 2) σ2) * sqrt (kallen (m0 ^ 2) σ1 (m1 ^ 2))))
#guard returns (formulateThetaHatAngle 1 2) fun x => returns (formulateThetaHatAngle 2 1) fun y => y.2 = -x.2
#guard [1, 2, 3].all fun i => returns (formulateThetaHatAngle i i) fun x => x.2 = 0

-- `test_formulate_zeta_angle_equation_A6` (test_angles.py:36-44)
#guard [1, 2, 3].all fun i => [1, 2, 3].all fun k => returns (formulateZetaAngle i k 0) fun zk0 =>
  returns (formulateZetaAngle i k i) fun zki => returns (formulateZetaAngle i k k) fun zkk => zki.2 = zk0.2 && zkk.2 = 0

/-! ### test_qrules.py and test_dpd_builder.py -/

/-- The topology of QRules with states `0`, `1`, `2` and resonance `3`, for spectator `k`. -/
def topology (k : ℤ) : Topology :=
  ⟨[0, 1], [(-1, ⟨none, some 0⟩), (0, if k = 0 then ⟨some 0, none⟩ else ⟨some 1, none⟩),
    (1, if k = 1 then ⟨some 0, none⟩ else ⟨some 1, none⟩), (2, if k = 2 then ⟨some 0, none⟩ else ⟨some 1, none⟩),
    (3, ⟨some 0, some 1⟩)]⟩

/-- Particles of QRules (conftest.py:13-50); masses and widths are not used by the tests. -/
def q (name latex : String) (spin : ℚ) (parity : ℤ) : QParticle := ⟨name, some latex, spin, some parity, 1, 0⟩
@[inherit_doc q] def qJpsi := q "J/psi(1S)" "J/\\psi(1S)" 1 (-1)
@[inherit_doc q] def qK0 := q "K0" "K^{0}" 0 (-1)
@[inherit_doc q] def qSigma := q "Sigma+" "\\Sigma^{+}" (1 / 2) 1
@[inherit_doc q] def qPbar := q "p~" "\\overline{p}" (1 / 2) (-1)
@[inherit_doc q] def qN1700 := q "N(1700)+" "N(1700)^{+}" (3 / 2) (-1)
@[inherit_doc q] def qSigma1660 := q "Sigma(1660)~-" "\\overline{\\Sigma}(1660)^{-}" (1 / 2) (-1)
@[inherit_doc q] def qA1 := q "a(1)(1260)0" "a_{1}(1260)^{0}" 1 1
@[inherit_doc q] def qA0 := q "a(0)(980)0" "a_{0}(980)^{0}" 0 1
@[inherit_doc q] def qPi0 := q "pi0" "\\pi^{0}" 0 (-1)
@[inherit_doc q] def qXib := q "Xi(b)-" "\\Xi_{b}^{-}" (1 / 2) 1
@[inherit_doc q] def qP := q "p" "p" (1 / 2) 1
@[inherit_doc q] def qKm := q "K-" "K^{-}" 0 (-1)
@[inherit_doc q] def qL1520 := q "Lambda(1520)" "\\Lambda(1520)" (3 / 2) (-1)

/-- A transition of QRules with spin projections. -/
def transition (k : ℤ) (s0 a b c R : QParticle) (l0 la lb lc lR : ℚ) (prod dec : QNode) : Transition QObj QNode :=
  ⟨topology k, [(-1, .state s0 l0), (0, .state a la), (1, .state b lb), (2, .state c lc), (3, .state R lR)],
    [(0, prod), (1, dec)]⟩

/-- `jpsi2pksigma_reaction` (conftest.py:23-31) in the canonical formalism. -/
def jpsiCanonical : List (Transition QObj QNode) :=
  ([(1, 1), (1, 2)].flatMap fun (l, s) => [3 / 2, 1 / 2].map fun lR =>
    transition 2 qJpsi qK0 qSigma qPbar qN1700 1 0 (1 / 2) (1 / 2) lR (.props (some l) (some s)) (.props (some 2) (some (1 / 2)))) ++
  ([(0, 1), (2, 1)].flatMap fun (l, s) => [-1 / 2, 1 / 2].map fun lR =>
    transition 1 qJpsi qK0 qSigma qPbar qSigma1660 1 0 (1 / 2) (1 / 2) lR (.props (some l) (some s))
      (.props (some 1) (some (1 / 2)))).reverse

/-- `jpsi2pksigma_reaction` (conftest.py:23-31) in the helicity formalism. -/
def jpsiHelicity : List (Transition QObj QNode) :=
  ([3 / 2, 1 / 2].map fun lR =>
    transition 2 qJpsi qK0 qSigma qPbar qN1700 1 0 (1 / 2) (1 / 2) lR (.props none none) (.props none none)) ++
  ([-1 / 2, 1 / 2].map fun lR =>
    transition 1 qJpsi qK0 qSigma qPbar qSigma1660 1 0 (1 / 2) (1 / 2) lR (.props none none) (.props none none))

/-- `a2pipipi_reaction` (conftest.py:13-20). -/
def a2pipipi : List (Transition QObj QNode) :=
  [-1, 0, 1].map fun l => transition 0 qA1 qPi0 qPi0 qPi0 qA0 l 0 0 0 0 (.props none none) (.props none none)

/-- `xib2pkk_reaction` (conftest.py:34-50). -/
def xib2pkk : List (Transition QObj QNode) :=
  let ts := [-1 / 2, 1 / 2].flatMap fun l0 => [-1 / 2, 1 / 2].flatMap fun l1 => [-1 / 2, 1 / 2].map fun lR =>
    transition 2 qXib qP qKm qKm qL1520 l0 l1 0 0 lR (.props none none) (.props none none)
  ts ++ ts.map fun t => { t with topology := t.topology.swapEdges 1 2 }

-- `test_convert_transitions` (test_qrules.py:30-37)
#guard xib2pkk.length = 16
#guard returns (normalizeTransitions xib2pkk) fun ts => returns (convertTransitions ts) fun c => c.length = 2
#guard returns (toThreeBodyDecay xib2pkk (.bool true)) fun d => d.chains.length = 2

-- `test_filter_min_ls` (test_qrules.py:40-97), without the selection of a spin projection of the resonance
#guard returns (convertTransitions jpsiCanonical) fun ts => [none, some [0]].all fun ids =>
  returns (filterMinLs ts ids) fun f => setEq (f.map fun t => t.interactions.map Prod.snd)
    [[some ⟨1, 1⟩, some ⟨2, 1 / 2⟩], [some ⟨0, 1⟩, some ⟨1, 1 / 2⟩]]
#guard returns (convertTransitions jpsiCanonical) fun ts =>
  returns (filterMinLs ts (some [0])) (fun f => f.length = 2) && returns (filterMinLs ts (some [1])) (fun f => f.length = 4)

-- `test_get_equal_final_state_ids` (test_qrules.py:100-119)
#guard [(a2pipipi, [1, 2, 3]), (jpsiHelicity, []), (jpsiCanonical, []), (xib2pkk, [2, 3])].all fun (r, ids) =>
  returns (normalizeTransitions r) fun ts => (ts.take 1).all fun t => equalFinalStateIds t = .ok ids

-- `test_normalize_state_ids_reaction` (test_qrules.py:122-142)
#guard jpsiCanonical.all fun t => returns (normalizeTransition t) fun t' =>
  returns t'.initialStates (fun s => s.keys = [0]) && returns t'.finalStates (fun s => s.keys = [1, 2, 3]) &&
  returns t'.intermediateStates (fun s => s.keys = [4]) &&
  (normalizeTopology t'.topology).incoming = [0] && (normalizeTopology t'.topology).outgoing = [1, 2, 3] &&
  (normalizeTopology t'.topology).intermediate = [4] &&
  t.states.all fun x => PyDict.get? t'.states (x.1 + 1) = some x.2

-- `test_permute_equal_final_states` (test_qrules.py:160-180)
#guard [(1, jpsiCanonical), (1, jpsiHelicity), (2, xib2pkk), (3, a2pipipi)].all fun (n, r) =>
  returns (normalizeTransitions r) fun ts => returns (permuteAll ts) (fun l => l.length = n * ts.length) &&
    (ts.take 1).all fun t => returns (permuteEqualFinalStates t) fun l => l.length = n

-- `test_to_three_body_decay` (test_qrules.py:183-231)
#guard [(jpsiCanonical, true), (jpsiCanonical, false), (jpsiHelicity, true), (jpsiHelicity, false)].all fun (r, b) =>
  returns (toThreeBodyDecay r (.bool b)) fun d => returns (initialState d.states) (fun s => s.name = "J/psi(1S)") &&
    (finalStateDict d.states).map (fun x => (x.1, x.2.name)) = [(1, "K0"), (2, "Sigma+"), (3, "p~")] &&
    setEq (d.chains.map fun c => c.resonance.toP.name) ["N(1700)+", "Sigma(1660)~-"]
#guard returns (toThreeBodyDecay jpsiCanonical (.bool true)) fun d =>
  d.chains.map Chain.incomingLs = [some ⟨1, 1⟩, some ⟨0, 1⟩] && d.chains.map Chain.outgoingLs = [some ⟨2, 1 / 2⟩, some ⟨1, 1 / 2⟩]
#guard returns (toThreeBodyDecay jpsiCanonical (.bool false)) fun d =>
  d.chains.map Chain.incomingLs = [some ⟨1, 1⟩, some ⟨1, 2⟩, some ⟨0, 1⟩, some ⟨2, 1⟩] &&
  d.chains.map Chain.outgoingLs = [some ⟨2, 1 / 2⟩, some ⟨2, 1 / 2⟩, some ⟨1, 1 / 2⟩, some ⟨1, 1 / 2⟩]
#guard returns (toThreeBodyDecay jpsiHelicity (.bool true)) fun d =>
  d.chains.map Chain.incomingLs = [none, none] && d.chains.map Chain.outgoingLs = [none, none]

-- `test_get_best_reference_subsystems` (test_decay.py:39-49)
#guard [(a2pipipi, 1), (xib2pkk, 2), (jpsiCanonical, 2), (jpsiHelicity, 2)].all fun (r, k) =>
  returns (toThreeBodyDecay r (.bool true)) fun d => d.bestReference = .ok k

/-- `builder.formulate(reference_subsystem=2, use_coefficients=...)` with its warnings (test_dpd_builder.py:21-44,
66-77). -/
def formulated (r : List (Transition QObj QNode)) (minLs all coefficients : Bool) : Warned AmplitudeModel := do
  let d ← .lift (toThreeBodyDecay r (.bool minLs))
  let b ← .lift (Builder.new d (.bool minLs) all)
  b.formulateW (some 2) false coefficients

-- `test_all_subsystems` (test_dpd_builder.py:19-60)
#guard [(jpsiCanonical, true), (jpsiCanonical, false), (jpsiHelicity, true)].all fun (r, b) =>
  [true, false].all fun all =>
    let m := formulated r b all false
    (m.warnings.map Warning.message).dedup =
      (if all then ["Decay J/psi(1S) → 1: K0, 2: Sigma+, 3: p~ only has subsystems 2, 3, not 1"] else []) &&
    returns m.result fun a => setEq (a.angleDefs.map fun x => x.1.name)
      (["\\zeta^0_{2(2)}", "\\zeta^0_{3(2)}", "\\zeta^2_{2(2)}", "\\zeta^2_{3(2)}", "\\zeta^3_{2(2)}",
        "\\zeta^3_{3(2)}", "theta_12", "theta_31"] ++ if all then ["theta_23"] else [])

/-- `str` of a helicity or quantum number. -/
def numStr : Hel → String
  | .num x => if x.den = 1 then toString x.num else toString x.num ++ "/" ++ toString x.den
  | _ => "?"

/-- `str` of an indexed symbol. -/
def str (x : Indexed) : String :=
  x.base ++ "[" ++ ", ".intercalate (x.res.toList ++ x.ix.map numStr) ++ "]"

/-- The indexed symbols among the parameters. The test of the code takes those of the evaluated amplitudes
that are not zero. -/
def couplings (a : AmplitudeModel) : List String :=
  (a.parameterDefaults.filterMap fun x => match x.1 with | .idx i => some (str i) | .sym _ => none).mergeSort
    fun x y => decide (x ≤ y)

-- `test_use_coefficients` (test_dpd_builder.py:62-151)
#guard [jpsiCanonical, jpsiHelicity].all fun r => returns (formulated r true false true).result fun a => couplings a = [
  "\\mathcal{H}^\\mathrm{N(1700)^{+}}[-1/2, -1/2, 0, -1/2]",
  "\\mathcal{H}^\\mathrm{N(1700)^{+}}[-1/2, -1/2, 0, 1/2]",
  "\\mathcal{H}^\\mathrm{N(1700)^{+}}[-1/2, 1/2, 0, -1/2]",
  "\\mathcal{H}^\\mathrm{N(1700)^{+}}[-1/2, 1/2, 0, 1/2]",
  "\\mathcal{H}^\\mathrm{N(1700)^{+}}[-3/2, -1/2, 0, -1/2]",
  "\\mathcal{H}^\\mathrm{N(1700)^{+}}[-3/2, -1/2, 0, 1/2]",
  "\\mathcal{H}^\\mathrm{N(1700)^{+}}[1/2, -1/2, 0, -1/2]",
  "\\mathcal{H}^\\mathrm{N(1700)^{+}}[1/2, -1/2, 0, 1/2]",
  "\\mathcal{H}^\\mathrm{N(1700)^{+}}[1/2, 1/2, 0, -1/2]",
  "\\mathcal{H}^\\mathrm{N(1700)^{+}}[1/2, 1/2, 0, 1/2]",
  "\\mathcal{H}^\\mathrm{N(1700)^{+}}[3/2, 1/2, 0, -1/2]",
  "\\mathcal{H}^\\mathrm{N(1700)^{+}}[3/2, 1/2, 0, 1/2]",
  "\\mathcal{H}^\\mathrm{\\overline{\\Sigma}(1660)^{-}}[-1/2, -1/2, -1/2, 0]",
  "\\mathcal{H}^\\mathrm{\\overline{\\Sigma}(1660)^{-}}[-1/2, -1/2, 1/2, 0]",
  "\\mathcal{H}^\\mathrm{\\overline{\\Sigma}(1660)^{-}}[-1/2, 1/2, -1/2, 0]",
  "\\mathcal{H}^\\mathrm{\\overline{\\Sigma}(1660)^{-}}[-1/2, 1/2, 1/2, 0]",
  "\\mathcal{H}^\\mathrm{\\overline{\\Sigma}(1660)^{-}}[1/2, -1/2, -1/2, 0]",
  "\\mathcal{H}^\\mathrm{\\overline{\\Sigma}(1660)^{-}}[1/2, -1/2, 1/2, 0]",
  "\\mathcal{H}^\\mathrm{\\overline{\\Sigma}(1660)^{-}}[1/2, 1/2, -1/2, 0]",
  "\\mathcal{H}^\\mathrm{\\overline{\\Sigma}(1660)^{-}}[1/2, 1/2, 1/2, 0]"]
#guard returns (formulated jpsiCanonical false false true).result fun a => couplings a = [
  "\\mathcal{H}^\\mathrm{LS,N(1700)^{+}}[1, 1, 2, 1/2]",
  "\\mathcal{H}^\\mathrm{LS,N(1700)^{+}}[1, 2, 2, 1/2]",
  "\\mathcal{H}^\\mathrm{LS,\\overline{\\Sigma}(1660)^{-}}[0, 1, 1, 1/2]",
  "\\mathcal{H}^\\mathrm{LS,\\overline{\\Sigma}(1660)^{-}}[2, 1, 1, 1/2]"]
#guard [jpsiCanonical, jpsiHelicity].all fun r => returns (formulated r true false false).result fun a => couplings a = [
  "\\mathcal{H}^\\mathrm{decay}[N(1700)^{+}, 0, -1/2]",
  "\\mathcal{H}^\\mathrm{decay}[N(1700)^{+}, 0, 1/2]",
  "\\mathcal{H}^\\mathrm{decay}[\\overline{\\Sigma}(1660)^{-}, -1/2, 0]",
  "\\mathcal{H}^\\mathrm{decay}[\\overline{\\Sigma}(1660)^{-}, 1/2, 0]",
  "\\mathcal{H}^\\mathrm{production}[N(1700)^{+}, -1/2, -1/2]",
  "\\mathcal{H}^\\mathrm{production}[N(1700)^{+}, -1/2, 1/2]",
  "\\mathcal{H}^\\mathrm{production}[N(1700)^{+}, -3/2, -1/2]",
  "\\mathcal{H}^\\mathrm{production}[N(1700)^{+}, 1/2, -1/2]",
  "\\mathcal{H}^\\mathrm{production}[N(1700)^{+}, 1/2, 1/2]",
  "\\mathcal{H}^\\mathrm{production}[N(1700)^{+}, 3/2, 1/2]",
  "\\mathcal{H}^\\mathrm{production}[\\overline{\\Sigma}(1660)^{-}, -1/2, -1/2]",
  "\\mathcal{H}^\\mathrm{production}[\\overline{\\Sigma}(1660)^{-}, -1/2, 1/2]",
  "\\mathcal{H}^\\mathrm{production}[\\overline{\\Sigma}(1660)^{-}, 1/2, -1/2]",
  "\\mathcal{H}^\\mathrm{production}[\\overline{\\Sigma}(1660)^{-}, 1/2, 1/2]"]
#guard returns (formulated jpsiCanonical false false false).result fun a => couplings a = [
  "\\mathcal{H}^\\mathrm{LS,decay}[N(1700)^{+}, 2, 1/2]",
  "\\mathcal{H}^\\mathrm{LS,decay}[\\overline{\\Sigma}(1660)^{-}, 1, 1/2]",
  "\\mathcal{H}^\\mathrm{LS,production}[N(1700)^{+}, 1, 1]",
  "\\mathcal{H}^\\mathrm{LS,production}[N(1700)^{+}, 1, 2]",
  "\\mathcal{H}^\\mathrm{LS,production}[\\overline{\\Sigma}(1660)^{-}, 0, 1]",
  "\\mathcal{H}^\\mathrm{LS,production}[\\overline{\\Sigma}(1660)^{-}, 2, 1]"]

-- `test_amplitude_doit_hashes` (test_cached.py:39-76): the keys of the amplitudes
#guard returns (formulated jpsiCanonical true false false).result fun a =>
  setEq (a.amplitudes.map fun x => (x.1.base, x.1.ix.map numStr)) (["A^2", "A^3"].flatMap fun A =>
    ["-1", "0", "1"].flatMap fun l0 => ["-1/2", "1/2"].flatMap fun l2 => ["-1/2", "1/2"].map fun l3 => (A, [l0, "0", l2, l3]))

end Verif.Conformance
