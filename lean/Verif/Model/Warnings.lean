import Verif.Model.Builder

/-!
Model of the warnings of the builder (/repo/src/ampform_dpd/__init__.py:304-315, decay.py:119-132) and of
`mute_ampform_warnings` (/repo/src/ampform_dpd/io/__init__.py:222-225).

Functions that warn are written a second time, in a monad that records the calls of `warnings.warn` up to the
point where the function returns or raises. What is not repeated here is lifted from Model/Builder.lean; the
dynamics builders registered by a user are taken not to warn. All warnings are of category `UserWarning` and
have the stack level 1, so that Python attributes them to the module that contains the call of `warn`.
-/
namespace Verif.ThreeBody
open Verif Verif.Spin Verif.Angles

/-- A call of `warnings.warn(message, category=UserWarning)` in the given module (__init__.py:311-315,
decay.py:125-126). -/
structure Warning where
  module : String
  message : String
  deriving DecidableEq, Repr

/-- A Python computation together with the warnings it emits (__init__.py:304-315, decay.py:119-132). -/
structure Warned (α : Type) where
  warnings : List Warning
  result : Py α

/-- A computation that does not warn (what __init__.py:92-302 calls without a warning). -/
def Warned.lift {α : Type} (x : Py α) : Warned α := ⟨[], x⟩

/-- Statements one after the other, up to the first exception; the warnings add up (__init__.py:92-161). -/
instance : Monad Warned where
  pure a := .lift (.ok a)
  bind x f := match x.result with
    | .error e => ⟨x.warnings, .error e⟩
    | .ok a => ⟨x.warnings ++ (f a).warnings, (f a).result⟩

/-- `warnings.warn(message, category=UserWarning)` (__init__.py:315, decay.py:126). -/
def warn (module message : String) : Warned Unit := ⟨[⟨module, message⟩], .ok ()⟩

/-- `_get_decay_description` (decay.py:129-132). -/
def decayDescription (d : Decay) : Py String := do
  let s0 ← initialState d.states
  return s0.name ++ " → " ++
    ", ".intercalate ((finalStateDict d.states).map fun x => toString x.1 ++ ": " ++ x.2.name)

/-- `", ".join(sorted(str(i) for i in _get_subsystem_ids(decay)))` (decay.py:123, __init__.py:310). -/
def subsystemText (d : Decay) : String :=
  ", ".intercalate ((d.subsystemIds.map toString).mergeSort fun a b => decide (a ≤ b))

/-- `ThreeBodyDecay.get_subsystem` (decay.py:119-126). -/
def Decay.getSubsystemW (d : Decay) (k : ℤ) : Warned Decay := do
  let filtered := d.chains.filter (fun c => c.spectator.index = k)
  if filtered.isEmpty then
    let description ← .lift (decayDescription d)
    warn "ampform_dpd.decay"
      ("Decay " ++ description ++ " only has subsystems " ++ subsystemText d ++ ", not " ++ toString k)
  .lift (Decay.new d.states filtered)

/-- The list comprehension in `_get_best_reference_subsystems` (__init__.py:298-300). -/
def countLoop (d : Decay) : List ℤ → Warned (List (ℤ × ℕ))
  | [] => .lift (.ok [])
  | k :: t => do
    let s ← d.getSubsystemW k
    let r ← countLoop d t
    return (k, s.chains.length) :: r

/-- `_get_best_reference_subsystems` (__init__.py:293-301). -/
def Decay.bestReferenceW (d : Decay) : Warned ℤ := do
  if d.subsystemIds.isEmpty then .lift (.error .valueError)
  else
    let counts ← countLoop d d.subsystemIds
    match maxBySnd counts with
    | some r => return r.1
    | none => .lift (.error .valueError)

/-- `_check_reference_subsystems` (__init__.py:304-315). -/
def Decay.checkReferenceW (d : Decay) (r : ℤ) : Warned Unit :=
  if r ∉ d.subsystemIds then do
    let description ← .lift (decayDescription d)
    warn "ampform_dpd"
      ("Decay " ++ description ++ " only has subsystems " ++ subsystemText d ++ ". Are you" ++
        " sure you want to use subsystem " ++ toString r ++ " as reference?")
  else .lift (.ok ())

/-- The choice of the reference subsystem (__init__.py:109-112 and 262-265). -/
def Decay.referenceW (d : Decay) (reference : Option ℤ) : Warned ℤ :=
  match reference with
  | none => d.bestReferenceW
  | some r => do
    d.checkReferenceW r
    return r

/-- `formulate_subsystem_amplitude` (__init__.py:163-252). -/
def Builder.subsystemAmplitudeW (b : Builder) (l0 l1 l2 l3 : ℚ) (k : ℤ) (useCoefficients : Bool) :
    Warned AmplitudeModel := do
  let ij ← .lift (getDecayProductIds k)
  let i := ij.1
  let j := ij.2
  let θ ← .lift (formulateScatteringAngle i j)
  let lam := tup l0 l1 l2 l3
  let final := finalStateDict b.decay.states
  let s0 ← .lift (initialState b.decay.states)
  let s1 ← .lift (final.get 1)
  let s2 ← .lift (final.get 2)
  let s3 ← .lift (final.get 3)
  let spin := tup s0.spin s1.spin s2.spin s3.spin
  let sub ← b.decay.getSubsystemW k
  let r ← .lift (chainLoop b final lam spin i j k θ.1 useCoefficients sub.chains [])
  let amp := ampSym k (.num l0) (.num l1) (.num l2) (.num l3)
  return { decay := b.decay, intensity := .pow (.abs (.idx amp)) 2,
           amplitudes := [(amp, Expr.addAll r.2)], angleDefs := [θ], parameterDefaults := r.1 }

/-- `formulate_aligned_amplitude` (__init__.py:254-284). -/
def Builder.alignedAmplitudeW (b : Builder) (h : ℤ → Hel) (reference : Option ℤ) :
    Warned (Expr × PyDict Sym RExpr) := do
  let ref ← b.decay.referenceW reference
  .lift (b.alignedAmplitude h ref)

/-- The double loop (__init__.py:128-135). -/
def subsystemLoopW (b : Builder) (useCoefficients : Bool) :
    List ((ℚ × ℚ × ℚ × ℚ) × ℤ) → Acc → Warned Acc
  | [], acc => .lift (.ok acc)
  | (l, k) :: t, acc => do
    let m ← b.subsystemAmplitudeW l.1 l.2.1 l.2.2.1 l.2.2.2 k useCoefficients
    subsystemLoopW b useCoefficients t
      ⟨acc.amplitudes.update m.amplitudes, acc.angleDefs.update m.angleDefs,
        acc.parameters.update m.parameterDefaults⟩

/-- `formulate` (__init__.py:92-161). The reference subsystem is checked here and once more in
`formulate_aligned_amplitude`. -/
def Builder.formulateW (b : Builder) (reference : Option ℤ) (cleanup useCoefficients : Bool) :
    Warned AmplitudeModel := do
  let ref ← b.decay.referenceW reference
  let s0 ← .lift (b.decay.states.get 0)
  let s1 ← .lift (b.decay.states.get 1)
  let s2 ← .lift (b.decay.states.get 2)
  let s3 ← .lift (b.decay.states.get 3)
  let spin := tup s0.spin s1.spin s2.spin s3.spin
  let allowed := [0, 1, 2, 3].map fun i => (lambdaSym i, createSpinRange (spin i))
  let acc ← subsystemLoopW b useCoefficients ((helicityTuples spin).product b.subsystems) {}
  let aligned ← b.alignedAmplitudeW (fun i => .sym (lambdaSym i)) (some ref)
  let angleDefs := acc.angleDefs.update aligned.2
  let masses ← .lift (createMassSymbolMapping b.decay)
  let parameters := acc.parameters.update (massParams masses)
  let amp := if cleanup then aligned.1.cleanup else aligned.1
  let invariants ← .lift (formulateInvariants b.decay)
  return { decay := b.decay, intensity := .psum (.pow (.abs amp) 2) allowed,
           amplitudes := acc.amplitudes, angleDefs := angleDefs, parameterDefaults := parameters,
           masses := masses, invariants := invariants }

/-! ### What Python does with a warning -/

/-- The action of a warning filter of Python (`"module"` and `"once"` are not modelled) (io/__init__.py:225). -/
inductive Action where
  | default
  | error
  | ignore
  | always
  deriving DecidableEq, Repr

/-- An entry of `warnings.filters` for `UserWarning`, with the regular expression for the module (`None`: any
module) (io/__init__.py:225). -/
structure Filter where
  action : Action
  module : Option String
  deriving DecidableEq, Repr

/-- `re.compile(pattern).match(text)` for patterns in which a point is the only special character
(`warnings.filterwarnings` at io/__init__.py:225). -/
def matchPrefix : List Char → List Char → Bool
  | [], _ => true
  | _ :: _, [] => false
  | p :: ps, c :: cs => (p == '.' || p == c) && matchPrefix ps cs

/-- Whether a filter applies to a warning (Python, for the filter of io/__init__.py:225). -/
def Filter.applies (f : Filter) (w : Warning) : Bool :=
  match f.module with
  | none => true
  | some p => matchPrefix p.toList w.module.toList

/-- The action for a warning: that of the first filter that applies, else `warnings.defaultaction` (Python,
for the filter of io/__init__.py:225). -/
def actionFor (filters : List Filter) (w : Warning) : Action :=
  match filters.find? (·.applies w) with
  | some f => f.action
  | none => .default

/-- What happens to a sequence of warnings: those that are shown, and whether one is raised as an exception,
which ends the sequence. `seen` are the warnings in the registries of the modules: for the action `default`
they are not shown again (Python, for the warnings of __init__.py:315 and decay.py:126). -/
def process (filters : List Filter) : List Warning → List Warning → List Warning × Bool
  | _, [] => ([], false)
  | seen, w :: t =>
    match actionFor filters w with
    | .ignore => process filters seen t
    | .error => ([], true)
    | .always => (w :: (process filters seen t).1, (process filters seen t).2)
    | .default =>
      if w ∈ seen then process filters seen t
      else (w :: (process filters (w :: seen) t).1, (process filters (w :: seen) t).2)

/-- `warnings.filterwarnings(action, category=UserWarning, module=module)`: the filter comes first, and an
equal filter is removed (io/__init__.py:225). -/
def filterwarnings (f : Filter) (filters : List Filter) : List Filter := f :: filters.erase f

/-- `mute_ampform_warnings` (io/__init__.py:222-225), without the level of the logger of AmpForm. -/
def muteAmpformWarnings (filters : List Filter) : List Filter :=
  filterwarnings ⟨.ignore, some "ampform_dpd.decay"⟩ filters

end Verif.ThreeBody
