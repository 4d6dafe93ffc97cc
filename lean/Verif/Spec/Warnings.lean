import Verif.Model.Warnings
import Verif.Spec.Builder

/-!
Specification of the warnings: their texts, and when they are due. Of the model only the data types (decays,
warnings) are used.
-/
namespace Verif.Spec
open Verif Verif.ThreeBody

/-- Some chain of the decay has the spectator `k`. -/
def HasSubsystem (d : Decay) (k : ℤ) : Prop := ∃ c ∈ d.chains, c.spectator.index = k

/-- `Lambda_c → 1: p, 2: pi, 3: K`; the final states in the order of the dictionary of states. -/
def decayText (d : Decay) : String :=
  (d.st 0).name ++ " → " ++
    ", ".intercalate ((d.states.filter (·.1 ≠ 0)).map fun x => toString x.1 ++ ": " ++ x.2.name)

open Classical in
/-- The numbers of the subsystems that exist, in ascending order. -/
noncomputable def existingText (d : Decay) : String :=
  ", ".intercalate ((["1", "2", "3"].zip [1, 2, 3]).filter (fun x => HasSubsystem d x.2) |>.map Prod.fst)

/-- The warning about a subsystem without chains. -/
noncomputable def missingWarning (d : Decay) (k : ℤ) : Warning where
  module := "ampform_dpd.decay"
  message := "Decay " ++ decayText d ++ " only has subsystems " ++ existingText d ++ ", not " ++ toString k

/-- The warning about an unusual reference subsystem. -/
noncomputable def referenceWarning (d : Decay) (r : ℤ) : Warning where
  module := "ampform_dpd"
  message := "Decay " ++ decayText d ++ " only has subsystems " ++ existingText d ++
    ". Are you sure you want to use subsystem " ++ toString r ++ " as reference?"

open Classical in
/-- The warnings about the requested reference subsystem: one, if it has no chains. -/
noncomputable def referenceWarnings (d : Decay) (reference : Option ℤ) : List Warning :=
  (reference.toList.filter fun r => ¬ HasSubsystem d r).map (referenceWarning d)

open Classical in
/-- The warnings about subsystems without chains; there are none unless all subsystems are requested. -/
noncomputable def missingWarnings (b : Builder) : List Warning :=
  if b.allSubsystems then ([1, 2, 3].filter fun k => ¬ HasSubsystem b.decay k).map (missingWarning b.decay) else []

end Verif.Spec
