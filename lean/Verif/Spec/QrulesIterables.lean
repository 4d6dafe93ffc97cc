import Verif.Model.QrulesIterables

/-!
Repeated calls with the same argument.
-/
namespace Verif.Qrules
open Verif

/-- The results of `n` calls of `f` with the same object. -/
def calls {α β : Type} (f : Iterable α → Py β × Iterable α) : ℕ → Iterable α → List (Py β)
  | 0, _ => []
  | n + 1, x => (f x).1 :: calls f n (f x).2

end Verif.Qrules
