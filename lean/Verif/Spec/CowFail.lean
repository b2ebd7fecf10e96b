import Verif.Spec.Indep
import Verif.Model.CowFail

/-
What programs do when memory runs out, without storage: a statement is executed, or it throws `std::bad_alloc` and nothing
happened. (Which of the two is not determined here; but without a failing allocation it is executed.)
-/
namespace Dart.Spec.Indep
open Dart.Cow

/-- The values `e` become `e'` by the statements, which ended as listed. -/
def AllOrNothing (e : Env) : List (Op × Fault) → List End → Env → Prop
  | [], [], e' => e' = e
  | (_, f) :: ops, .badAlloc :: ends, e' => f ≠ .none ∧ AllOrNothing e ops ends e'
  | (op, _) :: ops, .done r :: ends, e' => r = (step e op).2 ∧ AllOrNothing (step e op).1 ops ends e'
  | _, _, _ => False

/-- Not covered: a new object or array that cannot be allocated (undefined, see C70), and with the counters of the library a control
block that cannot be allocated (the copy is lost, see C70). -/
def Survivable (k : Share.Kind) (f : Fault) : Op → Prop
  | .fresh _ .obj => f ≠ .grow
  | .fresh _ .arr => f ≠ .grow
  | _ => k = .own → f ≠ .block

/-- Every statement is covered (as in C16) in the state in which it is executed, and so is its failure. -/
def SurvivableRun (k : Share.Kind) (s : State) : List (Op × Fault) → Prop
  | [] => True
  | (op, f) :: ops => (Covered s op ∧ Survivable k f op) ∧ SurvivableRun k (stepF k s f op).1 ops

end Dart.Spec.Indep
