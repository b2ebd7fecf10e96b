import Verif.Spec.Own
import Verif.Model.BufView

/-
What views of buffers are for.
-/
namespace Dart.Spec.BufViews
open Dart.Own

/-- The states a program with `n` buffer variables and `m` views can be in. -/
def Reachable (signed : Bool) (n m : Nat) (s : VState) : Prop := ∃ ops, (VState.start n m).run signed ops = .ok s

/-- The step changes the buffer variable `v`. -/
def Changes (v : Nat) : VOp → Prop
  | .plain op => Assigns v op
  | .own u _ => u = v
  | _ => False

/-- The step changes the view variable `x`. -/
def Points (x : Nat) : VOp → Prop
  | .look z _ => z = x
  | .get z _ _ => z = x
  | .getIdx z _ _ => z = x
  | .dup z _ => z = x
  | .take z y => z = x ∨ y = x
  | _ => False

/-- The memory seen through the view has not been freed. -/
def Readable (s : VState) (w : View) : Prop := ∀ b p, w.pos = some (b, p) → s.own.alive b = true

/-- The step leaves the variable alone that the view was made from. -/
def Spares (op : VOp) (w : View) : Prop :=
  match w.src with
  | .var v => ¬ Changes v op
  | _ => True

/-- The step is not the constructor from a span (C35). -/
def NoSpan : VOp → Prop
  | .plain op => NotSpan op
  | _ => True

/-- The step leaves the variables alone that are looked at, and does not use the constructor from a span. -/
def Covered (s : VState) (op : VOp) : Prop := (∀ w ∈ s.views, Spares op w) ∧ NoSpan op

/-- All steps of the program do. -/
def CoveredRun (signed : Bool) : VState → List VOp → Prop
  | _, [] => True
  | s, op :: ops => Covered s op ∧
    match s.step signed op with
    | .ok t => CoveredRun signed t ops
    | .throw _ => CoveredRun signed s ops
    | .ub => True

/-- The program with everything about views left out. -/
def withoutViews : List VOp → List Op
  | [] => []
  | .plain op :: ops => op :: withoutViews ops
  | _ :: ops => withoutViews ops

/-- No owner is made from a view. -/
def NoOwn : VOp → Prop
  | .own _ _ => False
  | _ => True

end Dart.Spec.BufViews
