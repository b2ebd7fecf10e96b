import Verif.Spec.Indep
import Verif.Model.CowView

/-
What a program with views should do if every variable had its own private value and every view were a
name for (a part of) the value of a variable. Whatever a client must not do (use a view after the
variable it came from may have changed) has the outcome `ub`.
-/
namespace Dart.Spec.Views
open Dart.Cow Dart.Spec.Indep

/-- A view: a scalar or string, copied when the view was made; the part of the value of a variable under
this path of keys and indices, whatever that value is at the time the view is used; or no longer usable. -/
inductive View
  | snap (v : Val)
  | live (x : Nat) (path : List Key)
  | lost

/-- The values of the variables and the views. -/
structure World where
  env : Env
  views : List View

/-- A view variable. -/
def World.view (w : World) (i : Nat) : View := w.views[i]?.getD (.snap .null)

/-- What is under a key or index (C15). -/
def item (v : Val) : Key → Res Val
  | .name k => v.get k
  | .index i => v.getIdx i.toNat

/-- What is under a path. -/
def walk (v : Val) : List Key → Option Val
  | [] => some v
  | k :: p => (item v k).toOption.bind fun w => walk w p

/-- The value a view shows. -/
def World.shows (w : World) (i : Nat) : Option Val :=
  match w.view i with
  | .snap v => some v
  | .live x p => walk (w.env.var x) p
  | .lost => none

/-- Is it an object or an array? -/
def isAggregate : Val → Bool
  | .obj _ => true
  | .arr _ => true
  | _ => false

/-- Both objects, or both arrays. -/
def sameKind : Val → Val → Bool
  | .obj _, .obj _ => true
  | .arr _, .arr _ => true
  | _, _ => false

/-- A view of the value `v`, which is found in variable `x` under a path. -/
def seen (x : Nat) (p : List Key) (v : Val) : View := if isAggregate v then .live x p else .snap v

/-- A view after the variables changed from `old` to `new`, where at most `xs` were changed. A view of a
whole variable is good as long as the variable is an object or as long as it is an array; a view of a part
of a variable is lost if the variable may have changed. -/
def renew (old new : Env) (xs : List Nat) : View → View
  | .live x [] => if sameKind (old.var x) (new.var x) then .live x [] else .lost
  | .live x (k :: p) => if x ∈ xs then .lost else .live x (k :: p)
  | v => v

/-- A view after a statement: moving a value takes the views of its parts along. -/
def follow (old new : Env) : Op → View → View
  | .move z y, .live x (k :: p) =>
    if z = y then .live x (k :: p)
    else if x = y then .live z (k :: p) else if x = z then .lost else .live x (k :: p)
  | op, v => renew old new (changes op) v

/-- A view variable is assigned. -/
def World.point (w : World) (i : Nat) (v : View) : World := { w with views := w.views.set i v }

/-- The type of a value, and the value of a scalar or string. -/
def whatIs : Val → Fresh
  | .obj _ => .obj
  | .arr _ => .arr
  | .null => .null
  | .bool b => .bool b
  | .int i => .int i
  | .dec d => .dec d
  | .str t => .str t

/-- A view of a part of what a view shows. -/
def part (k : Key) (v : Val) : View → View
  | .live x p => seen x (p ++ [k]) v
  | _ => .snap v

/-- One statement. -/
def step (w : World) : VwOp → World × Res Glimpse
  | .plain op =>
    let o := Indep.step w.env op
    (⟨o.1, w.views.map (follow w.env o.1 op)⟩, o.2.bind fun _ => .ok .done)
  | .look i x => (w.point i (seen x [] (w.env.var x)), .ok .done)
  | .sub i j k =>
    match w.shows j with
    | some v =>
      match item v k with
      | .ok u => (w.point i (part k u (w.view j)), .ok .done)
      | .throw e => (w, .throw e)
      | .ub => (w, .ub)
    | none => (w, .ub)
  | .dup i j => (w.point i (w.view j), .ok .done)
  | .take i j => (if i = j then w else (w.point i (w.view j)).point j (.snap .null), .ok .done)
  | .own z i =>
    match w.shows i with
    | some v => (⟨w.env.set z v, w.views.map (renew w.env (w.env.set z v) [z])⟩, .ok .done)
    | none => (w, .ub)
  | .what i =>
    match w.shows i with
    | some v => (w, .ok (.kind (whatIs v)))
    | none => (w, .ub)
  | .size i =>
    match w.shows i with
    | some v => (w, v.size.bind fun n => .ok (.num n))
    | none => (w, .ub)

/-- A program: the final values and views, and what each statement showed. -/
def run (w : World) : List VwOp → World × List (Res Glimpse)
  | [] => (w, [])
  | op :: ops => let o := step w op; let r := run o.1 ops; (r.1, o.2 :: r.2)

/-- All variables and views null. -/
def init (n m : Nat) : World := ⟨Indep.init n, List.replicate m (.snap .null)⟩

/-- The variables a statement uses. -/
def uses : VwOp → List Nat
  | .plain op => Indep.uses op
  | .look _ x => [x]
  | .own z _ => [z]
  | _ => []

/-- Not covered: as for programs without views. -/
def Covered (s : State) : VwOp → Prop
  | .plain op => Indep.Covered s op
  | _ => True

/-- Every statement is covered in the state in which it is executed. -/
def CoveredRun (s : VState) : List VwOp → Prop
  | [] => True
  | op :: ops => Covered s.st op ∧ CoveredRun (vstep s op).1 ops

end Dart.Spec.Views
