import Verif.Model.Cow

/-
What a program over variables should do if every variable had its own private value: no storage, no
sharing, no counting.
-/
namespace Dart.Spec.Indep
open Dart.Cow

/-- The value of every variable. -/
abbrev Env := List Val

/-- Value of a variable. -/
def Env.var (e : Env) (x : Nat) : Val := e[x]?.getD .null

/-- The value of a new object, array or scalar. -/
def freshValue : Fresh → Val
  | .obj => .obj []
  | .arr => .arr []
  | .null => .null
  | .bool b => .bool b
  | .int i => .int i
  | .dec d => .dec d
  | .str t => .str t

/-- On success `x` becomes the new value; on an exception nothing changes. -/
def update (e : Env) (x : Nat) : Res Val → Env × Res Unit
  | .ok v => (e.set x v, .ok ())
  | .throw ex => (e, .throw ex)
  | .ub => (e, .ub)

/-- The argument is null after it was moved from. -/
def takeIf (moved : Bool) (y : Nat) : Env × Res Unit → Env × Res Unit
  | (e, .ok ()) => (if moved then e.set y .null else e, .ok ())
  | o => o

/-- Does `v` have the field? -/
def hasField : Val → Bytes → Bool
  | .obj fs, k => fs.any fun f => f.1 == k
  | _, _ => false

/-- Is the argument of `insert` moved from? Into an array if passed as `heap&&`; under a key that is
already present unless it is constant (for `heap&` this is the defect of C32); under a new key never. -/
def insertMoves (self : Val) : Key → Mode → Bool
  | .name k, m => hasField self k && m != .const
  | .index _, m => m == .rvalue

/-- One statement. The values change as described by the operations on values (C15). -/
def step (e : Env) : Op → Env × Res Unit
  | .fresh x v => (e.set x (freshValue v), .ok ())
  | .copy z y => (e.set z (e.var y), .ok ())
  | .move z y => (if z = y then e else (e.set z (e.var y)).set y .null, .ok ())
  | .get z x (.name k) => update e z ((e.var x).get k)
  | .get z x (.index i) => update e z ((e.var x).getIdx i.toNat)
  | .insert x k y m => takeIf (insertMoves (e.var x) k m) y (update e x ((e.var x).insert k.toVal (e.var y)))
  | .set x k y m => takeIf (m == .rvalue) y (update e x ((e.var x).set k.toVal (e.var y)))
  | .erase x k => update e x ((e.var x).erase k.toVal)
  | .clear x => update e x (e.var x).clear
  | .resize x n y => update e x ((e.var x).resize n (e.var y))

/-- A program: final values, and the outcome of each statement. -/
def run (e : Env) : List Op → Env × List (Res Unit)
  | [] => (e, [])
  | op :: ops => let o := step e op; let r := run o.1 ops; (r.1, o.2 :: r.2)

/-- All variables null. -/
def init (n : Nat) : Env := List.replicate n .null

/-- The variables a statement uses. -/
def uses : Op → List Nat
  | .fresh x _ => [x]
  | .copy z y => [z, y]
  | .move z y => [z, y]
  | .get z x _ => [z, x]
  | .insert x _ y _ => [x, y]
  | .set x _ y _ => [x, y]
  | .erase x _ => [x]
  | .clear x => [x]
  | .resize x _ y => [x, y]

/-- The variables a statement may change: its target, and the argument it moves from. -/
def changes : Op → List Nat
  | .fresh x _ => [x]
  | .copy z _ => [z]
  | .move z y => [z, y]
  | .get z _ _ => [z]
  | .insert x _ y m => if m = .const then [x] else [x, y]
  | .set x _ y m => if m = .const then [x] else [x, y]
  | .erase x _ => [x]
  | .clear x => [x]
  | .resize x _ _ => [x]

/-- The storage of `x` has no other owner (`refcount() == 1`). -/
def Unshared (s : State) (x : Nat) : Prop := refcount s.cells (s.var x) = some 1

/-- Not covered: `clear` and `resize` of shared storage (they lack the copy on write), and inserting a
variable into itself (which makes a cycle). -/
def Covered (s : State) : Op → Prop
  | .clear x => Unshared s x
  | .resize x _ y => Unshared s x ∧ x ≠ y
  | .insert x _ y _ => x ≠ y
  | .set x _ y _ => x ≠ y
  | _ => True

/-- Every statement is covered in the state in which it is executed. -/
def CoveredRun (s : State) : List Op → Prop
  | [] => True
  | op :: ops => Covered s op ∧ CoveredRun (Cow.step s op).1 ops

/-- The variable, with all storage it points to, has this value. -/
def Holds (s : State) (x : Nat) (v : Val) : Prop := ∃ d, view s.cells d (s.var x) = some v

end Dart.Spec.Indep
