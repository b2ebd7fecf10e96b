import Verif.Spec.Indep
import Verif.Model.CowIter

/-
What a program with iterators should do if every variable had its own private value and every iterator
were simply a position in the value of a variable. Whatever a client must not do (use an iterator after
the variable it came from may have changed, step past the end, compare iterators of different
variables, …) has the outcome `ub`.
-/
namespace Dart.Spec.Cursor
open Dart.Cow Dart.Spec.Indep

/-- An iterator: without a value, no longer usable, or a position in a variable. -/
inductive Cursor
  | empty
  | lost
  | at (x p : Nat) (keys : Bool)
  deriving DecidableEq

/-- The values of the variables and the iterators. -/
structure World where
  env : Env
  cursors : List Cursor

/-- An iterator variable. -/
def World.cursor (w : World) (i : Nat) : Cursor := w.cursors[i]?.getD .empty

/-- The items of an aggregate in the order of iteration: the values of an object in the order of its
keys, its keys, or the elements of an array. -/
def items (keys : Bool) : Val → Option (List Val)
  | .obj fs => some (fs.map fun f => if keys then .str f.1 else f.2)
  | .arr es => if keys then none else some es
  | _ => none

/-- The position of a key, of an index; the size if there is no such item. -/
def position : Key → Val → Nat
  | .name k, .obj fs => (fs.map (·.1)).idxOf k
  | .index i, .arr es => min i.toNat es.length
  | _, _ => 0

/-- The key or index of an item. For an array also the end has an index. -/
def keyAt : Val → Nat → Option Key
  | .obj fs, p => fs[p]?.map fun f => .name f.1
  | .arr _, p => some (.index (BitVec.ofNat 64 p))
  | _, _ => none

/-- The iterators of these variables are not usable any more. -/
def forget (xs : List Nat) : Cursor → Cursor
  | .at x p keys => if x ∈ xs then .lost else .at x p keys
  | c => c

/-- The iterators after a statement: those of variables that may have changed are lost, but moving a
value takes its iterators along. -/
def follow : Op → Cursor → Cursor
  | .move z y, .at x p keys =>
    if z = y then .at x p keys else if x = y then .at z p keys else if x = z then .lost else .at x p keys
  | op, c => forget (changes op) c

/-- An iterator variable is assigned. -/
def World.point (w : World) (i : Nat) (c : Cursor) : World := { w with cursors := w.cursors.set i c }

/-- A call that returns an iterator into `x`; `pos` gives its position from the old and the new value of
`x`. All other iterators of variables that may have changed are lost, also if the call throws. -/
def World.call (w : World) (j x : Nat) (op : Op) (pos : Val → Val → Nat) (keys : Bool) : World × Res Seen :=
  let o := Indep.step w.env op
  let w' : World := ⟨o.1, w.cursors.map (forget (changes op))⟩
  match o.2 with
  | .ok () => (w'.point j (.at x (pos (w.env.var x) (o.1.var x)) keys), .ok .done)
  | .throw e => (w', .throw e)
  | .ub => (w', .ub)

/-- A call with an iterator argument: an iterator without a value is refused, one into another variable,
or a lost one, or (for objects) the end must not be used. -/
def World.arg (w : World) (i x : Nat) (f : Key → Bool → World × Res Seen) : World × Res Seen :=
  match w.cursor i with
  | .empty => (w, .throw .invalidArgument)
  | .lost => (w, .ub)
  | .at z p keys =>
    if z = x then
      match keyAt (w.env.var x) p with
      | some k => f k keys
      | none => (w, .ub)
    else (w, .ub)

/-- One statement. -/
def step (w : World) : ItOp → World × Res Seen
  | .plain op =>
    let o := Indep.step w.env op
    (⟨o.1, w.cursors.map (follow op)⟩, o.2.bind fun _ => .ok .done)
  | .first i x keys =>
    match items keys (w.env.var x) with
    | some _ => (w.point i (.at x 0 keys), .ok .done)
    | none => (w, .throw .typeError)
  | .past i x keys =>
    match items keys (w.env.var x) with
    | some l => (w.point i (.at x l.length keys), .ok .done)
    | none => (w, .throw .typeError)
  | .search i x k keys =>
    match w.env.var x with
    | .obj fs => (w.point i (.at x (position (.name k) (.obj fs)) keys), .ok .done)
    | _ => (w, .throw .typeError)
  | .next i =>
    match w.cursor i with
    | .at x p keys =>
      match items keys (w.env.var x) with
      | some l => if p < l.length then (w.point i (.at x (p + 1) keys), .ok .done) else (w, .ub)
      | none => (w, .ub)
    | _ => (w, .ub)
  | .prev i =>
    match w.cursor i with
    | .at x p keys => if 0 < p then (w.point i (.at x (p - 1) keys), .ok .done) else (w, .ub)
    | _ => (w, .ub)
  | .dup i j => (w.point i (w.cursor j), .ok .done)
  | .take i j => (if i = j then w else (w.point i (w.cursor j)).point j .empty, .ok .done)
  | .same i j =>
    if i = j then (w, .ok (.truth true))
    else match w.cursor i, w.cursor j with
      | .at x p _, .at z q _ => if x = z then (w, .ok (.truth (decide (p = q)))) else (w, .ub)
      | .empty, .empty => (w, .ok (.truth true))
      | .at _ _ _, .empty => (w, .ok (.truth false))
      | .empty, .at _ _ _ => (w, .ok (.truth false))
      | _, _ => (w, .ub)
  | .isSet i => (w, .ok (.truth (decide (w.cursor i ≠ .empty))))
  | .deref z i =>
    match w.cursor i with
    | .at x p keys =>
      match (items keys (w.env.var x)).bind fun l => l[p]? with
      | some v => (⟨w.env.set z v, w.cursors.map (forget [z])⟩, .ok .done)
      | none => (w, .ub)
    | _ => (w, .ub)
  | .insert j x k y m => w.call j x (.insert x k y m) (fun _ new => position k new) false
  | .set j x k y m => w.call j x (.set x k y m) (fun _ new => position k new) false
  | .erase j x k => w.call j x (.erase x k) (fun old _ => position k old) false
  | .insertAt j x i y m => w.arg i x fun k _ => w.call j x (.insert x k y m) (fun _ new => position k new) false
  | .setAt j x i y m => w.arg i x fun k _ => w.call j x (.set x k y m) (fun _ new => position k new) false
  | .eraseAt j x i => w.arg i x fun k keys => w.call j x (.erase x k) (fun old _ => position k old) keys
  | .reserve x n =>
    match w.env.var x with
    | .arr _ =>
      if n > maxElems then (w, .throw .lengthError)
      else ({ w with cursors := w.cursors.map (forget [x]) }, .ok .done)
    | _ => (w, .throw .typeError)

/-- A program: the final values and iterators, and what each statement showed. -/
def run (w : World) : List ItOp → World × List (Res Seen)
  | [] => (w, [])
  | op :: ops => let o := step w op; let r := run o.1 ops; (r.1, o.2 :: r.2)

/-- All variables null, all iterators without a value. -/
def init (n m : Nat) : World := ⟨Indep.init n, List.replicate m .empty⟩

/-- The variables a statement uses. -/
def uses : ItOp → List Nat
  | .plain op => Indep.uses op
  | .first _ x _ => [x]
  | .past _ x _ => [x]
  | .search _ x _ _ => [x]
  | .deref z _ => [z]
  | .insert _ x _ y _ => [x, y]
  | .set _ x _ y _ => [x, y]
  | .erase _ x _ => [x]
  | .insertAt _ x _ y _ => [x, y]
  | .setAt _ x _ y _ => [x, y]
  | .eraseAt _ x _ => [x]
  | .reserve x _ => [x]
  | _ => []

/-- Not covered: `clear`, `resize` and `reserve` of shared storage (they lack the copy on write), and
inserting a variable into itself. -/
def Covered (s : State) : ItOp → Prop
  | .plain op => Indep.Covered s op
  | .insert _ x _ y _ => x ≠ y
  | .set _ x _ y _ => x ≠ y
  | .insertAt _ x _ y _ => x ≠ y
  | .setAt _ x _ y _ => x ≠ y
  | .reserve x _ => Unshared s x
  | _ => True

/-- Every statement is covered in the state in which it is executed. -/
def CoveredRun (s : IState) : List ItOp → Prop
  | [] => True
  | op :: ops => Covered s.st op ∧ CoveredRun (istep s op).1 ops

/-- The items whose decision is not to drop them. -/
def kept {α : Type} (ds : List Bool) (l : List α) : List α := ((l.zip ds).filter fun p => !p.2).map (·.1)

/-- The body of a loop that erases the items with a positive decision. -/
def prune (i x : Nat) (ds : List Bool) : List ItOp := ds.map fun d => if d then .eraseAt i x i else .next i

end Dart.Spec.Cursor
