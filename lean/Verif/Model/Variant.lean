import Verif.Model.Optional

/-
The bundled `variant` (MPark.Variant), used where the standard library has none: storage in which an object of one of
several types is created and destroyed by hand, and the number of the type. Constructors and assignments may throw.
-/
namespace Dart.Vrt
open Dart.Opt (Obj Fate)

variable {α : Type}

/-- Whether something is copied or moved. -/
inductive Mode
  | copy
  | move
  deriving DecidableEq, Repr

/-- The alternatives: how many, and which of them `std::is_nothrow_move_constructible` and
`std::is_nothrow_copy_constructible` say cannot throw. -/
structure Traits where
  count : Nat
  moveSafe : Nat → Bool
  copySafe : Nat → Bool

/-- Whether constructing alternative `k` from another one cannot throw. -/
def Traits.safe (t : Traits) : Mode → Nat → Bool
  | .copy, k => t.copySafe k
  | .move, k => t.moveSafe k

/-- How constructing alternative `k` from another one ends: one that cannot throw does not. -/
def Traits.fate (t : Traits) (m : Mode) (k : Nat) (f : Fate) : Fate := if t.safe m k then .returns else f

/-- `static_cast<index_t>(-1)`, `index_t = unsigned int`, include/dart/support/variant.h 1697, 1704. -/
def npos32 : Nat := 2 ^ 32 - 1

/-- `variant_npos`, include/dart/support/variant.h 969: `static_cast<std::size_t>(-1)`. -/
def npos64 : Nat := 2 ^ 64 - 1

/-- `base`, include/dart/support/variant.h 1699-1737: `index_`, and the object that lives in `data_` with the number of its
alternative, if any. -/
structure Cell (α : Type) where
  index : Nat
  store : Option (Nat × Obj α)
  deriving DecidableEq

/-- `base(valueless_t)`, include/dart/support/variant.h 1702-1704. -/
def Cell.empty : Cell α := ⟨npos32, none⟩

/-- `valueless_by_exception`, include/dart/support/variant.h 1711-1713. -/
def Cell.valueless (c : Cell α) : Bool := c.index == npos32

/-- `index`, include/dart/support/variant.h 1715-1717. -/
def Cell.indexOf (c : Cell α) : Nat := if c.valueless then npos64 else c.index

/-- `dispatcher::dispatch` and `dispatch_at`, include/dart/support/variant.h 1194-1365: thirty-two cases at a time starting
from `b`; a case past the number of alternatives, and the default past the last block, are `__builtin_unreachable`. The
answer is the alternative that is visited. -/
def dispatch (n b i : Nat) : Option Nat :=
  if n ≤ b then none
  else if b ≤ i ∧ i < b + 32 then (if i < n then some i else none)
  else dispatch n (b + 32) i
termination_by n - b

/-- `fmatrix` and `fdiagonal` with `at`, include/dart/support/variant.h 1366-1496 (where `switch` is not allowed in constant
expressions): a table of functions made for `0, 1, …`. -/
def table (n i : Nat) : Option Nat := (List.range n)[i]?

/-- `get_alt<I>`, include/dart/support/variant.h 1101-1158: undefined unless an object of alternative `k` is there. -/
def Cell.getAlt (c : Cell α) (k : Nat) : Option (Obj α) :=
  match c.store with
  | some (k', x) => if k' = k then some x else none
  | none => none

/-- `destructor::destroy` with `dtor`, include/dart/support/variant.h 1739-1798. -/
def Traits.destroy (t : Traits) (c : Cell α) : Option (Cell α) :=
  if c.valueless then some { c with index := npos32 }
  else (dispatch t.count 0 c.indexOf).bind fun k => (c.getAlt k).map fun _ => ⟨npos32, none⟩

/-- `construct_alt`, include/dart/support/variant.h 1828-1833. Creating an object on top of another one counts as undefined.
The flag says whether it returned. -/
def Cell.constructAlt (c : Cell α) (k : Nat) (x : Obj α) (e : Fate) : Option (Cell α × Bool) :=
  match c.store with
  | some _ => none
  | none => match e with
    | .returns => some ({ c with store := some (k, x) }, true)
    | .throws _ _ => some (c, false)

/-- What a constructor or an assignment that ended like this leaves of what it was given. -/
def Cell.used (c : Cell α) (m : Mode) (k : Nat) (e : Fate) : Cell α :=
  match m with
  | .copy => c
  | .move => { c with store := some (k, .left (match e with | .returns => 0 | .throws _ s => s)) }

/-- `generic_construct`, include/dart/support/variant.h 1835-1853. -/
def Traits.genericConstruct (t : Traits) (m : Mode) (lhs rhs : Cell α) (f : Fate) : Option (Cell α × Cell α × Bool) :=
  (t.destroy lhs).bind fun lhs =>
    if rhs.valueless then some (lhs, rhs, true)
    else (dispatch t.count 0 rhs.indexOf).bind fun k => (rhs.getAlt k).bind fun x =>
      (lhs.constructAlt k x (t.fate m k f)).map fun r =>
        (if r.2 then { r.1 with index := rhs.index } else r.1, rhs.used m k (t.fate m k f), r.2)

/-- `assignment::emplace`, include/dart/support/variant.h 1939-1948. -/
def Traits.emplace (t : Traits) (c : Cell α) (k : Nat) (x : Obj α) (e : Fate) : Option (Cell α × Bool) :=
  (t.destroy c).bind fun c => (c.constructAlt k x e).map fun r => (if r.2 then { r.1 with index := k } else r.1, r.2)

/-- `assign_alt`, include/dart/support/variant.h 1961-1989. `safe`: constructing alternative `k` from the argument cannot
throw; `f`: how the assignment or the construction from the argument ends; `g`: how moving the temporary ends. -/
def Traits.assignAlt (t : Traits) (c : Cell α) (k : Nat) (x : Obj α) (safe : Bool) (f g : Fate) :
    Option (Cell α × Bool) :=
  if c.indexOf = k then (c.getAlt k).map fun _ =>
    match f with
    | .returns => ({ c with store := some (k, x) }, true)
    | .throws s _ => ({ c with store := some (k, .left s) }, false)
  else if safe || !t.moveSafe k then t.emplace c k x (if safe then .returns else f)
  else match f with
    | .returns => t.emplace c k x (t.fate .move k g)
    | .throws _ _ => some (c, false)

/-- `generic_assign`, include/dart/support/variant.h 1991-2012. -/
def Traits.genericAssign (t : Traits) (m : Mode) (c o : Cell α) (f g : Fate) : Option (Cell α × Cell α × Bool) :=
  if c.valueless && o.valueless then some (c, o, true)
  else if o.valueless then (t.destroy c).map fun c => (c, o, true)
  else (dispatch t.count 0 o.indexOf).bind fun k => (o.getAlt k).bind fun x =>
    (t.assignAlt c k x (t.safe m k) f g).map fun r =>
      (r.1, o.used m k (if c.indexOf = k then f else t.fate m k f), r.2)

/-- `impl::move_nothrow`, include/dart/support/variant.h 2157-2162. -/
def Traits.moveNothrow (t : Traits) (c : Cell α) : Option Bool :=
  if c.valueless then some true else if c.indexOf < t.count then some (t.moveSafe c.indexOf) else none

/-- Objects that are still there when a variant is gone: they are never destroyed. -/
def Cell.spill (c : Cell α) : Nat := if c.store.isSome then 1 else 0

/-- The part of `swap` for different alternatives, include/dart/support/variant.h 2122-2144, with exceptions enabled. `f`,
`g`, `h`: how moving `*rhs` out, `*lhs` into `*rhs`, and the temporary into `*lhs` end. The number counts what the
destructor of the temporary did not destroy. -/
def Traits.exchange (t : Traits) (lhs rhs : Cell α) (f g h : Fate) : Option ((Cell α × Cell α) × Nat × Bool) :=
  (t.genericConstruct .move Cell.empty rhs f).bind fun (tmp, rhs, ok) =>
    if !ok then (t.destroy tmp).map fun tmp => ((lhs, rhs), tmp.spill, false)
    else (t.genericConstruct .move rhs lhs g).bind fun (rhs, lhs, ok) =>
      if !ok then (t.moveNothrow tmp).bind fun b =>
        (if b then (t.genericConstruct .move rhs tmp h).map fun r => (r.1, r.2.1) else some (rhs, tmp)).bind
          fun (rhs, tmp) => (t.destroy tmp).map fun tmp => ((lhs, rhs), tmp.spill, false)
      else (t.genericConstruct .move lhs tmp h).bind fun (lhs, tmp, ok) =>
        (t.destroy tmp).map fun tmp => ((lhs, rhs), tmp.spill, ok)

/-- `impl::swap`, include/dart/support/variant.h 2102-2146. `f` is also how `swap` of two objects of the same alternative
ends. -/
def Traits.swap (t : Traits) (c d : Cell α) (f g h : Fate) : Option ((Cell α × Cell α) × Nat × Bool) :=
  if c.valueless && d.valueless then some ((c, d), 0, true)
  else if c.indexOf = d.indexOf then (dispatch t.count 0 c.indexOf).bind fun k => (c.getAlt k).bind fun x =>
    (d.getAlt k).map fun y => match f with
      | .returns => (({ c with store := some (k, y) }, { d with store := some (k, x) }), 0, true)
      | .throws s s' => (({ c with store := some (k, .left s) }, { d with store := some (k, .left s') }), 0, false)
  else (t.moveNothrow c).bind fun p => (t.moveNothrow d).bind fun q =>
    if p && !q then (t.exchange d c f g h).map fun r => ((r.1.2, r.1.1), r.2)
    else t.exchange c d f g h

/-- How a call ends: what it returns, or an exception. -/
inductive Answer (α : Type)
  | done
  | failed
  | badAccess
  | flag (b : Bool)
  | number (n : Nat)
  | obj (x : Obj α)
  | ptr (x : Option (Obj α))
  /-- What a visitor is called with. -/
  | called (xs : List (Nat × Obj α))
  deriving DecidableEq, Repr

/-- The calls. -/
inductive Op (α : Type)
  /-- `variant v {in_place_index_t<k>, a}` and the converting constructor. -/
  | makeFrom (k : Nat) (a : α) (f : Fate)
  | make (m : Mode) (j : Nat) (f : Fate)
  /-- The end of the lifetime. -/
  | drop (i : Nat)
  | assign (m : Mode) (i j : Nat) (f g : Fate)
  /-- Assignment from a value from which alternative `k` is made; `safe`: making it cannot throw. -/
  | assignFrom (i k : Nat) (a : α) (safe : Bool) (f g : Fate)
  /-- Assignment from (a reference to) the object in the variant itself. -/
  | assignOwn (i k : Nat) (safe : Bool) (f g : Fate)
  | emplace (i k : Nat) (a : α) (f : Fate)
  | swap (i j : Nat) (f g h : Fate)
  | index (i : Nat)
  | valueless (i : Nat)
  | holds (i k : Nat)
  | get (i k : Nat)
  | getIf (i k : Nat)
  | visit (is : List Nat)

/-- The variables of the program, by number (`none`: its lifetime has ended or it was never constructed), and how many
objects were left behind by variants without being destroyed. -/
structure World (α : Type) where
  vars : List (Option (Cell α))
  lost : Nat

/-- A variable that is alive. -/
def World.var (w : World α) (i : Nat) : Option (Cell α) := (w.vars[i]?).join

/-- Change a variable. -/
def World.put (w : World α) (i : Nat) (c : Cell α) : World α := { w with vars := w.vars.set i (some c) }

/-- Whether it returned. -/
def told (ok : Bool) : Answer α := if ok then .done else .failed

/-- `visit`, include/dart/support/variant.h 2659-2705: `bad_variant_access` if one has no value, otherwise the visitor is
called with the objects. -/
def Traits.visit (t : Traits) (cs : List (Cell α)) : Option (Answer α) :=
  if cs.any Cell.valueless then some .badAccess
  else (cs.mapM fun c => (dispatch t.count 0 c.indexOf).bind fun k => (c.getAlt k).map fun x => (k, x)).map .called

/-- One call, include/dart/support/variant.h 2209-2504, 2659-2705. `none` is undefined behaviour. -/
def World.step (t : Traits) (w : World α) : Op α → Option (World α × Answer α)
  | .makeFrom k a f => match f with
      | .returns => some ({ w with vars := w.vars ++ [some ⟨k, some (k, .val a)⟩] }, .done)
      | .throws _ _ => some ({ w with vars := w.vars ++ [none] }, .failed)
  | .make m j f => (w.var j).bind fun o => (t.genericConstruct m Cell.empty o f).bind fun (c, o, ok) =>
      if ok then some ({ w.put j o with vars := (w.put j o).vars ++ [some c] }, .done)
      else (t.destroy c).map fun c =>
        ({ vars := (w.put j o).vars ++ [none], lost := w.lost + c.spill }, .failed)
  | .drop i => (w.var i).bind fun c => (t.destroy c).map fun c =>
      ({ vars := w.vars.set i none, lost := w.lost + c.spill }, .done)
  | .assign m i j f g => (w.var i).bind fun c => (w.var j).bind fun o =>
      (t.genericAssign m c o f g).map fun (c, o, ok) =>
        (if i = j then w.put i (match m with | .copy => c | .move => o) else (w.put j o).put i c, told ok)
  | .assignFrom i k a safe f g => (w.var i).bind fun c =>
      (t.assignAlt c k (.val a) safe f g).map fun r => (w.put i r.1, told r.2)
  | .assignOwn i k safe f g => (w.var i).bind fun c => (c.getAlt c.indexOf).bind fun x =>
      if c.indexOf ≠ k ∧ (safe || !t.moveSafe k) then none
      else (t.assignAlt c k x safe f g).map fun r => (w.put i r.1, told r.2)
  | .emplace i k a f => (w.var i).bind fun c => (t.emplace c k (.val a) f).map fun r => (w.put i r.1, told r.2)
  | .swap i j f g h => (w.var i).bind fun c => (w.var j).bind fun d => (t.swap c d f g h).map fun ((c, d), n, ok) =>
      ({ (w.put j d).put i c with lost := w.lost + n }, told ok)
  | .index i => (w.var i).map fun c => (w, .number c.indexOf)
  | .valueless i => (w.var i).map fun c => (w, .flag c.valueless)
  | .holds i k => (w.var i).map fun c => (w, .flag (c.indexOf == k))
  | .get i k => (w.var i).bind fun c =>
      if c.indexOf = k then (c.getAlt k).map fun x => (w, .obj x) else some (w, .badAccess)
  | .getIf i k => (w.var i).bind fun c =>
      if c.indexOf = k then (c.getAlt k).map fun x => (w, .ptr (some x)) else some (w, .ptr none)
  | .visit is => (is.mapM w.var).bind fun cs => (t.visit cs).map fun a => (w, a)

/-- A program: the answers, or undefined behaviour. -/
def World.run (t : Traits) (w : World α) : List (Op α) → Option (World α × List (Answer α))
  | [] => some (w, [])
  | op :: ops => (w.step t op).bind fun r => (r.1.run t ops).map fun q => (q.1, r.2 :: q.2)

/-- Nothing there yet. -/
def World.start : World α := ⟨[], 0⟩

/-! ### Comparison, include/dart/support/variant.h 2521-2630

Each operator is written twice, as statements and as one expression; `…E` is the expression. -/

/-- The comparisons of the alternatives. -/
structure Cmp (α : Type) where
  eq : Nat → Obj α → Obj α → Bool
  ne : Nat → Obj α → Obj α → Bool
  lt : Nat → Obj α → Obj α → Bool
  gt : Nat → Obj α → Obj α → Bool
  le : Nat → Obj α → Obj α → Bool
  ge : Nat → Obj α → Obj α → Bool

/-- `visit_value_at`, include/dart/support/variant.h 1620-1627. -/
def Traits.valueAt (t : Traits) (r : Nat → Obj α → Obj α → Bool) (a b : Cell α) : Option Bool :=
  (dispatch t.count 0 a.indexOf).bind fun k => (a.getAlt k).bind fun x => (b.getAlt k).map fun y => r k x y

/-- `==`, lines 2521-2535. -/
def Cmp.eqV (p : Cmp α) (t : Traits) (a b : Cell α) : Option Bool :=
  if a.indexOf ≠ b.indexOf then some false else if a.valueless then some true else t.valueAt p.eq a b
@[inherit_doc Cmp.eqV] def Cmp.eqE (p : Cmp α) (t : Traits) (a b : Cell α) : Option Bool :=
  if a.indexOf = b.indexOf then (if a.valueless then some true else t.valueAt p.eq a b) else some false
/-- `!=`, lines 2537-2551. -/
def Cmp.neV (p : Cmp α) (t : Traits) (a b : Cell α) : Option Bool :=
  if a.indexOf ≠ b.indexOf then some true else if a.valueless then some false else t.valueAt p.ne a b
@[inherit_doc Cmp.neV] def Cmp.neE (p : Cmp α) (t : Traits) (a b : Cell α) : Option Bool :=
  if a.indexOf ≠ b.indexOf then some true else if !a.valueless then t.valueAt p.ne a b else some false
/-- `<`, lines 2553-2570. -/
def Cmp.ltV (p : Cmp α) (t : Traits) (a b : Cell α) : Option Bool :=
  if b.valueless then some false else if a.valueless then some true
  else if a.indexOf < b.indexOf then some true else if a.indexOf > b.indexOf then some false else t.valueAt p.lt a b
@[inherit_doc Cmp.ltV] def Cmp.ltE (p : Cmp α) (t : Traits) (a b : Cell α) : Option Bool :=
  if !b.valueless then
    if a.valueless || a.indexOf < b.indexOf then some true
    else if a.indexOf = b.indexOf then t.valueAt p.lt a b else some false
  else some false
/-- `>`, lines 2572-2589. -/
def Cmp.gtV (p : Cmp α) (t : Traits) (a b : Cell α) : Option Bool :=
  if a.valueless then some false else if b.valueless then some true
  else if a.indexOf > b.indexOf then some true else if a.indexOf < b.indexOf then some false else t.valueAt p.gt a b
@[inherit_doc Cmp.gtV] def Cmp.gtE (p : Cmp α) (t : Traits) (a b : Cell α) : Option Bool :=
  if !a.valueless then
    if b.valueless || a.indexOf > b.indexOf then some true
    else if a.indexOf = b.indexOf then t.valueAt p.gt a b else some false
  else some false
/-- `<=`, lines 2591-2608. -/
def Cmp.leV (p : Cmp α) (t : Traits) (a b : Cell α) : Option Bool :=
  if a.valueless then some true else if b.valueless then some false
  else if a.indexOf < b.indexOf then some true else if a.indexOf > b.indexOf then some false else t.valueAt p.le a b
@[inherit_doc Cmp.leV] def Cmp.leE (p : Cmp α) (t : Traits) (a b : Cell α) : Option Bool :=
  if a.valueless then some true
  else if !b.valueless then
    if a.indexOf < b.indexOf then some true
    else if a.indexOf = b.indexOf then t.valueAt p.le a b else some false
  else some false
/-- `>=`, lines 2610-2628. -/
def Cmp.geV (p : Cmp α) (t : Traits) (a b : Cell α) : Option Bool :=
  if b.valueless then some true else if a.valueless then some false
  else if a.indexOf > b.indexOf then some true else if a.indexOf < b.indexOf then some false else t.valueAt p.ge a b
@[inherit_doc Cmp.geV] def Cmp.geE (p : Cmp α) (t : Traits) (a b : Cell α) : Option Bool :=
  if b.valueless then some true
  else if !a.valueless then
    if a.indexOf > b.indexOf then some true
    else if a.indexOf = b.indexOf then t.valueAt p.ge a b else some false
  else some false

end Dart.Vrt
