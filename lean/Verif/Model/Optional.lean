import Verif.Model.Basic

/-
The library's own `optional`, used where the standard library has none: a flag, and storage in which an object is created
and destroyed by hand. The constructors and assignments of the element type may throw.
-/
namespace Dart.Opt

variable {α : Type}

/-- An object of the element type: a value, or what is left after it was moved from or an assignment failed. -/
inductive Obj (α : Type)
  | val (a : α)
  | left (n : Nat)
  deriving DecidableEq, Repr

/-- `optional<T>`, include/dart/support/optional.h 336-339: `is_set`, and the object that lives in `store`, if any. -/
structure Cell (α : Type) where
  isSet : Bool
  store : Option (Obj α)

/-- How a constructor or an assignment of the element type ends: it returns, or it throws and leaves the target (if that
was an object before) and the source in some state. -/
inductive Fate
  | returns
  | throws (target source : Nat)
  deriving DecidableEq, Repr

/-- How a call ends: what it returns, or an exception. -/
inductive Answer (α : Type)
  | done
  | flag (b : Bool)
  | obj (x : Obj α)
  | badAccess
  | failed
  deriving DecidableEq, Repr

/-- The variables of the program, by number (`none`: its lifetime has ended or it was never constructed), and how many
objects of the element type have been constructed and destroyed in the storage of optionals. -/
structure World (α : Type) where
  vars : List (Option (Cell α))
  made : Nat
  gone : Nat

/-- A variable that is alive. -/
def World.var (w : World α) (i : Nat) : Option (Cell α) := (w.vars[i]?).join

/-- Change a variable. -/
def World.put (w : World α) (i : Nat) (c : Cell α) : World α := { w with vars := w.vars.set i (some c) }

/-- `access`, include/dart/support/optional.tcc 293-301: undefined if no object lives in the storage. -/
def Cell.access (c : Cell α) : Option (Obj α) := c.store

/-- `construct`, include/dart/support/optional.tcc 271-277. The assertion must hold, and no object may be overwritten. -/
def World.construct (w : World α) (i : Nat) (x : Obj α) (f : Fate) : Option (World α × Answer α) :=
  (w.var i).bind fun c =>
    if c.isSet then none
    else match c.store, f with
      | some _, _ => none
      | none, .returns => some ({ w.put i ⟨true, some x⟩ with made := w.made + 1 }, .done)
      | none, .throws _ _ => some (w, .failed)

/-- `assign`, include/dart/support/optional.tcc 279-284. -/
def World.assign (w : World α) (i : Nat) (x : Obj α) (f : Fate) : Option (World α × Answer α) :=
  (w.var i).bind fun c =>
    if c.isSet then c.access.bind fun _ =>
      match f with
      | .returns => some (w.put i ⟨true, some x⟩, .done)
      | .throws t _ => some (w.put i ⟨true, some (.left t)⟩, .failed)
    else none

/-- `destroy`, include/dart/support/optional.tcc 286-291. -/
def World.destroy (w : World α) (i : Nat) : Option (World α) :=
  (w.var i).bind fun c =>
    if c.isSet then c.access.bind fun _ => some { w.put i ⟨false, none⟩ with gone := w.gone + 1 }
    else none

/-- What moving from the object in a variable leaves there. -/
def World.moveOut (w : World α) (j : Nat) (f : Fate) : Option (World α) :=
  (w.var j).bind fun c => c.access.bind fun _ =>
    some (w.put j ⟨c.isSet, some (.left (match f with | .returns => 0 | .throws _ s => s))⟩)

/-- The calls. -/
inductive Op (α : Type)
  /-- `optional<T> x;` or `optional<T> x {nullopt};` -/
  | make
  | makeFrom (a : α) (f : Fate)
  | makeCopy (j : Nat) (f : Fate)
  | makeMove (j : Nat) (f : Fate)
  /-- The end of the lifetime. -/
  | drop (i : Nat)
  | assignNull (i : Nat)
  | assignCopy (i j : Nat) (f : Fate)
  | assignMove (i j : Nat) (f : Fate)
  | assignFrom (i : Nat) (a : α) (f : Fate)
  | reset (i : Nat)
  | emplace (i : Nat) (a : α) (f : Fate)
  | hasValue (i : Nat)
  | deref (i : Nat)
  | value (i : Nat)
  | valueOr (i : Nat) (a : α)
  /-- `std::move(x).value_or(a)` -/
  | takeOr (i : Nat) (a : α) (f : Fate)

/-- A constructor, given a world with the new variable as an optional that is not set. If it throws, there is no new
variable (its number is used up). -/
def World.newVar (w : World α) (k : World α → Nat → Option (World α × Answer α)) : Option (World α × Answer α) :=
  (k { w with vars := w.vars ++ [some ⟨false, none⟩] } w.vars.length).map fun r =>
    match r.2 with
    | .failed => ({ r.1 with vars := r.1.vars.set w.vars.length none }, .failed)
    | a => (r.1, a)

/-- `if (*this) destroy();` -/
def World.reset (w : World α) (i : Nat) : Option (World α) :=
  (w.var i).bind fun c => if c.isSet then w.destroy i else some w

/-- `if (*this) assign(x); else construct(x);` -/
def World.give (w : World α) (i : Nat) (x : Obj α) (f : Fate) : Option (World α × Answer α) :=
  (w.var i).bind fun c => if c.isSet then w.assign i x f else w.construct i x f

/-- One call, include/dart/support/optional.tcc 21-269. `none` is undefined behaviour. -/
def World.step (w : World α) : Op α → Option (World α × Answer α)
  | .make => w.newVar fun w _ => some (w, .done)
  | .makeFrom a f => w.newVar fun w i => w.construct i (.val a) f
  | .makeCopy j f => (w.var j).bind fun o => w.newVar fun w i =>
      if o.isSet then o.access.bind fun x => w.construct i x f else some (w, .done)
  | .makeMove j f => (w.var j).bind fun o => w.newVar fun w i =>
      if o.isSet then o.access.bind fun x => (w.construct i x f).bind fun r => (r.1.moveOut j f).map fun w => (w, r.2)
      else some (w, .done)
  | .drop i => (w.reset i).map fun w => ({ w with vars := w.vars.set i none }, .done)
  | .assignNull i => (w.reset i).map fun w => (w, .done)
  | .assignCopy i j f => (w.var i).bind fun c => (w.var j).bind fun o =>
      if i = j then some (w, .done)
      else if o.isSet && c.isSet then o.access.bind fun x => w.assign i x f
      else if o.isSet then o.access.bind fun x => w.construct i x f
      else if c.isSet then (w.destroy i).map fun w => (w, .done)
      else some (w, .done)
  | .assignMove i j f => (w.var i).bind fun c => (w.var j).bind fun o =>
      if i = j then some (w, .done)
      else if o.isSet && c.isSet then o.access.bind fun x => (w.assign i x f).bind fun r =>
        (r.1.moveOut j f).map fun w => (w, r.2)
      else if o.isSet then o.access.bind fun x => (w.construct i x f).bind fun r =>
        (r.1.moveOut j f).map fun w => (w, r.2)
      else if c.isSet then (w.destroy i).map fun w => (w, .done)
      else some (w, .done)
  | .assignFrom i a f => w.give i (.val a) f
  | .reset i => (w.reset i).map fun w => (w, .done)
  | .emplace i a f => (w.reset i).bind fun w => w.construct i (.val a) f
  | .hasValue i => (w.var i).map fun c => (w, .flag c.isSet)
  | .deref i => (w.var i).bind fun c => c.access.map fun x => (w, .obj x)
  | .value i => (w.var i).bind fun c => if c.isSet then c.access.map fun x => (w, .obj x) else some (w, .badAccess)
  | .valueOr i a => (w.var i).bind fun c =>
      if c.isSet then c.access.map fun x => (w, .obj x) else some (w, .obj (.val a))
  | .takeOr i a f => (w.var i).bind fun c =>
      if c.isSet then c.access.bind fun x => (w.moveOut i f).map fun w =>
        (w, match f with | .returns => .obj x | .throws _ _ => .failed)
      else some (w, .obj (.val a))

/-- A program: the answers, or undefined behaviour. -/
def World.run (w : World α) : List (Op α) → Option (World α × List (Answer α))
  | [] => some (w, [])
  | op :: ops => (w.step op).bind fun r => (r.1.run ops).map fun q => (q.1, r.2 :: q.2)

/-- Nothing there yet. -/
def World.start : World α := ⟨[], 0, 0⟩

/-! ### Comparison, include/dart/support/optional.h 344-607 -/

variable {β : Type}

/-- The comparisons of the element types. -/
structure Cmp (α β : Type) where
  eq : Obj α → Obj β → Bool
  lt : Obj α → Obj β → Bool
  le : Obj α → Obj β → Bool
  gt : Obj α → Obj β → Bool
  ge : Obj α → Obj β → Bool

/-- A comparison of the objects in two optionals. -/
def both (f : Obj α → Obj β → Bool) (a : Cell α) (b : Cell β) : Option Bool :=
  a.access.bind fun x => b.access.map fun y => f x y

/-- `optional == optional`, lines 350-362. -/
def Cmp.eqOO (p : Cmp α β) (a : Cell α) (b : Cell β) : Option Bool :=
  if a.isSet != b.isSet then some false else if !a.isSet then some true else both p.eq a b
/-- `optional != optional`, lines 363-374. -/
def Cmp.neOO (p : Cmp α β) (a : Cell α) (b : Cell β) : Option Bool := (p.eqOO a b).map (!·)
/-- `optional == value`, lines 377-387; `value == optional` and the two `!=`, lines 388-417, call it. -/
def Cmp.eqOV (p : Cmp α β) (a : Cell α) (y : Obj β) : Option Bool :=
  if !a.isSet then some false else a.access.map fun x => p.eq x y
/-- `optional == nullopt`, lines 420-436. -/
def eqON (a : Cell α) : Bool := !a.isSet
/-- `optional < optional`, lines 441-453. -/
def Cmp.ltOO (p : Cmp α β) (a : Cell α) (b : Cell β) : Option Bool :=
  if !b.isSet then some false else if !a.isSet then some true else both p.lt a b
/-- `optional <= optional`, lines 454-467. -/
def Cmp.leOO (p : Cmp α β) (a : Cell α) (b : Cell β) : Option Bool :=
  if !a.isSet then some true else if !b.isSet then some false else both p.le a b
/-- `optional < value`, lines 470-480. -/
def Cmp.ltOV (p : Cmp α β) (a : Cell α) (y : Obj β) : Option Bool :=
  if !a.isSet then some true else a.access.map fun x => p.lt x y
/-- `value < optional`, lines 481-491. -/
def Cmp.ltVO (p : Cmp α β) (x : Obj α) (b : Cell β) : Option Bool :=
  if !b.isSet then some false else b.access.map fun y => p.lt x y
/-- `optional <= value`, lines 492-502. -/
def Cmp.leOV (p : Cmp α β) (a : Cell α) (y : Obj β) : Option Bool :=
  if !a.isSet then some true else a.access.map fun x => p.le x y
/-- `value <= optional`, lines 503-513. -/
def Cmp.leVO (p : Cmp α β) (x : Obj α) (b : Cell β) : Option Bool :=
  if !b.isSet then some false else b.access.map fun y => p.le x y
/-- `optional < nullopt`, `nullopt < optional`, `optional <= nullopt`, `nullopt <= optional`, lines 516-532. -/
def ltON (_ : Cell α) : Bool := false
@[inherit_doc ltON] def ltNO (a : Cell α) : Bool := a.isSet
@[inherit_doc ltON] def leON (a : Cell α) : Bool := !a.isSet
@[inherit_doc ltON] def leNO (_ : Cell α) : Bool := true
/-- `optional > optional`, lines 535-547. -/
def Cmp.gtOO (p : Cmp α β) (a : Cell α) (b : Cell β) : Option Bool :=
  if !a.isSet then some false else if !b.isSet then some true else both p.gt a b
/-- `optional >= optional`, lines 548-561. -/
def Cmp.geOO (p : Cmp α β) (a : Cell α) (b : Cell β) : Option Bool :=
  if !b.isSet then some true else if !a.isSet then some false else both p.ge a b
/-- `optional > value`, lines 564-574. -/
def Cmp.gtOV (p : Cmp α β) (a : Cell α) (y : Obj β) : Option Bool :=
  if a.isSet then a.access.map fun x => p.gt x y else some false
/-- `value > optional`, lines 575-585. -/
def Cmp.gtVO (p : Cmp α β) (x : Obj α) (b : Cell β) : Option Bool :=
  if b.isSet then b.access.map fun y => p.gt x y else some true
/-- `optional >= value`, lines 586-596. -/
def Cmp.geOV (p : Cmp α β) (a : Cell α) (y : Obj β) : Option Bool :=
  if a.isSet then a.access.map fun x => p.ge x y else some false
/-- `value >= optional`, lines 597-607. -/
def Cmp.geVO (p : Cmp α β) (x : Obj α) (b : Cell β) : Option Bool :=
  if b.isSet then b.access.map fun y => p.ge x y else some true

end Dart.Opt
