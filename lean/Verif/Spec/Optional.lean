import Verif.Model.Optional

/-
What the standard says of `std::optional`: a variable contains a value or does not. This is independent of how the
containing is done.
-/
namespace Dart.Spec.Opt
open Dart.Opt

variable {α : Type}

/-- The variables, by number: not alive, empty, or containing an object. -/
abbrev Vars (α : Type) := List (Option (Option (Obj α)))

/-- Variable `i` is to contain `x`. If creating or assigning the object throws, an empty variable remains empty, and one
that contained an object contains whatever the assignment left of it. -/
def Vars.give (s : Vars α) (i : Nat) (x : Obj α) (f : Fate) : Option (Vars α × Answer α) :=
  (s[i]?).join.map fun old =>
    match f with
    | .returns => (s.set i (some (some x)), .done)
    | .throws t _ => (s.set i (some (old.map fun _ => .left t)), .failed)

/-- The object contained in `j` was moved from. -/
def Vars.moved (s : Vars α) (j : Nat) (f : Fate) : Vars α :=
  s.set j (some (some (.left (match f with | .returns => 0 | .throws _ n => n))))

/-- A new variable that is to contain `x`. -/
def Vars.new (s : Vars α) (x : Obj α) : Fate → Vars α × Answer α
  | .returns => (s ++ [some (some x)], .done)
  | .throws _ _ => (s ++ [none], .failed)

/-- One call; `none` if the standard does not define it: a variable that is not alive is used, or an empty one is
dereferenced. -/
def Vars.next (s : Vars α) : Op α → Option (Vars α × Answer α)
  | .make => some (s ++ [some none], .done)
  | .makeFrom a f => some (s.new (.val a) f)
  | .makeCopy j f => (s[j]?).join.map fun
      | none => (s ++ [some none], .done)
      | some x => s.new x f
  | .makeMove j f => (s[j]?).join.map fun
      | none => (s ++ [some none], .done)
      | some x => (s.moved j f).new x f
  | .drop i => (s[i]?).join.map fun _ => (s.set i none, .done)
  | .assignNull i | .reset i => (s[i]?).join.map fun _ => (s.set i (some none), .done)
  | .assignCopy i j f => (s[i]?).join.bind fun _ => (s[j]?).join.bind fun o =>
      if i = j then some (s, .done) else match o with
      | none => some (s.set i (some none), .done)
      | some x => s.give i x f
  | .assignMove i j f => (s[i]?).join.bind fun _ => (s[j]?).join.bind fun o =>
      if i = j then some (s, .done) else match o with
      | none => some (s.set i (some none), .done)
      | some x => (s.give i x f).map fun r => (Vars.moved r.1 j f, r.2)
  | .assignFrom i a f => s.give i (.val a) f
  | .emplace i a f => (s[i]?).join.map fun _ =>
      match f with
      | .returns => (s.set i (some (some (.val a))), .done)
      | .throws _ _ => (s.set i (some none), .failed)
  | .hasValue i => (s[i]?).join.map fun o => (s, .flag o.isSome)
  | .deref i => (s[i]?).join.bind fun o => o.map fun x => (s, .obj x)
  | .value i => (s[i]?).join.map fun
      | some x => (s, .obj x)
      | none => (s, .badAccess)
  | .valueOr i a => (s[i]?).join.map fun o => (s, .obj (o.getD (.val a)))
  | .takeOr i a f => (s[i]?).join.map fun
      | none => (s, .obj (.val a))
      | some x => (s.moved i f, match f with | .returns => .obj x | .throws _ _ => .failed)

/-- A program. -/
def Vars.exec (s : Vars α) : List (Op α) → Option (Vars α × List (Answer α))
  | [] => some (s, [])
  | op :: ops => (s.next op).bind fun r => (Vars.exec r.1 ops).map fun q => (q.1, r.2 :: q.2)

/-- How many variables contain an object. -/
def Vars.engaged (s : Vars α) : Nat := s.countP fun v => v.join.isSome

/-- A relation on contents: like the one on the objects, with nothing below everything. `e` is what it says of two
empties. -/
def Lifted (r : Obj α → Obj β → Bool) (below above e : Bool) : Option (Obj α) → Option (Obj β) → Bool
  | none, none => e
  | none, some _ => below
  | some _, none => above
  | some x, some y => r x y

/-- The memory of an `optional` that contains this, or nothing. -/
def holds (c : Cell α) (o : Option (Obj α)) : Prop := c.isSet = o.isSome ∧ c.store = o

end Dart.Spec.Opt
