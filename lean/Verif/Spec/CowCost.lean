import Verif.Model.Cow

/-
What a statement may allocate and change.
-/
namespace Dart.Cow

/-- How many owners the storage of `x` has is what `refcount()` says; more than one: it is shared. -/
def Shared (s : State) (x : Nat) : Prop := ∃ n, refcount s.cells (s.var x) = some n ∧ 1 < n

/-- The variable a statement changes in place. -/
def Op.changes : Op → Option Nat
  | .insert x _ _ _ => some x
  | .set x _ _ _ => some x
  | .erase x _ => some x
  | .clear x => some x
  | .resize x _ _ => some x
  | _ => none

/-- Making a new object or array. -/
def Op.makes : Op → Bool
  | .fresh _ .obj => true
  | .fresh _ .arr => true
  | _ => false

/-- How many maps and vectors were allocated since the program began (the memory of freed ones is not used again). -/
def State.allocated (s : State) : Nat := s.cells.length

/-- Every map or vector there was at `s` has the same contents in `s'`, or is freed; but for the one at `a`. -/
def Untouched (s s' : State) (a : Option Nat) : Prop :=
  ∀ b cell, s.cells.at b = some cell → a ≠ some b → s'.cells.at b = none ∨ ∃ n, s'.cells.at b = some ⟨n, cell.body⟩

end Dart.Cow
