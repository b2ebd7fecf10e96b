import Verif.Model.Ptr

/-
Ownership: who owns what, and which programs are considered.
-/
namespace Dart.Spec.Ptr
open Dart.Ptr

/-- The number of pointers, variables and members of live objects, that point to `a`. -/
def owners (s : State) (a : Nat) : Nat :=
  (s.vars.filter (· == some a)).length + (s.mem.slots.filter (· == some a)).length

/-- The object at `a` can be reached from the variables. -/
inductive Reach (s : State) : Nat → Prop
  | var {x a : Nat} (h : s.vars[x]? = some (some a)) : Reach s a
  | field {a j a' : Nat} (h : Reach s a) (hr : s.read (.field a j) = some (some a')) : Reach s a'

/-- The location exists, and if it is a member, its object is reachable from the variables. -/
def Usable (s : State) : Loc → Prop
  | .var x => x < s.vars.length
  | .field a j => Reach s a ∧ (s.read (.field a j)).isSome

/-- The statement uses existing locations, and these do not depend on the pointer that is overwritten:
they are reachable even if it is made null beforehand. (For variables this is always so.) -/
def Sound (s : State) : Op → Prop
  | .make d _ => Usable s d ∧ ∀ s', s.write d none = some s' → Usable s' d
  | .reset d => Usable s d ∧ ∀ s', s.write d none = some s' → Usable s' d
  | .copy d o => Usable s d ∧ Usable s o ∧ ∀ s', s.write d none = some s' → Usable s' d
  | .convCopy d o => Usable s d ∧ Usable s o ∧ ∀ s', s.write d none = some s' → Usable s' d
  | .move d o => Usable s d ∧ Usable s o ∧ ∀ s', s.write d none = some s' → Usable s' d ∧ Usable s' o
  | .convMove d o => Usable s d ∧ Usable s o ∧ ∀ s', s.write d none = some s' → Usable s' d ∧ Usable s' o

/-- States reached by sound programs. -/
inductive Reached (n : Nat) : State → Prop
  | init : Reached n (init n)
  | step {s s' : State} {op : Op} (h : Reached n s) (hs : Sound s op) (hstep : s.step op = some s') : Reached n s'

/-- The value the destination must have afterwards. -/
def result (s : State) : Op → Option (Option Nat)
  | .make _ _ => some (some s.mem.blocks.length)
  | .reset _ => some none
  | .copy _ o => s.read o
  | .move _ o => s.read o
  | .convCopy _ o => s.read o
  | .convMove _ o => s.read o

/-- The destination. -/
def dest : Op → Loc
  | .make d _ => d
  | .reset d => d
  | .copy d _ => d
  | .move d _ => d
  | .convCopy d _ => d
  | .convMove d _ => d

/-- The pointer moved from, if any. -/
def source : Op → Option Loc
  | .move _ o => some o
  | .convMove _ o => some o
  | _ => none

/-- There are no cycles of owning members. -/
def Acyclic (s : State) : Prop :=
  ∃ rank : Nat → Nat, ∀ a j a', s.read (.field a j) = some (some a') → rank a' < rank a

end Dart.Spec.Ptr
