import Verif.Model.Own

/-
Ownership of memory by its meaning.
-/
namespace Dart.Spec
open Dart.Own

/-- The states a program with `n` buffer variables can be in. -/
def Reachable (signed : Bool) (n : Nat) (s : State) : Prop := ∃ ops, (State.start n).run signed ops = .ok s

/-- The buffer reads the memory it owns. -/
def OwnsItsMemory (h : Handle) : Prop := ∀ b p, h.pos = some (b, p) → h.ref = some b

/-- The step changes variable `v`. -/
def Assigns (v : Nat) : Op → Prop
  | .fromSpan u _ _ _ _ => u = v
  | .fromUnique u _ => u = v
  | .fromShared u _ => u = v
  | .copy u _ => u = v
  | .move u w => u = v ∨ w = v
  | .drop u => u = v
  | .get u _ _ => u = v
  | .getIdx u _ _ => u = v
  | _ => False

/-- Everything that can be read through the buffer can be: its memory has not been freed. -/
def Readable (s : State) (h : Handle) : Prop := ∀ b p, h.pos = some (b, p) → s.alive b = true

/-- The step is not the constructor from a span. -/
def NotSpan : Op → Prop
  | .fromSpan _ _ _ _ _ => False
  | _ => True

end Dart.Spec
