import Verif.Model.Export
import Verif.Spec.Derived
import Verif.Spec.Own

/-
What it is for a variable to hold a part of a finalized value.
-/
namespace Dart.Spec
open Dart.Own

/-- Variable `w` holds something obtained by reading from the finalized `root`, in block `c`, and owns the block. -/
structure PartOf (signed : Bool) (s : State) (w : Nat) (root : Val) (c : Nat) : Prop where
  finalized : ∃ k m, s.blocks[c]? = some ⟨8 * k, m⟩ ∧ finalize root = .ok m ∧
    Derived signed (Buf.ofBytes m) (s.buf (s.var w))
  owned : (s.var w).ref = some c
  inside : ∃ p, (s.var w).pos = some (c, p)

/-- What variable `w` shows. -/
def valueOf (s : State) (w : Nat) : Option Val := (s.buf (s.var w)).value

/-- Variable `w` shows `x` and goes on showing it whatever happens to other variables and the caller's memory. -/
def GoesOnShowing (signed : Bool) (s : State) (w : Nat) (x : Val) : Prop :=
  ∀ ops t, (∀ op ∈ ops, ¬ Assigns w op) → s.run signed ops = .ok t → valueOf t w = some x ∧ Readable t (t.var w)

end Dart.Spec
