import Verif.Model.Builder
import Verif.Spec.KeyOrder
import Verif.Spec.Derived
import Verif.Spec.Room

/-
The fields of a stored object as an attacker may have arranged them.
-/
namespace Dart.Spec

/-- A field as stored: its key, the type of its value and how many bytes the value takes. -/
structure Piece where
  key : Bytes
  type : RawType
  size : Nat

/-- Where fields end that are stored one behind the other from `off` on: a key takes two bytes for its length, its
characters and a NUL, and begins at an even place; a value begins at a multiple of what its type requires. -/
def endOf : Nat → List Piece → Nat
  | off, [] => off
  | off, p :: ps => endOf (upTo (upTo off 2 + (p.key.length + 3)) p.type.align + p.size) ps

/-- Iterating over the object shows these fields. -/
structure Pieces (b : Buf) (ps : List Piece) : Prop where
  count : b.size = .ok ps.length
  field : ∀ i p, ps[i]? = some p → (∃ k, b.keyAt i = .ok k ∧ k.strv = .ok p.key) ∧
    ∃ v, b.valueAt i = .ok v ∧ v.type = p.type ∧ v.sizeof = some p.size

/-- Iterating over the object shows these keys and values. -/
structure IterShows (b : Buf) (fs : List (Bytes × Val)) : Prop where
  count : b.size = .ok fs.length
  field : ∀ i f, fs[i]? = some f → (∃ k, b.keyAt i = .ok k ∧ k.strv = .ok f.1) ∧ ∃ v, b.valueAt i = .ok v ∧ v.value = some f.2

/-- The keys come in the order the library keeps them in, each once. -/
def KeysRise (ps : List Piece) : Prop := ps.Pairwise fun a b => KeyBefore a.key b.key

/-- The fields of the object at `base`, which takes `n` bytes, do not overlap: the first key begins behind the table, every
value ends before the next key begins, and at the latest where the object ends. -/
structure FieldsApart (b : Buf) (ps : List Piece) (base n : Nat) : Prop where
  first : ∀ k, 0 < ps.length → b.keyAt 0 = .ok k → ∃ q, k.addr = some q ∧ base + 8 + 8 * ps.length ≤ q
  next : ∀ i p v k, ps[i]? = some p → i + 1 < ps.length → b.valueAt i = .ok v → b.keyAt (i + 1) = .ok k →
    ∃ a q, v.addr = some a ∧ k.addr = some q ∧ a + p.size ≤ q
  last : ∀ i p v, ps[i]? = some p → b.valueAt i = .ok v → ∃ a, v.addr = some a ∧ a + p.size ≤ base + n

end Dart.Spec
