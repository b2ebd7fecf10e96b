/-
The standard's definition of the `string_view` operations.
-/
namespace Dart.Spec

/-- "Not found". -/
def noPos : Nat := 2 ^ 64 - 1

/-- Lexicographic order: at the first difference the character is smaller, or `s` is a proper prefix. -/
def LexBefore (s t : List UInt8) : Prop :=
  (∃ i, (∃ (h : i < s.length) (h' : i < t.length), s[i].toNat < t[i].toNat) ∧ ∀ j < i, s[j]? = t[j]?) ∨
  (∃ r, r ≠ [] ∧ t = s ++ r)

/-- `t` occurs in `s` at position `i`. -/
def OccursAt (s t : List UInt8) (i : Nat) : Prop :=
  i + t.length ≤ s.length ∧ ∀ j < t.length, s[i + j]? = t[j]?

/-- `s` has one of the characters of `t` at position `i`. -/
def OneOfAt (s t : List UInt8) (i : Nat) : Prop := ∃ h : i < s.length, s[i] ∈ t

/-- `s` has at position `i` a character that is not in `t`. -/
def NoneOfAt (s t : List UInt8) (i : Nat) : Prop := ∃ h : i < s.length, s[i] ∉ t

/-- `r` is the smallest position from `pos` on with property `P`, or "not found". -/
def SmallestFrom (P : Nat → Prop) (pos r : Nat) : Prop :=
  (r = noPos ∧ ∀ i, pos ≤ i → ¬ P i) ∨ (r ≠ noPos ∧ pos ≤ r ∧ P r ∧ ∀ i, pos ≤ i → i < r → ¬ P i)

/-- `r` is the largest position up to `pos` with property `P`, or "not found". -/
def LargestUpTo (P : Nat → Prop) (pos r : Nat) : Prop :=
  (r = noPos ∧ ∀ i, i ≤ pos → ¬ P i) ∨ (r ≠ noPos ∧ r ≤ pos ∧ P r ∧ ∀ i, r < i → i ≤ pos → ¬ P i)

end Dart.Spec
