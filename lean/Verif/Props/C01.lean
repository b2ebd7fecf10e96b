import Verif.Lemmas.Key

/-
C01: the order on object keys is a strict total order with the documented meaning.
-/
namespace Dart.Props

/-- C01: the comparator used for object keys decides exactly the documented order
(shorter first, then first differing unsigned byte). -/
theorem C01_comparator_is_documented_order (a b : Bytes) :
    keyLt a b = true ↔ Spec.KeyBefore a b := keyLt_iff_spec

/-- C01: no key precedes itself. -/
theorem C01_irreflexive (a : Bytes) : keyLt a a = false := keyLt_irrefl a

/-- C01: transitivity. -/
theorem C01_transitive (a b c : Bytes) (hab : keyLt a b = true) (hbc : keyLt b c = true) :
    keyLt a c = true := keyLt_trans hab hbc

/-- C01: of two different keys exactly one precedes the other. -/
theorem C01_trichotomy (a b : Bytes) (hne : a ≠ b) :
    (keyLt a b = true ∧ keyLt b a = false) ∨ (keyLt b a = true ∧ keyLt a b = false) := by
  cases h1 : keyLt a b with
  | true => exact Or.inl ⟨rfl, keyLt_asymm h1⟩
  | false =>
    cases h2 : keyLt b a with
    | true => exact Or.inr ⟨rfl, rfl⟩
    | false => exact absurd (keyLt_total h1 h2) hne

/-- "z" comes before "aa", "a" before "b", and the byte 0x80 comes after "z". -/
example : keyLt [122] [97, 97] = true ∧ keyLt [97] [98] = true ∧ keyLt [122] [0x80] = true := by decide
example : keyLt [97, 97] [97, 98] = true ∧ keyLt [97, 98] [98, 97] = true := by decide

end Dart.Props
