/-
Specification of the order on object keys, independent of the model.
-/
namespace Dart.Spec

/-- `a` comes before `b`: it is shorter, or they have equal length and at the first position where
they differ the byte of `a` is smaller (as an unsigned number). -/
def KeyBefore (a b : List UInt8) : Prop :=
  a.length < b.length ∨
  (a.length = b.length ∧
    ∃ (i : Nat) (ha : i < a.length) (hb : i < b.length),
      a[i].toNat < b[i].toNat ∧ ∀ (j : Nat) (_ : j < i), a[j]? = b[j]?)

end Dart.Spec
