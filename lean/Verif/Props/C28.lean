import Verif.Lemmas.Ordered

/-
C28: the byte-order wrapper stores little endian bytes on every host.
-/
namespace Dart.Props

/-- C28: storing any value of any width through the little endian wrapper puts its bytes, least
significant first, into memory, whatever the byte order of the host. -/
theorem C28_stored_little_endian (host : Endian) (w n : Nat) (hn : n < 256 ^ w) :
    (orderedSet .little host w n).length = w ∧
    ∀ i (h : i < (orderedSet .little host w n).length), (orderedSet .little host w n)[i].toNat = n / 256 ^ i % 256 := by
  rw [orderedSet_little host w n hn]
  refine ⟨leBytes_length w n, ?_⟩
  intro i h
  exact leBytes_getElem w n i h

/-- C28: reading back gives the value stored, for both wrapper orders and both hosts. -/
theorem C28_round_trip (order host : Endian) (w n : Nat) (hn : n < 256 ^ w) :
    orderedGet order host w (orderedSet order host w n) = n := orderedGet_set order host w n hn

/-- C28: bytes written on one host mean the same number on any other host. -/
theorem C28_portable (order host host' : Endian) (w n : Nat) (hn : n < 256 ^ w) :
    orderedGet order host' w (orderedSet order host w n) = n := by
  have : orderedSet order host w n = orderedSet order host' w n := orderedSet_host order host host' w n hn
  rw [this, orderedGet_set order host' w n hn]

/-- C28: `+=` adds to the stored value, modulo the width. -/
theorem C28_add (order host : Endian) (w n : Nat) (hn : n < 256 ^ w) (op : Operand) :
    (orderedGet order host w (orderedAdd order host w op (orderedSet order host w n)) : Int) =
      (n + op.value) % (256 ^ w : Nat) := orderedMutate_get order host w n hn _

/-- C28, partial: `-=` subtracts, modulo the width, when the operand's type is signed or at least
as wide as the wrapped type. Missing: narrower unsigned operands (see the negation). -/
theorem C28_sub_partial (order host : Endian) (w n : Nat) (hn : n < 256 ^ w) (op : Operand)
    (hop : ∀ bits, op.unsignedBits = some bits → 8 * w ≤ bits) :
    (orderedGet order host w (orderedSub order host w op (orderedSet order host w n)) : Int) =
      (n - op.value) % (256 ^ w : Nat) := by
  unfold orderedSub
  rw [orderedMutate_get order host w n hn]
  cases hu : op.unsignedBits with
  | none => simp only [Operand.neg, hu, Int.sub_eq_add_neg]
  | some bits =>
    simp only [Operand.neg, hu]
    have hd : 256 ^ w ∣ 2 ^ bits := by
      rw [show 256 = 2 ^ 8 by rfl, ← Nat.pow_mul]
      exact Nat.pow_dvd_pow 2 (hop bits hu)
    rw [Int.sub_eq_add_neg, Int.add_emod, Int.emod_emod_of_dvd _ (Int.natCast_dvd_natCast.2 hd), ← Int.add_emod]

/-- C28 fails for narrower unsigned operands: `ordered<uint64_t>` holding 5, `-= 1u` (32-bit)
yields 4294967300 instead of 4. -/
theorem C28_negation_sub_narrow_unsigned :
    orderedGet .little .little 8 (orderedSub .little .little 8 ⟨1, some 32⟩ (orderedSet .little .little 8 5)) = 4294967300 := by
  decide +kernel

/-- Non-vacuity: 0x1234 is stored as 34 12 on either host; 70000 - 1 = 69999. -/
example : orderedSet .little .big 2 0x1234 = [0x34, 0x12] ∧ orderedSet .little .little 2 0x1234 = [0x34, 0x12] := by
  decide
example : orderedGet .little .big 4 (orderedSub .little .big 4 ⟨1, none⟩ (orderedSet .little .big 4 70000)) = 69999 := by
  decide +kernel

end Dart.Props
