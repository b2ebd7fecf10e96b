import Verif.Lemmas.Packet
import Verif.Lemmas.Native
import Verif.Lemmas.Laws
import Verif.Model.Sample

/-
C41: comparing packets with native values. `v.eqNative x` is `v == x`.
-/
namespace Dart.Props
open Spec

/-- With integers up to 2^53, comparing with a native number says whether it is the same number.
Missing for the full property: larger integers, where it is wrong (see below). -/
theorem C41_numbers_partial (v : Val) {x : Native} (hx : (∃ t i, x = .int t i) ∨ ∃ d, x = .dbl d)
    (hm : Moderate v x) : ∃ r, v.eqNative x = .ok r ∧ (r = true ↔ SameNumber v x) := by
  rcases hx with ⟨t, n, rfl⟩ | ⟨e, rfl⟩
  · cases v with
    | int i =>
      refine ⟨_, rfl, ?_⟩
      have h1 := toInt_moderate hm.2
      simp only [beq_iff_eq, SameNumber]
      exact ⟨fun h => by rw [h, h1], fun h => BitVec.eq_of_toInt_eq (by rw [h, h1])⟩
    | dec d =>
      have h1 := toInt_moderate (x := n) hm
      refine ⟨decEq d (intToDouble n), by simp [Val.eqNative, Val.getType, Val.decimal, Res.bind, h1], ?_⟩
      have h2 := intToDouble_isInt (i := n) hm
      rw [decEq_iff]
      unfold NumEq SameNumber IsInt at *
      rw [h2]
      exact ⟨fun h => h.2, fun h => ⟨by rw [h]; simp, h⟩⟩
    | _ => exact ⟨false, rfl, by simp [SameNumber]⟩
  · cases v with
    | int i =>
      refine ⟨_, rfl, ?_⟩
      have h2 := intToDouble_isInt (i := i.toInt) hm
      rw [decEq_iff]
      unfold NumEq SameNumber IsInt at *
      rw [h2]
      exact ⟨fun h => h.2.symm, fun h => ⟨by simp, h.symm⟩⟩
    | dec d =>
      refine ⟨_, rfl, ?_⟩
      rw [decEq_iff]; rfl
    | _ => exact ⟨false, rfl, by simp [SameNumber]⟩

/-- An integer packet and a native integer of any size in the range of `int64_t`. -/
theorem C41_integers (i : BitVec 64) (t : IntTy) {x : Int} (h1 : -2 ^ 63 ≤ x) (h2 : x < 2 ^ 63) :
    ∃ r, (Val.int i).eqNative (.int t x) = .ok r ∧ (r = true ↔ i.toInt = x) := by
  have h3 : (BitVec.ofInt 64 x).toInt = x := by rw [toInt_ofInt64]; exact bmod_self (by omega) (by omega)
  refine ⟨_, rfl, ?_⟩
  simp only [beq_iff_eq]
  exact ⟨fun h => by rw [h, h3], fun h => BitVec.eq_of_toInt_eq (by rw [h, h3])⟩

/-- Null, booleans and strings: equal exactly if the packet holds the native value. (Strings are compared
in full, unlike strings in two dynamic packets, see C21.) -/
theorem C41_others (v : Val) {x : Native} (hx : x = .null ∨ (∃ b, x = .bool b) ∨ ∃ s, x = .str s) :
    ∃ r, v.eqNative x = .ok r ∧ (r = true ↔ v = x.toDart) := by
  rcases hx with rfl | ⟨b, rfl⟩ | ⟨s, rfl⟩
  · refine ⟨_, rfl, ?_⟩
    cases v <;> simp [Val.getType, Native.toDart]
  · cases v with
    | bool c => exact ⟨_, rfl, by simp [Native.toDart]⟩
    | _ => exact ⟨_, rfl, by simp [Native.toDart]⟩
  · cases v with
    | str t => exact ⟨_, rfl, by simp [Native.toDart]⟩
    | _ => exact ⟨_, rfl, by simp [Native.toDart]⟩

/-- The comparison, which is declared `noexcept`, never throws, for dynamic and finalized packets alike. -/
theorem C41_always_answers (v : Val) (x : Native) : ∃ r, v.eqNative x = .ok r := by
  cases x <;> cases v <;> exact ⟨_, rfl⟩

/-- Finalized values compare like the dynamic values they hold. -/
theorem C41_finalized {signed exact : Bool} {b : Buf} (hb : Obtained signed exact b) {v : Val} (hv : b.value = some v)
    (x : Native) : b.eqNative x = v.eqNative x := by
  have hs := hb.shows_value hv
  have ht : b.getType = v.getType := by rw [hs.getType, getType_eq]
  cases x with
  | null => simp only [Buf.eqNative, Val.eqNative, ht]
  | bool c =>
    simp only [Buf.eqNative, Val.eqNative, ht]
    by_cases h : v.getType = .boolean
    · rw [if_pos h, if_pos h, hs.boolean (by rintro i rfl; cases h) (by rintro i rfl; cases h)]
    · rw [if_neg h, if_neg h]
  | int t x => simp only [Buf.eqNative, Val.eqNative, ht, hs.integer, hs.decimal]
  | dbl e => simp only [Buf.eqNative, Val.eqNative, ht, hs.integer, hs.decimal]
  | str s => simp only [Buf.eqNative, Val.eqNative, ht, hs.strv']

/-! What is wrong. -/

/-- The integer 2^53 + 1 is said to equal the native double 2^53. -/
theorem C41_large_integer_wrong : (Val.int (2 ^ 53 + 1)).eqNative (.dbl (intToDouble (2 ^ 53))) = .ok true ∧
    IsInt (intToDouble (2 ^ 53)).toNat (2 ^ 53) := ⟨by decide +kernel, intToDouble_isInt (by decide)⟩

/-- The integer packet -1 is said to equal the largest `uint64_t`. -/
theorem C41_large_unsigned_wrong : (Val.int (-1)).eqNative (.int ⟨64, false⟩ (2 ^ 64 - 1)) = .ok true := by
  decide +kernel

/-- Comparing with a native value is not comparing with the packet made from it: the integer 5 equals the
native 5.0, but not the packet holding 5.0. -/
theorem C41_differs_from_conversion {same : List Nat → Val → Val → Bool}
    (hs : ∀ p a b, same p a b = true → a = b) : (Val.int 5).eqNative (.dbl (intToDouble 5)) = .ok true ∧
    (Val.int 5).eqOp same (Native.dbl (intToDouble 5)).toDart = false := by
  refine ⟨by decide +kernel, ?_⟩
  cases h : same [] (.int 5) (.dec (intToDouble 5)) with
  | true => cases hs _ _ _ h
  | false => show (same [] (.int 5) (.dec (intToDouble 5)) || false) = false; rw [h]; rfl

example : Moderate (.int 5) (.dbl 0x4014000000000000) := by show (5 : BitVec 64).toInt.natAbs ≤ 2 ^ 53; decide
example : (Val.int 5).eqNative (.dbl 0x4014000000000000) = .ok true := by decide +kernel
example : (Val.dec 0x4014000000000000).eqNative (.int ⟨8, true⟩ 5) = .ok true := by decide +kernel
example : (Val.str [97, 0, 98]).eqNative (.str [97, 0, 99]) = .ok false := by decide +kernel

end Dart.Props
