import Verif.Lemmas.Packet
import Verif.Lemmas.Native
import Verif.Lemmas.Laws
import Verif.Model.Sample

/-
C40: casting between packets and native types. `x.toDart` is the packet made from the native `x`,
`v.toNative t` is `v.as<t>()`.
-/
namespace Dart.Props
open Spec

/-- Every native value comes back as it went in (integers of any width and signedness). -/
theorem C40_round_trip {x : Native} (h : Possible x) : x.toDart.toNative (typeOf x) = .ok x := by
  cases x with
  | null => rfl
  | bool b => rfl
  | dbl d => rfl
  | str s => rfl
  | int t x =>
    obtain ⟨h1, h2, h3⟩ := h
    have : t.wrap (BitVec.ofInt 64 x).toInt = x := by
      rw [toInt_ofInt64, wrap_wrap64 h2, wrap_inRange h1 h3]
    simp only [Native.toDart, typeOf, Val.toNative, Val.getType, if_true, Val.integer, Res.bind, this]

/-- An integer packet made from a native integer holds that integer, exactly if it is less than 2^63.
(A larger `uint64_t` becomes a negative number, without an error.) -/
theorem C40_integer_in {t : IntTy} {x : Int} (h : Possible (.int t x)) :
    ∃ i, (Native.int t x).toDart = .int i ∧ (i.toInt = x ↔ x < 2 ^ 63) ∧ (2 ^ 63 ≤ x → i.toInt < 0) := by
  obtain ⟨h1, h2, h3⟩ := h
  obtain ⟨bits, sgn⟩ := t
  have hx : -2 ^ 63 ≤ x ∧ x < 2 ^ 64 := by
    simp only at h1 h2
    unfold InRange at h3
    cases sgn with
    | true =>
      simp only [if_true] at h3
      have : (2 : Int) ^ (bits - 1) ≤ 2 ^ 63 := by
        exact_mod_cast Nat.pow_le_pow_right (by omega : 0 < 2) (by omega : bits - 1 ≤ 63)
      omega
    | false =>
      simp only [Bool.false_eq_true, if_false] at h3
      have : (2 : Int) ^ bits ≤ 2 ^ 64 := by
        exact_mod_cast Nat.pow_le_pow_right (by omega : 0 < 2) h2
      omega
  refine ⟨_, rfl, ?_, ?_⟩
  · rw [toInt_ofInt64, Int.bmod_def]
    simp only [Nat.reducePow, Int.reducePow] at *
    omega
  · intro hb
    rw [toInt_ofInt64, Int.bmod_def]
    simp only [Nat.reducePow, Int.reducePow] at *
    omega

/-- Reading an integer packet as a native integral type: the result is always of that type, and is the
number in the packet exactly if it is in range. (Otherwise it is cut off, without an error.) -/
theorem C40_integer_out (i : BitVec 64) {t : IntTy} (h1 : 1 ≤ t.bits) :
    ∃ y, (Val.int i).toNative (.int t) = .ok (.int t y) ∧ InRange t y ∧ (y = i.toInt ↔ InRange t i.toInt) := by
  refine ⟨_, rfl, wrap_inRange' h1 _, ?_⟩
  exact ⟨fun h => h ▸ wrap_inRange' h1 _, fun h => wrap_inRange h1 h⟩

/-- Asking for a type the packet does not have throws; there is no conversion between integers and
decimals. Only `bool` is different: it can be had from everything, and is true for all but null and
`false`, so also for zero, the empty string and the empty array. -/
theorem C40_wrong_type (v : Val) :
    (v ≠ .null → v.toNative .null = .throw .typeError) ∧
    (∀ t, (∀ i, v ≠ .int i) → v.toNative (.int t) = .throw .typeError) ∧
    ((∀ d, v ≠ .dec d) → v.toNative .dbl = .throw .typeError) ∧
    ((∀ s, v ≠ .str s) → v.toNative .str = .throw .typeError) ∧
    (∃ b, v.toNative .bool = .ok (.bool b) ∧ (b = false ↔ v = .null ∨ v = .bool false)) := by
  cases v with
  | bool b => cases b <;> simp [Val.toNative, Val.getType, Val.strv, Val.boolean, Res.bind]
  | _ => simp_all [Val.toNative, Val.getType, Val.strv, Val.decimal, Val.integer, Res.bind]

/-- Finalized values give the same as the dynamic values they hold. -/
theorem C40_finalized {signed exact : Bool} {b : Buf} (hb : Obtained signed exact b) {v : Val} (hv : b.value = some v)
    (t : NativeTy) : b.toNative t = v.toNative t := by
  have hs := hb.shows_value hv
  have ht : b.getType = v.getType := by rw [hs.getType, getType_eq]
  cases t with
  | null => simp only [Buf.toNative, Val.toNative, ht]
  | bool =>
    simp only [Buf.toNative, Val.toNative, ht]
    by_cases h : v.getType = .boolean
    · rw [if_pos h, if_pos h, hs.boolean (by rintro i rfl; cases h) (by rintro i rfl; cases h)]
    · rw [if_neg h, if_neg h]
  | int t => simp only [Buf.toNative, Val.toNative, ht, hs.integer]
  | dbl => simp only [Buf.toNative, Val.toNative, ht, hs.decimal]
  | str => simp only [Buf.toNative, Val.toNative, hs.strv']

/-! Concrete cases. -/

/-- `int8_t`, `uint8_t` and `uint64_t`. -/
def i8 : IntTy := ⟨8, true⟩
def u8 : IntTy := ⟨8, false⟩
def u64 : IntTy := ⟨64, false⟩

example : Possible (.int i8 (-128)) ∧ ¬ Possible (.int i8 128) ∧ Possible (.int u64 (2 ^ 64 - 1)) := by
  simp [Possible, InRange, i8, u64]
/-- 300 read as `int8_t` is 44, -1 read as `uint8_t` is 255. -/
example : (Val.int 300).toNative (.int i8) = .ok (.int i8 44) := by decide +kernel
example : (Val.int (-1)).toNative (.int u8) = .ok (.int u8 255) := by decide +kernel
/-- The largest `uint64_t` becomes -1, and is read back as it was. -/
example : ∃ i, (Native.int u64 (2 ^ 64 - 1)).toDart = .int i ∧ i.toInt = -1 := ⟨_, rfl, by decide +kernel⟩
example : (Native.int u64 (2 ^ 64 - 1)).toDart.toNative (.int u64) = .ok (.int u64 (2 ^ 64 - 1)) := by decide +kernel

end Dart.Props
