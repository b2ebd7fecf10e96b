import Verif.Spec.Native
import Verif.Lemmas.Arith

/-
Conversions of native integers.
-/
namespace Dart
open Spec

theorem wrap_inRange {t : IntTy} {x : Int} (hb : 1 ≤ t.bits) (h : InRange t x) : t.wrap x = x := by
  obtain ⟨bits, sgn⟩ := t
  simp only at hb
  unfold InRange at h
  unfold IntTy.wrap
  cases sgn with
  | true =>
    simp only [if_true] at h ⊢
    rw [BitVec.toInt_ofInt]
    obtain ⟨k, rfl⟩ : ∃ k, bits = k + 1 := ⟨bits - 1, by omega⟩
    have e : ((2 ^ (k + 1) : Nat) : Int) = 2 ^ k * 2 := by push_cast; rw [Int.pow_succ]
    simp only [Nat.add_sub_cancel] at h
    apply bmod_self
    · rw [e]; omega
    · rw [e]; omega
  | false =>
    simp only [Bool.false_eq_true, if_false] at h ⊢
    rw [BitVec.toNat_ofInt]
    have e : ((2 ^ bits : Nat) : Int) = 2 ^ bits := by push_cast; rfl
    rw [e, Int.emod_eq_of_lt h.1 h.2]
    omega

theorem wrap_inRange' {t : IntTy} (hb : 1 ≤ t.bits) (x : Int) : InRange t (t.wrap x) := by
  obtain ⟨bits, sgn⟩ := t
  simp only at hb
  unfold InRange IntTy.wrap
  cases sgn with
  | true =>
    simp only [if_true]
    have h1 := BitVec.toInt_lt (x := BitVec.ofInt bits x)
    have h2 := BitVec.le_toInt (BitVec.ofInt bits x)
    exact ⟨h2, h1⟩
  | false =>
    simp only [Bool.false_eq_true, if_false]
    have h1 := (BitVec.ofInt bits x).isLt
    have e : ((2 ^ bits : Nat) : Int) = 2 ^ bits := by push_cast; rfl
    exact ⟨by omega, by rw [← e]; exact_mod_cast h1⟩

/-- Going through 64 bits loses nothing. -/
theorem wrap_wrap64 {t : IntTy} (hb : t.bits ≤ 64) (x : Int) : t.wrap (x.bmod (2 ^ 64)) = t.wrap x := by
  obtain ⟨bits, sgn⟩ := t
  simp only at hb
  have hd : (2 ^ bits : Nat) ∣ 2 ^ 64 := Nat.pow_dvd_pow 2 hb
  unfold IntTy.wrap
  have : BitVec.ofInt bits (x.bmod (2 ^ 64)) = BitVec.ofInt bits x := by
    apply BitVec.eq_of_toInt_eq
    rw [BitVec.toInt_ofInt, BitVec.toInt_ofInt]
    exact Int.bmod_bmod_of_dvd hd
  simp only [this]

theorem toInt_moderate {x : Int} (h : x.natAbs ≤ 2 ^ 53) : (BitVec.ofInt 64 x).toInt = x := by
  rw [toInt_ofInt64]; exact bmod_self (by omega) (by omega)

end Dart
