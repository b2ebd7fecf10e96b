import Verif.Model.Align
import Verif.Lemmas.Basic

namespace Dart

theorem and_not_mask (y : BitVec 64) (k : Nat) (hk : k < 64) :
    (y &&& ~~~(BitVec.ofNat 64 (2 ^ k) - 1)) = (y >>> k) <<< k := by
  have h1 : BitVec.ofNat 64 (2 ^ k) - 1 = BitVec.ofNat 64 (2 ^ k - 1) := by
    apply BitVec.eq_of_toNat_eq
    have hp : 2 ^ k < 2 ^ 64 := Nat.pow_lt_pow_right (by omega) hk
    have hp0 : 0 < 2 ^ k := Nat.pow_pos (by omega)
    rw [BitVec.toNat_sub]
    simp only [BitVec.toNat_ofNat, Nat.mod_eq_of_lt hp, Nat.mod_eq_of_lt (show 2 ^ k - 1 < 2 ^ 64 by omega)]
    simp
    omega
  rw [h1]
  apply BitVec.eq_of_getLsbD_eq
  intro i hi
  simp only [BitVec.getLsbD_and, BitVec.getLsbD_not, BitVec.getLsbD_ofNat, BitVec.getLsbD_shiftLeft,
    BitVec.getLsbD_ushiftRight, Nat.testBit_two_pow_sub_one, hi, decide_true, Bool.true_and]
  by_cases h : i < k
  · simp [h]
  · have e : k + (i - k) = i := by omega
    simp [h, e]

theorem alignMask_toNat (x : BitVec 64) (k : Nat) (hk : k < 64) (hx : x.toNat + (2 ^ k - 1) < 2 ^ 64) :
    (alignMask x (2 ^ k)).toNat = alignUp x.toNat (2 ^ k) := by
  have hp : 2 ^ k < 2 ^ 64 := Nat.pow_lt_pow_right (by omega) hk
  have hp0 : 0 < 2 ^ k := Nat.pow_pos (by omega)
  unfold alignMask
  simp only
  rw [and_not_mask _ _ hk, BitVec.toNat_shiftLeft, BitVec.toNat_ushiftRight, Nat.shiftRight_eq_div_pow,
    Nat.shiftLeft_eq]
  have h1 : (x + (BitVec.ofNat 64 (2 ^ k) - 1)).toNat = x.toNat + (2 ^ k - 1) := by
    rw [BitVec.toNat_add, BitVec.toNat_sub]
    simp only [BitVec.toNat_ofNat, Nat.mod_eq_of_lt hp]
    simp
    omega
  rw [h1]
  unfold alignUp
  apply Nat.mod_eq_of_lt
  exact Nat.lt_of_le_of_lt (Nat.div_mul_le_self _ _) hx

end Dart
