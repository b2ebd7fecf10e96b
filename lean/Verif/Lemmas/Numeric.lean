import Verif.Model.Value
import Verif.Lemmas.Basic

namespace Dart

theorem signExt_of_range (w : Nat) (hw : 0 < w) (hw' : w ≤ 64) (x : BitVec 64)
    (hlo : -(2 ^ (w - 1) : Int) ≤ x.toInt) (hhi : x.toInt < 2 ^ (w - 1)) :
    signExt w (x.toNat % 2 ^ w) = x := by
  apply BitVec.eq_of_toInt_eq
  unfold signExt
  rw [BitVec.toInt_signExtend, Nat.min_eq_right hw', BitVec.toInt_ofNat', Int.bmod_bmod]
  have hp : (2 : Int) ^ w = 2 * 2 ^ (w - 1) := by
    obtain ⟨v, rfl⟩ : ∃ v, w = v + 1 := ⟨w - 1, by omega⟩
    simp [Int.pow_succ, Int.mul_comm]
  have hpn : ((2 ^ w : Nat) : Int) = (2 : Int) ^ w := by simp
  have h64 : x.toInt = Int.bmod x.toNat (2 ^ 64) := BitVec.toInt_eq_toNat_bmod x
  have key : Int.bmod ((x.toNat % 2 ^ w : Nat) : Int) (2 ^ w) = Int.bmod x.toInt (2 ^ w) := by
    rw [h64]
    have : ((x.toNat % 2 ^ w : Nat) : Int) = (x.toNat : Int) % ((2 ^ w : Nat) : Int) := by simp
    rw [this, Int.emod_bmod]
    rw [Int.bmod_bmod_of_dvd]
    exact Nat.pow_dvd_pow 2 hw'
  rw [key, Int.bmod_eq_of_le]
  · omega
  · omega

theorem mkFloat_fields {s e m : Nat} (he : e < 256) (hm : m < 2 ^ 23) :
    mkFloat s e m / 2 ^ 31 = s ∧ mkFloat s e m / 2 ^ 23 % 2 ^ 8 = e ∧ mkFloat s e m % 2 ^ 23 = m := by
  unfold mkFloat; omega

theorem mkDouble_fields {s e m : Nat} (he : e < 2048) (hm : m < 2 ^ 52) :
    mkDouble s e m / 2 ^ 63 = s ∧ mkDouble s e m / 2 ^ 52 % 2 ^ 11 = e ∧ mkDouble s e m % 2 ^ 52 = m := by
  unfold mkDouble; omega

theorem float_eq_mk (f : Nat) : f = mkFloat (f / 2 ^ 31) (f / 2 ^ 23 % 2 ^ 8) (f % 2 ^ 23) := by
  unfold mkFloat; omega

theorem double_eq_mk (d : Nat) : d = mkDouble (d / 2 ^ 63) (d / 2 ^ 52 % 2 ^ 11) (d % 2 ^ 52) := by
  unfold mkDouble; omega

theorem widenBits_mk {s e m : Nat} (he : e < 256) (hm : m < 2 ^ 23) :
    widenBits (mkFloat s e m) =
      if e = 255 then mkDouble s 2047 (m * 2 ^ 29)
      else if e = 0 then
        if m = 0 then mkDouble s 0 0
        else mkDouble s (Nat.log2 m + 874) ((m - 2 ^ Nat.log2 m) * 2 ^ (52 - Nat.log2 m))
      else mkDouble s (e + 896) (m * 2 ^ 29) := by
  obtain ⟨h1, h2, h3⟩ := mkFloat_fields (s := s) he hm
  unfold widenBits
  rw [h1, h2, h3]

theorem narrowBits_mk {s e m : Nat} (he : e < 2048) (hm : m < 2 ^ 52) :
    narrowBits (mkDouble s e m) =
      if e = 2047 then (if m = 0 then some (mkFloat s 255 0) else none)
      else if e = 0 then (if m = 0 then some (mkFloat s 0 0) else none)
      else if 897 ≤ e ∧ e ≤ 1150 then
        if m % 2 ^ 29 = 0 then some (mkFloat s (e - 896) (m / 2 ^ 29)) else none
      else if 874 ≤ e ∧ e ≤ 896 then
        if (2 ^ 52 + m) % 2 ^ (52 - (e - 874)) = 0 then
          some (mkFloat s 0 ((2 ^ 52 + m) / 2 ^ (52 - (e - 874))))
        else none
      else none := by
  obtain ⟨h1, h2, h3⟩ := mkDouble_fields (s := s) he hm
  unfold narrowBits
  rw [h1, h2, h3]

theorem log2_eq {m k : Nat} (h1 : 2 ^ k ≤ m) (h2 : m < 2 ^ (k + 1)) : Nat.log2 m = k := by
  have hp : 0 < 2 ^ k := Nat.pow_pos (by omega)
  exact (Nat.log2_eq_iff (by omega)).mpr ⟨h1, h2⟩

/-- A narrowed double widens back to the same bits. -/
theorem widen_narrow {d f : Nat} (hd : d < 2 ^ 64) (h : narrowBits d = some f) :
    widenBits f = d ∧ f < 2 ^ 32 := by
  obtain ⟨s, e, m, he, hm, hs, rfl⟩ : ∃ s e m, e < 2048 ∧ m < 2 ^ 52 ∧ s < 2 ∧ d = mkDouble s e m :=
    ⟨_, _, _, by omega, by omega, by omega, double_eq_mk d⟩
  rw [narrowBits_mk he hm] at h
  split at h
  · rename_i h1; subst h1
    split at h
    · rename_i h2; subst h2; cases h
      rw [widenBits_mk (by omega) (by omega)]; simp; unfold mkFloat; omega
    · cases h
  · split at h
    · rename_i h1; subst h1
      split at h
      · rename_i h2; subst h2; cases h
        rw [widenBits_mk (by omega) (by omega)]; simp; unfold mkFloat; omega
      · cases h
    · split at h
      · rename_i h0 h1 h2
        split at h
        · rename_i h3; cases h
          have hb : m / 2 ^ 29 < 2 ^ 23 := by omega
          rw [widenBits_mk (by omega) hb]
          rw [if_neg (by omega), if_neg (by omega)]
          refine ⟨?_, by unfold mkFloat; omega⟩
          unfold mkDouble; omega
        · cases h
      · split at h
        · rename_i h0 h1 h2 h4
          split at h
          · rename_i h3; cases h
            obtain ⟨k, rfl⟩ : ∃ k, e = 874 + k := ⟨e - 874, by omega⟩
            have hk : k ≤ 22 := by omega
            rw [Nat.add_sub_cancel_left] at h3 ⊢
            have hpos : 0 < 2 ^ (52 - k) := Nat.pow_pos (by omega)
            have hprod : 2 ^ k * 2 ^ (52 - k) = 2 ^ 52 := by rw [← Nat.pow_add]; congr 1; omega
            have hq := Nat.div_add_mod (2 ^ 52 + m) (2 ^ (52 - k))
            rw [h3, Nat.add_zero, Nat.mul_comm] at hq
            generalize hqq : (2 ^ 52 + m) / 2 ^ (52 - k) = q at hq ⊢
            have hlo : 2 ^ k ≤ q := by
              rw [← hqq, Nat.le_div_iff_mul_le hpos, hprod]; omega
            have hhi : q < 2 ^ (k + 1) := by
              rw [← hqq, Nat.div_lt_iff_lt_mul hpos, Nat.pow_succ 2 k]
              have : 2 ^ k * 2 * 2 ^ (52 - k) = 2 * 2 ^ 52 := by rw [← hprod]; ac_rfl
              omega
            have hk23 : 2 ^ (k + 1) ≤ 2 ^ 23 := Nat.pow_le_pow_right (by omega) (by omega)
            rw [widenBits_mk (by omega) (by omega)]
            have hkp : 0 < 2 ^ k := Nat.pow_pos (by omega)
            rw [if_neg (by omega), if_pos rfl, if_neg (by omega), log2_eq hlo hhi]
            refine ⟨?_, by unfold mkFloat; omega⟩
            rw [Nat.sub_mul, hq, hprod, Nat.add_comm k, Nat.add_sub_cancel_left]
          · cases h
        · cases h

/-- Every float that is not a NaN is found by narrowing its widened value. -/
theorem narrow_widen {f : Nat} (_hf : f < 2 ^ 32)
    (hnan : ¬ (f / 2 ^ 23 % 2 ^ 8 = 255 ∧ f % 2 ^ 23 ≠ 0)) :
    narrowBits (widenBits f) = some f := by
  obtain ⟨s, e, m, he, hm, hnan, rfl⟩ :
      ∃ s e m, e < 256 ∧ m < 2 ^ 23 ∧ ¬ (e = 255 ∧ m ≠ 0) ∧ f = mkFloat s e m :=
    ⟨_, _, _, by omega, by omega, hnan, float_eq_mk f⟩
  rw [widenBits_mk he hm]
  split
  · rename_i h; subst h
    have hm0 : m = 0 := by omega
    subst hm0
    rw [Nat.zero_mul, narrowBits_mk (by omega) (by omega), if_pos rfl, if_pos rfl]
  · split
    · rename_i h0 h1; subst h1
      split
      · rename_i hm0; subst hm0
        rw [narrowBits_mk (by omega) (by omega)]; simp
      · rename_i hm0
        obtain ⟨hlo, hhi⟩ := (Nat.log2_eq_iff hm0).mp (rfl : Nat.log2 m = Nat.log2 m)
        generalize Nat.log2 m = k at hlo hhi ⊢
        have hk : k ≤ 22 := by
          rcases Nat.lt_or_ge 22 k with h | h
          · have := Nat.pow_le_pow_right (show 0 < 2 by omega) (show 23 ≤ k by omega)
            omega
          · exact h
        have hprod : 2 ^ k * 2 ^ (52 - k) = 2 ^ 52 := by rw [← Nat.pow_add]; congr 1; omega
        have hpos : 0 < 2 ^ (52 - k) := Nat.pow_pos (by omega)
        have hmm : (m - 2 ^ k) * 2 ^ (52 - k) < 2 ^ 52 := by
          rw [← hprod]
          apply Nat.mul_lt_mul_of_pos_right _ hpos
          rw [Nat.pow_succ] at hhi; omega
        rw [narrowBits_mk (by omega) hmm]
        rw [if_neg (by omega), if_neg (by omega), if_neg (by omega), if_pos (by omega)]
        have hsum : 2 ^ 52 + (m - 2 ^ k) * 2 ^ (52 - k) = m * 2 ^ (52 - k) := by
          rw [Nat.sub_mul, hprod]
          have := Nat.mul_le_mul_right (2 ^ (52 - k)) hlo
          rw [hprod] at this; omega
        rw [Nat.add_sub_cancel, hsum, Nat.mul_mod_left, if_pos rfl, Nat.mul_div_cancel _ hpos]
    · rename_i h0 h1
      have hmm : m * 2 ^ 29 < 2 ^ 52 := by omega
      rw [narrowBits_mk (by omega) hmm]
      rw [if_neg (by omega), if_neg (by omega), if_pos (by omega), if_pos (by omega)]
      rw [Nat.add_sub_cancel, Nat.mul_div_cancel _ (by omega)]

end Dart
