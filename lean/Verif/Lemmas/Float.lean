import Verif.Lemmas.Numeric
import Verif.Spec.Float

namespace Dart
open Spec

theorem doubleVal_mk {s e m : Nat} (he : e < 2048) (hm : m < 2 ^ 52) :
    doubleVal (mkDouble s e m) =
      if e = 2047 then (if m = 0 then .inf (s != 0) else .nan)
      else .finite (signed s (if e = 0 then m else (2 ^ 52 + m) * 2 ^ (e - 1))) := by
  obtain ⟨h1, h2, h3⟩ := mkDouble_fields (s := s) he hm
  unfold doubleVal
  rw [h1, h2, h3]

theorem floatVal_mk {s e m : Nat} (he : e < 256) (hm : m < 2 ^ 23) :
    floatVal (mkFloat s e m) =
      if e = 255 then (if m = 0 then .inf (s != 0) else .nan)
      else .finite (signed s ((if e = 0 then m else (2 ^ 23 + m) * 2 ^ (e - 1)) * 2 ^ 925)) := by
  obtain ⟨h1, h2, h3⟩ := mkFloat_fields (s := s) he hm
  unfold floatVal
  rw [h1, h2, h3]

/-- Widening keeps the value. -/
theorem doubleVal_widen (f : Nat) : doubleVal (widenBits f) = floatVal f := by
  obtain ⟨s, e, m, he, hm, rfl⟩ : ∃ s e m, e < 256 ∧ m < 2 ^ 23 ∧ f = mkFloat s e m :=
    ⟨_, _, _, by omega, by omega, float_eq_mk f⟩
  rw [widenBits_mk he hm, floatVal_mk he hm]
  by_cases h1 : e = 255
  · subst h1
    rw [if_pos rfl, if_pos rfl, doubleVal_mk (by omega) (by omega), if_pos rfl]
    by_cases h2 : m = 0
    · subst h2; simp
    · rw [if_neg h2, if_neg (by omega)]
  · rw [if_neg h1, if_neg h1]
    by_cases h0 : e = 0
    · subst h0
      rw [if_pos rfl, if_pos rfl]
      by_cases hm0 : m = 0
      · subst hm0
        rw [if_pos rfl, doubleVal_mk (by omega) (by omega), if_neg (by omega), if_pos rfl, Nat.zero_mul]
      · rw [if_neg hm0]
        obtain ⟨hlo, hhi⟩ := (Nat.log2_eq_iff hm0).mp (rfl : Nat.log2 m = Nat.log2 m)
        generalize Nat.log2 m = k at hlo hhi ⊢
        have hk : k ≤ 22 := by
          rcases Nat.lt_or_ge 22 k with h | h
          · have := Nat.pow_le_pow_right (show 0 < 2 by omega) (show 23 ≤ k by omega)
            omega
          · exact h
        have hprod : 2 ^ k * 2 ^ (52 - k) = 2 ^ 52 := by rw [← Nat.pow_add]; congr 1; omega
        have hpos : 0 < 2 ^ (52 - k) := Nat.pow_pos (by omega)
        have hmm : (m - 2 ^ k) * 2 ^ (52 - k) < 2 ^ 52 := by
          rw [← hprod]
          apply Nat.mul_lt_mul_of_pos_right _ hpos
          rw [Nat.pow_succ] at hhi; omega
        have hsum : 2 ^ 52 + (m - 2 ^ k) * 2 ^ (52 - k) = m * 2 ^ (52 - k) := by
          rw [Nat.sub_mul, hprod]
          have := Nat.mul_le_mul_right (2 ^ (52 - k)) hlo
          rw [hprod] at this; omega
        rw [doubleVal_mk (by omega) hmm, if_neg (by omega), if_neg (by omega), hsum, Nat.mul_assoc, ← Nat.pow_add,
          show 52 - k + (k + 874 - 1) = 925 by omega]
    · rw [if_neg h0, if_neg h0, doubleVal_mk (by omega) (by omega), if_neg (by omega), if_neg (by omega)]
      have hsum : 2 ^ 52 + m * 2 ^ 29 = (2 ^ 23 + m) * 2 ^ 29 := by omega
      rw [hsum, Nat.mul_assoc, Nat.mul_assoc, ← Nat.pow_add, ← Nat.pow_add,
        show 29 + (e + 896 - 1) = e - 1 + 925 by omega]

theorem mag_lt {m m' a b : Nat} (hm : m < 2 ^ 52) (h : a < b) :
    (2 ^ 52 + m) * 2 ^ a < (2 ^ 52 + m') * 2 ^ b := by
  obtain ⟨c, rfl⟩ : ∃ c, b = a + 1 + c := ⟨b - (a + 1), by omega⟩
  have h1 : 2 ^ a * 2 ≤ 2 ^ (a + 1 + c) := by
    rw [← Nat.pow_succ]; exact Nat.pow_le_pow_right (by omega) (by omega)
  have hp : 0 < 2 ^ a := Nat.pow_pos (by omega)
  calc (2 ^ 52 + m) * 2 ^ a < (2 * 2 ^ 52) * 2 ^ a := Nat.mul_lt_mul_of_pos_right (by omega) hp
    _ = 2 ^ 52 * (2 ^ a * 2) := by ac_rfl
    _ ≤ 2 ^ 52 * 2 ^ (a + 1 + c) := Nat.mul_le_mul_left _ h1
    _ ≤ (2 ^ 52 + m') * 2 ^ (a + 1 + c) := Nat.mul_le_mul_right _ (by omega)

/-- Magnitudes of finite doubles determine exponent and mantissa. -/
theorem mag_inj {e e' m m' : Nat} (hm : m < 2 ^ 52) (hm' : m' < 2 ^ 52)
    (h : (if e = 0 then m else (2 ^ 52 + m) * 2 ^ (e - 1)) = (if e' = 0 then m' else (2 ^ 52 + m') * 2 ^ (e' - 1))) :
    e = e' ∧ m = m' := by
  have big : ∀ (a n : Nat), 2 ^ 52 ≤ (2 ^ 52 + n) * 2 ^ a := by
    intro a n
    have hp : 0 < 2 ^ a := Nat.pow_pos (by omega)
    exact Nat.le_trans (by omega) (Nat.le_mul_of_pos_right (2 ^ 52 + n) hp)
  by_cases h0 : e = 0
  · by_cases h1 : e' = 0
    · simp only [h0, h1, if_true] at h ⊢; exact ⟨trivial, h⟩
    · rw [if_pos h0, if_neg h1] at h
      have := big (e' - 1) m'
      omega
  · by_cases h1 : e' = 0
    · rw [if_neg h0, if_pos h1] at h
      have := big (e - 1) m
      omega
    · rw [if_neg h0, if_neg h1] at h
      rcases Nat.lt_trichotomy (e - 1) (e' - 1) with hl | he | hg
      · have := mag_lt (m' := m') hm hl; omega
      · rw [he] at h
        have := Nat.eq_of_mul_eq_mul_right (Nat.pow_pos (by omega)) h
        omega
      · have := mag_lt (m' := m) hm' hg; omega

theorem signed_inj {s s' n n' : Nat} (hs : s < 2) (hs' : s' < 2) (h : signed s n = signed s' n') :
    n = n' ∧ (s = s' ∨ n = 0) := by
  unfold signed at h
  split at h <;> split at h <;> omega

/-- Doubles with the same value are the same bits, except for the two zeros. -/
theorem doubleVal_inj {d d' : Nat} (hd : d < 2 ^ 64) (hd' : d' < 2 ^ 64) (h : doubleVal d = doubleVal d')
    (hn : doubleVal d ≠ .nan) : d = d' ∨ (d % 2 ^ 63 = 0 ∧ d' % 2 ^ 63 = 0) := by
  obtain ⟨s, e, m, he, hm, hs, rfl⟩ : ∃ s e m, e < 2048 ∧ m < 2 ^ 52 ∧ s < 2 ∧ d = mkDouble s e m :=
    ⟨_, _, _, by omega, by omega, by omega, double_eq_mk d⟩
  obtain ⟨s', e', m', he', hm', hs', rfl⟩ : ∃ s e m, e < 2048 ∧ m < 2 ^ 52 ∧ s < 2 ∧ d' = mkDouble s e m :=
    ⟨_, _, _, by omega, by omega, by omega, double_eq_mk d'⟩
  rw [doubleVal_mk he hm] at hn
  rw [doubleVal_mk he hm, doubleVal_mk he' hm'] at h
  by_cases h1 : e = 2047
  · rw [if_pos h1] at h hn
    by_cases h2 : m = 0
    · rw [if_pos h2] at h
      by_cases h3 : e' = 2047
      · rw [if_pos h3] at h
        by_cases h4 : m' = 0
        · rw [if_pos h4] at h
          have : (s != 0) = (s' != 0) := by injection h
          have hss : s = s' := by
            rcases (show s = 0 ∨ s = 1 by omega) with rfl | rfl <;>
              rcases (show s' = 0 ∨ s' = 1 by omega) with rfl | rfl <;> simp_all
          left; rw [h1, h2, h3, h4, hss]
        · rw [if_neg h4] at h; cases h
      · rw [if_neg h3] at h; cases h
    · rw [if_neg h2] at hn; exact absurd rfl hn
  · rw [if_neg h1] at h
    by_cases h3 : e' = 2047
    · rw [if_pos h3] at h
      by_cases h4 : m' = 0
      · rw [if_pos h4] at h; cases h
      · rw [if_neg h4] at h; cases h
    · rw [if_neg h3] at h
      injection h with h
      obtain ⟨ha, hb⟩ := signed_inj hs hs' h
      obtain ⟨rfl, rfl⟩ := mag_inj hm hm' ha
      rcases hb with rfl | hb
      · exact .inl rfl
      · right
        have hz : e = 0 ∧ m = 0 := mag_inj (e' := 0) (m' := 0) hm (by omega) (by rw [hb]; rfl)
        obtain ⟨rfl, rfl⟩ := hz
        unfold mkDouble; omega

theorem floatVal_nan_iff (f : Nat) :
    floatVal f = .nan ↔ (f / 2 ^ 23 % 2 ^ 8 = 255 ∧ f % 2 ^ 23 ≠ 0) := by
  unfold floatVal
  simp only
  split
  · rename_i h
    split <;> rename_i h2 <;> simp [h2]
    exact h
  · rename_i h; simp; intro h'; exact absurd h' h

theorem widenBits_lt {f : Nat} (hf : f < 2 ^ 32) : widenBits f < 2 ^ 64 := by
  obtain ⟨s, e, m, he, hm, hs, rfl⟩ : ∃ s e m, e < 256 ∧ m < 2 ^ 23 ∧ s < 2 ∧ f = mkFloat s e m :=
    ⟨_, _, _, by omega, by omega, by omega, float_eq_mk f⟩
  rw [widenBits_mk he hm]
  by_cases h1 : e = 255
  · rw [if_pos h1]; unfold mkDouble; omega
  · rw [if_neg h1]
    by_cases h0 : e = 0
    · rw [if_pos h0]
      by_cases hm0 : m = 0
      · rw [if_pos hm0]; unfold mkDouble; omega
      · rw [if_neg hm0]
        obtain ⟨hlo, hhi⟩ := (Nat.log2_eq_iff hm0).mp (rfl : Nat.log2 m = Nat.log2 m)
        generalize Nat.log2 m = k at hlo hhi ⊢
        have hk : k ≤ 22 := by
          rcases Nat.lt_or_ge 22 k with h | h
          · have := Nat.pow_le_pow_right (show 0 < 2 by omega) (show 23 ≤ k by omega)
            omega
          · exact h
        have hprod : 2 ^ k * 2 ^ (52 - k) = 2 ^ 52 := by rw [← Nat.pow_add]; congr 1; omega
        have hpos : 0 < 2 ^ (52 - k) := Nat.pow_pos (by omega)
        have hmm : (m - 2 ^ k) * 2 ^ (52 - k) < 2 ^ 52 := by
          rw [← hprod]
          apply Nat.mul_lt_mul_of_pos_right _ hpos
          rw [Nat.pow_succ] at hhi; omega
        unfold mkDouble; omega
    · rw [if_neg h0]; unfold mkDouble; omega

/-- Narrowing succeeds exactly when some float has the same (non-NaN) value. -/
theorem narrow_isSome_iff {d : Nat} (hd : d < 2 ^ 64) :
    (narrowBits d).isSome = true ↔ ∃ f, f < 2 ^ 32 ∧ floatVal f = doubleVal d ∧ doubleVal d ≠ .nan := by
  constructor
  · intro h
    obtain ⟨f, hf⟩ := Option.isSome_iff_exists.1 h
    obtain ⟨hw, hl⟩ := widen_narrow hd hf
    refine ⟨f, hl, by rw [← hw, doubleVal_widen], ?_⟩
    rw [← hw, doubleVal_widen]
    intro hn
    rw [floatVal_nan_iff] at hn
    -- the narrowed pattern is never a NaN
    obtain ⟨s, e, m, he, hm, hs, rfl⟩ : ∃ s e m, e < 2048 ∧ m < 2 ^ 52 ∧ s < 2 ∧ d = mkDouble s e m :=
      ⟨_, _, _, by omega, by omega, by omega, double_eq_mk d⟩
    have hval := doubleVal_widen f
    rw [hw, doubleVal_mk he hm, (floatVal_nan_iff f).2 hn] at hval
    by_cases h1 : e = 2047
    · rw [if_pos h1] at hval
      by_cases h2 : m = 0
      · rw [if_pos h2] at hval; cases hval
      · rw [narrowBits_mk he hm, if_pos h1, if_neg h2] at hf; cases hf
    · rw [if_neg h1] at hval; cases hval
  · rintro ⟨f, hf, hv, hn⟩
    have hnn : ¬ (f / 2 ^ 23 % 2 ^ 8 = 255 ∧ f % 2 ^ 23 ≠ 0) := by
      intro hh; exact hn (hv ▸ (floatVal_nan_iff f).2 hh)
    rw [← doubleVal_widen] at hv
    rcases doubleVal_inj (widenBits_lt hf) hd hv (hv ▸ hn) with h | ⟨_, h⟩
    · rw [← h, narrow_widen hf hnn]; rfl
    · have : d = mkDouble (d / 2 ^ 63) 0 0 := by unfold mkDouble; omega
      rw [this, narrowBits_mk (by omega) (by omega)]; simp

end Dart
