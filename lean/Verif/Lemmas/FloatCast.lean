import Verif.Lemmas.Ieee
import Verif.Lemmas.Float
import Verif.Lemmas.MapKeys
import Verif.Model.FloatCast
import Verif.Spec.FloatCast

/-
Rounding to single precision. The lemmas on `roundPos` follow those in `Arith` and `Ieee` with 24 bits in place of 53.
-/
namespace Dart.F32
open Spec (dist)

def largest : Nat := (2 ^ 24 - 1) * 2 ^ 253
def overflow : Nat := (2 ^ 25 - 1) * 2 ^ 252

def magOf (bits : Nat) : Nat :=
  if bits / 2 ^ 23 = 0 then bits % 2 ^ 23 else (2 ^ 23 + bits % 2 ^ 23) * 2 ^ (bits / 2 ^ 23 - 1)

theorem magOf_pos {bits : Nat} (h : 0 < bits) : 0 < magOf bits := by
  unfold magOf
  split
  · omega
  · exact Nat.mul_pos (by omega) (Nat.pow_pos (by omega))

theorem magOf_shift {s m : Nat} (hm : m ≤ 2 ^ 24) (h : s = 0 ∨ 2 ^ 23 ≤ m) : magOf (s * 2 ^ 23 + m) = m * 2 ^ s := by
  unfold magOf
  by_cases hm0 : m < 2 ^ 23
  · have hs : s = 0 := by omega
    subst hs
    have h1 : (0 * 2 ^ 23 + m) / 2 ^ 23 = 0 := by omega
    have h2 : (0 * 2 ^ 23 + m) % 2 ^ 23 = m := by omega
    rw [if_pos h1, h2]; simp
  · by_cases hm1 : m = 2 ^ 24
    · subst hm1
      have h1 : (s * 2 ^ 23 + 2 ^ 24) / 2 ^ 23 = s + 2 := by omega
      have h2 : (s * 2 ^ 23 + 2 ^ 24) % 2 ^ 23 = 0 := by omega
      rw [h1, h2, if_neg (by omega)]
      rw [show s + 2 - 1 = s + 1 from by omega, Nat.pow_succ 2 s]
      exact (fun y => by omega : ∀ y : Nat, (2 ^ 23 + 0) * (y * 2) = 2 ^ 24 * y) _
    · have h1 : (s * 2 ^ 23 + m) / 2 ^ 23 = s + 1 := by omega
      have h2 : (s * 2 ^ 23 + m) % 2 ^ 23 = m - 2 ^ 23 := by omega
      have h3 : 2 ^ 23 + (m - 2 ^ 23) = m := by omega
      rw [h1, h2, if_neg (by omega), Nat.add_sub_cancel, h3]

theorem shift_bounds (q : Nat) :
    q / 2 ^ (q.log2 - 23) < 2 ^ 24 ∧ (q.log2 - 23 = 0 ∨ 2 ^ 23 ≤ q / 2 ^ (q.log2 - 23)) := by
  rcases Nat.eq_zero_or_pos q with rfl | h
  · simp
  · obtain ⟨h1, h2⟩ := log2_bounds h
    constructor
    · rw [Nat.div_lt_iff_lt_mul (Nat.pow_pos (by omega)), ← Nat.pow_add]
      exact Nat.lt_of_lt_of_le h2 (Nat.pow_le_pow_right (by omega) (by omega))
    · by_cases h3 : q.log2 ≤ 23
      · left; omega
      · right
        rw [Nat.le_div_iff_mul_le (Nat.pow_pos (by omega)), ← Nat.pow_add]
        rwa [show 23 + (q.log2 - 23) = q.log2 from by omega]

theorem magOf_form (bits : Nat) : ∃ m s, m < 2 ^ 24 ∧ magOf bits = m * 2 ^ s := by
  unfold magOf
  split
  · exact ⟨bits % 2 ^ 23, 0, by omega, by simp⟩
  · exact ⟨2 ^ 23 + bits % 2 ^ 23, bits / 2 ^ 23 - 1, by omega, rfl⟩

theorem roundPos_le (num den : Nat) : roundPos num den ≤ 255 * 2 ^ 23 := Nat.min_le_right _ _

theorem roundPos_nearest {num den : Nat} (hd : 0 < den) (hf : roundPos num den < 255 * 2 ^ 23) (f : Nat) :
    dist ((den * magOf (roundPos num den) : Nat) : Int) num ≤ dist ((den * magOf f : Nat) : Int) num := by
  obtain ⟨m, s, hm, hms⟩ := magOf_form f
  rw [hms]
  have hb := shift_bounds (num / den)
  unfold roundPos at hf ⊢
  simp only at hf ⊢
  generalize hS : (num / den).log2 - 23 = s0 at hf hb ⊢
  have hd0 : 0 < den * 2 ^ s0 := Nat.mul_pos hd (Nat.pow_pos (by omega))
  have hH := halfEven_bounds num (den * 2 ^ s0)
  rw [← Nat.div_div_eq_div_mul] at hH
  have hnear := fun k => halfEven_nearest num hd0 k
  generalize halfEven num (den * 2 ^ s0) = M at *
  have hmin : min (s0 * 2 ^ 23 + M) (255 * 2 ^ 23) = s0 * 2 ^ 23 + M := by
    apply Nat.min_eq_left
    rcases Nat.le_total (s0 * 2 ^ 23 + M) (255 * 2 ^ 23) with h | h
    · exact h
    · rw [Nat.min_eq_right h] at hf; omega
  have hM53 : M ≤ 2 ^ 24 := by omega
  have hM52 : s0 = 0 ∨ 2 ^ 23 ≤ M := by omega
  rw [hmin, magOf_shift hM53 hM52]
  have e : den * (M * 2 ^ s0) = den * 2 ^ s0 * M := by rw [Nat.mul_comm M, Nat.mul_assoc]
  rw [e]
  by_cases hs : s0 ≤ s
  · have : den * (m * 2 ^ s) = den * 2 ^ s0 * (m * 2 ^ (s - s0)) := by
      have h2 : (2 : Nat) ^ s = 2 ^ s0 * 2 ^ (s - s0) := by rw [← Nat.pow_add]; congr 1; omega
      rw [h2, Nat.mul_assoc, Nat.mul_left_comm m]
    rw [this]
    exact hnear _
  · have h0 : 2 ^ 23 * 2 ^ s0 ≤ num / den := by
      rcases hb.2 with h | h
      · omega
      · rwa [Nat.le_div_iff_mul_le (Nat.pow_pos (by omega))] at h
    have h1 : 2 ^ 23 * 2 ^ s0 * den ≤ num := (Nat.le_div_iff_mul_le hd).1 h0
    have h2 : m * 2 ^ s ≤ 2 ^ 23 * 2 ^ s0 := by
      have h3 : (2 : Nat) ^ s0 = 2 ^ (s + 1) * 2 ^ (s0 - (s + 1)) := by rw [← Nat.pow_add]; congr 1; omega
      have h4 : 2 ^ (s + 1) ≤ 2 ^ s0 := Nat.pow_le_pow_right (by omega) (by omega)
      have h5 : m * 2 ^ s ≤ 2 ^ 24 * 2 ^ s := Nat.mul_le_mul_right _ (by omega)
      have h6 : 2 ^ 24 * 2 ^ s = 2 ^ 23 * 2 ^ (s + 1) := by rw [Nat.pow_succ 2 s]; omega
      have h7 : 2 ^ 23 * 2 ^ (s + 1) ≤ 2 ^ 23 * 2 ^ s0 := Nat.mul_le_mul_left _ h4
      omega
    have h3 := hnear (2 ^ 23)
    have h4 : den * (m * 2 ^ s) ≤ den * 2 ^ s0 * 2 ^ 23 := by
      calc den * (m * 2 ^ s) ≤ den * (2 ^ 23 * 2 ^ s0) := Nat.mul_le_mul_left _ h2
        _ = _ := by rw [Nat.mul_comm (2 ^ 23), Nat.mul_assoc]
    have h5 : den * 2 ^ s0 * 2 ^ 23 ≤ num := by
      calc den * 2 ^ s0 * 2 ^ 23 = 2 ^ 23 * 2 ^ s0 * den := by
            rw [Nat.mul_comm _ (2 ^ 23), Nat.mul_comm den, Nat.mul_assoc]
        _ ≤ num := h1
    clear hf hb hH hmin hM53 hM52 h0 h1 h2 hnear
    unfold dist at *
    generalize den * 2 ^ s0 * M = x at *
    generalize den * 2 ^ s0 * 2 ^ 23 = y at *
    generalize den * (m * 2 ^ s) = z at *
    omega

theorem roundPos_finite {num den : Nat} (hd : 0 < den) (h : num ≤ den * largest) :
    roundPos num den < 255 * 2 ^ 23 := by
  have hq : num / den ≤ (2 ^ 24 - 1) * 2 ^ 253 := by
    have := Nat.div_le_div_right (c := den) h
    rwa [Nat.mul_div_cancel_left _ hd] at this
  have hb := shift_bounds (num / den)
  have hs : (num / den).log2 - 23 ≤ 253 := by
    rcases Nat.eq_zero_or_pos (num / den) with h0 | h0
    · rw [h0]; simp
    · have h1 := (log2_bounds h0).1
      have h2 : (2 ^ 24 - 1) * 2 ^ 253 < 2 ^ 24 * 2 ^ 253 :=
        Nat.mul_lt_mul_of_pos_right (by omega) (Nat.pow_pos (by omega))
      rw [← Nat.pow_add] at h2
      have := Nat.lt_of_le_of_lt (Nat.le_trans h1 hq) h2
      have := (Nat.pow_lt_pow_iff_right (by omega : 1 < 2)).1 this
      omega
  unfold roundPos
  simp only
  generalize hS : (num / den).log2 - 23 = s0 at hs hb ⊢
  have hd0 : 0 < den * 2 ^ s0 := Nat.mul_pos hd (Nat.pow_pos (by omega))
  have hH := halfEven_bounds num (den * 2 ^ s0)
  have hH' := hH
  rw [← Nat.div_div_eq_div_mul] at hH
  apply Nat.lt_of_le_of_lt (Nat.min_le_left _ _)
  by_cases h45 : s0 = 253
  · have hM : halfEven num (den * 2 ^ s0) ≤ 2 ^ 24 - 1 := by
      have h3 : num / (den * 2 ^ s0) ≤ 2 ^ 24 - 1 := by
        have h4 : den * largest = (2 ^ 24 - 1) * (den * 2 ^ s0) := by
          unfold largest; rw [h45, Nat.mul_left_comm]
        rw [h4] at h
        have := Nat.div_le_div_right (c := den * 2 ^ s0) h
        rwa [Nat.mul_div_cancel _ hd0] at this
      by_cases h5 : num / (den * 2 ^ s0) = 2 ^ 24 - 1
      · have h6 : den * 2 ^ s0 ∣ num := by
          have h7 := Nat.div_add_mod num (den * 2 ^ s0)
          rw [h5] at h7
          have h4 : den * largest = den * 2 ^ s0 * (2 ^ 24 - 1) := by
            unfold largest; rw [h45, Nat.mul_comm (2 ^ 24 - 1), Nat.mul_assoc]
          rw [h4] at h
          exact ⟨2 ^ 24 - 1, by omega⟩
        rw [halfEven_dvd hd0 h6]; exact h3
      · omega
    generalize halfEven num (den * 2 ^ s0) = M at *
    have : s0 * 2 ^ 23 = 253 * 2 ^ 23 := by rw [h45]
    omega
  · have : s0 * 2 ^ 23 ≤ 252 * 2 ^ 23 := Nat.mul_le_mul_right _ (by omega)
    generalize halfEven num (den * 2 ^ s0) = M at *
    omega

set_option exponentiation.threshold 100 in
theorem roundPos_limit {num den : Nat} (hd : 0 < den) :
    roundPos num den < 255 * 2 ^ 23 ↔ num < den * overflow := by
  have hpow : (2 : Nat) ^ 253 = 2 ^ 252 * 2 := by rw [← Nat.pow_succ]
  constructor
  · intro hf
    apply Nat.lt_of_not_le
    intro h
    have hq : (2 ^ 25 - 1) * 2 ^ 252 ≤ num / den := by
      rw [Nat.le_div_iff_mul_le hd, Nat.mul_comm]; exact h
    have hs : 253 ≤ (num / den).log2 - 23 := by
      have h2 : (2 : Nat) ^ 276 ≤ num / den := by
        refine Nat.le_trans ?_ hq
        have : (2 : Nat) ^ 276 = 2 ^ 24 * 2 ^ 252 := by rw [← Nat.pow_add]
        rw [this]
        exact Nat.mul_le_mul_right _ (by omega)
      have := (Nat.le_log2 (by have : 0 < 2 ^ 276 := Nat.pow_pos (by omega); omega)).2 h2
      omega
    have hb := shift_bounds (num / den)
    unfold roundPos at hf
    simp only at hf
    generalize hS : (num / den).log2 - 23 = s0 at *
    have hH := halfEven_bounds num (den * 2 ^ s0)
    rw [← Nat.div_div_eq_div_mul] at hH
    have hmin := hf
    rcases Nat.lt_or_ge (s0 * 2 ^ 23 + halfEven num (den * 2 ^ s0)) (255 * 2 ^ 23) with hlt | hge
    · have h52 : 2 ^ 23 ≤ halfEven num (den * 2 ^ s0) := by omega
      have hs' : s0 = 253 := by
        rcases Nat.lt_or_ge 253 s0 with h' | h'
        · have : 254 * 2 ^ 23 ≤ s0 * 2 ^ 23 := Nat.mul_le_mul_right _ (by omega)
          generalize halfEven num (den * 2 ^ s0) = M at *
          omega
        · omega
      subst hs'
      have hM : halfEven num (den * 2 ^ 253) ≤ 2 ^ 24 - 1 := by
        generalize halfEven num (den * 2 ^ 253) = M at *
        omega
      have hd0 : 0 < den * 2 ^ 253 := Nat.mul_pos hd (Nat.pow_pos (by omega))
      -- the magnitude is at least 2^24 - 1/2 in units of 2^253
      have h' : (2 ^ 25 - 1) * (den * 2 ^ 253) ≤ 2 * num := by
        have e : (2 ^ 25 - 1) * (den * 2 ^ 253) = 2 * (den * overflow) := by
          unfold overflow
          rw [hpow]
          generalize (2 : Nat) ^ 252 = K
          generalize (2 : Nat) ^ 25 - 1 = c
          rw [Nat.mul_left_comm c, Nat.mul_left_comm 2, Nat.mul_comm 2, Nat.mul_assoc]
        rw [e]; omega
      generalize den * 2 ^ 253 = D at *
      have h1 := Nat.div_add_mod num D
      have h2 := Nat.mod_lt num hd0
      have h3 : num / D ≤ 2 ^ 24 - 1 := by
        have := (halfEven_bounds num D).1; omega
      have h4 : 2 ^ 24 - 1 ≤ num / D := by
        rw [Nat.le_div_iff_mul_le hd0]
        have e1 : (2 ^ 25 - 1) * D = (2 ^ 24 - 1) * D + (2 ^ 24 - 1) * D + D := by
          have : (2 ^ 25 - 1 : Nat) = (2 ^ 24 - 1) + (2 ^ 24 - 1) + 1 := by decide
          rw [this]; simp only [Nat.add_mul, Nat.one_mul]
        generalize (2 ^ 24 - 1) * D = z at *
        omega
      have h5 : num / D = 2 ^ 24 - 1 := by omega
      rw [h5] at h1
      have h6 : D ≤ 2 * (num % D) := by
        have e1 : (2 ^ 25 - 1) * D = D * (2 ^ 24 - 1) + D * (2 ^ 24 - 1) + D := by
          have : (2 ^ 25 - 1 : Nat) = (2 ^ 24 - 1) + (2 ^ 24 - 1) + 1 := by decide
          rw [this, Nat.mul_comm, Nat.mul_add, Nat.mul_add, Nat.mul_one]
        rw [e1] at h'
        clear e1 h hq hb hH hS hf hmin hlt hpow h3 h4 h5 h52 hM
        generalize D * (2 ^ 24 - 1) = z at h1 h'
        omega
      unfold halfEven at hM
      rw [if_neg (by omega), h5] at hM
      split at hM <;> omega
    · rw [Nat.min_eq_right hge] at hf
      omega
  · intro h
    by_cases hl : num ≤ den * largest
    · exact roundPos_finite hd hl
    · have hl' : den * largest < num := by omega
      have hq1 : (2 ^ 24 - 1) * 2 ^ 253 ≤ num / den := by
        rw [Nat.le_div_iff_mul_le hd, Nat.mul_comm]
        exact Nat.le_of_lt hl'
      have hq2 : num / den < 2 ^ 24 * 2 ^ 253 := by
        rw [Nat.div_lt_iff_lt_mul hd]
        refine Nat.lt_of_lt_of_le h ?_
        rw [Nat.mul_comm]
        apply Nat.mul_le_mul_right
        unfold overflow
        rw [hpow]
        generalize (2 : Nat) ^ 252 = K
        omega
      have hs : (num / den).log2 - 23 = 253 := by
        have h2 : (2 : Nat) ^ 276 ≤ num / den := by
          refine Nat.le_trans ?_ hq1
          have : (2 : Nat) ^ 276 = 2 ^ 23 * 2 ^ 253 := by rw [← Nat.pow_add]
          rw [this]
          exact Nat.mul_le_mul_right _ (by omega)
        have hpos : num / den ≠ 0 := by have : 0 < 2 ^ 276 := Nat.pow_pos (n := 276) (show 0 < 2 by omega); omega
        have h3 := (Nat.le_log2 hpos).2 h2
        rw [← Nat.pow_add] at hq2
        have h4 := (Nat.log2_lt hpos).2 hq2
        omega
      unfold roundPos
      simp only [hs]
      apply Nat.lt_of_le_of_lt (Nat.min_le_left _ _)
      have hd0 : 0 < den * 2 ^ 253 := Nat.mul_pos hd (Nat.pow_pos (by omega))
      have h' : 2 * num < (2 ^ 25 - 1) * (den * 2 ^ 253) := by
        have e : (2 ^ 25 - 1) * (den * 2 ^ 253) = 2 * (den * overflow) := by
          unfold overflow
          rw [hpow]
          generalize (2 : Nat) ^ 252 = K
          generalize (2 : Nat) ^ 25 - 1 = c
          rw [Nat.mul_left_comm c, Nat.mul_left_comm 2, Nat.mul_comm 2, Nat.mul_assoc]
        rw [e]; omega
      generalize den * 2 ^ 253 = D at *
      have h1 := Nat.div_add_mod num D
      have h2 := Nat.mod_lt num hd0
      have h3 : num / D ≤ 2 ^ 24 - 1 := by
        have : num / D < 2 ^ 24 := by
          rw [Nat.div_lt_iff_lt_mul hd0]
          have : (2 ^ 25 - 1) * D ≤ 2 ^ 25 * D := Nat.mul_le_mul_right _ (by omega)
          omega
        omega
      have hM : halfEven num D ≤ 2 ^ 24 - 1 := by
        by_cases h5 : num / D = 2 ^ 24 - 1
        · rw [h5] at h1
          have e1 : (2 ^ 25 - 1) * D = D * (2 ^ 24 - 1) + D * (2 ^ 24 - 1) + D := by
            have : (2 ^ 25 - 1 : Nat) = (2 ^ 24 - 1) + (2 ^ 24 - 1) + 1 := by decide
            rw [this, Nat.mul_comm, Nat.mul_add, Nat.mul_add, Nat.mul_one]
          unfold halfEven
          rw [if_pos (by generalize D * (2 ^ 24 - 1) = z at *; omega), h5]
          exact Nat.le_refl _
        · have := (halfEven_bounds num D).2; omega
      generalize halfEven num D = M at *
      omega

theorem roundPos_even {num den : Nat} (hd : 0 < den) (hf : roundPos num den < 255 * 2 ^ 23) (f : Nat)
    (h : dist ((den * magOf (roundPos num den) : Nat) : Int) num = dist ((den * magOf f : Nat) : Int) num) :
    magOf f = magOf (roundPos num den) ∨ roundPos num den % 2 = 0 := by
  obtain ⟨m, s, hm, hms⟩ := magOf_form f
  rw [hms] at h ⊢
  have hb := shift_bounds (num / den)
  unfold roundPos at hf h ⊢
  simp only at hf h ⊢
  generalize hS : (num / den).log2 - 23 = s0 at hf hb h ⊢
  have hd0 : 0 < den * 2 ^ s0 := Nat.mul_pos hd (Nat.pow_pos (by omega))
  have hH := halfEven_bounds num (den * 2 ^ s0)
  rw [← Nat.div_div_eq_div_mul] at hH
  have hnear := fun k => halfEven_nearest num hd0 k
  have heven := fun k => halfEven_even num hd0 (k := k)
  generalize halfEven num (den * 2 ^ s0) = M at *
  have hmin : min (s0 * 2 ^ 23 + M) (255 * 2 ^ 23) = s0 * 2 ^ 23 + M := by
    apply Nat.min_eq_left
    rcases Nat.le_total (s0 * 2 ^ 23 + M) (255 * 2 ^ 23) with h | h
    · exact h
    · rw [Nat.min_eq_right h] at hf; omega
  have hM53 : M ≤ 2 ^ 24 := by omega
  have hM52 : s0 = 0 ∨ 2 ^ 23 ≤ M := by omega
  rw [hmin, magOf_shift hM53 hM52] at h ⊢
  have e : den * (M * 2 ^ s0) = den * 2 ^ s0 * M := by rw [Nat.mul_comm M, Nat.mul_assoc]
  rw [e] at h
  have fin : M % 2 = 0 → (s0 * 2 ^ 23 + M) % 2 = 0 := by intro h; omega
  by_cases hs : s0 ≤ s
  · have h2 : (2 : Nat) ^ s = 2 ^ s0 * 2 ^ (s - s0) := by rw [← Nat.pow_add]; congr 1; omega
    have : den * (m * 2 ^ s) = den * 2 ^ s0 * (m * 2 ^ (s - s0)) := by
      rw [h2, Nat.mul_assoc, Nat.mul_left_comm m]
    rw [this] at h
    by_cases hk : m * 2 ^ (s - s0) = M
    · left; rw [h2, Nat.mul_left_comm, hk, Nat.mul_comm]
    · right; exact fin (heven _ hk h)
  · have h0 : 2 ^ 23 * 2 ^ s0 ≤ num / den := by
      rcases hb.2 with h | h
      · omega
      · rwa [Nat.le_div_iff_mul_le (Nat.pow_pos (by omega))] at h
    have h1 : 2 ^ 23 * 2 ^ s0 * den ≤ num := (Nat.le_div_iff_mul_le hd).1 h0
    have h2 : m * 2 ^ s ≤ 2 ^ 23 * 2 ^ s0 := by
      have h3 : (2 : Nat) ^ s0 = 2 ^ (s + 1) * 2 ^ (s0 - (s + 1)) := by rw [← Nat.pow_add]; congr 1; omega
      have h4 : 2 ^ (s + 1) ≤ 2 ^ s0 := Nat.pow_le_pow_right (by omega) (by omega)
      have h5 : m * 2 ^ s ≤ 2 ^ 24 * 2 ^ s := Nat.mul_le_mul_right _ (by omega)
      have h6 : 2 ^ 24 * 2 ^ s = 2 ^ 23 * 2 ^ (s + 1) := by rw [Nat.pow_succ 2 s]; omega
      have h7 : 2 ^ 23 * 2 ^ (s + 1) ≤ 2 ^ 23 * 2 ^ s0 := Nat.mul_le_mul_left _ h4
      omega
    have h3 := hnear (2 ^ 23)
    have h4 : den * (m * 2 ^ s) ≤ den * 2 ^ s0 * 2 ^ 23 := by
      calc den * (m * 2 ^ s) ≤ den * (2 ^ 23 * 2 ^ s0) := Nat.mul_le_mul_left _ h2
        _ = _ := by rw [Nat.mul_comm (2 ^ 23), Nat.mul_assoc]
    have h5 : den * 2 ^ s0 * 2 ^ 23 ≤ num := by
      calc den * 2 ^ s0 * 2 ^ 23 = 2 ^ 23 * 2 ^ s0 * den := by
            rw [Nat.mul_comm _ (2 ^ 23), Nat.mul_comm den, Nat.mul_assoc]
        _ ≤ num := h1
    have h6 : den * (m * 2 ^ s) = den * 2 ^ s0 * 2 ^ 23 ∧
        dist ((den * 2 ^ s0 * M : Nat) : Int) num = dist ((den * 2 ^ s0 * 2 ^ 23 : Nat) : Int) num := by
      clear heven hf hb hH hmin hM53 hM52 h0 h1 h2 hnear e fin hS
      unfold dist at *
      generalize den * 2 ^ s0 * M = x at *
      generalize den * 2 ^ s0 * 2 ^ 23 = y at *
      generalize den * (m * 2 ^ s) = z at *
      omega
    by_cases hk : 2 ^ 23 = M
    · left
      have h7 := h6.1
      rw [Nat.mul_assoc, hk] at h7
      rw [Nat.eq_of_mul_eq_mul_left hd h7, Nat.mul_comm]
    · right; exact fin (heven _ hk h6.2)

/-- The value of bits made from a sign and a magnitude. -/
theorem floatVal_bits (neg : Bool) {bits : Nat} (h : bits < 255 * 2 ^ 23) :
    Spec.floatVal (BitVec.ofNat 32 ((if neg then 2 ^ 31 else 0) + bits)).toNat =
      .finite (signedMag neg (magOf bits * 2 ^ 925)) := by
  unfold Spec.floatVal magOf
  have h1 : (BitVec.ofNat 32 ((if neg then 2 ^ 31 else 0) + bits)).toNat = (if neg then 2 ^ 31 else 0) + bits := by
    rw [BitVec.toNat_ofNat, Nat.mod_eq_of_lt]
    split <;> omega
  simp only [h1]
  have h2 : ((if neg = true then 2 ^ 31 else 0) + bits) / 2 ^ 23 % 2 ^ 8 = bits / 2 ^ 23 := by split <;> omega
  have h3 : ((if neg = true then 2 ^ 31 else 0) + bits) % 2 ^ 23 = bits % 2 ^ 23 := by split <;> omega
  have h4 : ((if neg = true then 2 ^ 31 else 0) + bits) / 2 ^ 31 = if neg then 1 else 0 := by split <;> omega
  rw [h2, h3, h4, if_neg (by omega)]
  generalize (if bits / 2 ^ 23 = 0 then bits % 2 ^ 23 else (2 ^ 23 + bits % 2 ^ 23) * 2 ^ (bits / 2 ^ 23 - 1)) * 2 ^ 925 = x
  cases neg <;> simp [Spec.signed, signedMag]

theorem floatVal_infinity (neg : Bool) :
    Spec.floatVal (BitVec.ofNat 32 ((if neg then 2 ^ 31 else 0) + 255 * 2 ^ 23)).toNat = .inf neg := by
  cases neg <;> rfl

theorem floatVal_finite {f : Nat} {y : Int} (h : Spec.floatVal f = .finite y) :
    ∃ b, b < 255 * 2 ^ 23 ∧ (y = ((2 ^ 925 * magOf b : Nat) : Int) ∨ y = -((2 ^ 925 * magOf b : Nat) : Int)) := by
  unfold Spec.floatVal at h
  simp only at h
  split at h
  · split at h <;> cases h
  · rename_i hne
    injection h with h
    refine ⟨(f / 2 ^ 23 % 2 ^ 8) * 2 ^ 23 + f % 2 ^ 23, by omega, ?_⟩
    have h1 : ((f / 2 ^ 23 % 2 ^ 8) * 2 ^ 23 + f % 2 ^ 23) / 2 ^ 23 = f / 2 ^ 23 % 2 ^ 8 := by omega
    have h2 : ((f / 2 ^ 23 % 2 ^ 8) * 2 ^ 23 + f % 2 ^ 23) % 2 ^ 23 = f % 2 ^ 23 := by omega
    unfold magOf
    rw [h1, h2, ← h, Nat.mul_comm]
    unfold Spec.signed
    split
    · left; rfl
    · right; rfl

theorem bits_sign (neg : Bool) {x : Nat} (h : x ≤ 255 * 2 ^ 23) :
    Spec.floatNegBit (BitVec.ofNat 32 ((if neg then 2 ^ 31 else 0) + x)).toNat = neg ∧
      (BitVec.ofNat 32 ((if neg then 2 ^ 31 else 0) + x)).toNat % 2 = x % 2 := by
  rw [BitVec.toNat_ofNat]
  unfold Spec.floatNegBit
  cases neg
  · simp only [Bool.false_eq_true, if_false, beq_eq_false_iff_ne]; omega
  · simp only [if_true, beq_iff_eq]; omega

theorem negBit_classify {d : BitVec 64} {s : Bool} {mag : Nat} (h : classify d = .fin s mag) : Spec.negBit d.toNat = s := by
  have hd := d.isLt
  unfold classify at h
  simp only at h
  split at h
  · split at h <;> cases h
  · injection h with h1 h2
    rw [← h1]
    unfold Spec.negBit
    by_cases h : 2 ^ 63 ≤ d.toNat
    · rw [decide_eq_true h, beq_iff_eq]; omega
    · rw [decide_eq_false h, beq_eq_false_iff_ne]; omega

/-- Nearest and even, with signs. -/
theorem nearest_signed {num den : Nat} (hd : 0 < den) (hf : roundPos num den < 255 * 2 ^ 23) (neg : Bool) (f : Nat) {y' : Int}
    (hy : y' = ((den * magOf f : Nat) : Int) ∨ y' = -((den * magOf f : Nat) : Int)) :
    dist (signedMag neg (magOf (roundPos num den) * den)) (signedMag neg num) ≤ dist y' (signedMag neg num) ∧
    (dist (signedMag neg (magOf (roundPos num den) * den)) (signedMag neg num) = dist y' (signedMag neg num) →
      y' = signedMag neg (magOf (roundPos num den) * den) ∨ roundPos num den % 2 = 0) := by
  have h1 := roundPos_nearest hd hf f
  have h2 := roundPos_nearest hd hf 0
  have h3 := roundPos_even hd hf f
  have h5 := roundPos_even hd hf 0
  have h0 : magOf 0 = 0 := by decide
  rw [h0, Nat.mul_zero] at h2 h5
  rw [Nat.mul_comm (magOf _)]
  have hz : ∀ a : Nat, den * a = 0 → a = 0 := fun a h => by
    rcases Nat.mul_eq_zero.1 h with h | h
    · omega
    · exact h
  have hinj : ∀ a b : Nat, a = b → den * a = den * b := fun a b h => by rw [h]
  have hzf := hz (magOf f)
  have hzr := hz (magOf (roundPos num den))
  have hi := hinj (magOf f) (magOf (roundPos num den))
  have hi0 := hinj 0 (magOf (roundPos num den))
  rw [Nat.mul_zero] at hi0
  clear hz hinj hf
  generalize roundPos num den = R at *
  generalize (den * magOf f : Nat) = a at *
  generalize (den * magOf R : Nat) = b at *
  unfold dist signedMag at *
  rcases hy with rfl | rfl <;> cases neg <;>
    simp only [Bool.false_eq_true, if_true, if_false] <;>
    generalize (magOf R : Nat) = r at * <;> generalize (magOf f : Nat) = q at * <;> omega

/-- The conversion rounds as IEEE 754 says. -/
theorem ofDouble_isFloatOf (d : BitVec 64) : Spec.IsFloatOf d.toNat (ofDouble d).toNat := by
  unfold Spec.IsFloatOf ofDouble
  rw [doubleVal_classify]
  cases hc : classify d with
  | nan => rfl
  | inf s => cases s <;> rfl
  | fin neg num =>
    simp only [FClass.val, signedMag_abs]
    rw [negBit_classify hc]
    have hd : 0 < 2 ^ 925 := Nat.pow_pos (by omega)
    have hov : Spec.floatOverflow = 2 ^ 925 * overflow := by unfold Spec.floatOverflow overflow; exact Eq.refl _
    rw [hov]
    have hlim := roundPos_limit (num := num) hd
    have hle := roundPos_le num (2 ^ 925)
    obtain ⟨hsig, hpar⟩ := bits_sign neg hle
    refine ⟨hsig, ?_, ?_⟩
    · intro h
      have hf := hlim.2 h
      have hy := floatVal_bits neg hf
      refine ⟨_, hy, fun f' y' h' => ?_⟩
      rw [hpar]
      obtain ⟨f, _, hy2⟩ := floatVal_finite h'
      exact nearest_signed hd hf neg f hy2
    · intro h
      have : roundPos num (2 ^ 925) = 255 * 2 ^ 23 := by
        have : ¬ roundPos num (2 ^ 925) < 255 * 2 ^ 23 := fun h' => by have := hlim.1 h'; omega
        omega
      rw [this]
      exact floatVal_infinity neg

/-- A `float` rounds to itself. -/
theorem roundPos_magOf {bits : Nat} (h : bits < 255 * 2 ^ 23) : roundPos (magOf bits * 2 ^ 925) (2 ^ 925) = bits := by
  have hd : 0 < 2 ^ 925 := Nat.pow_pos (by omega)
  have form : ∃ s m, bits = s * 2 ^ 23 + m ∧ m < 2 ^ 24 ∧ (s = 0 ∨ 2 ^ 23 ≤ m) := by
    by_cases h0 : bits / 2 ^ 23 = 0
    · exact ⟨0, bits, by omega, by omega, .inl rfl⟩
    · exact ⟨bits / 2 ^ 23 - 1, 2 ^ 23 + bits % 2 ^ 23, by omega, by omega, .inr (by omega)⟩
  obtain ⟨s, m, rfl, hm, hs⟩ := form
  rw [magOf_shift (by omega) hs]
  unfold roundPos
  simp only
  rw [Nat.mul_div_cancel _ hd]
  have hlog : (m * 2 ^ s).log2 - 23 = s := by
    rcases hs with rfl | hs
    · rw [Nat.pow_zero, Nat.mul_one]
      rcases Nat.eq_zero_or_pos m with rfl | hp
      · decide
      · have := (Nat.log2_lt (by omega)).2 hm
        omega
    · have h1 : m * 2 ^ s ≠ 0 := Nat.ne_of_gt (Nat.mul_pos (by omega) (Nat.pow_pos (by omega)))
      have h2 : 2 ^ (23 + s) ≤ m * 2 ^ s := by rw [Nat.pow_add]; exact Nat.mul_le_mul_right _ hs
      have h3 : m * 2 ^ s < 2 ^ (24 + s) := by
        rw [Nat.pow_add]; exact Nat.mul_lt_mul_of_pos_right hm (Nat.pow_pos (by omega))
      have := (Nat.le_log2 h1).2 h2
      have := (Nat.log2_lt h1).2 h3
      omega
  rw [hlog]
  have e : m * 2 ^ s * 2 ^ 925 = 2 ^ 925 * 2 ^ s * m := by
    rw [Nat.mul_comm, ← Nat.mul_assoc, Nat.mul_right_comm]
  have hd0 : 0 < 2 ^ 925 * 2 ^ s := Nat.mul_pos hd (Nat.pow_pos (by omega))
  rw [e, halfEven_dvd hd0 (Nat.dvd_mul_right _ _), Nat.mul_div_cancel_left _ hd0]
  exact Nat.min_eq_left (by omega)

/-- Finite numbers lie below the limit. -/
theorem floatVal_small {f : Nat} {x : Int} (h : Spec.floatVal f = .finite x) : x.natAbs < Spec.floatOverflow := by
  obtain ⟨b, hb, hx⟩ := floatVal_finite h
  have hov : Spec.floatOverflow = 2 ^ 925 * overflow := by unfold Spec.floatOverflow overflow; exact Eq.refl _
  have hr := roundPos_magOf hb
  have hl := (roundPos_limit (num := magOf b * 2 ^ 925) (den := 2 ^ 925) (Nat.pow_pos (by omega))).1 (by rw [hr]; exact hb)
  rw [hov]
  rw [Nat.mul_comm (magOf b)] at hl
  generalize 2 ^ 925 * overflow = y at *
  generalize 2 ^ 925 * magOf b = z at *
  omega

theorem toDouble_toNat (f : BitVec 32) : (toDouble f).toNat = widenBits f.toNat := by
  unfold toDouble
  rw [BitVec.toNat_ofNat]
  exact Nat.mod_eq_of_lt (widenBits_lt f.isLt)

/-- Widening keeps the sign bit. -/
theorem negBit_toDouble (f : BitVec 32) : Spec.negBit (toDouble f).toNat = Spec.floatNegBit f.toNat := by
  rw [toDouble_toNat]
  obtain ⟨s, e, m, he, hm, hf⟩ : ∃ s e m, e < 256 ∧ m < 2 ^ 23 ∧ f.toNat = mkFloat s e m :=
    ⟨_, _, _, by omega, by omega, float_eq_mk f.toNat⟩
  have hs : f.toNat / 2 ^ 31 = s := by rw [hf]; exact (mkFloat_fields he hm).1
  unfold Spec.negBit Spec.floatNegBit
  rw [hs]
  have hw : widenBits f.toNat / 2 ^ 63 = s := by
    rw [hf, widenBits_mk he hm]
    split
    · exact (mkDouble_fields (by omega) (by omega)).1
    · split
      · split
        · exact (mkDouble_fields (by omega) (by omega)).1
        · rename_i hm0
          obtain ⟨hlo, hhi⟩ := (Nat.log2_eq_iff hm0).mp (rfl : Nat.log2 m = Nat.log2 m)
          have hk : Nat.log2 m ≤ 22 := by
            have := (Nat.log2_lt hm0).2 hm
            omega
          generalize Nat.log2 m = k at *
          have hprod : 2 ^ k * 2 ^ (52 - k) = 2 ^ 52 := by rw [← Nat.pow_add]; congr 1; omega
          have hmm : (m - 2 ^ k) * 2 ^ (52 - k) < 2 ^ 52 := by
            rw [← hprod]
            apply Nat.mul_lt_mul_of_pos_right _ (Nat.pow_pos (by omega))
            rw [Nat.pow_succ] at hhi; omega
          exact (mkDouble_fields (by omega) hmm).1
      · exact (mkDouble_fields (by omega) (by omega)).1
  rw [hw]

/-- There and back. -/
theorem ofDouble_toDouble (f : BitVec 32) (hn : Spec.floatVal f.toNat ≠ .nan) : ofDouble (toDouble f) = f := by
  have hv : Spec.doubleVal (toDouble f).toNat = Spec.floatVal f.toNat := by rw [toDouble_toNat, doubleVal_widen]
  have hs := negBit_toDouble f
  have hf := f.isLt
  rw [doubleVal_classify] at hv
  unfold ofDouble
  cases hc : classify (toDouble f) with
  | nan => rw [hc] at hv; exact absurd hv.symm hn
  | inf s =>
    rw [hc] at hv
    unfold Spec.floatVal at hv
    simp only [FClass.val] at hv
    split at hv
    · rename_i h1
      split at hv
      · rename_i h2
        injection hv with hv
        apply BitVec.eq_of_toNat_eq
        rcases (show f.toNat / 2 ^ 31 = 0 ∨ f.toNat / 2 ^ 31 = 1 by omega) with h | h <;>
          (rw [h] at hv; subst hv; simp; omega)
      · cases hv
    · cases hv
  | fin s mag =>
    rw [negBit_classify hc] at hs
    rw [hc] at hv
    have hb : f.toNat % 2 ^ 31 < 255 * 2 ^ 23 := by
      unfold Spec.floatVal at hv
      simp only [FClass.val] at hv
      split at hv
      · split at hv <;> cases hv
      · omega
    have hsplit : f = BitVec.ofNat 32 ((if s then 2 ^ 31 else 0) + f.toNat % 2 ^ 31) := by
      apply BitVec.eq_of_toNat_eq
      rw [BitVec.toNat_ofNat, hs]
      unfold Spec.floatNegBit
      rcases (show f.toNat / 2 ^ 31 = 0 ∨ f.toNat / 2 ^ 31 = 1 by omega) with h | h <;> (rw [h]; simp; omega)
    have h2 := floatVal_bits s hb
    rw [← hsplit, ← hv] at h2
    have h3 : mag = magOf (f.toNat % 2 ^ 31) * 2 ^ 925 := by
      have h4 := congrArg Int.natAbs (Spec.FVal.finite.inj h2)
      rwa [signedMag_abs, signedMag_abs] at h4
    show BitVec.ofNat 32 ((if s then 2 ^ 31 else 0) + roundPos mag (2 ^ 925)) = f
    rw [h3, roundPos_magOf hb]
    exact hsplit.symm

end Dart.F32
