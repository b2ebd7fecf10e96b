import Verif.Model.Arith
import Verif.Lemmas.Equal
import Verif.Spec.Arith

/-
Rounding and the operators on doubles.
-/
namespace Dart
open Spec

/-- The value of a double taken apart. -/
def FClass.val : FClass → FVal
  | .nan => .nan
  | .inf s => .inf s
  | .fin s m => .finite (signedMag s m)

theorem doubleVal_classify (d : BitVec 64) : doubleVal d.toNat = (classify d).val := by
  have hd := d.isLt
  unfold doubleVal classify
  simp only
  by_cases he : d.toNat / 2 ^ 52 % 2 ^ 11 = 2047
  · rw [if_pos he, if_pos he]
    by_cases hm : d.toNat % 2 ^ 52 = 0
    · rw [if_pos hm, if_pos hm]
      simp only [FClass.val, FVal.inf.injEq]
      by_cases h : 2 ^ 63 ≤ d.toNat
      · have : d.toNat / 2 ^ 63 = 1 := by omega
        simp [this, h]
      · have : d.toNat / 2 ^ 63 = 0 := by omega
        simp [this, h]
    · rw [if_neg hm, if_neg hm]; rfl
  · rw [if_neg he, if_neg he]
    simp only [FClass.val, FVal.finite.injEq, signed, signedMag]
    by_cases h : 2 ^ 63 ≤ d.toNat
    · have : d.toNat / 2 ^ 63 = 1 := by omega
      simp [this, h]
    · have : d.toNat / 2 ^ 63 = 0 := by omega
      simp [this, h]

/-- The magnitude of non-negative finite bits. -/
def magOf (bits : Nat) : Nat :=
  if bits / 2 ^ 52 = 0 then bits % 2 ^ 52 else (2 ^ 52 + bits % 2 ^ 52) * 2 ^ (bits / 2 ^ 52 - 1)

theorem classify_bits (neg : Bool) {bits : Nat} (h : bits < 2047 * 2 ^ 52) :
    classify (BitVec.ofNat 64 ((if neg then 2 ^ 63 else 0) + bits)) = .fin neg (magOf bits) := by
  unfold classify magOf
  have h1 : (BitVec.ofNat 64 ((if neg then 2 ^ 63 else 0) + bits)).toNat = (if neg then 2 ^ 63 else 0) + bits := by
    rw [BitVec.toNat_ofNat, Nat.mod_eq_of_lt]
    split <;> omega
  simp only [h1]
  have h2 : ((if neg = true then 2 ^ 63 else 0) + bits) / 2 ^ 52 % 2 ^ 11 = bits / 2 ^ 52 := by split <;> omega
  have h3 : ((if neg = true then 2 ^ 63 else 0) + bits) % 2 ^ 52 = bits % 2 ^ 52 := by split <;> omega
  have h4 : (2 ^ 63 ≤ (if neg = true then 2 ^ 63 else 0) + bits) ↔ neg = true := by
    cases neg <;> simp; omega
  rw [h2, h3, if_neg (by omega)]
  simp [h4]

theorem classify_inf (neg : Bool) :
    classify (BitVec.ofNat 64 ((if neg then 2 ^ 63 else 0) + 2047 * 2 ^ 52)) = .inf neg := by
  cases neg <;> decide

theorem roundPos_le (num den : Nat) : roundPos num den ≤ 2047 * 2 ^ 52 := Nat.min_le_right _ _

/-- Rounding, taken apart. -/
theorem classify_roundTo (neg : Bool) (num den : Nat) : classify (roundTo neg num den) =
    if roundPos num den = 2047 * 2 ^ 52 then .inf neg else .fin neg (magOf (roundPos num den)) := by
  unfold roundTo
  have h1 := roundPos_le num den
  generalize roundPos num den = x at *
  by_cases h : x = 2047 * 2 ^ 52
  · rw [if_pos h, h]; exact classify_inf neg
  · rw [if_neg h]
    exact classify_bits neg (by omega)

theorem magOf_pos {bits : Nat} (h : 0 < bits) : 0 < magOf bits := by
  unfold magOf
  split
  · omega
  · exact Nat.mul_pos (by omega) (Nat.pow_pos (by omega))

/-- The magnitude of the bits made from a shift and a significand. -/
theorem magOf_shift {s m : Nat} (hm : m ≤ 2 ^ 53) (h : s = 0 ∨ 2 ^ 52 ≤ m) : magOf (s * 2 ^ 52 + m) = m * 2 ^ s := by
  unfold magOf
  by_cases hm0 : m < 2 ^ 52
  · have hs : s = 0 := by omega
    subst hs
    have h1 : (0 * 2 ^ 52 + m) / 2 ^ 52 = 0 := by omega
    have h2 : (0 * 2 ^ 52 + m) % 2 ^ 52 = m := by omega
    rw [if_pos h1, h2]; simp
  · by_cases hm1 : m = 2 ^ 53
    · subst hm1
      have h1 : (s * 2 ^ 52 + 2 ^ 53) / 2 ^ 52 = s + 2 := by omega
      have h2 : (s * 2 ^ 52 + 2 ^ 53) % 2 ^ 52 = 0 := by omega
      rw [h1, h2, if_neg (by omega)]
      rw [show s + 2 - 1 = s + 1 from by omega, Nat.pow_succ 2 s]
      exact (fun y => by omega : ∀ y : Nat, (2 ^ 52 + 0) * (y * 2) = 2 ^ 53 * y) _
    · have h1 : (s * 2 ^ 52 + m) / 2 ^ 52 = s + 1 := by omega
      have h2 : (s * 2 ^ 52 + m) % 2 ^ 52 = m - 2 ^ 52 := by omega
      have h3 : 2 ^ 52 + (m - 2 ^ 52) = m := by omega
      rw [h1, h2, if_neg (by omega), Nat.add_sub_cancel, h3]

theorem log2_bounds {n : Nat} (h : 0 < n) : 2 ^ n.log2 ≤ n ∧ n < 2 ^ (n.log2 + 1) :=
  ⟨Nat.log2_self_le (by omega), Nat.lt_log2_self⟩

theorem halfEven_bounds (n d : Nat) : n / d ≤ halfEven n d ∧ halfEven n d ≤ n / d + 1 := by
  unfold halfEven
  split
  · omega
  · split <;> omega

theorem halfEven_dvd {n d : Nat} (hd : 0 < d) (h : d ∣ n) : halfEven n d = n / d := by
  unfold halfEven
  rw [Nat.mod_eq_zero_of_dvd h, if_pos (by omega)]

/-- The significand after the shift has at most 53 bits, and 53 if there was a shift. -/
theorem shift_bounds (q : Nat) :
    q / 2 ^ (q.log2 - 52) < 2 ^ 53 ∧ (q.log2 - 52 = 0 ∨ 2 ^ 52 ≤ q / 2 ^ (q.log2 - 52)) := by
  rcases Nat.eq_zero_or_pos q with rfl | h
  · simp
  · obtain ⟨h1, h2⟩ := log2_bounds h
    constructor
    · rw [Nat.div_lt_iff_lt_mul (Nat.pow_pos (by omega)), ← Nat.pow_add]
      exact Nat.lt_of_lt_of_le h2 (Nat.pow_le_pow_right (by omega) (by omega))
    · by_cases h3 : q.log2 ≤ 52
      · left; omega
      · right
        rw [Nat.le_div_iff_mul_le (Nat.pow_pos (by omega)), ← Nat.pow_add]
        rwa [show 52 + (q.log2 - 52) = q.log2 from by omega]

/-- A number with at most 53 significant bits is rounded to itself. -/
theorem roundPos_exact {m t : Nat} (hm : m < 2 ^ 53) (ht : t ≤ 2045) :
    roundPos (m * 2 ^ t) 1 < 2047 * 2 ^ 52 ∧ magOf (roundPos (m * 2 ^ t) 1) = m * 2 ^ t := by
  have hb := shift_bounds (m * 2 ^ t)
  have hs : (m * 2 ^ t).log2 - 52 ≤ t := by
    rcases Nat.eq_zero_or_pos m with rfl | h
    · simp
    · have h1 := log2_bounds (Nat.mul_pos h (Nat.pow_pos (n := t) (show 0 < 2 by omega)))
      have h2 : m * 2 ^ t < 2 ^ (53 + t) := by
        rw [Nat.pow_add]; exact Nat.mul_lt_mul_of_pos_right hm (Nat.pow_pos (by omega))
      have := Nat.lt_of_le_of_lt h1.1 h2
      have := (Nat.pow_lt_pow_iff_right (by omega : 1 < 2)).1 this
      omega
  unfold roundPos
  simp only [Nat.div_one, Nat.one_mul]
  generalize hS : (m * 2 ^ t).log2 - 52 = s at hs hb
  have hdvd : 2 ^ s ∣ m * 2 ^ t := Nat.dvd_trans (Nat.pow_dvd_pow 2 hs) (Nat.dvd_mul_left _ _)
  rw [halfEven_dvd (Nat.pow_pos (by omega)) hdvd]
  have h1 := hb.1
  have h3 := Nat.div_mul_cancel hdvd
  generalize m * 2 ^ t / 2 ^ s = x at *
  have h2 : s * 2 ^ 52 ≤ 2045 * 2 ^ 52 := Nat.mul_le_mul_right _ (by omega)
  have hlt : s * 2 ^ 52 + x < 2047 * 2 ^ 52 := by omega
  rw [Nat.min_eq_left (Nat.le_of_lt hlt)]
  refine ⟨hlt, ?_⟩
  rw [magOf_shift (by omega) hb.2, h3]

/-- Something positive is not rounded to zero, if it is a whole number of units. -/
theorem roundPos_pos {n : Nat} (h : 0 < n) : 0 < roundPos n 1 := by
  obtain ⟨h1, h2⟩ := log2_bounds h
  unfold roundPos
  simp only [Nat.div_one, Nat.one_mul]
  have : 0 < n / 2 ^ (n.log2 - 52) :=
    Nat.div_pos (Nat.le_trans (Nat.pow_le_pow_right (by omega) (by omega)) h1) (Nat.pow_pos (by omega))
  have h3 := (halfEven_bounds n (2 ^ (n.log2 - 52))).1
  generalize halfEven n (2 ^ (n.log2 - 52)) = y at *
  generalize n / 2 ^ (n.log2 - 52) = m at *
  generalize n.log2 - 52 = s at *
  exact Nat.lt_min.2 ⟨Nat.lt_of_lt_of_le (by omega : 0 < y) (Nat.le_add_left _ _), Nat.mul_pos (by omega) (Nat.pow_pos (by omega))⟩

theorem doubleVal_roundTo_exact (neg : Bool) {m t : Nat} (hm : m < 2 ^ 53) (ht : t ≤ 2045) :
    doubleVal (roundTo neg (m * 2 ^ t) 1).toNat = .finite (signedMag neg (m * 2 ^ t)) := by
  obtain ⟨h1, h2⟩ := roundPos_exact hm ht
  rw [doubleVal_classify, classify_roundTo, if_neg (by omega), h2]; rfl

/-! Rounding gives a nearest double. -/

/-- `halfEven` is nearest among the whole numbers. -/
theorem halfEven_nearest (n : Nat) {d : Nat} (hd : 0 < d) (k : Nat) :
    dist ((d * halfEven n d : Nat) : Int) n ≤ dist ((d * k : Nat) : Int) n := by
  have h1 := Nat.div_add_mod n d
  have h2 := Nat.mod_lt n hd
  have hk : d * k ≤ d * (n / d) ∨ d * (n / d + 1) ≤ d * k := by
    rcases Nat.lt_or_ge (n / d) k with h | h
    · exact .inr (Nat.mul_le_mul_left d h)
    · exact .inl (Nat.mul_le_mul_left d h)
  have e1 : d * (n / d + 1) = d * (n / d) + d := Nat.mul_succ _ _
  rw [e1] at hk
  unfold halfEven dist
  split
  · generalize d * k = x at *
    generalize d * (n / d) = y at *
    omega
  · split
    · rw [e1]
      generalize d * k = x at *
      generalize d * (n / d) = y at *
      omega
    · rcases Nat.mod_two_eq_zero_or_one (n / d) with h | h
      · rw [h, Nat.add_zero]
        generalize d * k = x at *
        generalize d * (n / d) = y at *
        omega
      · rw [h, e1]
        generalize d * k = x at *
        generalize d * (n / d) = y at *
        omega

/-- Finite magnitudes have at most 53 significant bits. -/
theorem magOf_form (bits : Nat) : ∃ m s, m < 2 ^ 53 ∧ magOf bits = m * 2 ^ s := by
  unfold magOf
  split
  · exact ⟨bits % 2 ^ 52, 0, by omega, by simp⟩
  · exact ⟨2 ^ 52 + bits % 2 ^ 52, bits / 2 ^ 52 - 1, by omega, rfl⟩

theorem roundPos_nearest {num den : Nat} (hd : 0 < den) (hf : roundPos num den < 2047 * 2 ^ 52) (f : Nat) :
    dist ((den * magOf (roundPos num den) : Nat) : Int) num ≤ dist ((den * magOf f : Nat) : Int) num := by
  obtain ⟨m, s, hm, hms⟩ := magOf_form f
  rw [hms]
  have hb := shift_bounds (num / den)
  unfold roundPos at hf ⊢
  simp only at hf ⊢
  generalize hS : (num / den).log2 - 52 = s0 at hf hb ⊢
  have hd0 : 0 < den * 2 ^ s0 := Nat.mul_pos hd (Nat.pow_pos (by omega))
  have hH := halfEven_bounds num (den * 2 ^ s0)
  rw [← Nat.div_div_eq_div_mul] at hH
  have hnear := fun k => halfEven_nearest num hd0 k
  generalize halfEven num (den * 2 ^ s0) = M at *
  have hmin : min (s0 * 2 ^ 52 + M) (2047 * 2 ^ 52) = s0 * 2 ^ 52 + M := by
    apply Nat.min_eq_left
    rcases Nat.le_total (s0 * 2 ^ 52 + M) (2047 * 2 ^ 52) with h | h
    · exact h
    · rw [Nat.min_eq_right h] at hf; omega
  have hM53 : M ≤ 2 ^ 53 := by omega
  have hM52 : s0 = 0 ∨ 2 ^ 52 ≤ M := by omega
  rw [hmin, magOf_shift hM53 hM52]
  have e : den * (M * 2 ^ s0) = den * 2 ^ s0 * M := by rw [Nat.mul_comm M, Nat.mul_assoc]
  rw [e]
  by_cases hs : s0 ≤ s
  · have : den * (m * 2 ^ s) = den * 2 ^ s0 * (m * 2 ^ (s - s0)) := by
      have h2 : (2 : Nat) ^ s = 2 ^ s0 * 2 ^ (s - s0) := by rw [← Nat.pow_add]; congr 1; omega
      rw [h2, Nat.mul_assoc, Nat.mul_left_comm m]
    rw [this]
    exact hnear _
  · have h0 : 2 ^ 52 * 2 ^ s0 ≤ num / den := by
      rcases hb.2 with h | h
      · omega
      · rwa [Nat.le_div_iff_mul_le (Nat.pow_pos (by omega))] at h
    have h1 : 2 ^ 52 * 2 ^ s0 * den ≤ num := (Nat.le_div_iff_mul_le hd).1 h0
    have h2 : m * 2 ^ s ≤ 2 ^ 52 * 2 ^ s0 := by
      have h3 : (2 : Nat) ^ s0 = 2 ^ (s + 1) * 2 ^ (s0 - (s + 1)) := by rw [← Nat.pow_add]; congr 1; omega
      have h4 : 2 ^ (s + 1) ≤ 2 ^ s0 := Nat.pow_le_pow_right (by omega) (by omega)
      have h5 : m * 2 ^ s ≤ 2 ^ 53 * 2 ^ s := Nat.mul_le_mul_right _ (by omega)
      have h6 : 2 ^ 53 * 2 ^ s = 2 ^ 52 * 2 ^ (s + 1) := by rw [Nat.pow_succ 2 s]; omega
      have h7 : 2 ^ 52 * 2 ^ (s + 1) ≤ 2 ^ 52 * 2 ^ s0 := Nat.mul_le_mul_left _ h4
      omega
    have h3 := hnear (2 ^ 52)
    have h4 : den * (m * 2 ^ s) ≤ den * 2 ^ s0 * 2 ^ 52 := by
      calc den * (m * 2 ^ s) ≤ den * (2 ^ 52 * 2 ^ s0) := Nat.mul_le_mul_left _ h2
        _ = _ := by rw [Nat.mul_comm (2 ^ 52), Nat.mul_assoc]
    have h5 : den * 2 ^ s0 * 2 ^ 52 ≤ num := by
      calc den * 2 ^ s0 * 2 ^ 52 = 2 ^ 52 * 2 ^ s0 * den := by
            rw [Nat.mul_comm _ (2 ^ 52), Nat.mul_comm den, Nat.mul_assoc]
        _ ≤ num := h1
    clear hf hb hH hmin hM53 hM52 h0 h1 h2 hnear
    unfold dist at *
    generalize den * 2 ^ s0 * M = x at *
    generalize den * 2 ^ s0 * 2 ^ 52 = y at *
    generalize den * (m * 2 ^ s) = z at *
    omega

theorem doubleVal_finite {d : Nat} {y : Int} (h : doubleVal d = .finite y) :
    ∃ f, y = magOf f ∨ y = -(magOf f : Int) := by
  unfold doubleVal at h
  simp only at h
  split at h
  · split at h <;> cases h
  · injection h with h
    refine ⟨(d / 2 ^ 52 % 2 ^ 11) * 2 ^ 52 + d % 2 ^ 52, ?_⟩
    have h1 : ((d / 2 ^ 52 % 2 ^ 11) * 2 ^ 52 + d % 2 ^ 52) / 2 ^ 52 = d / 2 ^ 52 % 2 ^ 11 := by omega
    have h2 : ((d / 2 ^ 52 % 2 ^ 11) * 2 ^ 52 + d % 2 ^ 52) % 2 ^ 52 = d % 2 ^ 52 := by omega
    unfold magOf
    rw [h1, h2, ← h]
    unfold signed
    split
    · left; rfl
    · right; rfl

/-- Rounding to a finite double gives a nearest one. -/
theorem roundTo_nearest (neg : Bool) {num den : Nat} (hd : 0 < den) (hf : roundPos num den < 2047 * 2 ^ 52) :
    Nearest (signedMag neg num) den (roundTo neg num den).toNat := by
  refine ⟨signedMag neg (magOf (roundPos num den)), ?_, ?_⟩
  · rw [doubleVal_classify, classify_roundTo, if_neg (by omega)]; rfl
  · intro d' y' h
    obtain ⟨f, hy⟩ := doubleVal_finite h
    have h1 := roundPos_nearest hd hf f
    have h2 := roundPos_nearest hd hf 0
    have h0 : magOf 0 = 0 := by decide
    rw [h0, Nat.mul_zero] at h2
    unfold dist signedMag at *
    have e : ∀ x : Nat, ((den * x : Nat) : Int) = (den : Int) * x := fun x => by push_cast; rfl
    rw [e] at h1 h2
    rw [e] at h1
    have e3 : 0 ≤ (den : Int) * (magOf f : Int) := Int.mul_nonneg (by omega) (by omega)
    have e4 : 0 ≤ (den : Int) * (magOf (roundPos num den) : Int) := Int.mul_nonneg (by omega) (by omega)
    rcases hy with rfl | rfl <;> cases neg <;>
      simp only [Bool.false_eq_true, if_true, if_false, Int.mul_neg] <;>
      generalize (den : Int) * (magOf f : Int) = a at * <;>
      generalize (den : Int) * (magOf (roundPos num den) : Int) = b at * <;> omega

theorem roundPos_finite {num den : Nat} (hd : 0 < den) (h : num ≤ den * largest) :
    roundPos num den < 2047 * 2 ^ 52 := by
  have hq : num / den ≤ (2 ^ 53 - 1) * 2 ^ 2045 := by
    have := Nat.div_le_div_right (c := den) h
    rwa [Nat.mul_div_cancel_left _ hd] at this
  have hb := shift_bounds (num / den)
  have hs : (num / den).log2 - 52 ≤ 2045 := by
    rcases Nat.eq_zero_or_pos (num / den) with h0 | h0
    · rw [h0]; simp
    · have h1 := (log2_bounds h0).1
      have h2 : (2 ^ 53 - 1) * 2 ^ 2045 < 2 ^ 53 * 2 ^ 2045 :=
        Nat.mul_lt_mul_of_pos_right (by omega) (Nat.pow_pos (by omega))
      rw [← Nat.pow_add] at h2
      have := Nat.lt_of_le_of_lt (Nat.le_trans h1 hq) h2
      have := (Nat.pow_lt_pow_iff_right (by omega : 1 < 2)).1 this
      omega
  unfold roundPos
  simp only
  generalize hS : (num / den).log2 - 52 = s0 at hs hb ⊢
  have hd0 : 0 < den * 2 ^ s0 := Nat.mul_pos hd (Nat.pow_pos (by omega))
  have hH := halfEven_bounds num (den * 2 ^ s0)
  have hH' := hH
  rw [← Nat.div_div_eq_div_mul] at hH
  apply Nat.lt_of_le_of_lt (Nat.min_le_left _ _)
  by_cases h45 : s0 = 2045
  · have hM : halfEven num (den * 2 ^ s0) ≤ 2 ^ 53 - 1 := by
      have h3 : num / (den * 2 ^ s0) ≤ 2 ^ 53 - 1 := by
        have h4 : den * largest = (2 ^ 53 - 1) * (den * 2 ^ s0) := by
          unfold largest; rw [h45, Nat.mul_left_comm]
        rw [h4] at h
        have := Nat.div_le_div_right (c := den * 2 ^ s0) h
        rwa [Nat.mul_div_cancel _ hd0] at this
      by_cases h5 : num / (den * 2 ^ s0) = 2 ^ 53 - 1
      · have h6 : den * 2 ^ s0 ∣ num := by
          have h7 := Nat.div_add_mod num (den * 2 ^ s0)
          rw [h5] at h7
          have h4 : den * largest = den * 2 ^ s0 * (2 ^ 53 - 1) := by
            unfold largest; rw [h45, Nat.mul_comm (2 ^ 53 - 1), Nat.mul_assoc]
          rw [h4] at h
          exact ⟨2 ^ 53 - 1, by omega⟩
        rw [halfEven_dvd hd0 h6]; exact h3
      · omega
    generalize halfEven num (den * 2 ^ s0) = M at *
    have : s0 * 2 ^ 52 = 2045 * 2 ^ 52 := by rw [h45]
    omega
  · have : s0 * 2 ^ 52 ≤ 2044 * 2 ^ 52 := Nat.mul_le_mul_right _ (by omega)
    generalize halfEven num (den * 2 ^ s0) = M at *
    omega

/-- Rounding something within the range of finite doubles gives a nearest one. -/
theorem roundTo_nearest' (neg : Bool) {num den : Nat} (hd : 0 < den) (h : num ≤ den * largest) :
    Nearest (signedMag neg num) den (roundTo neg num den).toNat :=
  roundTo_nearest neg hd (roundPos_finite hd h)

theorem signedMag_natAbs (z : Int) : signedMag (decide (z < 0)) z.natAbs = z := by
  unfold signedMag
  by_cases h : z < 0
  · simp [h]; omega
  · simp [h]; omega

theorem signedMag_abs (s : Bool) (x : Nat) : (signedMag s x).natAbs = x := by
  unfold signedMag; cases s <;> simp

/-- A finite double taken apart. -/
theorem classify_of_finite {a : BitVec 64} {x : Int} (h : doubleVal a.toNat = .finite x) :
    ∃ s m, classify a = .fin s m ∧ x = signedMag s m := by
  rw [doubleVal_classify] at h
  cases hc : classify a with
  | nan => rw [hc] at h; cases h
  | inf s => rw [hc] at h; cases h
  | fin s m => rw [hc] at h; injection h with h; exact ⟨s, m, rfl, h.symm⟩

theorem classify_fneg (a : BitVec 64) : classify (fneg a) =
    match classify a with
    | .nan => .nan
    | .inf s => .inf !s
    | .fin s m => .fin (!s) m := by
  have ha := a.isLt
  have h1 : (fneg a).toNat = (a.toNat + 2 ^ 63) % 2 ^ 64 := by
    rw [fneg, BitVec.toNat_add]; rfl
  unfold classify
  simp only [h1]
  have h2 : (a.toNat + 2 ^ 63) % 2 ^ 64 / 2 ^ 52 % 2 ^ 11 = a.toNat / 2 ^ 52 % 2 ^ 11 := by omega
  have h3 : (a.toNat + 2 ^ 63) % 2 ^ 64 % 2 ^ 52 = a.toNat % 2 ^ 52 := by omega
  have h4 : decide (2 ^ 63 ≤ (a.toNat + 2 ^ 63) % 2 ^ 64) = !decide (2 ^ 63 ≤ a.toNat) := by
    by_cases h : 2 ^ 63 ≤ a.toNat
    · have : ¬ 2 ^ 63 ≤ (a.toNat + 2 ^ 63) % 2 ^ 64 := by omega
      simp [h, this]
    · have : 2 ^ 63 ≤ (a.toNat + 2 ^ 63) % 2 ^ 64 := by omega
      simp [h, this]
  rw [h2, h3, h4]
  by_cases he : a.toNat / 2 ^ 52 % 2 ^ 11 = 2047
  · rw [if_pos he, if_pos he]
    by_cases hm : a.toNat % 2 ^ 52 = 0
    · rw [if_pos hm, if_pos hm]
    · rw [if_neg hm, if_neg hm]
  · rw [if_neg he, if_neg he]

theorem signedMag_not (s : Bool) (m : Nat) : signedMag (!s) m = -signedMag s m := by
  unfold signedMag; cases s <;> simp

theorem fadd_correct {a b : BitVec 64} {x y : Int} (ha : doubleVal a.toNat = .finite x)
    (hb : doubleVal b.toNat = .finite y) : Correct .plus x y (fadd a b).toNat := by
  obtain ⟨s, m, h1, rfl⟩ := classify_of_finite ha
  obtain ⟨t, n, h2, rfl⟩ := classify_of_finite hb
  intro num den he hr
  simp only [exact, Option.some.injEq, Prod.mk.injEq] at he
  obtain ⟨rfl, rfl⟩ := he
  simp only [fadd, h1, h2]
  split
  · rename_i h0
    rw [h0] at hr ⊢
    have := roundTo_nearest' (s && t) (num := 0) (den := 1) (by omega) (by omega)
    rwa [show signedMag (s && t) 0 = 0 from by unfold signedMag; split <;> rfl] at this
  · have := roundTo_nearest' (decide (signedMag s m + signedMag t n < 0)) (by omega : 0 < 1) hr
    rwa [signedMag_natAbs] at this

theorem fneg_val {a : BitVec 64} {x : Int} (ha : doubleVal a.toNat = .finite x) :
    doubleVal (fneg a).toNat = .finite (-x) := by
  obtain ⟨s, m, h1, rfl⟩ := classify_of_finite ha
  rw [doubleVal_classify, classify_fneg, h1]
  simp only [FClass.val, signedMag_not]

theorem fsub_correct {a b : BitVec 64} {x y : Int} (ha : doubleVal a.toNat = .finite x)
    (hb : doubleVal b.toNat = .finite y) : Correct .minus x y (fsub a b).toNat := by
  intro num den he hr
  simp only [exact, Option.some.injEq, Prod.mk.injEq] at he
  obtain ⟨rfl, rfl⟩ := he
  exact fadd_correct ha (fneg_val hb) _ _ (by simp [exact, Int.sub_eq_add_neg]) hr

theorem signedMag_mul (s t : Bool) (m n : Nat) : signedMag (s != t) (m * n) = signedMag s m * signedMag t n := by
  unfold signedMag; cases s <;> cases t <;> simp [Int.neg_mul, Int.mul_neg]

theorem fmul_correct {a b : BitVec 64} {x y : Int} (ha : doubleVal a.toNat = .finite x)
    (hb : doubleVal b.toNat = .finite y) : Correct .times x y (fmul a b).toNat := by
  obtain ⟨s, m, h1, rfl⟩ := classify_of_finite ha
  obtain ⟨t, n, h2, rfl⟩ := classify_of_finite hb
  intro num den he hr
  unfold exact at he
  injection he with he
  injection he with e1 e2
  subst e1
  rw [← signedMag_mul, signedMag_abs] at hr
  simp only [fmul, h1, h2]
  rw [← signedMag_mul, e2]
  exact roundTo_nearest' _ (by rw [← e2]; exact Nat.pow_pos (by omega)) hr

theorem fdiv_correct {a b : BitVec 64} {x y : Int} (ha : doubleVal a.toNat = .finite x)
    (hb : doubleVal b.toNat = .finite y) : Correct .over x y (fdiv a b).toNat := by
  obtain ⟨s, m, h1, rfl⟩ := classify_of_finite ha
  obtain ⟨t, n, h2, rfl⟩ := classify_of_finite hb
  intro num den he hr
  unfold exact at he
  by_cases hy : signedMag t n = 0
  · simp only [hy, if_true] at he; cases he
  · simp only [hy, if_false] at he
    injection he with he
    injection he with e1 e2
    rw [signedMag_abs] at e2
    subst e1 e2
    have hn : n ≠ 0 := by
      intro h; subst h; exact hy (by unfold signedMag; split <;> rfl)
    have hsgn : signedMag s m * 2 ^ 1074 * (signedMag t n).sign = signedMag (s != t) (m * 2 ^ 1074) := by
      have h3 : (signedMag t n).sign = if t then -1 else 1 := by
        unfold signedMag
        cases t
        · simp; omega
        · simp; omega
      rw [h3]
      generalize hK : (2 : Int) ^ 1074 = K
      have hK' : ((2 ^ 1074 : Nat) : Int) = K := by rw [← hK]; push_cast; rfl
      unfold signedMag
      cases s <;> cases t <;> simp [hK', Int.neg_mul, Int.mul_neg]
    rw [hsgn] at hr ⊢
    rw [signedMag_abs] at hr
    simp only [fdiv, h1, h2, hn, if_false]
    exact roundTo_nearest' _ (by omega) hr

theorem fadd_comm (a b : BitVec 64) : fadd a b = fadd b a := by
  unfold fadd
  cases classify a with
  | nan => cases classify b <;> rfl
  | inf s =>
    cases classify b with
    | nan => rfl
    | inf t => simp only [eq_comm (a := s) (b := t)]; split <;> simp_all
    | fin t y => rfl
  | fin s x =>
    cases classify b with
    | nan => rfl
    | inf t => rfl
    | fin t y => simp only [Int.add_comm (signedMag s x), Bool.and_comm s]

theorem fmul_comm (a b : BitVec 64) : fmul a b = fmul b a := by
  have hx : ∀ s t : Bool, (s != t) = (t != s) := by decide
  unfold fmul
  cases classify a with
  | nan => cases classify b <;> rfl
  | inf s =>
    cases classify b with
    | nan => rfl
    | inf t => simp only [hx s t]
    | fin t y => simp only [hx s t]
  | fin s x =>
    cases classify b with
    | nan => rfl
    | inf t => simp only [hx s t]
    | fin t y => simp only [hx s t, Nat.mul_comm x]

theorem signedMag_mul_right (s : Bool) (m n : Nat) : signedMag s (m * n) = signedMag s m * n := by
  unfold signedMag; cases s <;> simp [Int.neg_mul]

/-- Whole numbers up to 2^53 are doubles. -/
theorem intToDouble_isInt {i : Int} (h : i.natAbs ≤ 2 ^ 53) : IsInt (intToDouble i).toNat i := by
  unfold IsInt intToDouble
  have e : i * 2 ^ 1074 = signedMag (decide (i < 0)) (i.natAbs * 2 ^ 1074) := by
    rw [signedMag_mul_right, signedMag_natAbs]
    generalize hK : (2 : Int) ^ 1074 = K
    have hK' : ((2 ^ 1074 : Nat) : Int) = K := by rw [← hK]; push_cast; rfl
    rw [hK']
  rw [e]
  by_cases h1 : i.natAbs = 2 ^ 53
  · have e2 : i.natAbs * 2 ^ 1074 = 2 ^ 52 * 2 ^ 1075 := by
      rw [h1, ← Nat.pow_add, ← Nat.pow_add]
    rw [e2]
    exact doubleVal_roundTo_exact _ (by omega) (by omega)
  · exact doubleVal_roundTo_exact _ (by omega) (by omega)

/-- Converting a 64-bit integer gives a nearest double. -/
theorem intToDouble_nearest {i : Int} (h : i.natAbs ≤ 2 ^ 64) :
    Nearest (i * 2 ^ 1074) 1 (intToDouble i).toNat := by
  unfold intToDouble
  have e : i * 2 ^ 1074 = signedMag (decide (i < 0)) (i.natAbs * 2 ^ 1074) := by
    rw [signedMag_mul_right, signedMag_natAbs]
    generalize hK : (2 : Int) ^ 1074 = K
    have hK' : ((2 ^ 1074 : Nat) : Int) = K := by rw [← hK]; push_cast; rfl
    rw [hK']
  rw [e]
  apply roundTo_nearest' _ (by omega)
  rw [Nat.one_mul]
  unfold largest
  calc i.natAbs * 2 ^ 1074 ≤ 2 ^ 64 * 2 ^ 1074 := Nat.mul_le_mul_right _ h
    _ = 2 ^ 1138 := by rw [← Nat.pow_add]
    _ ≤ 2 ^ 2045 := Nat.pow_le_pow_right (by omega) (by omega)
    _ ≤ (2 ^ 53 - 1) * 2 ^ 2045 := Nat.le_mul_of_pos_left _ (by omega)

/-- A whole number of at most 2^53 is the only nearest double to itself. -/
theorem nearest_isInt {n : Int} {d : Nat} (h : n.natAbs ≤ 2 ^ 53) (hn : Nearest (n * 2 ^ 1074) 1 d) : IsInt d n := by
  obtain ⟨y, h1, h2⟩ := hn
  have := h2 _ _ (intToDouble_isInt h)
  unfold dist at this
  unfold IsInt
  rw [h1]
  congr 1
  omega

/-- If the exact result is a double, it is the only nearest one. -/
theorem nearest_exact {num K : Int} {den d d' : Nat} (hd : 0 < den) (hk : num = den * K)
    (h' : doubleVal d' = .finite K) (hn : Nearest num den d) : doubleVal d = .finite K := by
  obtain ⟨y, h1, h2⟩ := hn
  have := h2 _ _ h'
  unfold dist at this
  rw [hk, Int.sub_self, ← Int.mul_sub] at this
  have h3 : (den : Int) * (y - K) = 0 := by
    simp only [Int.natAbs_zero, Nat.le_zero] at this
    exact Int.natAbs_eq_zero.1 this
  rcases Int.mul_eq_zero.1 h3 with h4 | h4
  · omega
  · rw [h1]; congr 1; omega

end Dart
