import Verif.Lemmas.Arith

/-
The model's arithmetic on doubles is what IEEE 754 says.
-/
namespace Dart
open Dart.Spec

/-- Of two equally near multiples the even one is chosen. -/
theorem halfEven_even (n : Nat) {d : Nat} (hd : 0 < d) {k : Nat} (hne : k ≠ halfEven n d)
    (h : dist ((d * halfEven n d : Nat) : Int) n = dist ((d * k : Nat) : Int) n) : halfEven n d % 2 = 0 := by
  have h1 := Nat.div_add_mod n d
  have h2 := Nat.mod_lt n hd
  have hk : k = n / d ∨ k = n / d + 1 ∨ d * k + d ≤ d * (n / d) ∨ d * (n / d) + 2 * d ≤ d * k := by
    rcases Nat.lt_trichotomy k (n / d) with h | h | h
    · right; right; left
      have := Nat.mul_le_mul_left d (show k + 1 ≤ n / d by omega)
      rwa [Nat.mul_add, Nat.mul_one] at this
    · left; exact h
    · by_cases h' : k = n / d + 1
      · right; left; exact h'
      · right; right; right
        have := Nat.mul_le_mul_left d (show n / d + 2 ≤ k by omega)
        rw [Nat.mul_add] at this
        omega
  unfold halfEven at *
  unfold dist at h
  split at h
  · rename_i hr
    rw [if_pos hr] at hne ⊢
    exfalso
    rcases hk with rfl | rfl | hk | hk
    · exact hne rfl
    · rw [Nat.mul_add] at h
      generalize d * (n / d) = y at *
      omega
    · generalize d * (n / d) = y at *
      generalize d * k = z at *
      omega
    · generalize d * (n / d) = y at *
      generalize d * k = z at *
      omega
  · rename_i hr
    rw [if_neg hr] at hne ⊢
    split at h
    · rename_i hr2
      rw [if_pos hr2] at hne ⊢
      exfalso
      rw [Nat.mul_add] at h
      rcases hk with rfl | rfl | hk | hk
      · generalize d * (n / d) = y at *
        omega
      · exact hne rfl
      · generalize d * (n / d) = y at *
        generalize d * k = z at *
        omega
      · generalize d * (n / d) = y at *
        generalize d * k = z at *
        omega
    · rename_i hr2
      rw [if_neg hr2]
      omega

/-- Where rounding overflows. -/
theorem roundPos_limit {num den : Nat} (hd : 0 < den) :
    roundPos num den < 2047 * 2 ^ 52 ↔ num < den * overflow := by
  have hpow : (2 : Nat) ^ 2045 = 2 ^ 2044 * 2 := by rw [← Nat.pow_succ]
  constructor
  · intro hf
    apply Nat.lt_of_not_le
    intro h
    have hq : (2 ^ 54 - 1) * 2 ^ 2044 ≤ num / den := by
      rw [Nat.le_div_iff_mul_le hd, Nat.mul_comm]; exact h
    have hs : 2045 ≤ (num / den).log2 - 52 := by
      have h2 : (2 : Nat) ^ 2097 ≤ num / den := by
        refine Nat.le_trans ?_ hq
        have : (2 : Nat) ^ 2097 = 2 ^ 53 * 2 ^ 2044 := by rw [← Nat.pow_add]
        rw [this]
        exact Nat.mul_le_mul_right _ (by omega)
      have := (Nat.le_log2 (by have : 0 < 2 ^ 2097 := Nat.pow_pos (by omega); omega)).2 h2
      omega
    have hb := shift_bounds (num / den)
    unfold roundPos at hf
    simp only at hf
    generalize hS : (num / den).log2 - 52 = s0 at *
    have hH := halfEven_bounds num (den * 2 ^ s0)
    rw [← Nat.div_div_eq_div_mul] at hH
    have hmin := hf
    rcases Nat.lt_or_ge (s0 * 2 ^ 52 + halfEven num (den * 2 ^ s0)) (2047 * 2 ^ 52) with hlt | hge
    · have h52 : 2 ^ 52 ≤ halfEven num (den * 2 ^ s0) := by omega
      have hs' : s0 = 2045 := by
        rcases Nat.lt_or_ge 2045 s0 with h' | h'
        · have : 2046 * 2 ^ 52 ≤ s0 * 2 ^ 52 := Nat.mul_le_mul_right _ (by omega)
          generalize halfEven num (den * 2 ^ s0) = M at *
          omega
        · omega
      subst hs'
      have hM : halfEven num (den * 2 ^ 2045) ≤ 2 ^ 53 - 1 := by
        generalize halfEven num (den * 2 ^ 2045) = M at *
        omega
      have hd0 : 0 < den * 2 ^ 2045 := Nat.mul_pos hd (Nat.pow_pos (by omega))
      -- the magnitude is at least 2^53 - 1/2 in units of 2^2045
      have h' : (2 ^ 54 - 1) * (den * 2 ^ 2045) ≤ 2 * num := by
        have e : (2 ^ 54 - 1) * (den * 2 ^ 2045) = 2 * (den * overflow) := by
          unfold overflow
          rw [hpow]
          generalize (2 : Nat) ^ 2044 = K
          generalize (2 : Nat) ^ 54 - 1 = c
          rw [Nat.mul_left_comm c, Nat.mul_left_comm 2, Nat.mul_comm 2, Nat.mul_assoc]
        rw [e]; omega
      generalize den * 2 ^ 2045 = D at *
      have h1 := Nat.div_add_mod num D
      have h2 := Nat.mod_lt num hd0
      have h3 : num / D ≤ 2 ^ 53 - 1 := by
        have := (halfEven_bounds num D).1; omega
      have h4 : 2 ^ 53 - 1 ≤ num / D := by
        rw [Nat.le_div_iff_mul_le hd0]
        have e1 : (2 ^ 54 - 1) * D = (2 ^ 53 - 1) * D + (2 ^ 53 - 1) * D + D := by
          have : (2 ^ 54 - 1 : Nat) = (2 ^ 53 - 1) + (2 ^ 53 - 1) + 1 := by decide
          rw [this]; simp only [Nat.add_mul, Nat.one_mul]
        generalize (2 ^ 53 - 1) * D = z at *
        omega
      have h5 : num / D = 2 ^ 53 - 1 := by omega
      rw [h5] at h1
      have h6 : D ≤ 2 * (num % D) := by
        have e1 : (2 ^ 54 - 1) * D = D * (2 ^ 53 - 1) + D * (2 ^ 53 - 1) + D := by
          have : (2 ^ 54 - 1 : Nat) = (2 ^ 53 - 1) + (2 ^ 53 - 1) + 1 := by decide
          rw [this, Nat.mul_comm, Nat.mul_add, Nat.mul_add, Nat.mul_one]
        rw [e1] at h'
        clear e1 h hq hb hH hS hf hmin hlt hpow h3 h4 h5 h52 hM
        generalize D * (2 ^ 53 - 1) = z at h1 h'
        omega
      unfold halfEven at hM
      rw [if_neg (by omega), h5] at hM
      split at hM <;> omega
    · rw [Nat.min_eq_right hge] at hf
      omega
  · intro h
    by_cases hl : num ≤ den * largest
    · exact roundPos_finite hd hl
    · have hl' : den * largest < num := by omega
      have hq1 : (2 ^ 53 - 1) * 2 ^ 2045 ≤ num / den := by
        rw [Nat.le_div_iff_mul_le hd, Nat.mul_comm]
        exact Nat.le_of_lt hl'
      have hq2 : num / den < 2 ^ 53 * 2 ^ 2045 := by
        rw [Nat.div_lt_iff_lt_mul hd]
        refine Nat.lt_of_lt_of_le h ?_
        rw [Nat.mul_comm]
        apply Nat.mul_le_mul_right
        unfold overflow
        rw [hpow]
        generalize (2 : Nat) ^ 2044 = K
        omega
      have hs : (num / den).log2 - 52 = 2045 := by
        have h2 : (2 : Nat) ^ 2097 ≤ num / den := by
          refine Nat.le_trans ?_ hq1
          have : (2 : Nat) ^ 2097 = 2 ^ 52 * 2 ^ 2045 := by rw [← Nat.pow_add]
          rw [this]
          exact Nat.mul_le_mul_right _ (by omega)
        have hpos : num / den ≠ 0 := by have : 0 < 2 ^ 2097 := Nat.pow_pos (n := 2097) (show 0 < 2 by omega); omega
        have h3 := (Nat.le_log2 hpos).2 h2
        rw [← Nat.pow_add] at hq2
        have h4 := (Nat.log2_lt hpos).2 hq2
        omega
      unfold roundPos
      simp only [hs]
      apply Nat.lt_of_le_of_lt (Nat.min_le_left _ _)
      have hd0 : 0 < den * 2 ^ 2045 := Nat.mul_pos hd (Nat.pow_pos (by omega))
      have h' : 2 * num < (2 ^ 54 - 1) * (den * 2 ^ 2045) := by
        have e : (2 ^ 54 - 1) * (den * 2 ^ 2045) = 2 * (den * overflow) := by
          unfold overflow
          rw [hpow]
          generalize (2 : Nat) ^ 2044 = K
          generalize (2 : Nat) ^ 54 - 1 = c
          rw [Nat.mul_left_comm c, Nat.mul_left_comm 2, Nat.mul_comm 2, Nat.mul_assoc]
        rw [e]; omega
      generalize den * 2 ^ 2045 = D at *
      have h1 := Nat.div_add_mod num D
      have h2 := Nat.mod_lt num hd0
      have h3 : num / D ≤ 2 ^ 53 - 1 := by
        have : num / D < 2 ^ 53 := by
          rw [Nat.div_lt_iff_lt_mul hd0]
          have : (2 ^ 54 - 1) * D ≤ 2 ^ 54 * D := Nat.mul_le_mul_right _ (by omega)
          omega
        omega
      have hM : halfEven num D ≤ 2 ^ 53 - 1 := by
        by_cases h5 : num / D = 2 ^ 53 - 1
        · rw [h5] at h1
          have e1 : (2 ^ 54 - 1) * D = D * (2 ^ 53 - 1) + D * (2 ^ 53 - 1) + D := by
            have : (2 ^ 54 - 1 : Nat) = (2 ^ 53 - 1) + (2 ^ 53 - 1) + 1 := by decide
            rw [this, Nat.mul_comm, Nat.mul_add, Nat.mul_add, Nat.mul_one]
          unfold halfEven
          rw [if_pos (by generalize D * (2 ^ 53 - 1) = z at *; omega), h5]
          exact Nat.le_refl _
        · have := (halfEven_bounds num D).2; omega
      generalize halfEven num D = M at *
      omega

/-- Of two equally near doubles the one with an even last bit is chosen. -/
theorem roundPos_even {num den : Nat} (hd : 0 < den) (hf : roundPos num den < 2047 * 2 ^ 52) (f : Nat)
    (h : dist ((den * magOf (roundPos num den) : Nat) : Int) num = dist ((den * magOf f : Nat) : Int) num) :
    magOf f = magOf (roundPos num den) ∨ roundPos num den % 2 = 0 := by
  obtain ⟨m, s, hm, hms⟩ := magOf_form f
  rw [hms] at h ⊢
  have hb := shift_bounds (num / den)
  unfold roundPos at hf h ⊢
  simp only at hf h ⊢
  generalize hS : (num / den).log2 - 52 = s0 at hf hb h ⊢
  have hd0 : 0 < den * 2 ^ s0 := Nat.mul_pos hd (Nat.pow_pos (by omega))
  have hH := halfEven_bounds num (den * 2 ^ s0)
  rw [← Nat.div_div_eq_div_mul] at hH
  have hnear := fun k => halfEven_nearest num hd0 k
  have heven := fun k => halfEven_even num hd0 (k := k)
  generalize halfEven num (den * 2 ^ s0) = M at *
  have hmin : min (s0 * 2 ^ 52 + M) (2047 * 2 ^ 52) = s0 * 2 ^ 52 + M := by
    apply Nat.min_eq_left
    rcases Nat.le_total (s0 * 2 ^ 52 + M) (2047 * 2 ^ 52) with h | h
    · exact h
    · rw [Nat.min_eq_right h] at hf; omega
  have hM53 : M ≤ 2 ^ 53 := by omega
  have hM52 : s0 = 0 ∨ 2 ^ 52 ≤ M := by omega
  rw [hmin, magOf_shift hM53 hM52] at h ⊢
  have e : den * (M * 2 ^ s0) = den * 2 ^ s0 * M := by rw [Nat.mul_comm M, Nat.mul_assoc]
  rw [e] at h
  have fin : M % 2 = 0 → (s0 * 2 ^ 52 + M) % 2 = 0 := by intro h; omega
  by_cases hs : s0 ≤ s
  · have h2 : (2 : Nat) ^ s = 2 ^ s0 * 2 ^ (s - s0) := by rw [← Nat.pow_add]; congr 1; omega
    have : den * (m * 2 ^ s) = den * 2 ^ s0 * (m * 2 ^ (s - s0)) := by
      rw [h2, Nat.mul_assoc, Nat.mul_left_comm m]
    rw [this] at h
    by_cases hk : m * 2 ^ (s - s0) = M
    · left; rw [h2, Nat.mul_left_comm, hk, Nat.mul_comm]
    · right; exact fin (heven _ hk h)
  · have h0 : 2 ^ 52 * 2 ^ s0 ≤ num / den := by
      rcases hb.2 with h | h
      · omega
      · rwa [Nat.le_div_iff_mul_le (Nat.pow_pos (by omega))] at h
    have h1 : 2 ^ 52 * 2 ^ s0 * den ≤ num := (Nat.le_div_iff_mul_le hd).1 h0
    have h2 : m * 2 ^ s ≤ 2 ^ 52 * 2 ^ s0 := by
      have h3 : (2 : Nat) ^ s0 = 2 ^ (s + 1) * 2 ^ (s0 - (s + 1)) := by rw [← Nat.pow_add]; congr 1; omega
      have h4 : 2 ^ (s + 1) ≤ 2 ^ s0 := Nat.pow_le_pow_right (by omega) (by omega)
      have h5 : m * 2 ^ s ≤ 2 ^ 53 * 2 ^ s := Nat.mul_le_mul_right _ (by omega)
      have h6 : 2 ^ 53 * 2 ^ s = 2 ^ 52 * 2 ^ (s + 1) := by rw [Nat.pow_succ 2 s]; omega
      have h7 : 2 ^ 52 * 2 ^ (s + 1) ≤ 2 ^ 52 * 2 ^ s0 := Nat.mul_le_mul_left _ h4
      omega
    have h3 := hnear (2 ^ 52)
    have h4 : den * (m * 2 ^ s) ≤ den * 2 ^ s0 * 2 ^ 52 := by
      calc den * (m * 2 ^ s) ≤ den * (2 ^ 52 * 2 ^ s0) := Nat.mul_le_mul_left _ h2
        _ = _ := by rw [Nat.mul_comm (2 ^ 52), Nat.mul_assoc]
    have h5 : den * 2 ^ s0 * 2 ^ 52 ≤ num := by
      calc den * 2 ^ s0 * 2 ^ 52 = 2 ^ 52 * 2 ^ s0 * den := by
            rw [Nat.mul_comm _ (2 ^ 52), Nat.mul_comm den, Nat.mul_assoc]
        _ ≤ num := h1
    have h6 : den * (m * 2 ^ s) = den * 2 ^ s0 * 2 ^ 52 ∧
        dist ((den * 2 ^ s0 * M : Nat) : Int) num = dist ((den * 2 ^ s0 * 2 ^ 52 : Nat) : Int) num := by
      clear heven hf hb hH hmin hM53 hM52 h0 h1 h2 hnear e fin hS
      unfold dist at *
      generalize den * 2 ^ s0 * M = x at *
      generalize den * 2 ^ s0 * 2 ^ 52 = y at *
      generalize den * (m * 2 ^ s) = z at *
      omega
    by_cases hk : 2 ^ 52 = M
    · left
      have h7 := h6.1
      rw [Nat.mul_assoc, hk] at h7
      rw [Nat.eq_of_mul_eq_mul_left hd h7, Nat.mul_comm]
    · right; exact fin (heven _ hk h6.2)

theorem negBit_ofNat (neg : Bool) {x : Nat} (h : x ≤ 2047 * 2 ^ 52) :
    negBit (BitVec.ofNat 64 ((if neg then 2 ^ 63 else 0) + x)).toNat = neg ∧
      (BitVec.ofNat 64 ((if neg then 2 ^ 63 else 0) + x)).toNat % 2 = x % 2 := by
  rw [BitVec.toNat_ofNat]
  unfold negBit
  cases neg
  · simp only [Bool.false_eq_true, if_false, beq_eq_false_iff_ne]; omega
  · simp only [if_true, beq_iff_eq]; omega

theorem roundTo_rounded (neg : Bool) {num den : Nat} (hd : 0 < den) : Rounded neg num den (roundTo neg num den).toNat := by
  have hlim := roundPos_limit (num := num) hd
  have hle := roundPos_le num den
  obtain ⟨hsig, hpar⟩ := negBit_ofNat neg hle
  refine ⟨hsig, ?_, ?_⟩
  · intro h
    have hf := hlim.2 h
    obtain ⟨y, hy, hn⟩ := roundTo_nearest neg hd hf
    have hy' : doubleVal (roundTo neg num den).toNat = .finite (signedMag neg (magOf (roundPos num den))) := by
      rw [doubleVal_classify, classify_roundTo, if_neg (by omega)]; rfl
    have : y = signedMag neg (magOf (roundPos num den)) := by rw [hy'] at hy; injection hy with hy; exact hy.symm
    subst this
    refine ⟨_, hy', fun d' y' h' => ⟨?_, ?_⟩⟩
    · have := hn d' y' h'
      unfold signedMag at this ⊢
      exact this
    · intro heq
      have hpar' : (roundTo neg num den).toNat % 2 = roundPos num den % 2 := hpar
      rw [hpar']
      obtain ⟨f, hy2⟩ := doubleVal_finite h'
      have h1 := roundPos_nearest hd hf f
      have h2 := roundPos_nearest hd hf 0
      have h3 := roundPos_even hd hf f
      have h5 := roundPos_even hd hf 0
      have h0 : magOf 0 = 0 := by decide
      rw [h0, Nat.mul_zero] at h2 h5
      generalize roundPos num den = R at *
      clear hlim hle hsig hpar hn h' h hy hy' hpar' hf
      unfold signedMag at *
      have hdd : ∀ a b : Nat, (den : Int) * a = den * b → a = b := by
        intro a b h
        exact Int.ofNat.inj (Int.eq_of_mul_eq_mul_left (by omega) h)
      have hz : ∀ a : Nat, (den : Int) * a = 0 → a = 0 := fun a h => hdd a 0 (by simpa using h)
      have e : ∀ x : Nat, ((den * x : Nat) : Int) = (den : Int) * x := fun x => by push_cast; rfl
      simp only [e] at h1 h2 h3 h5
      have e3 : 0 ≤ (den : Int) * (magOf f : Int) := Int.mul_nonneg (by omega) (by omega)
      have e4 : 0 ≤ (den : Int) * (magOf R : Int) := Int.mul_nonneg (by omega) (by omega)
      have hzf := hz (magOf f)
      have hzr := hz (magOf R)
      unfold dist at *
      rcases hy2 with rfl | rfl <;> cases neg <;>
        simp only [Bool.false_eq_true, if_true, if_false, Int.mul_neg] at heq ⊢ <;>
        generalize (den : Int) * (magOf f : Int) = a at * <;>
        generalize (den : Int) * (magOf R : Int) = b at * <;>
        generalize (magOf R : Nat) = r at * <;> generalize (magOf f : Nat) = q at * <;> omega
  · intro h
    have : roundPos num den = 2047 * 2 ^ 52 := by
      have : ¬ roundPos num den < 2047 * 2 ^ 52 := fun h' => by have := hlim.1 h'; omega
      omega
    rw [doubleVal_classify, classify_roundTo, if_pos this]; rfl

theorem classify_cases (a : BitVec 64) :
    (classify a = .nan ∧ doubleVal a.toNat = .nan) ∨
    (∃ s, classify a = .inf s ∧ doubleVal a.toNat = .inf s) ∨
    (∃ m, classify a = .fin (negBit a.toNat) m ∧ doubleVal a.toNat = .finite (signedMag (negBit a.toNat) m)) := by
  have h := doubleVal_classify a
  cases hc : classify a with
  | nan => rw [hc] at h; exact .inl ⟨rfl, h⟩
  | inf s => rw [hc] at h; exact .inr (.inl ⟨s, rfl, h⟩)
  | fin s m =>
    rw [hc] at h
    have : s = negBit a.toNat := by
      have ha := a.isLt
      unfold classify at hc
      simp only at hc
      split at hc
      · split at hc <;> cases hc
      · injection hc with hc _
        rw [← hc]
        unfold negBit
        rw [Bool.eq_iff_iff]
        simp only [decide_eq_true_eq, beq_iff_eq]
        omega
    subst this
    exact .inr (.inr ⟨m, rfl, h⟩)

theorem nanBits_val : doubleVal nanBits.toNat = .nan := by
  rw [doubleVal_classify, show classify nanBits = .nan by decide]; rfl

theorem infBits_val (s : Bool) : doubleVal (infBits s).toNat = .inf s := by
  rw [doubleVal_classify, show classify (infBits s) = .inf s by cases s <;> decide]; rfl

theorem signedMag_zero (s : Bool) (m : Nat) : signedMag s m = 0 ↔ m = 0 := by
  unfold signedMag; cases s <;> simp

theorem fadd_sum (a b : BitVec 64) : IsSum a.toNat b.toNat (fadd a b).toNat := by
  unfold IsSum fadd
  rcases classify_cases a with ⟨h1, h2⟩ | ⟨s, h1, h2⟩ | ⟨m, h1, h2⟩ <;>
    rcases classify_cases b with ⟨h3, h4⟩ | ⟨t, h3, h4⟩ | ⟨n, h3, h4⟩ <;> simp only [h1, h2, h3, h4, nanBits_val, infBits_val]
  · split <;> simp only [nanBits_val, infBits_val]
  · split
    · rename_i hz
      rw [hz]
      exact roundTo_rounded _ (by omega)
    · exact roundTo_rounded _ (by omega)

theorem fneg_cases (b : BitVec 64) : negBit (fneg b).toNat = !negBit b.toNat := by
  have hb := b.isLt
  have h1 : (fneg b).toNat = (b.toNat + 2 ^ 63) % 2 ^ 64 := by
    unfold fneg; rw [BitVec.toNat_add]; rfl
  unfold negBit
  rw [h1, Bool.eq_iff_iff]
  simp only [beq_iff_eq, Bool.not_eq_true', beq_eq_false_iff_ne]
  omega

theorem fsub_difference (a b : BitVec 64) : IsDifference a.toNat b.toNat (fsub a b).toNat := by
  have h := fadd_sum a (fneg b)
  unfold fsub IsDifference
  unfold IsSum at h
  have hneg : doubleVal (fneg b).toNat = match doubleVal b.toNat with
      | .nan => .nan | .inf s => .inf !s | .finite y => .finite (-y) := by
    rw [doubleVal_classify, classify_fneg, doubleVal_classify]
    cases classify b <;> simp only [FClass.val, signedMag_not]
  rw [hneg, fneg_cases] at h
  cases ha : doubleVal a.toNat <;> cases hb : doubleVal b.toNat <;> simp only [ha, hb] at h ⊢ <;> try exact h
  · rename_i s t
    rw [h]; cases s <;> cases t <;> rfl

theorem fmul_product (a b : BitVec 64) : IsProduct a.toNat b.toNat (fmul a b).toNat := by
  unfold IsProduct fmul
  rcases classify_cases a with ⟨h1, h2⟩ | ⟨s, h1, h2⟩ | ⟨m, h1, h2⟩ <;>
    rcases classify_cases b with ⟨h3, h4⟩ | ⟨t, h3, h4⟩ | ⟨n, h3, h4⟩ <;>
    simp only [h1, h2, h3, h4, nanBits_val, infBits_val, signedMag_zero]
  · split <;> simp only [nanBits_val, infBits_val]
  · split <;> simp only [nanBits_val, infBits_val]
  · rw [signedMag_abs, signedMag_abs]
    exact roundTo_rounded _ (Nat.pow_pos (by omega))

theorem fdiv_quotient (a b : BitVec 64) : IsQuotient a.toNat b.toNat (fdiv a b).toNat := by
  unfold IsQuotient fdiv
  rcases classify_cases a with ⟨h1, h2⟩ | ⟨s, h1, h2⟩ | ⟨m, h1, h2⟩ <;>
    rcases classify_cases b with ⟨h3, h4⟩ | ⟨t, h3, h4⟩ | ⟨n, h3, h4⟩ <;>
    simp only [h1, h2, h3, h4, nanBits_val, infBits_val, signedMag_zero]
  · exact roundTo_rounded _ (by omega)
  · by_cases hn : n = 0
    · simp only [hn, if_true]
      split <;> simp only [nanBits_val, infBits_val]
    · simp only [hn, if_false, signedMag_abs]
      exact roundTo_rounded _ (by omega)

end Dart
