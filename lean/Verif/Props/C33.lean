import Verif.Lemmas.Ieee

/-
C33: arithmetic on number wrappers. `numberOp op n t` is `number op native`, `nativeOp op t n` is
`native op number`. Results are doubles; `Correct op x y r` says that `r` is a double nearest to the exact
result of `x op y`.
-/
namespace Dart.Props
open Spec

/-- The operation an operator stands for. -/
def ArithOp.meaning : ArithOp → Operation
  | .add => .plus
  | .sub => .minus
  | .mul => .times
  | .div => .over

/-- The number `n` as a double: itself, or a nearest one for integers. -/
inductive NumberAs : Val → BitVec 64 → Prop
  | dec (d : BitVec 64) : NumberAs (.dec d) d
  | int (i : BitVec 64) {d : BitVec 64} : Nearest (i.toInt * 2 ^ 1074) 1 d.toNat → NumberAs (.int i) d

/-- The native operand `t` (integers have at most 64 bits) as a double. -/
inductive NativeAs : NativeNum → BitVec 64 → Prop
  | dbl (d : BitVec 64) : NativeAs (.dbl d) d
  | int {i : Int} {d : BitVec 64} : i.natAbs ≤ 2 ^ 64 → Nearest (i * 2 ^ 1074) 1 d.toNat → NativeAs (.int i) d

/-- What the operands can be: numbers, and native integers of at most 64 bits. -/
def Operands (n : Val) (t : NativeNum) : Prop :=
  ((∃ i, n = .int i) ∨ ∃ d, n = .dec d) ∧ ∀ i, t = .int i → i.natAbs ≤ 2 ^ 64

/-- The operands as doubles. -/
theorem operands_as {n : Val} {t : NativeNum} (h : Operands n t) :
    ∃ a, n.numeric = .ok a ∧ NumberAs n a ∧ NativeAs t t.toDouble := by
  obtain ⟨h1, h2⟩ := h
  have ht : NativeAs t t.toDouble := by
    cases t with
    | int i => exact .int (h2 i rfl) (intToDouble_nearest (h2 i rfl))
    | dbl d => exact .dbl d
  rcases h1 with ⟨i, rfl⟩ | ⟨d, rfl⟩
  · refine ⟨_, rfl, .int i (intToDouble_nearest ?_), ht⟩
    have h3 := BitVec.toInt_lt (x := i)
    have h4 := BitVec.le_toInt i
    omega
  · exact ⟨_, rfl, .dec d, ht⟩

theorem builtin_correct (op : ArithOp) {a b : BitVec 64} {x y : Int} (ha : doubleVal a.toNat = .finite x)
    (hb : doubleVal b.toNat = .finite y) : Correct (ArithOp.meaning op) x y (op.builtin a b).toNat := by
  cases op with
  | add => exact fadd_correct ha hb
  | sub => exact fsub_correct ha hb
  | mul => exact fmul_correct ha hb
  | div => exact fdiv_correct ha hb

/-- Anything but a number is refused with a type error by every operator. -/
theorem C33_not_a_number (op : ArithOp) (n : Val) (t : NativeNum) (hi : ∀ i, n ≠ .int i) (hd : ∀ d, n ≠ .dec d) :
    numberOp op n t = .throw .typeError ∧ nativeOp op t n = .throw .typeError ∧ numberAssign op n t = .throw .typeError ∧
    numberIncr n = .throw .typeError ∧ numberDecr n = .throw .typeError := by
  cases n with
  | int i => exact absurd rfl (hi i)
  | dec d => exact absurd rfl (hd d)
  | _ => exact ⟨rfl, rfl, rfl, rfl, rfl⟩

example : numberIncr (.str [49]) = .throw .typeError := (C33_not_a_number .add (.str [49]) (.int 0) (by simp) (by simp)).2.2.2.1

/-- The operations the compiler applies are those of IEEE 754 for all doubles, with NaN, infinities, signed zeros, ties and
overflow; integers become the double they round to. -/
theorem C33_ieee (op : ArithOp) (a b : BitVec 64) : Ieee (ArithOp.meaning op) a.toNat b.toNat (op.builtin a b).toNat := by
  cases op with
  | add => exact fadd_sum a b
  | sub => exact fsub_difference a b
  | mul => exact fmul_product a b
  | div => exact fdiv_quotient a b

/-- Integers become the double they round to. -/
theorem C33_integer_operand (i : Int) : Rounded (decide (i < 0)) (i.natAbs * 2 ^ 1074) 1 (intToDouble i).toNat :=
  roundTo_rounded _ (by omega)

/-- With the number on the left all four operators are right. -/
theorem C33_number_first (op : ArithOp) {n : Val} {t : NativeNum} (h : Operands n t) :
    ∃ a b r, NumberAs n a ∧ NativeAs t b ∧ numberOp op n t = .ok r ∧
      ∀ x y, doubleVal a.toNat = .finite x → doubleVal b.toNat = .finite y →
        Correct (ArithOp.meaning op) x y r.toNat := by
  obtain ⟨a, h1, h2, h3⟩ := operands_as h
  exact ⟨a, _, _, h2, h3, by rw [numberOp, h1]; rfl, fun x y ha hb => builtin_correct op ha hb⟩

/-- With the native operand on the left `+` and `*` are right.
Missing for the full property: `-` and `/`, which are wrong (see below). -/
theorem C33_native_first_partial (op : ArithOp) (hop : op = .add ∨ op = .mul) {n : Val} {t : NativeNum}
    (h : Operands n t) :
    ∃ a b r, NumberAs n a ∧ NativeAs t b ∧ nativeOp op t n = .ok r ∧
      ∀ x y, doubleVal a.toNat = .finite x → doubleVal b.toNat = .finite y →
        Correct (ArithOp.meaning op) y x r.toNat := by
  obtain ⟨a, h1, h2, h3⟩ := operands_as h
  refine ⟨a, _, op.builtin a t.toDouble, h2, h3, by rw [nativeOp, numberOp, h1]; rfl, fun x y ha hb => ?_⟩
  have hc : op.builtin a t.toDouble = op.builtin t.toDouble a := by
    rcases hop with rfl | rfl
    · exact fadd_comm _ _
    · exact fmul_comm _ _
  rw [hc]
  exact builtin_correct op hb ha

/-- With the native operand on the left, all operators compute the operation with the operands
exchanged. -/
theorem C33_native_first_exchanged (op : ArithOp) {n : Val} {t : NativeNum} (h : Operands n t) :
    ∃ a b r, NumberAs n a ∧ NativeAs t b ∧ nativeOp op t n = .ok r ∧
      ∀ x y, doubleVal a.toNat = .finite x → doubleVal b.toNat = .finite y →
        Correct (ArithOp.meaning op) x y r.toNat := C33_number_first op h

/-- `native - number` is wrong whenever the two differ: the result is not even the right one up to
rounding. -/
theorem C33_native_minus_number_wrong {n : Val} {t : NativeNum} (h : Operands n t) :
    ∃ a b r, NumberAs n a ∧ NativeAs t b ∧ nativeOp .sub t n = .ok r ∧
      ∀ x y, doubleVal a.toNat = .finite x → doubleVal b.toNat = .finite y → x ≠ y →
        ¬ Nearest (y - x) 1 r.toNat := by
  obtain ⟨a, h1, h2, h3⟩ := operands_as h
  refine ⟨a, _, fsub a t.toDouble, h2, h3, by rw [nativeOp, numberOp, h1]; rfl, fun x y ha hb hne hn => ?_⟩
  obtain ⟨s, m, c1, rfl⟩ := classify_of_finite ha
  obtain ⟨s', m', c2, rfl⟩ := classify_of_finite hb
  obtain ⟨z, z1, z2⟩ := hn
  have hz0 : signedMag s m + signedMag (!s') m' ≠ 0 := by rw [signedMag_not]; omega
  have hneg : classify (fneg t.toDouble) = .fin (!s') m' := by rw [classify_fneg, c2]
  have hr : fsub a t.toDouble = roundTo (decide (signedMag s m + signedMag (!s') m' < 0))
      (signedMag s m + signedMag (!s') m').natAbs 1 := by
    simp only [fsub, fadd, c1, hneg, if_neg hz0]
  have hpos := roundPos_pos (n := (signedMag s m + signedMag (!s') m').natAbs) (by omega)
  rw [hr, doubleVal_classify, classify_roundTo] at z1
  split at z1
  · cases z1
  · injection z1 with z1
    have hmag := magOf_pos hpos
    have h0 := z2 0 0 rfl
    subst z1
    rw [signedMag_not] at *
    unfold dist at h0
    generalize magOf (roundPos (signedMag s m + -signedMag s' m').natAbs 1) = g at *
    unfold signedMag at h0 hne
    by_cases hlt : signedMag s m + -signedMag s' m' < 0
    · simp only [signedMag] at hlt
      simp only [hlt, decide_true, if_true] at h0
      omega
    · simp only [signedMag] at hlt
      simp only [hlt, decide_false, Bool.false_eq_true, if_false] at h0
      omega

/-- Whole numbers, where nothing is rounded: `number + native`, `native + number` and `number - native` give
the sum and the difference; `native - number` gives the negative of the difference. -/
theorem C33_whole_numbers (i : BitVec 64) (j : Int) (hi : i.toInt.natAbs ≤ 2 ^ 52) (hj : j.natAbs ≤ 2 ^ 52) :
    ∃ r1 r2 r3 r4, numberOp .add (.int i) (.int j) = .ok r1 ∧ IsInt r1.toNat (i.toInt + j) ∧
      nativeOp .add (.int j) (.int i) = .ok r2 ∧ IsInt r2.toNat (j + i.toInt) ∧
      numberOp .sub (.int i) (.int j) = .ok r3 ∧ IsInt r3.toNat (i.toInt - j) ∧
      nativeOp .sub (.int j) (.int i) = .ok r4 ∧ IsInt r4.toNat (i.toInt - j) := by
  have e1 := intToDouble_isInt (i := i.toInt) (by omega)
  have e2 := intToDouble_isInt (i := j) (by omega)
  have big : ∀ z : Int, z.natAbs ≤ 2 ^ 53 → (z * 2 ^ 1074).natAbs ≤ 1 * largest := by
    intro z hz
    rw [Int.natAbs_mul, Nat.one_mul]
    unfold largest
    have : (2 ^ 1074 : Int).natAbs = 2 ^ 1074 := Int.natAbs_pow 2 1074
    rw [this]
    calc z.natAbs * 2 ^ 1074 ≤ 2 ^ 53 * 2 ^ 1074 := Nat.mul_le_mul_right _ hz
      _ = 2 ^ 1127 := by rw [← Nat.pow_add]
      _ ≤ 2 ^ 2045 := Nat.pow_le_pow_right (by omega) (by omega)
      _ ≤ (2 ^ 53 - 1) * 2 ^ 2045 := Nat.le_mul_of_pos_left _ (by omega)
  have a1 : IsInt (fadd (intToDouble i.toInt) (intToDouble j)).toNat (i.toInt + j) := by
    apply nearest_isInt (by omega)
    refine fadd_correct e1 e2 _ _ ?_ (big _ (by omega))
    simp only [exact]; rw [Int.add_mul]
  have a2 : IsInt (fsub (intToDouble i.toInt) (intToDouble j)).toNat (i.toInt - j) := by
    apply nearest_isInt (by omega)
    refine fsub_correct e1 e2 _ _ ?_ (big _ (by omega))
    simp only [exact]; rw [Int.sub_mul]
  exact ⟨_, _, _, _, rfl, a1, rfl, by rw [Int.add_comm j]; exact a1, rfl, a2, rfl, a2⟩

/-- A quotient of whole numbers: `native / number` gives `k` where it should give `1 / k`. -/
theorem C33_native_over_number_wrong (i : BitVec 64) (j k : Int) (hi : i.toInt = j * k)
    (hb : (j * k).natAbs ≤ 2 ^ 53) (hj : j ≠ 0) (hk : 2 ≤ k.natAbs) :
    ∃ r, nativeOp .div (.int j) (.int i) = .ok r ∧ IsInt r.toNat k ∧
      ¬ Correct .over (j * 2 ^ 1074) (j * k * 2 ^ 1074) r.toNat := by
  have e1 := intToDouble_isInt (i := i.toInt) (by omega)
  have hb' := hb
  rw [Int.natAbs_mul] at hb'
  have h1 : k.natAbs ≤ j.natAbs * k.natAbs := Nat.le_mul_of_pos_left _ (by omega)
  have h2 : j.natAbs ≤ j.natAbs * k.natAbs := Nat.le_mul_of_pos_right _ (by omega)
  have e2 := intToDouble_isInt (i := j) (by omega)
  have e3 := intToDouble_isInt (i := k) (by omega)
  have hl : 2 ^ 53 * 2 ^ 1074 ≤ largest := by
    unfold largest
    calc 2 ^ 53 * 2 ^ 1074 = 2 ^ 1127 := by rw [← Nat.pow_add]
      _ ≤ 2 ^ 2045 := Nat.pow_le_pow_right (by omega) (by omega)
      _ ≤ (2 ^ 53 - 1) * 2 ^ 2045 := Nat.le_mul_of_pos_left _ (by omega)
  refine ⟨_, rfl, ?_⟩
  rw [hi] at e1 ⊢
  have hr := fdiv_correct e1 e2
  show IsInt (fdiv (intToDouble (j * k)) (intToDouble j)).toNat k ∧
    ¬ Correct .over (j * 2 ^ 1074) (j * k * 2 ^ 1074) (fdiv (intToDouble (j * k)) (intToDouble j)).toNat
  generalize fdiv (intToDouble (j * k)) (intToDouble j) = r at *
  unfold IsInt at *
  unfold Correct exact at hr ⊢
  have hP : (2 ^ 1074 : Int).natAbs = 2 ^ 1074 := Int.natAbs_pow 2 1074
  have hP0 : (0 : Int) < 2 ^ 1074 := Int.pow_pos (by omega)
  generalize (2 : Int) ^ 1074 = P at *
  generalize (2 : Nat) ^ 1074 = Q at *
  have hPQ : P = Q := by omega
  have hjP : j * P ≠ 0 := Int.mul_ne_zero hj (by omega)
  have hk0 : k ≠ 0 := by omega
  have hjkP : j * k * P ≠ 0 := Int.mul_ne_zero (Int.mul_ne_zero hj hk0) (by omega)
  have sP : P.sign = 1 := Int.sign_eq_one_of_pos hP0
  simp only [hjP, hjkP, if_false, Option.some.injEq, Prod.mk.injEq, and_imp] at hr ⊢
  have hden : 0 < (j * P).natAbs := by omega
  have hnum : j * k * P * P * (j * P).sign = ((j * P).natAbs : Int) * (k * P) := by
    have := Int.sign_mul_natAbs (j * P)
    rw [← Int.mul_sign_self]
    simp only [Int.mul_assoc, Int.mul_left_comm, Int.mul_comm]
  have hIs : doubleVal r.toNat = .finite (k * P) := by
    refine nearest_exact hden hnum e3 (hr _ _ rfl rfl ?_)
    rw [hnum, Int.natAbs_mul, Int.natAbs_natCast]
    apply Nat.mul_le_mul_left
    rw [Int.natAbs_mul, hP]
    exact Nat.le_trans (Nat.mul_le_mul_right _ (by omega)) hl
  refine ⟨hIs, ?_⟩
  intro hC
  have hN := hC _ _ rfl rfl ?_
  · obtain ⟨y, y1, y2⟩ := hN
    rw [hIs] at y1
    injection y1 with y1
    subst y1
    have h0 := y2 0 0 rfl
    unfold dist at h0
    have hA : (((j * k * P).natAbs : Int) * (k * P)).natAbs = k.natAbs * k.natAbs * (j.natAbs * Q * Q) := by
      simp only [Int.natAbs_mul, Int.natAbs_natCast, hP]
      simp only [Nat.mul_assoc, Nat.mul_left_comm, Nat.mul_comm]
    have hB : (j * P * P * (j * k * P).sign).natAbs = j.natAbs * Q * Q := by
      rw [Int.natAbs_mul, Int.natAbs_sign_of_ne_zero hjkP, Nat.mul_one, Int.natAbs_mul, Int.natAbs_mul, hP]
    have hN0 : 0 < j.natAbs * Q * Q := Nat.mul_pos (Nat.mul_pos (by omega) (by omega)) (by omega)
    have h4 : 4 * (j.natAbs * Q * Q) ≤ k.natAbs * k.natAbs * (j.natAbs * Q * Q) :=
      Nat.mul_le_mul_right _ (Nat.mul_le_mul hk hk)
    generalize j.natAbs * Q * Q = N at *
    generalize k.natAbs * k.natAbs * N = M at *
    generalize ((j * k * P).natAbs : Int) * (k * P) = A at *
    generalize j * P * P * (j * k * P).sign = B at *
    omega
  · rw [Int.natAbs_mul, Int.natAbs_sign_of_ne_zero hjkP, Nat.mul_one, Int.natAbs_mul, hP]
    apply Nat.mul_le_mul
    · simp only [Int.natAbs_mul, hP]
      exact Nat.mul_le_mul_right _ h2
    · exact Nat.le_trans (Nat.le_mul_of_pos_left _ (by omega)) hl

/-- `10 - number(3)` is -7, and `1 / number(2)` is 2. -/
example : ∃ r, nativeOp .sub (.int 10) (.int 3) = .ok r ∧ r = intToDouble (-7) := ⟨_, rfl, by decide +kernel⟩
example : ∃ r, nativeOp .div (.int 1) (.int 2) = .ok r ∧ r = intToDouble 2 := ⟨_, rfl, by decide +kernel⟩
/-- `number(3) - 10` and `number(0.5) * 3`. -/
example : ∃ r, numberOp .sub (.int 3) (.int 10) = .ok r ∧ r = intToDouble (-7) := ⟨_, rfl, by decide +kernel⟩
example : numberOp .mul (.dec 0x3fe0000000000000) (.int 3) = .ok 0x3ff8000000000000 := by decide +kernel
example : Operands (.int 3) (.dbl 0x3fe0000000000000) := ⟨.inl ⟨3, rfl⟩, by simp⟩

end Dart.Props
