import Verif.Props.C33

/-
C39: `++`, `--` and the compound assignments of number wrappers.
-/
namespace Dart.Props
open Spec

/-- Whole numbers below 2^53: `++` and `--` give the right value, but the result is a decimal.
Missing for the full property: an integer should stay one, and larger integers (see below). -/
theorem C39_increment_partial (i : BitVec 64) (hi : i.toInt.natAbs < 2 ^ 52) :
    (∃ d, numberIncr (.int i) = .ok (.dec d) ∧ IsInt d.toNat (i.toInt + 1)) ∧
    (∃ d, numberDecr (.int i) = .ok (.dec d) ∧ IsInt d.toNat (i.toInt - 1)) := by
  obtain ⟨r1, _, r3, _, h1, h2, _, _, h3, h4, _⟩ := C33_whole_numbers i 1 (by omega) (by omega)
  refine ⟨⟨r1, ?_, h2⟩, ⟨r3, ?_, h4⟩⟩
  · simp only [numberOp, Val.numeric, Res.bind, Res.ok.injEq] at h1
    simp only [numberIncr, Val.numeric, Res.bind, ← h1]; rfl
  · simp only [numberOp, Val.numeric, Res.bind, Res.ok.injEq] at h3
    simp only [numberDecr, Val.numeric, Res.bind, ← h3]; rfl

/-- Compound assignments make the number a decimal holding a double nearest to the exact result. -/
theorem C39_compound (op : ArithOp) {n : Val} {t : NativeNum} (h : Operands n t) :
    ∃ a b r, NumberAs n a ∧ NativeAs t b ∧ numberAssign op n t = .ok (.dec r) ∧
      ∀ x y, doubleVal a.toNat = .finite x → doubleVal b.toNat = .finite y →
        Correct (ArithOp.meaning op) x y r.toNat := by
  obtain ⟨a, h1, h2, h3⟩ := operands_as h
  exact ⟨a, _, _, h2, h3, by rw [numberAssign, h1]; rfl, fun x y ha hb => builtin_correct op ha hb⟩

/-- Every integer ceases to be one: after `++` (or any compound assignment) `integer()` throws. -/
theorem C39_integer_lost (i : BitVec 64) :
    ∃ n, numberIncr (.int i) = .ok n ∧ n.integer = .throw .typeError ∧ n.getType = .decimal :=
  ⟨_, rfl, rfl, rfl⟩

/-- Repeated `++`. -/
def incrTimes : Nat → Val → Res Val
  | 0, n => .ok n
  | k + 1, n => (numberIncr n).bind (incrTimes k)

/-- A counter of 2^53 never gets any further, however often it is incremented. -/
theorem C39_stuck (k : Nat) : incrTimes (k + 1) (.int (2 ^ 53)) = .ok (.dec (intToDouble (2 ^ 53))) := by
  have h1 : numberIncr (.int (2 ^ 53)) = .ok (.dec (intToDouble (2 ^ 53))) := by
    simp only [numberIncr, Val.numeric, Res.bind, Res.ok.injEq, Val.dec.injEq]; decide +kernel
  have h2 : numberIncr (.dec (intToDouble (2 ^ 53))) = .ok (.dec (intToDouble (2 ^ 53))) := by
    simp only [numberIncr, Val.numeric, Res.bind, Res.ok.injEq, Val.dec.injEq]; decide +kernel
  have h3 : ∀ k, incrTimes k (.dec (intToDouble (2 ^ 53))) = .ok (.dec (intToDouble (2 ^ 53))) := by
    intro k
    induction k with
    | zero => rfl
    | succ k ih => simp only [incrTimes, h2, Res.bind, ih]
  simp only [incrTimes, h1, Res.bind, h3]

example : numberIncr (.int 41) = .ok (.dec (intToDouble 42)) := by
  simp only [numberIncr, Val.numeric, Res.bind, Res.ok.injEq, Val.dec.injEq]; decide +kernel

end Dart.Props
