import Verif.Lemmas.Float
import Verif.Lemmas.Decode

/-
C26: numbers survive the selection of a storage width.
-/
namespace Dart.Props

/-- C26: writing any 64-bit integer in the width chosen for it and reading it back, anywhere in
memory, gives the same integer. -/
theorem C26_integer_round_trip (i : BitVec 64) (before after : Bytes) :
    readInt (before ++ (intBytes (identifyInteger i) i ++ after)) (identifyInteger i) before.length = some i :=
  intBytes_read i before after before.length rfl

/-- C26: writing any double (any bit pattern: subnormals, infinities, NaNs, both zeros) in the width
chosen for it and reading it back gives the same bit pattern. -/
theorem C26_decimal_round_trip (d : BitVec 64) (before after : Bytes) :
    readDec (before ++ (decBytes d ++ after)) (identifyDecimal d) before.length = some d :=
  decBytes_read d before after before.length rfl

/-- C26: the width chosen for an integer is the smallest of 16, 32 and 64 bits that holds it, and
this many bytes are written. -/
theorem C26_integer_smallest_width (i : BitVec 64) :
    (identifyInteger i = .shortInteger ↔ -2 ^ 15 ≤ i.toInt ∧ i.toInt < 2 ^ 15) ∧
    (identifyInteger i = .integer ↔
      (-2 ^ 31 ≤ i.toInt ∧ i.toInt < 2 ^ 31) ∧ ¬ (-2 ^ 15 ≤ i.toInt ∧ i.toInt < 2 ^ 15)) ∧
    (identifyInteger i = .longInteger ↔ ¬ (-2 ^ 31 ≤ i.toInt ∧ i.toInt < 2 ^ 31)) ∧
    (intBytes (identifyInteger i) i).length = (identifyInteger i).align := by
  unfold identifyInteger
  split
  · refine ⟨?_, ?_, ?_, ?_⟩ <;> simp [intBytes, RawType.align] <;> omega
  · split
    · refine ⟨?_, ?_, ?_, ?_⟩ <;> simp [intBytes, RawType.align] <;> omega
    · refine ⟨?_, ?_, ?_, ?_⟩ <;> simp [intBytes, RawType.align] <;> omega

/-- C26: a double is stored in four bytes exactly when some single precision number has the same
value (NaN has none); otherwise in eight. -/
theorem C26_decimal_width (d : BitVec 64) :
    (identifyDecimal d = .decimal ↔
      ∃ f, f < 2 ^ 32 ∧ Spec.floatVal f = Spec.doubleVal d.toNat ∧ Spec.doubleVal d.toNat ≠ .nan) ∧
    (identifyDecimal d = .decimal ∨ identifyDecimal d = .longDecimal) ∧
    (decBytes d).length = (identifyDecimal d).align := by
  rw [← narrow_isSome_iff d.isLt]
  unfold identifyDecimal decBytes
  cases narrowBits d.toNat <;> simp [RawType.align]

/-- Non-vacuity: boundary integers, and 0.5 / 0.1 / the smallest float subnormal / -0.0 / NaN. -/
example : identifyInteger 32767 = .shortInteger ∧ identifyInteger 32768 = .integer ∧
    identifyInteger (-32769) = .integer ∧ identifyInteger 2147483648 = .longInteger ∧
    identifyInteger (-2147483648) = .integer := by decide
example : identifyDecimal 0x3fe0000000000000 = .decimal ∧ identifyDecimal 0x3fb999999999999a = .longDecimal ∧
    identifyDecimal 0x36a0000000000000 = .decimal ∧ identifyDecimal 0x3690000000000000 = .longDecimal ∧
    identifyDecimal 0x8000000000000000 = .decimal ∧ identifyDecimal 0x7ff8000000000000 = .longDecimal := by
  decide +kernel

end Dart.Props
