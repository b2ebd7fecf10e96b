import Verif.Lemmas.Overlap
import Verif.Props.C09

/-
C53: the time validation takes. A step is a call of `valid_buffer` or a look at one entry of a table.
-/
namespace Dart.Props

/-- The steps counted are those of the validator the other properties are about. -/
theorem C53_same_verdict (m : Bytes) : (isValidN m).1 = isValid m := isValidN_fst m

/-- C53 (partial): on bytes the library made from a value, whether it then accepts them or not, the
validator takes at most as many steps as there are bytes. Missing is the same, or any polynomial bound,
for untrusted bytes; it is false, see `C53_negation`. -/
theorem C53_linear_partial (v : Val) (m : Bytes) (hw : v.WF) (h : finalize v = .ok m) :
    validSteps m ≤ m.length := steps_finalized hw h

/-- C53, negation: there are buffers of `48 * n + 48` bytes, for all sizes the format allows, that the
validator accepts only after at least `2 ^ n` steps. -/
theorem C53_negation (n : Nat) (h : 48 * n + 48 < 2 ^ 32) :
    ∃ m : Bytes, m.length = 48 * n + 48 ∧ accepts m ∧ 2 ^ n ≤ validSteps m := by
  have hk : 24 * (2 * n + 2) < 2 ^ 32 := by omega
  obtain ⟨h1, h2, _⟩ := overBuffer_ok (2 * n) hk
  refine ⟨overBuffer (2 * n), ?_, h1, Nat.le_trans (overCalls_ge n).1 h2⟩
  rw [overBuffer_length]
  omega

/-- C53, negation for readers: the same buffers show documents of at least `2 ^ n` values, so that
copying them out (`definalize`) takes as long and that much memory. -/
theorem C53_negation_expands (n : Nat) (h : 48 * n + 48 < 2 ^ 32) :
    ∃ (m : Bytes) (v : Val), m.length = 48 * n + 48 ∧ accepts m ∧ definalize m = some v ∧
      2 ^ n ≤ Spec.weight v := by
  have hk : 24 * (2 * n + 2) < 2 ^ 32 := by omega
  obtain ⟨h1, _, h3⟩ := overBuffer_ok (2 * n) hk
  refine ⟨overBuffer (2 * n), _, ?_, h1, h3, ?_⟩
  · rw [overBuffer_length]
    omega
  · have h4 := (overCalls_ge n).1
    have h5 := overTree_weight (2 * n)
    simp only [Spec.weight, Spec.weightFields]
    omega

/-- On any bytes whatever the validator stops: after at most `length + 4 ^ length` steps. -/
theorem C53_bound (m : Bytes) : validSteps m ≤ m.length + 4 ^ m.length :=
  validBufferN_le m (m.length + 1) .object 0 m.length

/-! Concrete cases: 17 steps for 120 bytes of library output; 288 bytes with 10 levels of overlap take
356 steps, though accepted. -/

example : (match finalize sampleHarmless with | .ok m => decide (validSteps m ≤ m.length) | _ => false)
    = true := by decide +kernel
example : (overBuffer 10).length = 288 ∧ accepts (overBuffer 10) ∧ 288 < validSteps (overBuffer 10) := by
  decide +kernel
example : 48 * 60 + 48 < 2 ^ 32 ∧ 48 * 60 + 48 < 3000 := by decide

end Dart.Props
