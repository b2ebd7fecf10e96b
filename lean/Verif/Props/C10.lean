import Verif.Lemmas.Validate
import Verif.Model.Sample

/-
C10: the verdict of the validator depends only on the claimed bytes, trailing bytes are harmless and
truncation is noticed. `accepts m` says that the public `is_valid` returns true on the bytes `m`;
`readU m 4 0` is the total size recorded in the first four bytes of the object.
-/
namespace Dart.Props

/-- The verdict for the first `n` bytes of a larger memory is the verdict for these bytes alone,
whatever follows them. -/
theorem C10_only_claimed_bytes (m rest : Bytes) (depth : Nat) (hd : m.length + 1 ≤ depth) :
    validBuffer (m ++ rest) depth .object 0 m.length = isValid m := by
  obtain ⟨r, hr⟩ := isValid_total m
  rw [hr]
  have := validBuffer_append m rest (m.length + 1) (depth - (m.length + 1)) .object 0 m.length r hr
  rwa [show m.length + 1 + (depth - (m.length + 1)) = depth by omega] at this

/-- Appending bytes to an accepted buffer leaves it accepted. -/
theorem C10_trailing_bytes (m rest : Bytes) (h : accepts m) : accepts (m ++ rest) := by
  have h1 : validBuffer (m ++ rest) ((m ++ rest).length + 1) .object 0 m.length = .ok true := by
    rw [C10_only_claimed_bytes m rest _ (by simp)]; exact h
  unfold accepts isValid
  obtain ⟨h8, total, ht, hb, _⟩ := validTable_true.1 h1
  have hl : m.length ≤ (m ++ rest).length := by simp
  rw [← h1]
  exact validTable_claim ht (by omega) hb (by omega) h8

/-- A buffer cut anywhere below the size recorded in it is rejected, at whatever point and whether
or not the rest was valid. -/
theorem C10_truncated_rejected (m : Bytes) (total k : Nat) (ht : readU m 4 0 = some total)
    (hk : k < total) : isValid (m.take k) = .ok false := by
  obtain ⟨r, hr⟩ := isValid_total (m.take k)
  cases r with
  | false => exact hr
  | true =>
    obtain ⟨h8, total', ht', hb, _⟩ := validTable_true.1 hr
    rw [List.length_take] at h8 hb
    have := readU_append (e := m.drop k) ht'
    rw [List.take_append_drop, ht] at this
    cases this
    omega

/-- A buffer is accepted exactly if the part up to its recorded size is complete and accepted: bytes
beyond the recorded size never matter. -/
theorem C10_recorded_size_decides (m : Bytes) (total : Nat) (ht : readU m 4 0 = some total) :
    accepts m ↔ total ≤ m.length ∧ accepts (m.take total) := by
  constructor
  · intro h
    obtain ⟨h8, total', ht', hb, n, hn, hnt, _⟩ := validTable_true.1 h
    rw [ht] at ht'; cases ht'
    refine ⟨hb, ?_⟩
    obtain ⟨r, hr⟩ := isValid_total (m.take total)
    have h2 := C10_only_claimed_bytes (m.take total) (m.drop total) (m.length + 1)
      (by rw [List.length_take]; omega)
    rw [List.take_append_drop, hr, List.length_take, Nat.min_eq_left hb] at h2
    have h3 : validBuffer m (m.length + 1) .object 0 total =
        validBuffer m (m.length + 1) .object 0 m.length :=
      validTable_claim ht (Nat.le_refl _) hb (by omega) h8
    rw [h3] at h2
    unfold accepts
    rw [hr, ← h2]
    exact h
  · rintro ⟨hb, h⟩
    have := C10_trailing_bytes _ (m.drop total) h
    rwa [List.take_append_drop] at this

/-! A concrete case: an accepted object of 216 bytes in an allocation of 280. -/

example : (match finalize sampleNoNull with
    | .ok m => some (decide (accepts m), readU m 4 0, m.length, isValid (m.take 100))
    | _ => none) = some (true, some 216, 280, .ok false) := by decide +kernel

end Dart.Props
