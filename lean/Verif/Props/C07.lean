import Verif.Lemmas.Validate
import Verif.Model.Sample

/-
C07: checking an arbitrary byte buffer for validity terminates and never reads outside it.

`validBuffer m fuel t p bytes` is the validator run on an element of type `t` at position `p` of memory
`m` with the claim that `bytes` bytes are available there; every access to `m` is checked, and the two
ways not to return are `error oob` (read outside of `m`) and `error fuel` (recursion deeper than
`fuel`). `isValid m` is the public entry point on exactly the bytes `m`.
-/
namespace Dart.Props

/-- Whatever the bytes are, `is_valid` returns true or false: it never reads at or beyond the end of
the buffer and its recursion ends. -/
theorem C07_always_answers (m : Bytes) : isValid m = .ok true ∨ isValid m = .ok false := by
  have h : ∃ r, isValid m = .ok r := by
    rcases enough_root m .object with h | ⟨h, ht⟩
    · exact validBuffer_total m _ _ _ _ (by omega) h
    · exact ⟨_, validBuffer_short h ht⟩
  obtain ⟨r, hr⟩ := h
  cases r
  · exact Or.inr hr
  · exact Or.inl hr

/-- The same for any root type, and with an explicit bound on the recursion depth: a buffer of `n`
bytes needs at most `n / 8 + 2` nested calls, however its offsets are forged. -/
theorem C07_depth_bounded (m : Bytes) (t : RawType) (depth : Nat) (hd : m.length / 8 + 2 ≤ depth) :
    ∃ r : Bool, validBuffer m depth t 0 m.length = .ok r :=
  validBuffer_total m depth t 0 m.length (by omega) ⟨by omega, fun _ => ⟨Nat.dvd_zero 8, hd⟩⟩

/-- The same in the middle of a larger memory: the validator started on the `bytes` bytes at an
8-byte aligned position `p` returns a verdict, and the verdict is the one for memory that ends right
after these bytes. So it never looks at anything beyond them. -/
theorem C07_stays_within_claimed_bytes (m : Bytes) (t : RawType) (p bytes depth : Nat) (hp : 8 ∣ p)
    (hm : p + bytes ≤ m.length) (hd : bytes / 8 + 2 ≤ depth) :
    ∃ r : Bool, validBuffer (m.take (p + bytes)) depth t p bytes = .ok r ∧
      validBuffer m depth t p bytes = .ok r := by
  have hlen : p + bytes ≤ (m.take (p + bytes)).length := by rw [List.length_take]; omega
  obtain ⟨r, hr⟩ := validBuffer_total (m.take (p + bytes)) depth t p bytes hlen
    ⟨by omega, fun _ => ⟨hp, hd⟩⟩
  have h := validBuffer_append (m.take (p + bytes)) (m.drop (p + bytes)) depth 0 t p bytes r hr
  rw [List.take_append_drop] at h
  exact ⟨r, hr, h⟩

/-! Concrete cases: a hostile buffer whose only array element points back at itself, one whose table
claims four billion entries, and a good one. -/

/-- An object header claiming 24 bytes, one field of type object with offset 0. -/
example : isValid (leBytes 4 24 ++ leBytes 4 1 ++ zeros 16) = .ok false := by decide +kernel
example : isValid (leBytes 4 24 ++ leBytes 4 (2 ^ 32 - 1) ++ zeros 16) = .ok false := by decide +kernel
example : isValid [1, 2, 3] = .ok false := by decide +kernel
example : (match finalize sampleNoNull with | .ok m => some (isValid m) | _ => none) = some (.ok true) := by
  decide +kernel

end Dart.Props
