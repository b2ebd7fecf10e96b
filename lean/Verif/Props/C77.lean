import Verif.Lemmas.Depth
import Verif.Props.C09

/-
C77: how many nested calls it takes to check finalized bytes and to restore the value they hold. `isValidWithin stack m` is the
validator and `definalizeWithin stack m` the conversion to a dynamic value, on a stack that holds `stack` nested calls; `levels v` is how
deep a value is nested.
-/
namespace Dart.Props
open Spec

/-- A small stack changes nothing else: it overflows, or the verdict is the one the other properties are about. -/
theorem C77_overflow_or_verdict (stack : Nat) (m : Bytes) : isValidWithin stack m = .error .fuel ∨ isValidWithin stack m = isValid m := by
  rcases Nat.le_total stack (m.length + 1) with hle | hle
  · exact validBuffer_out m _ _ _ _ _ hle
  · rcases validBuffer_out m _ _ .object 0 m.length hle with h | h
    · obtain ⟨r, hr⟩ := isValid_total m
      cases hr.symm.trans h
    · exact .inr h.symm

/-- Whatever the bytes are, one nested call in sixteen bytes is enough to check them, and one more. -/
theorem C77_sixteen_bytes_a_call (stack : Nat) (m : Bytes) (h : m.length / 16 + 1 ≤ stack) :
    ∃ r : Bool, isValidWithin stack m = .ok r :=
  validBuffer_total' m stack .object 0 m.length (by omega) ⟨by omega, fun _ => ⟨Nat.dvd_zero 8, .inl h⟩⟩

/-- C77 (partial): the finalized form of a value is checked, whatever the verdict, and restored with as many nested calls as the value
is nested. Missing is a limit that does not depend on the bytes; there is none, see `C77_no_limit`. -/
theorem C77_levels_suffice_partial (v : Val) (m : Bytes) (hw : v.WF) (h : finalize v = .ok m) (stack : Nat) (hs : levels v ≤ stack) :
    (∃ r : Bool, isValidWithin stack m = .ok r) ∧ definalizeWithin stack m = some v := by
  have hat := At.root hw h
  have hsz := hat.size_le
  obtain ⟨fs, n, rfl, _⟩ := finalize_eq_ok hw h
  refine ⟨⟨_, At.valid_levels _ m 0 m.length stack hat (by omega) hs⟩, ?_⟩
  exact decode_levels _ stack m 0 hat.1 hat.2.2.1 hw hat.2.2.2.2 hs

/-- As many are needed, for accepted bytes of any origin: as many as what they show is nested. -/
theorem C77_levels_needed (m : Bytes) (v : Val) (hd : definalize m = some v) (stack : Nat) :
    (isValidWithin stack m = .ok true → levels v ≤ stack) ∧ (∀ w, definalizeWithin stack m = some w → levels w ≤ stack) :=
  ⟨fun h => valid_needs stack _ h hd, fun _ h => decode_needs stack h⟩

/-- C77, negation: for every number of calls there is a document, as far as the format goes, whose bytes (sixteen for each call and
sixteen more) are valid but run such a stack over, on checking and on restoring them. -/
theorem C77_no_limit (stack : Nat) (h : 31 * stack + 64 < 2 ^ 32) (h1 : 1 ≤ stack) :
    ∃ (v : Val) (m bytes : Bytes), v.WF ∧ finalize v = .ok m ∧ getBytes m = some bytes ∧ bytes.length = 16 * stack + 16 ∧
      accepts bytes ∧ isValidWithin stack bytes = .error .fuel ∧ definalize bytes = some v ∧ definalizeWithin stack bytes = none := by
  obtain ⟨n, rfl⟩ : ∃ n, stack = n + 1 := ⟨stack - 1, by omega⟩
  obtain ⟨m, hm, hg, hf⟩ := nested_finalize n (by omega)
  have hw := nested_wf n
  have hat : At true (enc (nested n)) 0 (nested n) :=
    At.of_bytes (hasBytes_iff.2 ⟨[], [], by simp, rfl⟩) (Nat.dvd_zero _) hw hf
  have hlen : (enc (nested n)).length = 16 * n + 32 := by rw [enc_length, nested_size]
  have hl := levels_nested n
  have hd : definalize (enc (nested n)) = some (nested n) :=
    decode_levels _ _ _ 0 hat.1 hat.2.2.1 hw hf (by omega)
  have hacc : accepts (enc (nested n)) :=
    C09_accepts_get_bytes_partial _ m _ hw (nested_harmless n) hm hg
  refine ⟨nested n, m, _, hw, hm, hg, by omega, hacc, ?_, hd, ?_⟩
  · rcases C77_overflow_or_verdict (n + 1) (enc (nested n)) with h2 | h2
    · exact h2
    · have := (C77_levels_needed _ _ hd (n + 1)).1 (h2.trans hacc)
      omega
  · cases h2 : definalizeWithin (n + 1) (enc (nested n)) with
    | none => rfl
    | some w =>
      have h3 := decode_needs _ h2
      have h4 := decode_out _ _ ((enc (nested n)).length + 1) _ _ _ (by omega) h2
      cases hd.symm.trans h4
      omega

/-! Concrete cases: `{"": [[]]}`, 48 bytes, takes three nested calls where the bound for any bytes is four; a bool in two objects
takes three calls, the string next to them none beyond the second. -/

/-- What checking and restoring do with 0, 1, 2, … nested calls. -/
def attempts (v : Val) (stacks : List Nat) : List (Verdict × Bool) :=
  match (finalize v).toOption.bind getBytes with
  | some g => stacks.map fun d => (isValidWithin d g, (definalizeWithin d g).isSome)
  | none => []

example : levels (nested 1) = 3 ∧ (enc (nested 1)).length = 48 ∧ attempts (nested 1) [0, 1, 2, 3, 4] =
    [(.error .fuel, false), (.error .fuel, false), (.error .fuel, false), (.ok true, true), (.ok true, true)] := by
  decide +kernel

example : levels (.obj [([97], .obj [([98], .bool true)]), ([99], .str [100])]) = 3 ∧
    attempts (.obj [([97], .obj [([98], .bool true)]), ([99], .str [100])]) [2, 3] = [(.error .fuel, false), (.ok true, true)] := by
  decide +kernel

end Dart.Props
