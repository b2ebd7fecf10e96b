import Verif.Lemmas.Place
import Verif.Lemmas.HostileCopy
import Verif.Model.Sample

/-
C81: the verdict on untrusted bytes does not depend on where in memory they lie when they are checked; what is accepted there can be
made a buffer. `isValidIn before m after` is `is_valid` on the bytes `m` of a memory that has `before` in front of them, so that they
begin at the address `before.length`, and `after` behind them. `accepts m` is the verdict true at an address that is a multiple of eight,
as all addresses are at which the library puts bytes and at which its constructors take them over (`Buf.ofBytes m` is a buffer over `m` at
such an address).
-/
namespace Dart.Props

/-- At any address `is_valid` answers, without reading outside of the bytes (`C81_surroundings`). -/
theorem C81_answers (before m after : Bytes) : ∃ r : Bool, isValidIn before m after = .ok r := by
  rw [isValidIn_eq (before.take (before.length % 8)) before m after (by rw [List.length_take]; omega)
    (by rw [List.length_take]; omega)]
  exact validIn_total _ m

/-- The answer depends on nothing but the bytes and the last three bits of their address. -/
theorem C81_surroundings (before before' m after after' : Bytes) (h : before.length % 8 = before'.length % 8) :
    isValidIn before m after = isValidIn before' m after' := by
  rw [isValidIn_eq (before.take (before.length % 8)) before m after (by rw [List.length_take]; omega)
      (by rw [List.length_take]; omega),
    isValidIn_eq (before.take (before.length % 8)) before' m after' (by rw [List.length_take]; omega)
      (by rw [List.length_take]; omega)]

/-- C81, for bytes that lie at a multiple of eight: the answer is the one for any other multiple of eight, so that everything shown
for accepted bytes (C08, C80) is true of a buffer over them.

Missing for the full property: other addresses, for which it is false (see below). -/
theorem C81_aligned_partial (before m after : Bytes) (h : 8 ∣ before.length) :
    isValidIn before m after = isValid m ∧ (isValidIn before m after = .ok true → accepts m) := by
  have e : isValidIn before m after = isValid m := isValidIn_eq [] before m after (Nat.zero_le _) h
  exact ⟨e, fun ht => e.symm.trans ht⟩

/-! ### Where it is false -/

/-- `40 - r` bytes: an object of one field "a" of type 64-bit integer, the key at offset `28 - r`. -/
def shifted (r : Nat) : Bytes :=
  leBytes 4 (40 - r) ++ leBytes 4 1 ++ (leBytes 4 (28 - r) ++ [7, 1, 97, 0]) ++ zeros (12 - r) ++ [1, 0, 97, 0] ++ zeros 8

theorem shifted_facts : ∀ r : Fin 8, r ≠ 0 →
    validBuffer (zeros r ++ shifted r) ((shifted r).length + 1) .object (zeros r).length (shifted r).length = .ok true ∧
    isValid (shifted r) = .ok false ∧ definalize (shifted r) = none ∧
    (∀ s, ((Buf.ofBytes (shifted r)).get s [97]).bind Buf.integer = .ub) := by decide +kernel

/-- C81 is false at every other address: there are bytes `is_valid` accepts there, "safely traversable" according to its documentation,
which are read beyond their end once they were brought to a multiple of eight, as all constructors but the one from a span demand
(`validate_pointer`, include/dart/buffer/detail.tcc 33-41): by getting the value of their field as by converting them. -/
theorem C81_negation_accepted (before after : Bytes) (h : ¬ 8 ∣ before.length) :
    ∃ m : Bytes, isValidIn before m after = .ok true ∧ isValid m = .ok false ∧
      (∀ signed, ((Buf.ofBytes m).get signed [97]).bind Buf.integer = .ub) ∧ definalize m = none := by
  have hr : before.length % 8 < 8 := Nat.mod_lt _ (by decide)
  obtain ⟨h1, h2, h3, h4⟩ := shifted_facts ⟨before.length % 8, hr⟩ (fun e => h (Nat.dvd_of_mod_eq_zero (Fin.val_eq_of_eq e)))
  refine ⟨shifted (before.length % 8), ?_, h2, h4, h3⟩
  rw [← h1]
  refine isValidIn_eq (zeros (before.length % 8)) before _ after ?_ ?_ <;> simp only [zeros, List.length_replicate] <;> omega

/-- An object in an object: {"a": {"b": true}}. -/
def inner : Val := .obj [([97], .obj [([98], .bool true)])]

theorem inner_facts : ∀ r : Fin 8, r ≠ 0 → ∀ m, finalize inner = .ok m → accepts m ∧
    validBuffer (zeros r ++ m) (m.length + 1) .object (zeros r).length m.length = .ok false := by
  have : (match finalize inner with
    | .ok m => decide (accepts m ∧ ∀ r : Fin 8, r ≠ 0 → validBuffer (zeros r ++ m) (m.length + 1) .object (zeros r).length m.length = .ok false)
    | _ => true) = true := by decide +kernel
  intro r hr m hm
  rw [hm] at this
  have := of_decide_eq_true this
  exact ⟨this.1, this.2 r hr⟩

/-- C81 is false at every other address in the other direction as well: there are bytes made by the library, accepted where it made them,
that are refused there. -/
theorem C81_negation_refused (before after : Bytes) (h : ¬ 8 ∣ before.length) :
    ∃ (v : Val) (m : Bytes), v.WF ∧ finalize v = .ok m ∧ isValid m = .ok true ∧ isValidIn before m after = .ok false := by
  have hr : before.length % 8 < 8 := Nat.mod_lt _ (by decide)
  obtain ⟨m, hm⟩ : ∃ m, finalize inner = .ok m := ⟨_, rfl⟩
  obtain ⟨h1, h2⟩ := inner_facts ⟨before.length % 8, hr⟩ (fun e => h (Nat.dvd_of_mod_eq_zero (Fin.val_eq_of_eq e))) m hm
  refine ⟨inner, m, by simp [inner, Val.WF, WFFields], hm, h1, ?_⟩
  rw [← h2]
  refine isValidIn_eq (zeros (before.length % 8)) before _ after ?_ ?_ <;> simp only [zeros, List.length_replicate] <;> omega

/-- {"a": 81985529216486895}, a number with eight different bytes. -/
def bigNumber : Val := .obj [([97], .int 81985529216486895)]

/-- The constructor from a span "need not" be given an aligned pointer, but goes on reading there, and finds values by aligning the address
behind the key: at every address that is no multiple of eight, the field of an object the library made has another value. -/
theorem C81_negation_span : ∀ r : Fin 8, r ≠ 0 → ∃ m wrong, finalize bigNumber = .ok m ∧
    ((spanBuffer (zeros r) m []).get true [97]).bind Buf.integer = .ok wrong ∧ wrong ≠ 81985529216486895#64 ∧
    ((Buf.ofBytes m).get true [97]).bind Buf.integer = .ok 81985529216486895#64 := by
  have key : ∀ r : Fin 8, r ≠ 0 → (match finalize bigNumber with
      | .ok m => (match ((spanBuffer (zeros r) m []).get true [97]).bind Buf.integer with
        | .ok wrong => decide (wrong ≠ 81985529216486895#64 ∧ ((Buf.ofBytes m).get true [97]).bind Buf.integer = .ok 81985529216486895#64)
        | _ => false)
      | _ => false) = true := by decide +kernel
  intro r hr
  have := key r hr
  split at this
  · next m hm =>
    split at this
    · next wrong hw => exact ⟨m, wrong, hm, hw, of_decide_eq_true this⟩
    · cases this
  · cases this

/-- No bytes that show an object with a field are accepted both at an even and at an odd address: everything that is usable where the
library puts it is refused at odd addresses. -/
theorem C81_odd_addresses (before before' m after after' : Bytes) (he : before.length % 2 = 0) (ho : before'.length % 2 = 1) (n : Nat)
    (hn : (Buf.ofBytes m).size = .ok (n + 1)) :
    ¬ (isValidIn before m after = .ok true ∧ isValidIn before' m after' = .ok true) := by
  rintro ⟨h1, h2⟩
  have hn' : numElems m 0 = some (n + 1) := by
    cases e : numElems m 0 with
    | none => simp [Buf.size, Buf.ofBytes, Res.ofRead, Res.bind, e] at hn
    | some k => simp [Buf.size, Buf.ofBytes, Res.ofRead, Res.bind, e] at hn; rw [hn]
  obtain ⟨o, ho, hd⟩ := isValidIn_first_key h1 hn'
  obtain ⟨o', ho', hd'⟩ := isValidIn_first_key h2 hn'
  rw [ho] at ho'
  cases ho'
  omega

/-! Concrete cases. -/

example : isValidIn [0, 0, 0] (shifted 3) [] = .ok true ∧ isValidIn (zeros 8) (shifted 3) [1, 2] = .ok false := by decide +kernel
example : (match finalize sampleNoNull with
    | .ok m => some (isValidIn (zeros 16) m [7], isValidIn (zeros 17) m [7], isValidIn (zeros 20) m [])
    | _ => none) = some (.ok true, .ok false, .ok false) := by decide +kernel

end Dart.Props
