import Verif.Lemmas.EqualBuf

/-
C23: comparing a finalized with a dynamic value. `b.eqVal signed w` is `b == w` and `w == b`: the code
puts the finalized side first in either case.
-/
namespace Dart.Props
open Spec

/-- The comparison always has a result, for everything a client can come by: it reads within the buffer
and throws nothing (an exception would end the program, as the function is `noexcept`). -/
theorem C23_always_answers {signed exact : Bool} {b : Buf} (hb : Obtained signed exact b) (w : Val) :
    ∃ r, b.eqVal signed w = .ok r := by
  obtain ⟨v, hv⟩ := hb.shows
  obtain ⟨r, h, _⟩ := eqVal_ok (signed := signed) w b v hv
  exact ⟨r, h⟩

/-- If the keys of the finalized value are plain (see C02), no field of the dynamic value is null, and
neither has NaN or the negative zero: they compare equal exactly if they hold the same value.
Missing for the full property: the cases excluded, in which it is wrong (see below). -/
theorem C23_equal_iff_same_value_partial {signed exact : Bool} {b : Buf} (hb : Obtained signed exact b) {v w : Val}
    (hv : b.value = some v) (hw : w.WF) (hk : v.PlainKeys signed) (hn : NoNullField w) (dv : PlainNums v)
    (dw : PlainNums w) : b.eqVal signed w = .ok true ↔ v = w := by
  have hs := hb.shows_value hv
  obtain ⟨r, h1, h2, h3⟩ := eqVal_ok (signed := signed) w b v hs
  rw [h1]
  constructor
  · intro h
    injection h with h
    exact eq_of_alikeEq (alike_of_alikeOrNull (h2 h) hs.wf hw hn) dv dw
  · rintro rfl
    rw [h3 hk (alikeOrNull_of_alike (alikeEq_refl dv) hw)]

/-- The same in terms of finalizing the dynamic value: under the conditions, and if no JSON was parsed into the buffer, the finalized value equals
the dynamic one exactly if it equals the buffer made from it. -/
theorem C23_agrees_with_finalizing_partial {signed : Bool} {b : Buf} (hb : Obtained signed true b) {v w : Val} {m : Bytes}
    (hv : b.value = some v) (hw : w.WF) (hm : finalize w = .ok m) (hk : v.PlainKeys signed) (hn : NoNullField w)
    (dv : PlainNums v) (dw : PlainNums w) :
    b.eqVal signed w = .ok true ↔ b.eq false false (Buf.ofBytes m) = .ok true := by
  rw [C23_equal_iff_same_value_partial hb hv hw hk hn dv dw]
  obtain ⟨r, h1, h2⟩ := Buf.eq_ok (hb.shows_value hv) (shows_root hw hm) (sameObj := false) (samePtr := false)
    (by simp) (by simp)
  rw [h1, ← h2]
  exact ⟨fun h => by rw [h], fun h => by injection h⟩

/-- Without the conditions on keys and numbers: if they compare equal, and no field of the dynamic
value is null, they are the same but for the two zeros. -/
theorem C23_equal_implies_alike {signed exact : Bool} {b : Buf} (hb : Obtained signed exact b) {v w : Val}
    (hv : b.value = some v) (hw : w.WF) (hn : NoNullField w) (h : b.eqVal signed w = .ok true) : Alike Eq v w := by
  have hs := hb.shows_value hv
  obtain ⟨r, h1, h2, _⟩ := eqVal_ok (signed := signed) w b v hs
  rw [h1] at h
  injection h with h
  exact alike_of_alikeOrNull (h2 h) hs.wf hw hn

/-- With plain keys, but with nulls and all numbers: if they are the same, and there is no NaN, they
compare equal. -/
theorem C23_alike_implies_equal {signed exact : Bool} {b : Buf} (hb : Obtained signed exact b) {v w : Val}
    (hv : b.value = some v) (hk : v.PlainKeys signed) (h : Alike Eq v w) : b.eqVal signed w = .ok true := by
  have hs := hb.shows_value hv
  obtain ⟨r, h1, _, h3⟩ := eqVal_ok (signed := signed) w b v hs
  rw [h1, h3 hk (alikeOrNull_of_alike h hs.wf)]

/-- With plain keys, what the comparison means for all values: the same number of fields, and for each
key of the dynamic side something alike on the finalized side, or nothing if it is null. -/
theorem C23_equal_iff_alike_or_null {signed exact : Bool} {b : Buf} (hb : Obtained signed exact b) {v : Val} (w : Val)
    (hv : b.value = some v) (hk : v.PlainKeys signed) :
    b.eqVal signed w = .ok true ↔ AlikeOrNull Faithful v w := by
  have hs := hb.shows_value hv
  obtain ⟨r, h1, h2, h3⟩ := eqVal_ok (signed := signed) w b v hs
  rw [h1]
  exact ⟨fun h => by injection h with h; exact alikeOrNull_found (h2 h) hk, fun h => by rw [h3 hk h]⟩

/-! What goes wrong in the excluded cases. -/

/-- `v` finalized compared with `w`, and compared with `w` finalized. -/
def eqBoth (v w : Val) : Option (Res Bool × Res Bool) := do
  let m ← (finalize v).toOption
  let n ← (finalize w).toOption
  some ((Buf.ofBytes m).eqVal true w, (Buf.ofBytes m).eq false false (Buf.ofBytes n))

/-- `{"b": 1}` finalized equals `{"a": null}`. -/
theorem C23_missing_key_counts_as_null :
    eqBoth (.obj [([98], .int 1)]) (.obj [([97], .null)]) = some (.ok true, .ok false) := by decide +kernel

/-- `{"zz": 2, "é": 1}` finalized does not equal itself. -/
theorem C23_plain_keys_needed :
    eqBoth (.obj [([122, 122], .int 2), ([0xc3, 0xa9], .int 1)]) (.obj [([122, 122], .int 2), ([0xc3, 0xa9], .int 1)]) =
      some (.ok false, .ok true) := by decide +kernel

/-- The two zeros are equal to the dynamic, not to the finalized value; with NaN it is the other way
round. -/
theorem C23_numbers_disagree :
    eqBoth (.obj [([97], .dec 0#64)]) (.obj [([97], .dec 0x8000000000000000#64)]) = some (.ok true, .ok false) ∧
    eqBoth (.obj [([97], .dec 0x7ff8000000000000#64)]) (.obj [([97], .dec 0x7ff8000000000000#64)]) =
      some (.ok false, .ok true) := by decide +kernel

/-- Equality is not transitive across representations: `{"a": null}` dynamic equals both `{"b": 1}` and
`{"c": 2}` finalized, which are not equal. -/
theorem C23_not_transitive :
    (do
      let m ← (finalize (.obj [([98], .int 1)])).toOption
      let n ← (finalize (.obj [([99], .int 2)])).toOption
      some ((Buf.ofBytes m).eqVal true (.obj [([97], .null)]), (Buf.ofBytes n).eqVal true (.obj [([97], .null)]),
        (Buf.ofBytes m).eq false false (Buf.ofBytes n))) = some (.ok true, .ok true, .ok false) := by decide +kernel

/-! Concrete cases meeting the conditions. -/

/-- `{"a": [null, "x"], "b": n}`. -/
def eqGenSample (n : Nat) : Val := .obj [([97], .arr [.null, .str [120]]), ([98], .int (BitVec.ofNat 64 n))]

example : (eqGenSample 1).PlainKeys true := by
  simp [eqGenSample, Val.PlainKeys, PlainFields, PlainElems, PlainKey]
example : NoNullField (eqGenSample 1) := by
  refine .obj (by simp) ?_
  intro f hf
  simp only [List.mem_cons, List.not_mem_nil, or_false] at hf
  rcases hf with rfl | rfl
  · refine .arr ?_
    intro e he
    simp only [List.mem_cons, List.not_mem_nil, or_false] at he
    rcases he with rfl | rfl <;> exact .scalar (by simp) (by simp)
  · exact .scalar (by simp) (by simp)
example : eqBoth (eqGenSample 1) (eqGenSample 1) = some (.ok true, .ok true) ∧
    eqBoth (eqGenSample 1) (eqGenSample 2) = some (.ok false, .ok false) := by decide +kernel

end Dart.Props
