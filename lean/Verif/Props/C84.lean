import Verif.Lemmas.JsonWhole
import Verif.Props.C19
import Verif.Props.C43

/-
C84: the text `to_json` gives. `heapToJson dbl nan v` is the text for the dynamic value `v`, with the flag `write_nan` if `nan`; `dbl`
is how RapidJSON prints finite doubles. `IsText x t j`: the text `t` is one of the document `j`.
-/
namespace Dart.Props
open Spec JOut

variable {dbl : BitVec 64 → Bytes} (hd : PrintsNumbers dbl)
include hd

/-- The text is JSON, for a document that stands for the value, if no number in it is NaN or infinite, or if `write_nan` is given (then it
is JSON but for the words for these). -/
theorem C84_text_partial {nan : Bool} {v : Val} (hw : v.WF) (ha : ArraysFit v) (hf : nan = true ∨ AllFinite v) :
    ∃ j, IsText (writes nan) (heapToJson dbl nan v) j ∧ Means j v := by
  refine ⟨asJson v, ?_, ?_⟩
  · rw [heapToJson_text hd]
    exact isText_of_value (textOf_is hd v hw hf)
  · have := means_toVal _ (asJson_within v hw ha)
    rwa [asJson_toVal v hw] at this

omit hd in
/-- A text is a text of one document only (without extensions): it says which members and elements there are, which strings, whole
numbers, truth values; what the numbers with fraction or exponent are is up to the reader. -/
theorem C84_one_document {t : Bytes} {j j' : Json} (h : IsText .default t j) (h' : IsText .default t j') : SameButDecimals j j' :=
  isText_unique h h'

/-- So that no reader can find anything else in the text of a value. -/
theorem C84_nothing_else {v : Val} (hw : v.WF) (ha : ArraysFit v) (hf : AllFinite v) {j : Json}
    (hj : IsText .default (heapToJson dbl false v) j) : ∃ j', Means j' v ∧ SameButDecimals j j' := by
  obtain ⟨j', h1, h2⟩ := C84_text_partial hd (nan := false) hw ha (.inr hf)
  exact ⟨j', h2, isText_unique hj h1⟩

/-- The text of an object (of less than 512 MiB), parsed into a buffer, gives the object back, if the decimals are read as they were
written. -/
theorem C84_round_trip {fs : List (Bytes × Val)} (hw : (Val.obj fs).WF) (ha : ArraysFit (.obj fs)) (hf : AllFinite (.obj fs))
    (hl : (heapToJson dbl false (.obj fs)).length < 2 ^ 29) {sort : List (Bytes × Json) → List (Bytes × Json)} (hs : Sorts sort)
    {fill : Nat → Bytes} (hfill : ∀ n, (fill n).length = n) : ∃ j b, IsText .default (heapToJson dbl false (.obj fs)) j ∧
      Means j (.obj fs) ∧ Buf.fromJson sort fill (heapToJson dbl false (.obj fs)).length j = .ok b ∧ b.value = some (.obj fs) := by
  have ht : IsText .default (heapToJson dbl false (.obj fs)) (asJson (.obj fs)) := by
    rw [heapToJson_text hd]
    exact isText_of_value (textOf_is hd _ hw (.inr hf))
  have hwi := asJson_within _ hw ha
  have hdi := asJson_distinct _ hw
  have hv := asJson_toVal _ hw
  have hm := means_toVal _ hwi
  rw [hv] at hm
  rw [asJson] at ht hwi hdi hm hv
  obtain ⟨b, v, h1, h2, h3, _, _⟩ := C43_parse hs hfill ht hl hwi hdi
  have : v = .obj fs := by
    rw [toHeap_obj (lim_of_moderate _ hwi)] at h2
    rw [Json.toVal] at hv
    rw [← hv]
    exact (Res.ok.inj h2).symm
  subst this
  exact ⟨_, b, ht, hm, h1, h3⟩

omit hd in
/-- A finalized value has the same text as the dynamic value it holds, with the same flags. -/
theorem C84_finalized {signed exact nan : Bool} {b : Buf} (hb : Obtained signed exact b) {v : Val} (hv : b.value = some v) :
    bufToJson dbl nan b = .ok (heapToJson dbl nan v) := by
  unfold bufToJson
  rw [C19_finalized hb hv]
  rfl

/-- The text has no NUL in it, whatever the strings in the value contain: that the result is made of a C string cuts nothing
off what the writer wrote. -/
theorem C84_whole (nan : Bool) (v : Val) : heapToJson dbl nan v = (Writer.start.run dbl nan v.serialize).out ∧
    0 ∉ heapToJson dbl nan v := by
  refine ⟨?_, by rw [heapToJson_text hd]; exact textOf_noNul hd v⟩
  rw [heapToJson_text hd, written]

/-- In C, the memory handed out holds the text and one NUL, so that `strlen` and what is stored in `*len` are the length of the
text. -/
theorem C84_c {v : Val} {memory : Nat → Bool} (hm : memory ((heapToJson dbl false v).length + 1) = true) (lenGiven : Bool) :
    toJsonC (.ok (heapToJson dbl false v)) lenGiven memory = .ok ⟨some (heapToJson dbl false v ++ [0]),
      if lenGiven then some ((heapToJson dbl false v ++ [0]).findIdx (· == 0)) else none⟩ := by
  unfold toJsonC
  simp only [hm, if_true]
  have h0 := (C84_whole hd false v).2
  rw [List.findIdx_append, List.findIdx_eq_length_of_false (fun x hx => by simpa using fun e : x = 0 => h0 (e ▸ hx))]
  simp

omit hd in
/-- If `to_json` throws, the C call gives the null pointer and leaves `*len` as it was. -/
theorem C84_c_throws (e : Exc) (lenGiven : Bool) (memory : Nat → Bool) : toJsonC (.throw e) lenGiven memory = .ok ⟨none, none⟩ := rfl

omit hd in
/-- The C call does not look at what `malloc` gave: when there is no memory it copies to the null pointer. -/
theorem C84_c_no_memory (t : Bytes) (lenGiven : Bool) : toJsonC (.ok t) lenGiven (fun _ => false) = .ub := rfl

/-- A typed wrapper (`dart::object` and so on) gives the text the value in it gives with the same flags, if all numbers are finite. -/
theorem C84_wrappers_partial {v : Val} (hf : AllFinite v) (nan : Bool) : wrapToJson dbl nan (.heap v) = pktToJson dbl nan (.heap v) := by
  cases nan
  · rfl
  · show Res.ok _ = Res.ok _
    rw [heapToJson_text hd, heapToJson_text hd, finite_flag v hf]

omit hd in
/-- NaN. -/
def nanBits : BitVec 64 := 0x7ff8000000000000

omit hd in
theorem nan_text : doubleText dbl false nanBits = [] := by
  unfold doubleText
  rw [show doubleVal nanBits.toNat = .nan from rfl]
  rfl

/-- It need not: a wrapper drops the flags. `write_nan` is asked for and nothing is written for a NaN. -/
theorem C84_wrappers_drop_flags : wrapToJson dbl true (.heap (.arr [.dec nanBits])) = .ok [0x5b, 0x5d] ∧
    pktToJson dbl true (.heap (.arr [.dec nanBits])) = .ok [0x5b, 0x4e, 0x61, 0x4e, 0x5d] := by
  refine ⟨?_, ?_⟩
  · show Res.ok _ = _
    rw [heapToJson_text hd]
    simp [textOf, elemsFrom, nan_text]
  · show Res.ok _ = _
    rw [heapToJson_text hd]
    simp only [textOf, elemsFrom, doubleText, show doubleVal nanBits.toNat = .nan from rfl]
    rfl

/-- Without the flag, the text of an object in which NaN is the value of the last field is no JSON at all, whatever its name. -/
theorem C84_nan_breaks_object (k : Bytes) (j : Json) : ¬ IsText .default (heapToJson dbl false (.obj [(k, .dec nanBits)])) j := by
  rw [heapToJson_text hd]
  simp only [textOf, fieldsFrom, nan_text]
  have := broken_object (quote_is (cut32 k)) j
  simpa using this

/-- And the text of an array with NaN in it can be that of another array: `[NaN]` is written `[]`. -/
theorem C84_nan_vanishes {j : Json} (hj : IsText .default (heapToJson dbl false (.arr [.dec nanBits])) j) : j = .arr [] := by
  rw [heapToJson_text hd] at hj
  simp only [textOf, elemsFrom, nan_text] at hj
  have : IsText .default ([0x5b, 0x5d] : Bytes) (.arr []) := isText_of_value (.arr0 (w := []) .nil)
  have := isText_unique this (by simpa using hj)
  cases this with
  | @arr _ gs hl _ =>
    cases gs with
    | nil => rfl
    | cons => simp at hl

omit hd in
/-- A way to print numbers, if not a good one. -/
def printsOne (_ : BitVec 64) : Bytes := [0x31, 0x2e, 0x35]

omit hd in
theorem printsOne_ok : PrintsNumbers printsOne := fun _ _ =>
  ⟨[0x31], [0x2e, 0x35], [], 1, ⟨[0x31], ⟨by simp, fun c hc => by rw [List.mem_singleton.1 hc]; decide⟩, by simp, .inl ⟨rfl, by decide⟩⟩,
    .inr ⟨[0x35], ⟨by simp, fun c hc => by rw [List.mem_singleton.1 hc]; decide⟩, rfl⟩, .inl rfl, by simp, rfl⟩

omit hd in
/-- `{"a\n":[-12,1.5,"\u0000"],"bc":{}}` -/
def written84 : Val := .obj [([0x61, 0x0a], .arr [.int (-12), .dec 0x3ff8000000000000, .str [0]]), ([0x62, 0x63], .obj [])]

example : heapToJson printsOne false written84 = "{\"a\\n\":[-12,1.5,\"\\u0000\"],\"bc\":{}}".toUTF8.toList := by decide +kernel
example : AllFinite written84 := by
  refine .obj (by simp) fun f hf => ?_
  rcases List.mem_cons.1 hf with rfl | hf
  · refine .arr fun e he => ?_
    simp only [List.mem_cons, List.not_mem_nil, or_false] at he
    rcases he with rfl | rfl | rfl
    · exact .int _
    · exact .dec ⟨_, rfl⟩
    · exact .str trivial
  · rw [List.mem_singleton.1 hf]
    exact .obj (by simp) (by simp)
example : written84.WF := by
  simp only [written84, Val.WF, WFFields, WFElems, KeyBefore]
  refine ⟨?_, by decide⟩
  simp only [List.pairwise_cons, List.mem_cons, List.not_mem_nil, or_false, forall_eq]
  exact ⟨.inr ⟨rfl, 0, by decide, by decide, by decide, by omega⟩, by simp, by simp⟩
example : ArraysFit written84 := by simp [written84, ArraysFit, ArraysFitElems, ArraysFitFields]
example : toJsonC (.ok (heapToJson printsOne false written84)) true (fun n => n < 100) =
    .ok ⟨some ("{\"a\\n\":[-12,1.5,\"\\u0000\"],\"bc\":{}}".toUTF8.toList ++ [0]), some 34⟩ := by decide +kernel

end Dart.Props
