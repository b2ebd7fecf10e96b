import Verif.Lemmas.NullsApart
import Verif.Props.C10

/-
C09: the validator accepts what the library itself produces, except for some values with nulls.
-/
namespace Dart.Props

/-- C09 (partial): the validator accepts the finalized form of every value whose nulls are harmless:
at every depth an array has a null at most in last place, an object at most under its last key or
under keys of even length. Missing from the full statement are exactly values with other nulls, some
of which the code really rejects, see the negations below. -/
theorem C09_accepts_finalized_partial (v : Val) (m : Bytes) (hw : v.WF) (hn : v.NullsHarmless)
    (h : finalize v = .ok m) : accepts m := by
  unfold accepts
  rw [isValid_finalized hw h, okVal_harmless v hw hn]

/-- Exactly which values are accepted: those where no null lies at the same place as the key or element that follows it. -/
theorem C09_accepts_iff (v : Val) (m : Bytes) (hw : v.WF) (h : finalize v = .ok m) :
    (accepts m ↔ v.NullsApart) ∧ (¬ v.NullsApart → isValid m = .ok false) := by
  have h1 := okVal_iff v hw
  unfold accepts
  rw [isValid_finalized hw h]
  cases h2 : okVal v
  · simp [h2] at h1 ⊢; exact h1
  · simp [h2] at h1 ⊢; exact h1

/-- `{"a": [true, null, 1, null]}` is accepted since the null lies at an odd place, `{"a": [true, null, false]}` is not. -/
example : (Val.obj [([97], .arr [.bool true, .null, .int 1, .null])]).NullsApart ∧
    ¬ (Val.obj [([97], .arr [.bool true, .null, .bool false])]).NullsApart := by
  simp [Val.NullsApart, NullsApartFields, NullsApartElems, Val.unit, upTo, Val.room]

/-- The same for the exact bytes handed out by `get_bytes` / `dup_bytes`. -/
theorem C09_accepts_get_bytes_partial (v : Val) (m bs : Bytes) (hw : v.WF) (hn : v.NullsHarmless)
    (h : finalize v = .ok m) (hb : getBytes m = some bs) : accepts bs := by
  have h1 := C09_accepts_finalized_partial v m hw hn h
  unfold getBytes at hb
  simp only [Option.bind_eq_bind, Option.bind_eq_some_iff] at hb
  obtain ⟨sz, hsz, hb⟩ := hb
  have h2 := ((C10_recorded_size_decides m sz hsz).1 h1).2
  unfold readBytes at hb
  split at hb
  · cases hb; exact h2
  · cases hb

/-- C09, negation: a null under a key of odd length that is not the last key makes the validator
reject the library's own output, for every such object. -/
theorem C09_negation_null_field (before after : List (Bytes × Val)) (k : Bytes) (next : Bytes × Val)
    (m : Bytes) (hw : (Val.obj (before ++ (k, .null) :: next :: after)).WF) (ho : k.length % 2 = 1)
    (h : finalize (.obj (before ++ (k, .null) :: next :: after)) = .ok m) :
    isValid m = .ok false := by
  have hk : k.length ≤ 65535 := by
    simp only [Val.WF, wfFields_iff] at hw
    exact (hw.2 (k, .null) (by simp)).1
  rw [isValid_finalized hw h]
  simp only [okVal, okFields_null_before before k next after hk ho]

/-- C09, negation: an array that starts with a null and has a further element, stored under any key,
makes the validator reject the library's own output. -/
theorem C09_negation_null_element (fs : List (Bytes × Val)) (k : Bytes) (w : Val) (es : List Val)
    (m : Bytes) (hm : (k, .arr (.null :: w :: es)) ∈ fs) (hw : (Val.obj fs).WF)
    (h : finalize (.obj fs) = .ok m) : isValid m = .ok false := by
  rw [isValid_finalized hw h]
  simp only [okVal]
  rw [okVal_mem_false_obj hm]
  simp only [okVal]
  exact okElems_null_first _ w es

/-! Concrete cases: a value meeting the hypotheses of the first theorem (with a harmless null), and
`{"a": null, "b": 1}`, rejected. -/

/-- `{"": null, "a": [1, null], "bb": null, "c": …}` with keys in order. -/
def sampleHarmless : Val := .obj [([], .null), ([97], .arr [.int 1, .null]), ([98, 98], .null), ([99, 99], .int 5)]

theorem sampleHarmless_wf : sampleHarmless.WF ∧ sampleHarmless.NullsHarmless := by
  refine ⟨?_, by simp [sampleHarmless, Val.NullsHarmless, NullsHarmlessFields, NullsHarmlessElems]⟩
  simp only [sampleHarmless, Val.WF, WFFields, WFElems, Spec.KeyBefore]
  refine ⟨?_, by decide⟩
  simp only [List.pairwise_cons, List.mem_cons, List.not_mem_nil, or_false, forall_eq_or_imp, forall_eq]
  refine ⟨⟨by decide, by decide, by decide⟩, ⟨by decide, by decide⟩,
    Or.inr ⟨rfl, 0, by decide, by decide, by decide, by omega⟩, by simp⟩

example : (match finalize sampleHarmless with | .ok m => isValid m | _ => .ok false) = .ok true := by
  decide +kernel
example : (match finalize (.obj [([97], .null), ([98], .int 1)]) with | .ok m => isValid m | _ => .ok true)
    = .ok false := by decide +kernel
example : (match finalize sample with | .ok m => isValid m | _ => .ok true) = .ok false := by
  decide +kernel

end Dart.Props
