import Verif.Spec.Value

/-
A sample value used by the non-vacuity examples next to the theorems.
-/
namespace Dart

/-- `{"a": 1, "b": [null, true, "xy", 70000], "cc": {"k": 0.5}, "long": "..."}` -/
def sample : Val := .obj [
  ([97], .int 1),
  ([98], .arr [.null, .bool true, .str [120, 121], .int 70000]),
  ([99, 99], .obj [([107], .dec 0x3fe0000000000000)]),
  ([108, 111, 110, 103], .str (List.replicate 30 97))]

theorem sample_wf : sample.WF := by
  simp only [sample, Val.WF, WFFields, WFElems, Spec.KeyBefore]
  refine ⟨?_, by decide⟩
  simp only [List.pairwise_cons, List.mem_cons, List.not_mem_nil, or_false, forall_eq_or_imp, forall_eq]
  refine ⟨⟨Or.inr ⟨rfl, 0, by decide, by decide, by decide, by omega⟩, by decide, by decide⟩,
    ⟨by decide, by decide⟩, by decide, by simp⟩

/-- `sample` without the null, and with empty aggregates. -/
def sampleNoNull : Val := .obj [
  ([97], .int 1),
  ([98], .arr [.bool true, .str [120, 121], .int 70000, .arr [], .obj []]),
  ([99, 99], .obj [([107], .dec 0x3fe0000000000000)]),
  ([108, 111, 110, 103], .str (List.replicate 30 97))]

theorem sampleNoNull_wf : sampleNoNull.WF := by
  simp only [sampleNoNull, Val.WF, WFFields, WFElems, Spec.KeyBefore]
  refine ⟨?_, by decide⟩
  simp only [List.pairwise_cons, List.mem_cons, List.not_mem_nil, or_false, forall_eq_or_imp, forall_eq]
  refine ⟨⟨Or.inr ⟨rfl, 0, by decide, by decide, by decide, by omega⟩, by decide, by decide⟩,
    ⟨by decide, by decide⟩, by decide, by simp⟩

end Dart
