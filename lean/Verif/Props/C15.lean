import Verif.Lemmas.Heap
import Verif.Model.Sample

/-
C15: dynamic objects and arrays behave like a map and a sequence.
-/
namespace Dart.Props
open Spec

/-- C15: over any history of operations with any arguments, the dynamic value is at the end the map
or sequence the specification `Spec.step` describes, and exactly the specified exceptions were
thrown, call by call (none of the calls is undefined behaviour: each has an outcome). A call that
throws changes nothing (`Spec.history`). -/
theorem C15_histories (v : Val) (hv : Proper v) (ops : List HOp) :
    shape (runHistory v ops).1 = (history (shape v) ops).1 ∧
    (runHistory v ops).2 = (history (shape v) ops).2 :=
  ⟨(history_refines ops hv).1, (history_refines ops hv).2.1⟩

/-- C15: fields stay in key order without duplicates, keys stay at most 65535 bytes. -/
theorem C15_invariant (v : Val) (hv : Proper v) (ops : List HOp) : Proper (runHistory v ops).1 :=
  (history_refines ops hv).2.2

/-- C15: as long as the stored values are well formed, so is the result, at every depth. Hence the
theorems about finalizing apply to everything that can be built. -/
theorem C15_builds_well_formed_values (v : Val) (hv : v.WF) (ops : List HOp)
    (ha : ∀ op ∈ ops, argsWF op) : (runHistory v ops).1.WF := wf_history ops hv ha

/-- C15: an object is nothing but its map: two objects holding the same values under the same keys
are the same, whatever histories produced them. -/
theorem C15_object_determined_by_map (v w : Val) (hv : Proper v) (hw : Proper w)
    (h : shape v = shape w) : v = w := by
  cases v <;> cases w <;> simp only [shape, Shape.map.injEq, Shape.seq.injEq, Shape.scalar.injEq,
    reduceCtorEq] at h <;> try (first | rfl | exact h | exact congrArg _ h)
  rw [sorted_ext (proper_obj.1 hv).1 (proper_obj.1 hw).1 h]

/-- C15: inserting the same fields in any order gives the same object. -/
theorem C15_insertion_order_irrelevant (k₁ k₂ : Bytes) (x₁ x₂ : Val) (v : Val) (hv : Proper v)
    (hne : k₁ ≠ k₂) :
    (runHistory v [.insert (.str k₁) x₁, .insert (.str k₂) x₂]).1 =
    (runHistory v [.insert (.str k₂) x₂, .insert (.str k₁) x₁]).1 := by
  apply C15_object_determined_by_map _ _ (C15_invariant v hv _) (C15_invariant v hv _)
  rw [(C15_histories v hv _).1, (C15_histories v hv _).1]
  by_cases h1 : k₁.length ≤ 65535 <;> by_cases h2 : k₂.length ≤ 65535 <;> cases v <;>
    simp only [history, step, shape, h1, h2, if_true, if_false]
  congr 1
  funext x
  simp only [put]
  by_cases e1 : x = k₁ <;> by_cases e2 : x = k₂ <;> simp [e1, e2]
  · exact absurd (e1.symm.trans e2) hne
  · simp [hne]
  · simp [Ne.symm hne]

/-- C15, negation outside whole pairs: the span overloads of `inject` and `make_object` accept a list
with a key that has no value and then read past its end. -/
theorem C15_negation_odd_argument_list (fs : List (Bytes × Val)) (k : Val) :
    Val.inject (.obj fs) [k] = .ub ∧ Val.makeObject [k] = .ub := ⟨rfl, rfl⟩

/-- Non-vacuity: a history on an array and one on an object, with the outcomes of every call. -/
example : (runHistory (.arr []) [.pushBack (.int 1), .pushFront (.int 2), .insert (.int 5) .null,
      .insert (.int (-1)) .null, .set (.int 1) (.bool true), .popBack, .popBack, .popBack,
      .insert (.str []) .null]).2 =
    [none, none, some .outOfRange, some .outOfRange, none, none, none, none, some .typeError] := by
  decide +kernel
example : (match (runHistory sample [.insert (.str [98]) (.int 7), .set (.str [120]) .null,
      .eraseKey [97], .inject [(.str [120], .null), (.str [120], .bool true)]]) with
    | (.obj fs, es) => (fs.map (·.1), es)
    | _ => ([], [])) =
    ([[98], [120], [99, 99], [108, 111, 110, 103]], [none, some .outOfRange, none, none]) := by
  decide +kernel
example : Proper sample := ⟨by simpa only [sample, Val.WF] using sample_wf.1, by
  simp only [List.mem_cons, List.not_mem_nil, or_false]
  rintro f (rfl | rfl | rfl | rfl) <;> decide⟩

end Dart.Props
