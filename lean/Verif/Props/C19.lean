import Verif.Lemmas.JsonBuf
import Verif.Model.Sample

/-
C19: writing JSON and parsing it again, at the level of events. `v.serialize` are the calls made to the
writer, `reread` feeds them back to the parser.
-/
namespace Dart.Props
open Spec

/-- Serializing an object or array and parsing the result gives back the same value. -/
theorem C19_round_trip {v : Val} (hw : v.WF) (ha : ArraysFit v) (hr : (∃ fs, v = .obj fs) ∨ ∃ es, v = .arr es) :
    reread v.serialize = .ok v := by
  have hl := asJson_lim v hw ha
  have ht := asJson_toVal v hw
  unfold reread
  rw [asJson_events v hw]
  rcases hr with ⟨fs, rfl⟩ | ⟨es, rfl⟩
  · rw [asJson] at hl ht ⊢
    have := toHeap_obj hl
    unfold Json.toHeap at this
    rw [this, ← ht, Json.toVal]
  · rw [asJson] at hl ht ⊢
    have := toHeap_arr hl
    unfold Json.toHeap at this
    rw [this, ← ht, Json.toVal]

/-- A finalized value is serialized to the same events as the dynamic value it holds; no read is out of bounds. -/
theorem C19_finalized {signed exact : Bool} {b : Buf} (hb : Obtained signed exact b) {v : Val} (hv : b.value = some v) :
    b.serialize (b.mem.length + 1) = .ok v.serialize :=
  have hs := hb.shows_value hv
  Shows.serialize v _ b hs (by have := hs.sizeVal_le; omega)

/-- Other values can be written but not parsed: the parser throws for a document that is not an object or array. -/
theorem C19_scalar_root {v : Val} (hw : v.WF) (hr : (∀ fs, v ≠ .obj fs) ∧ ∀ es, v ≠ .arr es) :
    reread v.serialize = .throw .typeError := by
  cases v with
  | obj fs => exact absurd rfl (hr.1 fs)
  | arr es => exact absurd rfl (hr.2 es)
  | int i =>
    unfold reread
    simp only [Val.serialize, List.map_cons, List.map_nil, deliver]
    have h := BitVec.le_toInt i
    have h' := BitVec.toInt_lt (x := i)
    rw [run_single, intEvent_step _ (by omega) (by omega)]
    rfl
  | _ => rfl

example : ArraysFit sample := by simp [sample, ArraysFit, ArraysFitElems, ArraysFitFields]
example : sample.WF := sample_wf
example : (Val.obj [([97], .int (-1)), ([98], .arr [.null])]).serialize.map deliver =
    [.startObject, .key [97], .int (-1), .key [98], .startArray, .null, .endArray, .endObject] := by decide +kernel

end Dart.Props
