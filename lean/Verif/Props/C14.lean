import Verif.Lemmas.Laws
import Verif.Lemmas.Room
import Verif.Model.Sample

/-
C14: projecting a finalized object never writes outside the allocation.
-/
namespace Dart.Props

/-- C14, negation: the claim is false. With more requested keys than fields the code leaves room for
the longer table and writes outside the allocation: `{"a":1}` with four keys, the same key four
times, and the empty object with one key. -/
theorem C14_negation_overflow :
    (match finalize (.obj [([97], .int 1)]) with
      | .ok m => match (Buf.ofBytes m).project [[97], [98], [99], [100]], (Buf.ofBytes m).project [[97], [97], [97], [97]] with
        | .ub, .ub => true
        | _, _ => false
      | _ => false) = true ∧
    (match finalize (.obj []) with
      | .ok m => match (Buf.ofBytes m).project [[97]] with
        | .ub => true
        | _ => false
      | _ => false) = true := by constructor <;> decide +kernel

/-- C14: exactly when nothing is written outside the allocation: if the requested fields, stored behind a table with room
for as many entries as keys were requested, fit into the size of the object. -/
theorem C14_safe_iff (signed exact : Bool) (b : Buf) (fs : List (Bytes × Val)) (ks : List Bytes) (n : Nat)
    (hb : Obtained signed exact b) (vb : b.value = some (.obj fs)) (sb : b.sizeof = some n) :
    ((∃ d, b.project ks = .ok d) ↔ roomFields (8 + 8 * ks.length) (fs.filter (·.1 ∈ ks)) ≤ n) ∧
    ((¬ ∃ d, b.project ks = .ok d) ↔ b.project ks = .ub) := by
  have hs := hb.shows_value vb
  rw [hs.sizeof] at sb; cases sb
  have hex := project_image hs ks
  have hw : WFFields (fs.filter (·.1 ∈ ks)) := by
    have := (wf_obj.1 hs.wf).2
    exact (wfFields_iff _).2 fun f hf => this f (List.mem_filter.1 hf).1
  rw [roomFields_eq _ hw]
  by_cases hfit : fieldsEnd (8 + 8 * ks.length) (fs.filter (·.1 ∈ ks)) ≤ sizeVal (.obj fs)
  · rw [if_pos hfit] at hex
    obtain ⟨⟨_, _, h⟩, _⟩ := hex
    simp [hfit, h]
  · rw [if_neg hfit] at hex
    simp [hfit, hex]

/-- In the negation above 46 bytes are needed of which 24 are there. -/
example : roomFields (8 + 8 * 4) [([97], .int 1)] = 46 ∧ (Val.obj [([97], .int 1)]).room = 24 ∧
    roomFields (8 + 8 * 1) [([97], .int 1)] ≤ 24 := by decide +kernel

/-- C14 (partial; full claim: for all key lists, which is false): nothing is written outside the
allocation if no more keys are requested than the object has fields. Missing: longer requests. -/
theorem C14_short_requests_partial (signed exact : Bool) (b : Buf) (fs : List (Bytes × Val)) (ks : List Bytes)
    (hb : Obtained signed exact b) (vb : b.value = some (.obj fs)) (hk : ks.length ≤ fs.length) :
    ∃ d, b.project ks = .ok d := by
  have sb := hb.shows_value vb
  have hex := project_image sb ks
  have h1 := fieldsEnd_sublist (List.filter_sublist (l := fs) (p := fun f => decide (f.1 ∈ ks)))
    (show 8 + 8 * ks.length ≤ 8 + 8 * fs.length by omega)
  have h2 := le_alignUp (fieldsEnd (8 + 8 * fs.length) fs) (a := 8) (by decide)
  have hfit : fieldsEnd (8 + 8 * ks.length) (fs.filter fun f => decide (f.1 ∈ ks)) ≤ sizeVal (.obj fs) := by
    simp only [sizeVal]; omega
  rw [if_pos hfit] at hex
  obtain ⟨⟨_, _, h⟩, _⟩ := hex
  exact ⟨_, h⟩

/-- C14: every long enough request overflows: if a table for all requested keys is larger than the
object, whatever the keys are. So the hypothesis above cannot simply be dropped, for any object. -/
theorem C14_negation_every_object (signed exact : Bool) (b : Buf) (fs : List (Bytes × Val)) (ks : List Bytes) (n : Nat)
    (hb : Obtained signed exact b) (vb : b.value = some (.obj fs)) (sb : b.sizeof = some n) (hk : n < 8 + 8 * ks.length) :
    b.project ks = .ub := by
  have hs := hb.shows_value vb
  rw [hs.sizeof] at sb; cases sb
  have hex := project_image hs ks
  have := le_fieldsEnd (8 + 8 * ks.length) (fs.filter fun f => decide (f.1 ∈ ks))
  rw [if_neg (by omega)] at hex
  exact hex

/-- Non-vacuity: the sample has four fields and can be projected on four keys. -/
example : (match finalize sample with
    | .ok m => match (Buf.ofBytes m).project [[97], [97], [98], [122]] with
      | .ok d => d.size.toOption
      | _ => none
    | _ => none) = some 2 := by decide +kernel

end Dart.Props
