import Verif.Lemmas.Iter
import Verif.Model.Sample

/-
C38: iterating over finalized aggregates. `it.loop n last` is the list of what the loop
`for (; it != last; ++it)` sees if it ends within `n` rounds; `last.rloop n it` is the same loop with
`std::reverse_iterator`s starting at `last`.
-/
namespace Dart.Props
open Spec

/-- The loops from `it` to `last`, forwards and backwards, both end, read within the buffer, and see
exactly the values `vs` in order and in reverse order. -/
def Visits (it last : BufIter) (vs : List Val) : Prop :=
  (∃ xs, it.loop vs.length last = some (.ok xs) ∧ xs.map Buf.value = vs.map some) ∧
  (∃ xs, last.rloop vs.length it = some (.ok xs) ∧ xs.map Buf.value = vs.reverse.map some)

/-- Arrays: the elements, each once, in order. -/
theorem C38_array {signed exact : Bool} {b : Buf} (hb : Obtained signed exact b) {es : List Val}
    (hv : b.value = some (.arr es)) : ∃ it last, b.begin = .ok it ∧ b.end = .ok last ∧ Visits it last es := by
  obtain ⟨p, h1, h2, _, h3, h4⟩ := (hb.shows_value hv).begin_arr
  obtain ⟨xs, x1, x2⟩ := loop_ok h3 h4 .elem es.length 0 (by simp) (by simp)
  obtain ⟨ys, y1, y2⟩ := rloop_ok h3 h4 .elem es.length (Nat.le_refl _)
  exact ⟨_, _, h1, h2, ⟨xs, x1 _ (Nat.le_refl _), by simpa using x2⟩, ⟨ys, y1 _ (Nat.le_refl _), by rw [y2, List.take_length]⟩⟩

/-- Objects: the values of the fields and the keys of the fields, in the same order, which is that of
the keys (see C06). -/
theorem C38_object {signed exact : Bool} {b : Buf} (hb : Obtained signed exact b) {fs : List (Bytes × Val)}
    (hv : b.value = some (.obj fs)) :
    (∃ it last, b.begin = .ok it ∧ b.end = .ok last ∧ Visits it last (fs.map fun f => f.2)) ∧
    (∃ it last, b.keyBegin = .ok it ∧ b.keyEnd = .ok last ∧ Visits it last (fs.map fun f => .str f.1)) ∧
    fs.Pairwise fun f g => KeyBefore f.1 g.1 := by
  have hs := hb.shows_value hv
  obtain ⟨p, h1, h2, h3, h4, _, _, h7, h8, h9⟩ := hs.begin_obj
  refine ⟨⟨_, _, h1, h2, ?_⟩, ⟨_, _, h3, h4, ?_⟩, ?_⟩
  · obtain ⟨xs, x1, x2⟩ := loop_ok h7 (by simpa using h9) .value (fs.map fun f => f.2).length 0 (by simp) (by simp)
    obtain ⟨ys, y1, y2⟩ := rloop_ok h7 (by simpa using h9) .value (fs.map fun f => f.2).length (Nat.le_refl _)
    refine ⟨⟨xs, ?_, by simpa using x2⟩, ⟨ys, ?_, by rw [y2, List.take_length]⟩⟩
    · simpa using x1 _ (Nat.le_refl _)
    · simpa using y1 _ (Nat.le_refl _)
  · obtain ⟨xs, x1, x2⟩ := loop_ok h8 (by simpa using h9) .key (fs.map fun f => Val.str f.1).length 0 (by simp)
      (by simp)
    obtain ⟨ys, y1, y2⟩ := rloop_ok h8 (by simpa using h9) .key (fs.map fun f => Val.str f.1).length (Nat.le_refl _)
    refine ⟨⟨xs, ?_, by simpa using x2⟩, ⟨ys, ?_, by rw [y2, List.take_length]⟩⟩
    · simpa using x1 _ (Nat.le_refl _)
    · simpa using y1 _ (Nat.le_refl _)
  · have := hs.wf
    simp only [Val.WF] at this
    exact this.1

/-- The end of an array, and any position after it, reads as null rather than outside the buffer. -/
theorem C38_array_end {signed exact : Bool} {b : Buf} (hb : Obtained signed exact b) {es : List Val}
    (hv : b.value = some (.arr es)) :
    ∃ last x, b.end = .ok last ∧ last.deref = .ok x ∧ x.value = some .null ∧
      ∃ y, last.incr.deref = .ok y ∧ y.value = some .null := by
  obtain ⟨p, _, h2, h3, _, h5⟩ := (hb.shows_value hv).begin_arr
  obtain ⟨h4, _, _⟩ := h3.arr_parts
  have e : (es.length + 1) % 2 ^ 64 = es.length + 1 := by omega
  have hn : (b.sub (.null, none)).value = some .null := by simp [Buf.value, Buf.sub]
  refine ⟨_, b.sub (.null, none), h2, ?_, hn, b.sub (.null, none), ?_, hn⟩
  · simp [BufIter.deref, LLIter.deref, h4, Res.ofRead, Res.bind]
  · simp only [BufIter.incr, LLIter.incr, e]
    simp [BufIter.deref, LLIter.deref, h4, Res.ofRead, Res.bind, show ¬ es.length + 1 < es.length by omega]

/-- Going forward and back, or back and forward, from any position (of a 64-bit index) returns to it. -/
theorem C38_forward_back (it : BufIter) (h : it.impl.idx < 2 ^ 64) :
    it.incr.decr = it ∧ it.decr.incr = it := by
  obtain ⟨b, i, p, l⟩ := it
  simp only at h
  refine ⟨?_, ?_⟩
  · simp only [BufIter.incr, BufIter.decr, LLIter.incr, LLIter.decr, BufIter.mk.injEq, LLIter.mk.injEq, and_true,
      true_and]
    omega
  · simp only [BufIter.incr, BufIter.decr, LLIter.incr, LLIter.decr, BufIter.mk.injEq, LLIter.mk.injEq, and_true,
      true_and]
    omega

/-- Anything that is neither object nor array throws, as does iterating over keys of a non-object. -/
theorem C38_not_an_aggregate {signed exact : Bool} {b : Buf} (hb : Obtained signed exact b) {v : Val}
    (hv : b.value = some v) (ho : ∀ fs, v ≠ .obj fs) :
    b.keyBegin = .throw .typeError ∧ b.keyEnd = .throw .typeError ∧
    ((∀ es, v ≠ .arr es) → b.begin = .throw .typeError ∧ b.end = .throw .typeError) := by
  have hs := hb.shows_value hv
  have h1 : b.object = .throw .typeError := by
    rcases hs.object_call with ⟨fs, _, rfl, _⟩ | ⟨_, h⟩
    · exact absurd rfl (ho fs)
    · exact h
  refine ⟨by simp [Buf.keyBegin, h1, Res.bind], by simp [Buf.keyEnd, h1, Res.bind], ?_⟩
  intro ha
  have hty := hs.getType
  have h2 : b.type ≠ .object ∧ b.type ≠ .array := by
    constructor <;> intro e <;> rw [Buf.getType, e] at hty <;> cases v <;> simp [RawType.simplify, Val.ty] at hty
    · exact ho _ rfl
    · exact ha _ rfl
  constructor
  · unfold Buf.begin; split <;> simp_all
  · unfold Buf.end; split <;> simp_all

/-- Not as one would expect: a key iterator and a value iterator at the same position of an object compare
equal, although they give different things. -/
theorem C38_key_and_value_iterators_equal {signed exact : Bool} {b : Buf} (hb : Obtained signed exact b) {k : Bytes} {w : Val}
    {fs : List (Bytes × Val)} (hv : b.value = some (.obj ((k, w) :: fs))) (hn : w ≠ .str k) :
    ∃ it kit x y, b.begin = .ok it ∧ b.keyBegin = .ok kit ∧ it.eq kit = true ∧ it.deref = .ok x ∧
      kit.deref = .ok y ∧ x.value ≠ y.value := by
  obtain ⟨p, h1, _, h3, _, _, _, h7, h8, _⟩ := (hb.shows_value hv).begin_obj
  obtain ⟨x, x1, x2⟩ := h7 0 (by simp)
  obtain ⟨y, y1, y2⟩ := h8 0 (by simp)
  refine ⟨_, _, x, y, h1, h3, by simp [BufIter.eq, LLIter.eq], x1, y1, ?_⟩
  rw [x2.value, y2.value]
  simpa using hn

/-! Concrete cases: the sample has four fields, and an array of four elements at key "b". -/

/-- Types of what the loops over the finalized sample see. -/
def loopSample (n : Nat) : Option (Res (List Ty) × Res (List Ty)) := do
  let m ← (finalize sample).toOption
  let it ← (Buf.ofBytes m).begin.toOption
  let last ← (Buf.ofBytes m).end.toOption
  let xs ← it.loop n last
  let ys ← last.rloop n it
  some (xs.bind fun l => .ok (l.map Buf.getType), ys.bind fun l => .ok (l.map Buf.getType))

example : loopSample 4 =
    some (.ok [.integer, .array, .object, .string], .ok [.string, .object, .array, .integer]) := by decide +kernel
example : loopSample 3 = none := by decide +kernel

end Dart.Props
