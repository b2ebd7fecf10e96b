import Verif.Lemmas.Iter
import Verif.Lemmas.Overflow
import Verif.Model.Sample

/-
C31: searching a finalized object for an iterator. `junk` is what the uninitialised variable in
`get_it` and `get_key_it` holds; nothing is known about it.
-/
namespace Dart.Props
open Spec

/-- A key that is present is found, whatever the uninitialised variable held: the iterators differ from
the end, give the value and the key, and going on to the end visits the rest of the fields in order.
Missing for the full property: keys that are absent (see below), and objects with keys that lookups
cannot handle (see C02). -/
theorem C31_present_key_partial {signed exact : Bool} {b : Buf} (hb : Obtained signed exact b) {k : Bytes} {w : Val}
    {before after : List (Bytes × Val)} (hv : b.value = some (.obj (before ++ (k, w) :: after)))
    (hp : ∀ f ∈ before ++ (k, w) :: after, PlainKey signed f.1) (junk : Nat) :
    ∃ it kit last klast, b.find signed junk k = .ok it ∧ b.findKey signed junk k = .ok kit ∧
      b.end = .ok last ∧ b.keyEnd = .ok klast ∧ it.eq last = false ∧ kit.eq klast = false ∧
      (∃ x, it.deref = .ok x ∧ x.value = some w) ∧ (∃ x, kit.deref = .ok x ∧ x.value = some (.str k)) ∧
      (∃ xs, it.loop (after.length + 1) last = some (.ok xs) ∧
        xs.map Buf.value = some w :: after.map fun f => some f.2) ∧
      (∃ xs, kit.loop (after.length + 1) klast = some (.ok xs) ∧
        xs.map Buf.value = some (.str k) :: after.map fun f => some (.str f.1)) := by
  have hs := hb.shows_value hv
  obtain ⟨p, h1, h2, h3, h4, h5, h6, h7, h8, h9⟩ := hs.begin_obj
  have hlen : (before ++ (k, w) :: after).length = before.length + (after.length + 1) := by simp
  rcases hs.find (signed := signed) k h5 h6 junk with ⟨_, _, h⟩ | ⟨i, hi, e, f1, f2⟩
  · exact absurd rfl (h hp (k, w) (by simp))
  · have hi' : i = before.length := by
      have hnd := sorted_nodup (wf_obj.1 hs.wf).1
      rw [List.Nodup, List.pairwise_iff_getElem] at hnd
      rcases Nat.lt_trichotomy i before.length with hlt | heq | hgt
      · refine absurd ?_ (hnd i before.length (by simpa using hi) (by simp) hlt)
        rw [List.getElem_map, List.getElem_map, e]; simp
      · exact heq
      · refine absurd ?_ (hnd before.length i (by simp) (by simpa using hi) hgt)
        rw [List.getElem_map, List.getElem_map, e]; simp
    subst hi'
    obtain ⟨x, x1, x2⟩ := h7 before.length (by simp)
    obtain ⟨y, y1, y2⟩ := h8 before.length (by simp)
    obtain ⟨xs, xs1, xs2⟩ := loop_ok h7 (by simpa using h9) .value (after.length + 1) before.length (by simp)
      (by simp)
    obtain ⟨ys, ys1, ys2⟩ := loop_ok h8 (by simpa using h9) .key (after.length + 1) before.length (by simp)
      (by simp)
    refine ⟨_, _, _, _, f1, f2, h2, h4, by simp [BufIter.eq, LLIter.eq], by simp [BufIter.eq, LLIter.eq],
      ⟨x, x1, by rw [x2.value]; simp⟩, ⟨y, y1, by rw [y2.value]; simp⟩,
      ⟨xs, by simpa using xs1 _ (Nat.le_refl _), by rw [xs2]; simp⟩,
      ⟨ys, by simpa using ys1 _ (Nat.le_refl _), by rw [ys2]; simp⟩⟩

/-- A key that is absent: the iterators are at whatever position the variable held, so they equal the end
exactly if it happened to hold the size of the object. -/
theorem C31_absent_key_position {signed exact : Bool} {b : Buf} (hb : Obtained signed exact b) {k : Bytes}
    {fs : List (Bytes × Val)} (hv : b.value = some (.obj fs)) (hk : ∀ f ∈ fs, f.1 ≠ k) (junk : Nat) :
    ∃ it kit last klast, b.find signed junk k = .ok it ∧ b.findKey signed junk k = .ok kit ∧
      b.end = .ok last ∧ b.keyEnd = .ok klast ∧
      (it.eq last = true ↔ junk = fs.length) ∧ (kit.eq klast = true ↔ junk = fs.length) := by
  have hs := hb.shows_value hv
  obtain ⟨p, h1, h2, h3, h4, h5, h6, h7, h8, h9⟩ := hs.begin_obj
  rcases hs.find (signed := signed) k h5 h6 junk with ⟨f1, f2, _⟩ | ⟨i, hi, e, f1, f2⟩
  · exact ⟨_, _, _, _, f1, f2, h2, h4, by simp [BufIter.eq, LLIter.eq], by simp [BufIter.eq, LLIter.eq]⟩
  · exact absurd e (hk _ (List.getElem_mem hi))

/-- The property is wrong for every object and every absent key: `find` can return something else than
the end. -/
theorem C31_absent_key_not_end {signed exact : Bool} {b : Buf} (hb : Obtained signed exact b) {k : Bytes}
    {fs : List (Bytes × Val)} (hv : b.value = some (.obj fs)) (hk : ∀ f ∈ fs, f.1 ≠ k) :
    ∃ junk < 2 ^ 64, ∃ it last, b.find signed junk k = .ok it ∧ b.end = .ok last ∧ it.eq last = false := by
  by_cases h : fs.length = 0
  · obtain ⟨it, _, last, _, h1, _, h2, _, h3, _⟩ := C31_absent_key_position hb hv hk 1
    refine ⟨1, by omega, it, last, h1, h2, ?_⟩
    rw [← Bool.not_eq_true, h3, h]; decide
  · obtain ⟨it, _, last, _, h1, _, h2, _, h3, _⟩ := C31_absent_key_position hb hv hk 0
    refine ⟨0, by omega, it, last, h1, h2, ?_⟩
    rw [← Bool.not_eq_true, h3]; omega

/-- It can return an iterator to any other field, … -/
theorem C31_absent_key_other_field {signed exact : Bool} {b : Buf} (hb : Obtained signed exact b) {k : Bytes}
    {fs : List (Bytes × Val)} (hv : b.value = some (.obj fs)) (hk : ∀ f ∈ fs, f.1 ≠ k) {f : Bytes × Val}
    (hf : f ∈ fs) : ∃ junk < 2 ^ 64, ∃ it x, b.find signed junk k = .ok it ∧ it.deref = .ok x ∧ x.value = some f.2 := by
  have hs := hb.shows_value hv
  obtain ⟨p, h1, h2, h3, h4, h5, h6, h7, h8, h9⟩ := hs.begin_obj
  obtain ⟨j, hj, e⟩ := List.mem_iff_getElem.1 hf
  rcases hs.find (signed := signed) k h5 h6 j with ⟨f1, f2, _⟩ | ⟨i, hi, e, f1, f2⟩
  · obtain ⟨x, x1, x2⟩ := h7 j (by simpa using hj)
    exact ⟨j, by omega, _, x, f1, x1, by rw [x2.value]; simp [e]⟩
  · exact absurd e (hk _ (List.getElem_mem hi))

/-- … and one whose use reads outside the buffer. -/
theorem C31_absent_key_outside {signed exact : Bool} {b : Buf} (hb : Obtained signed exact b) {k : Bytes}
    {fs : List (Bytes × Val)} (hv : b.value = some (.obj fs)) (hk : ∀ f ∈ fs, f.1 ≠ k) :
    ∃ junk it, b.find signed junk k = .ok it ∧ it.deref = .ub := by
  have hs := hb.shows_value hv
  obtain ⟨p, h1, h2, h3, h4, h5, h6, h7, h8, h9⟩ := hs.begin_obj
  rcases hs.find (signed := signed) k h5 h6 b.mem.length with ⟨f1, f2, _⟩ | ⟨i, hi, e, f1, f2⟩
  · refine ⟨b.mem.length, _, f1, ?_⟩
    have : entOff b.mem p b.mem.length = none := by
      simp only [entOff, readU, readBytes]
      rw [if_neg (by omega)]
      rfl
    simp [BufIter.deref, LLIter.deref, loadValue, this, Res.ofRead, Res.bind]
  · exact absurd e (hk _ (List.getElem_mem hi))

/-- On anything but an object both throw. -/
theorem C31_not_an_object {signed exact : Bool} {b : Buf} (hb : Obtained signed exact b) {v : Val} (hv : b.value = some v)
    (ho : ∀ fs, v ≠ .obj fs) (k : Bytes) (junk : Nat) :
    b.find signed junk k = .throw .typeError ∧ b.findKey signed junk k = .throw .typeError := by
  rcases (hb.shows_value hv).object_call with ⟨fs, _, rfl, _⟩ | ⟨_, h⟩
  · exact absurd rfl (ho fs)
  · simp [Buf.find, Buf.findKey, h, Res.bind]

/-- For dynamic objects the property holds: the end for an absent key, and the field for a present one. -/
theorem C31_dynamic {v : Val} {fs : List (Bytes × Val)} (hv : v = .obj fs) (hw : v.WF) (k : Bytes) :
    ∃ it kit last, v.findIt k = .ok it ∧ v.findKeyIt k = .ok kit ∧ v.endIt = .ok last ∧
      (it.eq last = true ↔ ∀ f ∈ fs, f.1 ≠ k) ∧ (kit.eq last = true ↔ ∀ f ∈ fs, f.1 ≠ k) ∧
      (∀ w, (k, w) ∈ fs → it.deref = .ok w ∧ kit.deref = .ok (.str k)) := by
  subst hv
  refine ⟨_, _, _, rfl, rfl, rfl, ?_⟩
  cases h : lookup fs k with
  | none =>
    have h' : ∀ f ∈ fs, f.1 ≠ k := fun f hf e => (lookup_none_iff).1 h (List.mem_map.2 ⟨f, hf, e⟩)
    have hp := mapPos_absent h
    refine ⟨?_, ?_, fun w hm => absurd rfl (h' _ hm)⟩
    · simp only [HeapIter.eq, hp, beq_self_eq_true, true_iff]; exact h'
    · simp only [HeapIter.eq, hp, beq_self_eq_true, true_iff]; exact h'
  | some x =>
    obtain ⟨hi, he⟩ := mapPos_present h
    have hn : ¬ ∀ f ∈ fs, f.1 ≠ k := fun hh => hh (k, x) (lookup_some_mem h) rfl
    refine ⟨?_, ?_, ?_⟩
    · simp only [HeapIter.eq, beq_iff_eq]; exact iff_of_false (by omega) hn
    · simp only [HeapIter.eq, beq_iff_eq]; exact iff_of_false (by omega) hn
    · intro w hm
      have := lookup_of_mem (wf_obj.1 hw).1 hm
      rw [h] at this; cases this
      simp [HeapIter.deref, List.getElem?_eq_getElem hi, he, Res.ofRead]

/-- On any dynamic value but an object, `find` and `find_key` throw; on any but an aggregate, `begin` and
`end` throw. -/
theorem C31_dynamic_not_an_object {v : Val} (ho : ∀ fs, v ≠ .obj fs) (k : Bytes) :
    v.findIt k = .throw .typeError ∧ v.findKeyIt k = .throw .typeError ∧
      ((∀ es, v ≠ .arr es) → v.beginIt = .throw .typeError ∧ v.endIt = .throw .typeError) := by
  cases v with
  | obj fs => exact absurd rfl (ho fs)
  | arr es => exact ⟨rfl, rfl, fun h => absurd rfl (h es)⟩
  | _ => exact ⟨rfl, rfl, fun _ => ⟨rfl, rfl⟩⟩

/-! Concrete cases. -/

/-- `find` in the finalized sample, compared with `end`, and what dereferencing gives as an integer. -/
def findSample (junk : Nat) (k : Bytes) : Option (Bool × Res (BitVec 64)) := do
  let m ← (finalize sample).toOption
  let it ← ((Buf.ofBytes m).find true junk k).toOption
  let last ← (Buf.ofBytes m).end.toOption
  some (it.eq last, it.deref.bind Buf.integer)

example : findSample 77 [97] = some (false, .ok 1) := by decide +kernel
example : findSample 4 [122] = some (true, .ub) := by decide +kernel
example : findSample 0 [122] = some (false, .ok 1) := by decide +kernel
example : findSample 1000 [122] = some (false, .ub) := by decide +kernel

end Dart.Props
