import Verif.Lemmas.Heap
import Verif.Model.Nested
import Verif.Spec.Nested

namespace Dart

variable {z : Bool}
open Spec

theorem takeWhile_sep {sep : UInt8} {t r : Bytes} (ht : sep ∉ t) :
    (t ++ sep :: r).takeWhile (· != sep) = t := by
  induction t with
  | nil => simp
  | cons a t ih =>
    have h1 : a ≠ sep := fun e => ht (by simp [e])
    have h2 : sep ∉ t := fun e => ht (by simp [e])
    have : (a != sep) = true := by simpa using h1
    rw [List.cons_append, List.takeWhile_cons, this, if_pos rfl, ih h2]

theorem takeWhile_nosep {sep : UInt8} {t : Bytes} (ht : sep ∉ t) : t.takeWhile (· != sep) = t := by
  induction t with
  | nil => simp
  | cons a t ih =>
    have h1 : a ≠ sep := fun e => ht (by simp [e])
    have h2 : sep ∉ t := fun e => ht (by simp [e])
    have : (a != sep) = true := by simpa using h1
    rw [List.takeWhile_cons, this, if_pos rfl, ih h2]

/-- One turn of the loop: a component followed by the separator. -/
theorem nestedLoop_sep {α : Type} {isObject : α → Bool} {get : α → Bytes → Res α} {null : α} {sep : UInt8}
    {curr : α} {t r : Bytes} (ht : sep ∉ t) : nestedLoop isObject get null sep curr (t ++ sep :: r) =
      if isObject curr then (get curr t).bind fun next => nestedLoop isObject get null sep next r
      else .ok null := by
  have h : t ++ sep :: r ≠ [] := by simp
  have hd : (t ++ sep :: r).drop (t.length + 1) = r := by
    rw [← List.drop_drop]; simp
  have e := takeWhile_sep (r := r) ht
  revert hd e
  generalize t ++ sep :: r = w at h
  intro hd e
  cases w with
  | nil => exact absurd rfl h
  | cons c cs =>
    rw [nestedLoop]
    simp only [e, hd]

/-- The last turn of the loop: a component followed by the end of the path. -/
theorem nestedLoop_last {α : Type} {isObject : α → Bool} {get : α → Bytes → Res α} {null : α} {sep : UInt8}
    {curr : α} {t : Bytes} (ht : sep ∉ t) (hne : t ≠ []) : nestedLoop isObject get null sep curr t =
      if isObject curr then (get curr t).bind fun next => .ok next else .ok null := by
  have hd : t.drop (t.length + 1) = [] := List.drop_of_length_le (by omega)
  have e := takeWhile_nosep ht
  cases t with
  | nil => exact absurd rfl hne
  | cons c cs =>
    rw [nestedLoop]
    simp only [e, hd]
    simp only [nestedLoop]

theorem get_object {fs : List (Bytes × Val)} {k : Bytes} :
    Val.get (.obj fs) k = .ok ((lookup fs k).getD .null) := by rw [Val.get, mapFind_eq]

theorem follow_null (ks : List Bytes) : follow .null ks = .null := by cases ks <;> rfl

theorem follow_step (fs : List (Bytes × Val)) (k : Bytes) (ks : List Bytes) :
    follow (.obj fs) (k :: ks) = follow ((lookup fs k).getD .null) ks := by
  simp only [follow]
  cases lookup fs k with
  | some w => rfl
  | none => simp [follow_null]

theorem plainFields_iff {signed : Bool} {fs : List (Bytes × Val)} :
    PlainFields signed fs ↔ ∀ f ∈ fs, PlainKey signed f.1 ∧ f.2.PlainKeys signed := by
  induction fs with
  | nil => simp [PlainFields]
  | cons f fs ih => obtain ⟨k, v⟩ := f; simp [PlainFields, ih, and_assoc]

theorem shows_get_plain {signed : Bool} {b : Buf} {fs : List (Bytes × Val)} (hb : Shows z b (.obj fs))
    (hp : PlainFields signed fs) (hs : Sorted fs) (k : Bytes) :
    ∃ b', b.get signed k = .ok b' ∧ Shows z b' ((lookup fs k).getD .null) := by
  rw [plainFields_iff] at hp
  cases hl : lookup fs k with
  | some w =>
    obtain ⟨p, h1, h2, h3⟩ := hb.obj
    obtain ⟨i, hi, e⟩ := List.mem_iff_getElem.1 (lookup_some_mem hl)
    have ek : fs[i].1 = k := by rw [e]
    obtain ⟨kp, hk⟩ := getKey_complete (signed := signed) h3 i hi
      ⟨fun f hf => (hp f hf).1.1, fun h f hf _ => (hp f hf).1.2.2 h, fun _ f hf => (hp f hf).1.2.1⟩
    rw [ek] at hk
    obtain ⟨hi', vp, _, hat, _, hg⟩ := getValueImpl_hit h3 hk
    have hs : Shows z _ _ := shows_at' hat
    rw [e] at hs hg
    exact ⟨_, by simp [Buf.get, Buf.object, h1, h2, Res.ofRead, Res.bind, hg], hs⟩
  | none =>
    rcases hb.get (signed := signed) k with ⟨h1, h2, b', h3, h4⟩ | ⟨i, hi, rfl, h1, b', h2, h3, h4⟩
    · exact ⟨b', h3, h4⟩
    · have := lookup_of_mem (k := fs[i].1) (v := fs[i].2) hs (List.getElem_mem hi)
      rw [this] at hl; cases hl

theorem shows_type_object {b : Buf} {v : Val} (h : Shows z b v) : (b.type == .object) = v.isObject := by
  have ht := h.getType
  cases v <;> simp only [Val.isObject, Buf.getType, Val.ty] at ht ⊢ <;> revert ht <;>
    cases b.type <;> simp [RawType.simplify]

/-- `nestedLoop` on a buffer follows `nestedLoop` on the value, if lookups do. -/
theorem nestedLoop_shows {signed : Bool} {null : Buf} (hn : Shows z null .null) (sep : UInt8) (k : Bytes)
    (hk : sep ∉ k) (ks : List Bytes) : ∀ {b : Buf} {v : Val}, Shows z b v → v.WF → v.PlainKeys signed →
    (∀ t ∈ ks, sep ∉ t) → ∃ b', nestedLoop (fun b : Buf => b.type == .object) (fun b => b.get signed)
      null sep b (path sep ks k) = .ok b' ∧ Shows z b' (follow v (components ks k)) := by
  have stepv : ∀ {fs : List (Bytes × Val)} {t : Bytes}, (Val.obj fs).WF → (Val.obj fs).PlainKeys signed →
      ((lookup fs t).getD .null).WF ∧ ((lookup fs t).getD .null).PlainKeys signed := by
    intro fs t hw hp
    cases hl : lookup fs t with
    | none => exact ⟨trivial, trivial⟩
    | some x =>
      have hm := lookup_some_mem hl
      exact ⟨((wf_obj.1 hw).2 _ hm).2, (plainFields_iff.1 hp _ hm).2⟩
  induction ks with
  | nil =>
    intro b v hb hw hp _
    by_cases he : k = []
    · subst he
      exact ⟨b, by simp [path, nestedLoop], by simpa [components, follow] using hb⟩
    · rw [show path sep [] k = k by simp [path], nestedLoop_last hk he]
      simp only [components, he, if_false, List.nil_append, shows_type_object hb]
      cases v <;> try exact ⟨_, rfl, hn⟩
      rename_i fs
      obtain ⟨b', h1, h2⟩ := shows_get_plain hb hp (wf_obj.1 hw).1 k
      rw [follow_step]
      exact ⟨b', by simp [Val.isObject, h1, Res.bind], h2⟩
  | cons t ts ih =>
    intro b v hb hw hp hks
    rw [show path sep (t :: ts) k = t ++ sep :: path sep ts k by simp [path],
      nestedLoop_sep (hks t (by simp))]
    rw [show components (t :: ts) k = t :: components ts k by unfold components; split <;> simp]
    simp only [shows_type_object hb]
    cases v <;> try exact ⟨_, rfl, hn⟩
    rename_i fs
    obtain ⟨b', h1, h2⟩ := shows_get_plain hb hp (wf_obj.1 hw).1 t
    rw [follow_step]
    obtain ⟨h3, h4⟩ := stepv (t := t) hw hp
    obtain ⟨b'', h5, h6⟩ := ih h2 h3 h4 fun x hx => hks x (by simp [hx])
    exact ⟨b'', by simp [Val.isObject, h1, Res.bind, h5], h6⟩

end Dart
