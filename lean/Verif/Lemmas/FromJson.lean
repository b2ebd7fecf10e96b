import Verif.Lemmas.Json
import Verif.Lemmas.JsonText
import Verif.Lemmas.Shows
import Verif.Lemmas.Stored
import Verif.Spec.Obtained

/-
What parsing JSON straight into a buffer leaves there.
-/
namespace Dart
open Spec

theorem lookup_perm {fs ps : List (Bytes × Val)} (hn : (ps.map (·.1)).Nodup) (h : fs.Perm ps) (k : Bytes) :
    lookup fs k = lookup ps k := by
  induction h with
  | nil => rfl
  | cons x h ih =>
    obtain ⟨a, v⟩ := x
    rw [lookup_cons, lookup_cons, ih (by simp at hn; simpa using hn.2)]
  | swap x y l =>
    obtain ⟨a, v⟩ := x
    obtain ⟨b, w⟩ := y
    simp only [List.map_cons, List.nodup_cons, List.mem_cons, not_or] at hn
    simp only [lookup_cons]
    by_cases h1 : k = a <;> by_cases h2 : k = b <;> simp_all
  | trans h1 h2 ih1 ih2 =>
    rw [ih1 ((h2.map _).nodup_iff.2 hn), ih2 hn]

theorem imageFields_map (fs : List (Bytes × Json)) : imageFields fs = fs.map fun f => (f.1, f.2.image) := by
  induction fs with
  | nil => rfl
  | cons f fs ih => obtain ⟨k, v⟩ := f; simp [imageFields, ih]

theorem arrangeFields_map (sort : List (Bytes × Json) → List (Bytes × Json)) (fs : List (Bytes × Json)) :
    arrangeFields sort fs = fs.map fun f => (f.1, f.2.arrange sort) := by
  induction fs with
  | nil => rfl
  | cons f fs ih => obtain ⟨k, v⟩ := f; simp [arrangeFields, ih]

theorem lookup_lastOf (fs : List (Bytes × Json)) (hn : (fs.map (·.1)).Nodup) (g : Json → Val) (k : Bytes) :
    lookup (fs.map fun f => (f.1, g f.2)) k = (lastOf fs k).map g := by
  induction fs with
  | nil => rfl
  | cons f fs ih =>
    obtain ⟨a, j⟩ := f
    simp only [List.map_cons, List.nodup_cons] at hn
    rw [List.map_cons, lookup_cons, lastOf_cons, ih hn.2]
    by_cases h : k = a
    · subst h
      have : lastOf fs k = none := by
        cases hl : lastOf fs k with
        | none => rfl
        | some x => exact absurd (List.mem_map.2 ⟨_, lastOf_mem hl, rfl⟩) hn.1
      simp [this]
    · simp only [h, if_false]
      cases lastOf fs k <;> rfl

/-- Sorted without equal names is strictly sorted. -/
theorem strict_of_sorts {gs : List (Bytes × Json)} (hs : gs.Pairwise fun a b => ¬ KeyBefore b.1 a.1)
    (hn : (gs.map (·.1)).Nodup) : gs.Pairwise fun a b => KeyBefore a.1 b.1 := by
  have hn' : gs.Pairwise fun a b => a.1 ≠ b.1 := List.pairwise_map.1 hn
  refine (hs.and hn').imp fun {a b} h => ?_
  rw [← keyLt_iff_spec] at h ⊢
  cases hlt : keyLt a.1 b.1 with
  | true => rfl
  | false =>
    have h2 : keyLt b.1 a.1 = false := by
      cases hk : keyLt b.1 a.1 with
      | false => rfl
      | true => exact absurd hk h.1
    exact absurd (keyLt_total hlt h2) h.2

mutual
/-- Laying out the sorted document is laying out the value the dynamic parser builds. -/
theorem arrange_image {sort : List (Bytes × Json) → List (Bytes × Json)} (hs : Sorts sort) :
    ∀ j : Json, Within j → DistinctNames j → (j.arrange sort).image = j.toVal
  | .null, _, _ => rfl
  | .bool b, _, _ => rfl
  | .num n, h, _ => by
    unfold Within at h
    simp only [Json.arrange, Json.image, Json.toVal, h.2, if_true, wrapInt]
  | .dbl d, _, _ => rfl
  | .str s, _, _ => rfl
  | .arr es, h, hd => by
    unfold Within at h
    unfold DistinctNames at hd
    simp only [Json.arrange, Json.image, Json.toVal, arrangeElems_image hs es h.2 hd]
  | .obj fs, h, hd => by
    unfold Within at h
    unfold DistinctNames at hd
    simp only [Json.arrange, Json.image, Json.toVal]
    congr 1
    obtain ⟨hp, hsort⟩ := hs (arrangeFields sort fs)
    have hkeys : (arrangeFields sort fs).map (·.1) = fs.map (·.1) := by
      rw [arrangeFields_map, List.map_map]; rfl
    have hn : ((sort (arrangeFields sort fs)).map (·.1)).Nodup := by
      rw [(hp.map (·.1)).nodup_iff, hkeys]; exact hd.1
    have hstrict := strict_of_sorts hsort hn
    have hperm : (imageFields (sort (arrangeFields sort fs))).Perm (fs.map fun f => (f.1, f.2.toVal)) := by
      rw [imageFields_map, ← arrangeFields_image hs fs h hd.2, imageFields_map]
      exact hp.map _
    refine sorted_ext ?_ (toFields_sorted fs [] List.Pairwise.nil) (funext fun k => ?_)
    · rw [← sorted_iff, imageFields_map]
      exact List.Pairwise.map _ (fun a b h => h) hstrict
    · rw [lookup_perm (by rw [List.map_map]; exact hd.1) hperm, lookup_lastOf fs hd.1, lookup_toFields]
      cases lastOf fs k <;> rfl
theorem arrangeFields_image {sort : List (Bytes × Json) → List (Bytes × Json)} (hs : Sorts sort) :
    ∀ fs : List (Bytes × Json), WithinFields fs → DistinctFields fs →
      imageFields (arrangeFields sort fs) = fs.map fun f => (f.1, f.2.toVal)
  | [], _, _ => rfl
  | (k, j) :: fs, h, hd => by
    unfold WithinFields at h
    unfold DistinctFields at hd
    simp only [arrangeFields, imageFields, List.map_cons, arrange_image hs j h.2.1 hd.1,
      arrangeFields_image hs fs h.2.2 hd.2]
theorem arrangeElems_image {sort : List (Bytes × Json) → List (Bytes × Json)} (hs : Sorts sort) :
    ∀ es : List Json, WithinElems es → DistinctElems es → imageElems (arrangeElems sort es) = toElems es
  | [], _, _ => rfl
  | j :: es, h, hd => by
    unfold WithinElems at h
    unfold DistinctElems at hd
    simp only [arrangeElems, imageElems, toElems, arrange_image hs j h.1 hd.1, arrangeElems_image hs es h.2 hd.2]
end

/-! ### Small enough values -/

mutual
/-- As `Val.WF`, without the limit on strings. -/
def Val.Ordered : Val → Prop
  | .obj fs => Sorted fs ∧ OrderedFields fs
  | .arr es => OrderedElems es
  | _ => True
def OrderedFields : List (Bytes × Val) → Prop
  | [] => True
  | (k, v) :: fs => k.length ≤ 65535 ∧ v.Ordered ∧ OrderedFields fs
def OrderedElems : List Val → Prop
  | [] => True
  | v :: es => v.Ordered ∧ OrderedElems es
end

mutual
theorem wf_of_size : ∀ (v : Val), v.Ordered → sizeVal v < 2 ^ 32 → v.WF ∧ Fits v
  | .null, _, _ => ⟨trivial, trivial⟩
  | .bool b, _, _ => ⟨trivial, trivial⟩
  | .int i, _, _ => ⟨trivial, trivial⟩
  | .dec d, _, _ => ⟨trivial, trivial⟩
  | .str s, _, hs => by
    simp only [sizeVal, strSize] at hs
    simp only [Val.WF, Fits]
    exact ⟨by omega, by omega⟩
  | .arr es, ho, hs => by
    unfold Val.Ordered at ho
    have h := hs
    simp only [sizeVal] at h
    have := wf_of_size_elems es ho (off := 8 + 8 * es.length) (by omega)
    simp only [Val.WF, Fits]
    exact ⟨this.1, hs, this.2⟩
  | .obj fs, ho, hs => by
    unfold Val.Ordered at ho
    have h := hs
    simp only [sizeVal] at h
    have hle := le_alignUp (fieldsEnd (8 + 8 * fs.length) fs) (a := 8) (by decide)
    have := wf_of_size_fields fs ho.2 (off := 8 + 8 * fs.length) (by omega)
    simp only [Val.WF, Fits]
    exact ⟨⟨sorted_iff.2 ho.1, this.1⟩, hs, this.2⟩
theorem wf_of_size_fields : ∀ (fs : List (Bytes × Val)), OrderedFields fs → ∀ {off : Nat}, fieldsEnd off fs < 2 ^ 32 →
    WFFields fs ∧ FitsFields fs
  | [], _, _, _ => ⟨trivial, trivial⟩
  | (k, v) :: fs, ho, off, hs => by
    unfold OrderedFields at ho
    simp only [fieldsEnd] at hs
    have h1 := le_fieldsEnd (valOff off k v + sizeVal v) fs
    simp only [valOff] at h1
    have h2 := wf_of_size v ho.2.1 (by omega)
    have h3 := wf_of_size_fields fs ho.2.2 hs
    simp only [WFFields, FitsFields]
    exact ⟨⟨ho.1, h2.1, h3.1⟩, ho.1, h2.2, h3.2⟩
theorem wf_of_size_elems : ∀ (es : List Val), OrderedElems es → ∀ {off : Nat}, elemsEnd off es < 2 ^ 32 →
    WFElems es ∧ FitsElems es
  | [], _, _, _ => ⟨trivial, trivial⟩
  | v :: es, ho, off, hs => by
    unfold OrderedElems at ho
    simp only [elemsEnd] at hs
    have h1 := le_elemsEnd (alignUp off v.rawType.align + sizeVal v) es
    have h2 := wf_of_size v ho.1 (by omega)
    have h3 := wf_of_size_elems es ho.2 hs
    simp only [WFElems, FitsElems]
    exact ⟨⟨h2.1, h3.1⟩, h2.2, h3.2⟩
end

theorem ordered_fields_of : ∀ (fs : List (Bytes × Val)), (∀ f ∈ fs, f.1.length ≤ 65535 ∧ f.2.Ordered) → OrderedFields fs
  | [], _ => trivial
  | (k, v) :: fs, h => by
    unfold OrderedFields
    have := h (k, v) (by simp)
    exact ⟨this.1, this.2, ordered_fields_of fs fun f hf => h f (by simp [hf])⟩

theorem within_key : ∀ (fs : List (Bytes × Json)), WithinFields fs → ∀ f ∈ fs, f.1.length ≤ 65535
  | [], _, _, hf => by cases hf
  | (_, _) :: fs, h, f, hf => by
    unfold WithinFields at h
    rcases List.mem_cons.1 hf with rfl | hf
    · exact h.1
    · exact within_key fs h.2.2 f hf

mutual
theorem ordered_toVal : ∀ (j : Json), Within j → j.toVal.Ordered
  | .null, _ => trivial
  | .bool b, _ => trivial
  | .num n, h => trivial
  | .dbl d, _ => trivial
  | .str s, _ => trivial
  | .arr es, h => by
    unfold Within at h
    simp only [Json.toVal, Val.Ordered]
    exact ordered_elems es h.2
  | .obj fs, h => by
    unfold Within at h
    have hm := ordered_fields fs h
    simp only [Json.toVal, Val.Ordered]
    refine ⟨toFields_sorted fs [] List.Pairwise.nil, ordered_fields_of _ fun f hf => ?_⟩
    have hl := lookup_of_mem (k := f.1) (v := f.2) (toFields_sorted fs [] List.Pairwise.nil) hf
    rw [lookup_toFields] at hl
    cases hj : lastOf fs f.1 with
    | none => rw [hj] at hl; cases hl
    | some j =>
      rw [hj] at hl
      have hmem := lastOf_mem hj
      have : j.toVal = f.2 := Option.some.inj hl
      exact ⟨within_key fs h _ hmem, this ▸ hm _ hmem⟩
theorem ordered_elems : ∀ (es : List Json), WithinElems es → OrderedElems (toElems es)
  | [], _ => trivial
  | j :: es, h => by
    unfold WithinElems at h
    simp only [toElems, OrderedElems]
    exact ⟨ordered_toVal j h.1, ordered_elems es h.2⟩
theorem ordered_fields : ∀ (fs : List (Bytes × Json)), WithinFields fs → ∀ f ∈ fs, f.2.toVal.Ordered
  | [], _, _, hf => by cases hf
  | (_, j) :: fs, h, f, hf => by
    unfold WithinFields at h
    rcases List.mem_cons.1 hf with rfl | hf
    · exact ordered_toVal j h.2.1
    · exact ordered_fields fs h.2.2 f hf
end

/-- The size of what the document stands for, in terms of the text. -/
theorem toVal_size {x : Extensions} {t : Bytes} {j : Json} (ht : IsText x t j) (hl : t.length < 2 ^ 29) (hw : Within j)
    (hd : DistinctNames j) : sizeVal j.toVal < 2 ^ 32 := by
  have h1 := isText_length ht
  have h2 := size_span (j.arrange sortMembers)
  rw [arrange_span fun fs => (sortMembers_sorts fs).1, arrange_image sortMembers_sorts _ hw hd] at h2
  omega

theorem toVal_wf {x : Extensions} {t : Bytes} {j : Json} (ht : IsText x t j) (hl : t.length < 2 ^ 29) (hw : Within j)
    (hd : DistinctNames j) : j.toVal.WF := (wf_of_size _ (ordered_toVal _ hw) (toVal_size ht hl hw hd)).1

/-- A parsed buffer shows the value the dynamic parser builds. -/
theorem fromJson_shows {sort : List (Bytes × Json) → List (Bytes × Json)} (hs : Sorts sort) {fill : Nat → Bytes}
    (hf : ∀ n, (fill n).length = n) {x : Extensions} {t : Bytes} {fs : List (Bytes × Json)}
    (ht : IsText x t (.obj fs)) (hl : t.length < 2 ^ 29) (hw : Within (.obj fs)) (hd : DistinctNames (.obj fs)) :
    ∃ b, Buf.fromJson sort fill t.length (.obj fs) = .ok b ∧ Shows false b (Json.obj fs).toVal ∧ b.mem.length < 2 ^ 32 := by
  have h1 := isText_length ht
  have h2 := size_span ((Json.obj fs).arrange sort)
  rw [arrange_span fun fs => (hs fs).1] at h2
  have hi := arrange_image hs _ hw hd
  rw [hi] at h2
  have hm := hf (t.length * 8)
  obtain ⟨w, f⟩ := wf_of_size _ (ordered_toVal _ hw) (by omega : sizeVal (Json.obj fs).toVal < 2 ^ 32)
  obtain ⟨m', e, l, hst, _⟩ := layoutVal_stored _ (p := 0) (m := fill (t.length * 8)) (Nat.dvd_zero _) f (by omega)
  refine ⟨Buf.ofBytes m', ?_, .inr ⟨0, ?_, rfl, hst, (fun h => by cases h), Nat.dvd_zero _, w, f⟩, ?_⟩
  · simp only [Buf.fromJson, lower_image, hi, e]
  · simp only [Json.toVal]; rfl
  · show m'.length < _; omega

end Dart
