import Verif.Lemmas.Heap
import Verif.Model.Sample

/-
C25: the read accessors agree with each other, on dynamic and on finalized values.
-/
namespace Dart.Props
open Spec

/-- What a dynamic object's accessors must answer for a key that holds `x`. -/
def Present (v : Val) (k : Bytes) (x d : Val) : Prop :=
  v.hasKey k = .ok true ∧ v.get k = .ok x ∧ v.atKey k = .ok x ∧ v.getOr k d = .ok x ∧
  ∃ (i n : Nat) (ks : List Bytes) (vs : List Val), v.find k = .ok i ∧ v.size = .ok n ∧ i < n ∧
    v.keys = .ok ks ∧ v.values = .ok vs ∧ ks[i]? = some k ∧ vs[i]? = some x

/-- What a dynamic object's accessors must answer for a key that is not there. -/
def Absent (v : Val) (k : Bytes) (d : Val) : Prop :=
  v.hasKey k = .ok false ∧ v.get k = .ok .null ∧ v.atKey k = .throw .outOfRange ∧ v.getOr k d = .ok d ∧
  ∃ (n : Nat) (ks : List Bytes), v.find k = .ok n ∧ v.size = .ok n ∧ v.keys = .ok ks ∧ k ∉ ks

/-- C25, dynamic objects: for every key all accessors agree that it is present with the one value
stored under it (even if that value is null), or all agree that it is absent. -/
theorem C25_dynamic_object (fs : List (Bytes × Val)) (hp : Proper (.obj fs)) (k : Bytes) (d : Val) :
    (∃ x, (k, x) ∈ fs ∧ Present (.obj fs) k x d) ∨ ((∀ x, (k, x) ∉ fs) ∧ Absent (.obj fs) k d) := by
  cases h : lookup fs k with
  | some x =>
    obtain ⟨hi, he⟩ := mapPos_present h
    refine .inl ⟨x, lookup_some_mem h, ?_⟩
    refine ⟨by simp [Val.hasKey, mapFind_eq, h], by simp [Val.get, mapFind_eq, h],
      by simp [Val.atKey, mapFind_eq, h], by simp [Val.getOr, mapFind_eq, h],
      _, _, _, _, rfl, rfl, hi, rfl, rfl, ?_, ?_⟩ <;> simp [he, hi]
  | none =>
    refine .inr ⟨fun x hx => ?_, ?_⟩
    · rw [lookup_of_mem (proper_obj.1 hp).1 hx] at h; cases h
    · refine ⟨by simp [Val.hasKey, mapFind_eq, h], by simp [Val.get, mapFind_eq, h],
        by simp [Val.atKey, mapFind_eq, h], by simp [Val.getOr, mapFind_eq, h],
        _, _, by rw [Val.find, mapPos_absent h], rfl, rfl, ?_⟩
      rw [← lookup_isSome_iff, h]; simp

/-- C25, dynamic objects: iteration visits exactly the fields, in key order, each once; size counts
them. -/
theorem C25_dynamic_iteration (fs : List (Bytes × Val)) (hp : Proper (.obj fs)) :
    ∃ (ks : List Bytes) (vs : List Val), Val.keys (.obj fs) = .ok ks ∧ Val.values (.obj fs) = .ok vs ∧
      Val.size (.obj fs) = .ok ks.length ∧ ks.length = vs.length ∧ ks.Pairwise KeyBefore ∧
      ∀ k x, (∃ i : Nat, ks[i]? = some k ∧ vs[i]? = some x) ↔ Val.atKey (.obj fs) k = .ok x := by
  refine ⟨_, _, rfl, rfl, by simp [Val.size], by simp, List.pairwise_map.2 hp.1, ?_⟩
  intro k x
  have h1 : Val.atKey (.obj fs) k = .ok x ↔ lookup fs k = some x := by
    simp only [Val.atKey, mapFind_eq]
    cases lookup fs k <;> simp
  rw [h1]
  constructor
  · rintro ⟨i, h2, h3⟩
    have hi : i < fs.length := by
      rcases Nat.lt_or_ge i fs.length with h | h
      · exact h
      · simp [List.getElem?_eq_none (by simpa using h : (fs.map (·.1)).length ≤ i)] at h2
    simp [hi] at h2 h3
    refine lookup_of_mem (proper_obj.1 hp).1 ?_
    rw [show (k, x) = fs[i] by rw [← h2, ← h3]]
    exact List.getElem_mem hi
  · intro h
    obtain ⟨hi, he⟩ := mapPos_present h
    exact ⟨mapPos k fs, by simp [he, hi], by simp [he, hi]⟩

/-- C25, dynamic arrays: below the size `get`, `at` and `get_or` give the element, at or beyond it
they give null, `out_of_range` and the default; `front`/`back` and their variants follow the first
and last index. -/
theorem C25_dynamic_array (es : List Val) (i : Nat) (d : Val) :
    Val.size (.arr es) = .ok es.length ∧ Val.values (.arr es) = .ok es ∧
    (∀ (h : i < es.length), Val.getIdx (.arr es) i = .ok es[i] ∧ Val.atIdx (.arr es) i = .ok es[i] ∧
      Val.getIdxOr (.arr es) i d = .ok es[i]) ∧
    (es.length ≤ i → Val.getIdx (.arr es) i = .ok .null ∧ Val.atIdx (.arr es) i = .throw .outOfRange ∧
      Val.getIdxOr (.arr es) i d = .ok d) ∧
    (∀ (h : es ≠ []), Val.front (.arr es) = .ok (es.head h) ∧ Val.atFront (.arr es) = .ok (es.head h) ∧
      Val.frontOr (.arr es) d = .ok (es.head h) ∧ Val.getIdx (.arr es) 0 = .ok (es.head h) ∧
      Val.back (.arr es) = .ok (es.getLast h) ∧ Val.atBack (.arr es) = .ok (es.getLast h) ∧
      Val.backOr (.arr es) d = .ok (es.getLast h) ∧ Val.getIdx (.arr es) (es.length - 1) = .ok (es.getLast h)) ∧
    (es = [] → Val.front (.arr es) = .ok .null ∧ Val.atFront (.arr es) = .throw .outOfRange ∧
      Val.frontOr (.arr es) d = .ok d ∧
      Val.back (.arr es) = .ok .null ∧ Val.atBack (.arr es) = .throw .outOfRange ∧
      Val.backOr (.arr es) d = .ok d) := by
  refine ⟨rfl, rfl, fun h => ⟨by simp [Val.getIdx, h], ?_, ?_⟩, fun h => ⟨?_, ?_, ?_⟩, fun h => ?_, fun h => ?_⟩
  · simp [Val.atIdx, Val.size, Res.bind, h, Res.ofRead]
  · simp [Val.getIdxOr, Val.getIdx, h]
  · simp [Val.getIdx, Nat.not_lt.2 h]
  · simp [Val.atIdx, Val.size, Res.bind, Nat.not_lt.2 h]
  · simp [Val.getIdxOr, Nat.not_lt.2 h]
  · have hp : 0 < es.length := List.length_pos_iff.2 h
    have hf : Val.front (.arr es) = .ok (es.head h) := by simp [Val.front, List.head?_eq_some_head h]
    have hb : Val.back (.arr es) = .ok (es.getLast h) := by simp [Val.back, List.getLast?_eq_some_getLast h]
    have he : es.isEmpty = false := by simpa using h
    have hn : es.length ≠ 0 := by omega
    refine ⟨hf, ?_, ?_, ?_, hb, ?_, ?_, ?_⟩
    · simp [Val.atFront, Val.size, Res.bind, h, hf]
    · simp [Val.frontOr, he, hf]
    · simp [Val.getIdx, hp, List.head_eq_getElem]
    · simp [Val.atBack, Val.size, Res.bind, h, hb]
    · simp [Val.backOr, he, hb]
    · have : es.length - 1 < es.length := by omega
      simp [Val.getIdx, this, List.getLast_eq_getElem]
  · subst h
    simp [Val.front, Val.atFront, Val.frontOr, Val.back, Val.atBack, Val.backOr, Val.size, Res.bind]

/-- C25: on values of the wrong kind the lookups throw `type_error` and the `_or` variants give the
default. (`at` with an index beyond the size of an object or string throws `out_of_range` instead.) -/
theorem C25_dynamic_wrong_type (v d : Val) (k : Bytes) (i : Nat) :
    ((∀ fs, v ≠ .obj fs) → v.hasKey k = .throw .typeError ∧ v.get k = .throw .typeError ∧
      v.atKey k = .throw .typeError ∧ v.find k = .throw .typeError ∧ v.keys = .throw .typeError ∧
      v.getOr k d = .ok d) ∧
    ((∀ es, v ≠ .arr es) → v.getIdx i = .throw .typeError ∧ v.front = .throw .typeError ∧
      v.back = .throw .typeError ∧ v.getIdxOr i d = .ok d ∧ v.frontOr d = .ok d ∧ v.backOr d = .ok d ∧
      (v.atIdx i = .throw .typeError ∨ v.atIdx i = .throw .outOfRange)) := by
  constructor
  · intro h
    cases v <;> first | exact absurd rfl (h _) | exact ⟨rfl, rfl, rfl, rfl, rfl, rfl⟩
  · intro h
    cases v <;> first
      | exact absurd rfl (h _)
      | (refine ⟨rfl, rfl, rfl, rfl, rfl, rfl, ?_⟩
         simp only [Val.atIdx, Val.size, Res.bind]
         first | exact .inl trivial | (split <;> simp))

/-- C25, finalized objects: for every key `has_key`, `get` and `at` agree on whether it is found
(which keys are found is C02). -/
theorem C25_finalized_object (signed : Bool) (v : Val) (m : Bytes) (hw : v.WF) (h : finalize v = .ok m)
    (b : Buf) (hb : Derived signed (Buf.ofBytes m) b) (fs : List (Bytes × Val))
    (hv : b.value = some (.obj fs)) (key : Bytes) :
    (b.hasKey signed key = .ok true ∧ ∃ b' w, b.get signed key = .ok b' ∧ b.at signed key = .ok b' ∧
      b'.value = some w ∧ (key, w) ∈ fs) ∨
    (b.hasKey signed key = .ok false ∧ b.at signed key = .throw .outOfRange ∧
      ∃ b', b.get signed key = .ok b' ∧ b'.value = some .null) := by
  obtain ⟨x, hx⟩ := hb.shows (shows_root hw h)
  rw [hx.value] at hv; cases hv
  rcases hx.get (signed := signed) key with ⟨h1, h2, b', h3, h4⟩ | ⟨i, hi, rfl, h1, b', h2, h3, h4⟩
  · exact .inr ⟨h1, h2, b', h3, h4.value⟩
  · exact .inl ⟨h1, b', fs[i].2, h2, h3, h4.value, List.getElem_mem hi⟩

/-- C25, finalized objects: iteration visits exactly the fields in order; size counts them. -/
theorem C25_finalized_iteration (signed : Bool) (v : Val) (m : Bytes) (hw : v.WF) (h : finalize v = .ok m)
    (b : Buf) (hb : Derived signed (Buf.ofBytes m) b) (fs : List (Bytes × Val))
    (hv : b.value = some (.obj fs)) :
    ∃ ks vs, b.keys = .ok ks ∧ b.values = .ok vs ∧ b.size = .ok fs.length ∧
      ks.map Buf.value = fs.map (fun f => some (.str f.1)) ∧ vs.map Buf.value = fs.map (fun f => some f.2) := by
  obtain ⟨x, hx⟩ := hb.shows (shows_root hw h)
  rw [hx.value] at hv; cases hv
  obtain ⟨ks, h1, h2, h3⟩ := hx.keys
  obtain ⟨vs, h4, h5, h6⟩ := hx.values_obj
  refine ⟨ks, vs, h1, h4, hx.size_obj, ?_, ?_⟩
  · refine List.ext_getElem (by simp [h2]) fun i hi1 hi2 => ?_
    simp only [List.getElem_map]
    exact (h3 i (by simpa using hi1) (by simpa using hi2)).value
  · refine List.ext_getElem (by simp [h5]) fun i hi1 hi2 => ?_
    simp only [List.getElem_map]
    exact (h6 i (by simpa using hi1) (by simpa using hi2)).value

/-- C25, finalized arrays. -/
theorem C25_finalized_array (signed : Bool) (v : Val) (m : Bytes) (hw : v.WF) (h : finalize v = .ok m)
    (b : Buf) (hb : Derived signed (Buf.ofBytes m) b) (es : List Val) (hv : b.value = some (.arr es)) (i : Nat) :
    b.size = .ok es.length ∧
    (∃ vs, b.values = .ok vs ∧ vs.map Buf.value = es.map some) ∧
    (∀ (hi : i < es.length), ∃ b', b.getIdx i = .ok b' ∧ b.atIdx i = .ok b' ∧ b'.value = some es[i]) ∧
    (es.length ≤ i → (∃ b', b.getIdx i = .ok b' ∧ b'.value = some .null) ∧ b.atIdx i = .throw .outOfRange) ∧
    (∀ (hne : es ≠ []), (∃ b', b.front = .ok b' ∧ b.atFront = .ok b' ∧ b'.value = some (es.head hne)) ∧
      (∃ b', b.back = .ok b' ∧ b.atBack = .ok b' ∧ b'.value = some (es.getLast hne))) ∧
    (es = [] → (∃ b', b.front = .ok b' ∧ b'.value = some .null) ∧ b.atFront = .throw .outOfRange ∧
      (∃ b', b.back = .ok b' ∧ b'.value = some .null) ∧ b.atBack = .throw .outOfRange) := by
  obtain ⟨x, hx⟩ := hb.shows (shows_root hw h)
  rw [hx.value] at hv; cases hv
  have hs := hx.size_arr
  obtain ⟨bf, f1, f2⟩ := hx.front
  obtain ⟨bb, b1, b2⟩ := hx.back
  refine ⟨hs, ?_, fun hi => ?_, fun hi => ⟨?_, hx.atIdx_throw i hi⟩, fun hne => ⟨⟨bf, f1, ?_, ?_⟩, bb, b1, ?_, ?_⟩,
    fun he => ⟨⟨bf, f1, ?_⟩, ?_, ⟨bb, b1, ?_⟩, ?_⟩⟩
  · obtain ⟨vs, h1, h2, h3⟩ := hx.values_arr
    refine ⟨vs, h1, List.ext_getElem (by simp [h2]) fun i hi1 hi2 => ?_⟩
    simp only [List.getElem_map]
    exact (h3 i (by simpa using hi1) (by simpa using hi2)).value
  · obtain ⟨b', h1, h2, h3⟩ := hx.atIdx i hi
    exact ⟨b', h2, h1, h3.value⟩
  · obtain ⟨b', h1, h2⟩ := hx.getIdx i
    rw [List.getElem?_eq_none hi] at h2
    exact ⟨b', h1, h2.value⟩
  · have : es.length ≠ 0 := by simpa using hne
    rw [Buf.atFront, hs]; simp only [Res.bind, this, if_false]; exact f1
  · rw [f2.value, List.head?_eq_some_head hne]; rfl
  · have : es.length ≠ 0 := by simpa using hne
    rw [Buf.atBack, hs]; simp only [Res.bind, this, if_false]; exact b1
  · rw [b2.value, List.getLast?_eq_some_getLast hne]; rfl
  · subst he; exact f2.value
  · subst he; rw [Buf.atFront, hs]; rfl
  · subst he; exact b2.value
  · subst he; rw [Buf.atBack, hs]; rfl

/-- Non-vacuity: a null stored under a key is present; the sample's nested array is reachable in the
finalized form. -/
example : Val.getOr (.obj [([97], .null)]) [97] (.int 5) = .ok .null ∧
    Val.getOr (.obj [([97], .null)]) [98] (.int 5) = .ok (.int 5) ∧
    Val.find sample [98] = .ok 1 ∧ Val.find sample [100] = .ok 4 := by
  refine ⟨rfl, rfl, ?_, ?_⟩ <;> rfl

example : (match finalize sample with
    | .ok m => match (Buf.ofBytes m).get true [98] with
      | .ok b => (b.size, b.getType)
      | _ => (.ub, .null)
    | _ => (.ub, .null)) = (.ok 4, .array) := by decide +kernel

end Dart.Props
