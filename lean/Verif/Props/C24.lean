import Verif.Lemmas.Nested
import Verif.Model.Sample

/-
C24: nested path lookup.
-/
namespace Dart.Props
open Spec

/-- C24: every byte string is a path, in exactly one way. -/
theorem C24_every_string_is_a_path (sep : UInt8) (s : Bytes) :
    ∃ ks k, (∀ t ∈ ks, sep ∉ t) ∧ sep ∉ k ∧ s = path sep ks k ∧
      ∀ ks' k', (∀ t ∈ ks', sep ∉ t) → sep ∉ k' → s = path sep ks' k' → ks' = ks ∧ k' = k := by
  have uniq : ∀ (ks ks' : List Bytes) (k k' : Bytes), (∀ t ∈ ks, sep ∉ t) → sep ∉ k →
      (∀ t ∈ ks', sep ∉ t) → sep ∉ k' → path sep ks k = path sep ks' k' → ks' = ks ∧ k' = k := by
    intro ks
    induction ks with
    | nil =>
      intro ks' k k' _ hk _ _ h
      cases ks' with
      | nil => exact ⟨rfl, by simpa [path] using h.symm⟩
      | cons t ts =>
        exfalso; apply hk
        have : k = path sep (t :: ts) k' := by simpa [path] using h
        rw [this]; simp [path]
    | cons a as ih =>
      intro ks' k k' hks hk hks' hk' h
      cases ks' with
      | nil =>
        exfalso; apply hk'
        have : k' = path sep (a :: as) k := by simpa [path] using h.symm
        rw [this]; simp [path]
      | cons t ts =>
        have e1 : path sep (a :: as) k = a ++ sep :: path sep as k := by simp [path]
        have e2 : path sep (t :: ts) k' = t ++ sep :: path sep ts k' := by simp [path]
        rw [e1, e2] at h
        have ha : a = t := by
          have := congrArg (List.takeWhile (· != sep)) h
          rwa [takeWhile_sep (hks a (by simp)), takeWhile_sep (hks' t (by simp))] at this
        subst ha
        have := List.append_cancel_left h
        obtain ⟨r1, r2⟩ := ih ts k k' (fun x hx => hks x (by simp [hx])) hk
          (fun x hx => hks' x (by simp [hx])) hk' (List.cons.inj this).2
        exact ⟨by rw [r1], r2⟩
  have ex : ∃ ks k, (∀ t ∈ ks, sep ∉ t) ∧ sep ∉ k ∧ s = path sep ks k := by
    induction s with
    | nil => exact ⟨[], [], by simp, by simp, rfl⟩
    | cons c s ih =>
      obtain ⟨ks, k, h1, h2, h3⟩ := ih
      by_cases hc : c = sep
      · exact ⟨[] :: ks, k, by simpa using h1, h2, by simp [path, h3, hc]⟩
      · cases ks with
        | nil => exact ⟨[], c :: k, by simp, by simp [h2, Ne.symm hc], by simp [path, h3]⟩
        | cons t ts =>
          refine ⟨(c :: t) :: ts, k, ?_, h2, by simp [path, h3]⟩
          intro x hx
          rcases List.mem_cons.1 hx with rfl | hx
          · simp only [List.mem_cons, not_or]
            exact ⟨Ne.symm hc, h1 t (by simp)⟩
          · exact h1 x (by simp [hx])
  obtain ⟨ks, k, h1, h2, h3⟩ := ex
  refine ⟨ks, k, h1, h2, h3, fun ks' k' h1' h2' h3' => uniq ks ks' k k' h1 h2 h1' h2' (h3 ▸ h3')⟩

/-- C24, dynamic values of any kind and every path: `get_nested` never throws and returns what is
found by following the components. A trailing separator adds no component, and the empty path is
the value itself. -/
theorem C24_dynamic (v : Val) (sep : UInt8) (ks : List Bytes) (k : Bytes) (hks : ∀ t ∈ ks, sep ∉ t)
    (hk : sep ∉ k) : v.getNested (path sep ks k) sep = .ok (follow v (components ks k)) := by
  unfold Val.getNested
  induction ks generalizing v with
  | nil =>
    by_cases he : k = []
    · subst he; simp [path, components, nestedLoop, follow]
    · rw [show path sep [] k = k by simp [path], nestedLoop_last hk he]
      simp only [components, he, if_false, List.nil_append]
      cases v <;> try rfl
      rename_i fs
      rw [get_object, follow_step]
      rfl
  | cons t ts ih =>
    rw [show path sep (t :: ts) k = t ++ sep :: path sep ts k by simp [path],
      nestedLoop_sep (hks t (by simp))]
    rw [show components (t :: ts) k = t :: components ts k by unfold components; split <;> simp]
    cases v <;> try rfl
    rename_i fs
    rw [get_object, follow_step]
    exact ih _ fun x hx => hks x (by simp [hx])

/-- Following keys one by one with the buffer's own `get`; null when the value is not an object. -/
def followBuf (signed : Bool) (null : Buf) : Buf → List Bytes → Res Buf
  | b, [] => .ok b
  | b, k :: ks => if b.getType = .object then (b.get signed k).bind fun b' => followBuf signed null b' ks else .ok null

/-- C24, finalized values of any kind, any keys, any path: `get_nested` gives what following the
components with `get` gives. -/
theorem C24_finalized_follows_get (signed : Bool) (b : Buf) (sep : UInt8) (ks : List Bytes) (k : Bytes)
    (hks : ∀ t ∈ ks, sep ∉ t) (hk : sep ∉ k) :
    b.getNested signed (path sep ks k) sep = followBuf signed (b.sub (.null, none)) b (components ks k) := by
  have ht : ∀ b : Buf, (b.type == .object) = decide (b.getType = .object) := by
    intro b; unfold Buf.getType; cases b.type <;> rfl
  unfold Buf.getNested
  simp only [ht]
  generalize b.sub (.null, none) = null
  induction ks generalizing b with
  | nil =>
    by_cases he : k = []
    · subst he; simp [path, components, nestedLoop, followBuf]
    · rw [show path sep [] k = k by simp [path], nestedLoop_last hk he]
      simp only [components, he, if_false, List.nil_append, followBuf, decide_eq_true_eq]
  | cons t ts ih =>
    rw [show path sep (t :: ts) k = t ++ sep :: path sep ts k by simp [path],
      nestedLoop_sep (hks t (by simp)),
      show components (t :: ts) k = t :: components ts k by unfold components; split <;> simp]
    simp only [followBuf, decide_eq_true_eq]
    congr 1
    congr 1
    funext b'
    exact ih b' fun x hx => hks x (by simp [hx])

/-- C24, finalized values, partial: the same as for dynamic values, as long as all keys are ones that lookups in finalized objects
find (C02: no NUL bytes, at most 255 bytes, first two bytes below 0x80 if `char` is signed). -/
theorem C24_finalized_partial (signed : Bool) (v : Val) (m : Bytes) (hw : v.WF) (h : finalize v = .ok m)
    (hp : v.PlainKeys signed) (sep : UInt8) (ks : List Bytes) (k : Bytes) (hks : ∀ t ∈ ks, sep ∉ t)
    (hk : sep ∉ k) : ∃ b', (Buf.ofBytes m).getNested signed (path sep ks k) sep = .ok b' ∧
      b'.value = some (follow v (components ks k)) := by
  obtain ⟨b', h1, h2⟩ := nestedLoop_shows (shows_null (Buf.ofBytes m) none) sep k hk ks (shows_root hw h) hw hp hks
  exact ⟨b', h1, h2.value⟩

/-- C24: the dynamic and the finalized form give the same answer for every path. -/
theorem C24_representations_agree_partial (signed : Bool) (v : Val) (m : Bytes) (hw : v.WF) (h : finalize v = .ok m)
    (hp : v.PlainKeys signed) (sep : UInt8) (s : Bytes) :
    ∃ b' w, (Buf.ofBytes m).getNested signed s sep = .ok b' ∧ v.getNested s sep = .ok w ∧ b'.value = some w := by
  obtain ⟨ks, k, h1, h2, rfl, _⟩ := C24_every_string_is_a_path sep s
  obtain ⟨b', h3, h4⟩ := C24_finalized_partial signed v m hw h hp sep ks k h1 h2
  exact ⟨b', _, h3, C24_dynamic v sep ks k h1 h2, h4⟩

/-- C24: a trailing separator is ignored, so the value under an empty last key is not reached:
`{"a": {"": 1}}` with path `"a."` gives the inner object. -/
theorem C24_trailing_separator : Val.getNested (.obj [([97], .obj [([], .int 1)])]) [97, 46] 46 =
    .ok (.obj [([], .int 1)]) := by
  have := C24_dynamic (.obj [([97], .obj [([], .int 1)])]) 46 [[97]] [] (by simp) (by simp)
  simpa [path, components, follow, lookup] using this

/-- Non-vacuity: "cc.k" in the sample, dynamic and finalized, and a path through a non-object. -/
example : Val.getNested sample [99, 99, 46, 107] 46 = .ok (.dec 0x3fe0000000000000) ∧
    Val.getNested sample [97, 46, 107] 46 = .ok .null := by
  constructor
  · have := C24_dynamic sample 46 [[99, 99]] [107] (by simp) (by simp)
    simpa [path, components, follow, lookup, sample] using this
  · have := C24_dynamic sample 46 [[97]] [107] (by simp) (by simp)
    simpa [path, components, follow, lookup, sample] using this

example : sample.PlainKeys true := by
  simp [sample, Val.PlainKeys, PlainFields, PlainElems, PlainKey]

end Dart.Props
