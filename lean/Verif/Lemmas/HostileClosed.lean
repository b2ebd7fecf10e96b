import Verif.Lemmas.HostileLaid

/-
What `project` and merging make of validated objects is valid again, and holds the right fields.
-/
namespace Dart
open Spec

/-! ### The object in memory -/

theorem Laid.ends {m : Bytes} : ∀ (es : List Entry) {idx off : Nat}, Laid m idx off es → es ≠ [] → endsAt off es ≤ m.length
  | [], _, _, _, h => absurd rfl h
  | [e], _, _, h, _ => by
    obtain ⟨_, _, _, h, _⟩ := h
    simp only [endsAt]
    unfold readBytes at h
    split at h
    · assumption
    · cases h
  | _ :: e :: es, _, _, h, _ => by
    obtain ⟨_, _, _, _, h⟩ := h
    exact Laid.ends (e :: es) h (by simp)

theorem Entry.len (e : Entry) : readU e.kb 2 0 = some e.key.length := by
  have h := e.kstr
  unfold strv at h
  simp only [strWidth, Option.bind_eq_bind, Option.bind_eq_some_iff] at h
  obtain ⟨n, h1, h2⟩ := h
  rw [h1, readBytes_length h2]

theorem table_align (t : RawType) : t.forTable.align = t.align := by cases t <;> rfl

theorem forTable_valid (m : Bytes) (f : Nat) (t : RawType) (p b : Nat) : validBuffer m f t.forTable p b = validBuffer m f t p b := by
  cases f <;> cases t <;> rfl

theorem forTable_decode (m : Bytes) (f : Nat) (t : RawType) (p : Nat) : decode f m t.forTable p = decode f m t p := by
  cases f <;> cases t <;> rfl

/-- One field, as it is found by index. -/
structure FieldAt (m : Bytes) (i : Nat) (e : Entry) (a v : Nat) : Prop where
  keyAt : loadKey m 0 i = some a
  keyStr : LiesIn e.kb m a
  even : 2 ∣ a
  value : loadValue m 0 i = some (e.type.forTable, v)
  bytes : LiesIn e.vb m v
  aligned : e.type.align ∣ v
  order : a + e.kb.length ≤ v
  bound : v + e.vb.length ≤ m.length

theorem fieldAt_of {m : Bytes} {i off : Nat} {e : Entry} (h1 : entOff m 0 i = some (alignUp off 2)) (h2 : entType m 0 i = some e.type.forTable)
    (h3 : readBytes m (alignUp off 2) e.kb.length = some e.kb)
    (h4 : readBytes m (alignUp (alignUp off 2 + e.kb.length) e.type.align) e.vb.length = some e.vb) :
    FieldAt m i e (alignUp off 2) (alignUp (alignUp off 2 + e.kb.length) e.type.align) where
  keyAt := by unfold loadKey; rw [h1]; simp
  keyStr := LiesIn.of_read h3
  even := dvd_alignUp _ _
  value := by
    have := loadValue_of h1 h2 (len := e.key.length) (by rw [Nat.zero_add]; exact (LiesIn.of_read h3).readU' (q := 0) (by omega) e.len)
    rw [this, table_align, e.klen]
    simp only [Nat.zero_add, Nat.add_comm 2]
  bytes := LiesIn.of_read h4
  aligned := dvd_alignUp _ _
  order := le_alignUp _ (align_pos _)
  bound := by
    unfold readBytes at h4
    split at h4
    · assumption
    · cases h4

theorem Laid.at {m : Bytes} : ∀ (es : List Entry) {idx off i : Nat} {e : Entry}, Laid m idx off es → es[i]? = some e →
    ∃ a v, FieldAt m (idx + i) e a v ∧ off ≤ a
  | [], _, _, i, _, _, h => by simp at h
  | d :: es, idx, off, 0, e, h, he => by
    simp at he; subst he
    obtain ⟨h1, h2, h3, h4, _⟩ := h
    exact ⟨_, _, fieldAt_of h1 h2 h3 h4, le_alignUp _ (by decide)⟩
  | d :: es, idx, off, i + 1, e, h, he => by
    obtain ⟨_, _, _, _, h⟩ := h
    obtain ⟨a, v, h1, h2⟩ := Laid.at es (i := i) h (by simpa using he)
    have g1 := le_alignUp off (a := 2) (by decide)
    have g2 := le_alignUp (alignUp off 2 + d.kb.length) (align_pos d.type)
    exact ⟨a, v, by rw [show idx + (i + 1) = idx + 1 + i by omega]; exact h1, by omega⟩

/-- The fields pass the check, if none of them is null. -/
theorem laid_valid {m : Bytes} {F total : Nat} : ∀ (es : List Entry) {idx off prev : Nat}, Laid m idx off es → prev < alignUp off 2 →
    endsAt off es ≤ total → total ≤ F → 0 < off → (∀ e ∈ es, 0 < e.vb.length) →
    validFields (validBuffer m F) m 0 total es.length idx prev = .ok true
  | [], _, _, _, _, _, _, _, _, _ => rfl
  | e :: es, idx, off, prev, h, hp, ht, hF, hoff, hn => by
    obtain ⟨h1, h2, h3, h4, h5⟩ := h
    have hf := fieldAt_of h1 h2 h3 h4
    have g1 := le_alignUp off (a := 2) (by decide)
    simp only [endsAt] at ht
    have g3 := le_endsAt es (alignUp (alignUp off 2 + e.kb.length) e.type.align + e.vb.length)
    generalize alignUp off 2 = a at *
    generalize alignUp (a + e.kb.length) e.type.align = v at *
    have hnv := hn e (by simp)
    have hk := e.klen
    have ho := hf.order
    simp only [List.length_cons, validFields, rd_bind_true, Verdict.and_true, childAddr_true]
    refine ⟨a, hf.keyAt, ⟨by omega, hp, hf.even⟩, ?_, (e.type.forTable, v), hf.value, ⟨by dsimp only; omega, by dsimp only; omega, ?_⟩, ?_, ?_⟩
    · exact validBuffer_fuel m (show e.kb.length + 1 ≤ F by omega) _ _ _ _ (hf.keyStr.valid_any (t := .string) hf.even (by omega) e.kvalid)
    · dsimp only; rw [table_align]; exact hf.aligned
    · dsimp only
      rw [forTable_valid]
      exact validBuffer_fuel m (show e.vb.length + 1 ≤ F by omega) _ _ _ _ (hf.bytes.valid_any hf.aligned (by omega) e.vvalid)
    · exact laid_valid es h5 (by have := le_alignUp (v + e.vb.length) (a := 2) (by decide); omega) (by omega) hF (by omega)
        (fun d hd => hn d (by simp [hd]))

theorem typesValid_all {m : Bytes} : ∀ n, (∀ i, i < n → ∃ t, entType m 0 i = some t) → typesValid m 0 n = .ok true
  | 0, _ => rfl
  | n + 1, h => by
    unfold typesValid
    simp only [Verdict.and_true, check_true, rd_bind_true]
    refine ⟨typesValid_all n fun i hi => h i (by omega), ?_⟩
    obtain ⟨t, ht⟩ := h n (by omega)
    unfold entType at ht
    rw [Option.bind_eq_some_iff] at ht
    obtain ⟨c, h1, h2⟩ := ht
    exact ⟨c, h1, by rw [h2]; rfl⟩

/-- An object laid out in memory of its own. -/
structure Stored' (m : Bytes) (es : List Entry) : Prop where
  count : numElems m 0 = some es.length
  size : readU m 4 0 = some (alignUp (endsAt (8 + 8 * es.length) es) 8)
  room : alignUp (endsAt (8 + 8 * es.length) es) 8 ≤ m.length
  laid : Laid m 0 (8 + 8 * es.length) es

theorem Stored'.accepted {m : Bytes} {es : List Entry} (h : Stored' m es) (hn : ∀ e ∈ es, 0 < e.vb.length) : accepts m := by
  have g1 := le_endsAt es (8 + 8 * es.length)
  have g2 := le_alignUp (endsAt (8 + 8 * es.length) es) (a := 8) (by decide)
  have hr := h.room
  unfold accepts isValid validBuffer
  refine validTable_true.2 ⟨by omega, _, h.size, hr, _, h.count, by omega, typesValid_all _ fun i hi => ?_, ?_⟩
  · obtain ⟨a, v, hf, _⟩ := h.laid.at es (i := i) (e := es[i]) (List.getElem?_eq_getElem hi)
    obtain ⟨_, _, ht, _⟩ := loadValue_inv hf.value
    exact ⟨_, by rw [Nat.zero_add] at ht; exact ht⟩
  · exact laid_valid es h.laid (by have := le_alignUp (8 + 8 * es.length) (a := 2) (by decide); omega) g2 hr (by omega) hn

theorem Stored'.shows {m : Bytes} {es : List Entry} (h : Stored' m es) : IterShows (Buf.ofBytes m) (es.map fun e => (e.key, e.val)) where
  count := by simp [Buf.size, Buf.ofBytes, Res.ofRead, Res.bind, h.count]
  field := fun i f hf => by
    rw [List.getElem?_map, Option.map_eq_some_iff] at hf
    obtain ⟨e, he, rfl⟩ := hf
    obtain ⟨a, v, hf, hle⟩ := h.laid.at es (i := i) he
    rw [Nat.zero_add] at hf
    refine ⟨⟨(Buf.ofBytes m).sub (.string, some a), ?_, ?_⟩, (Buf.ofBytes m).sub (e.type.forTable, some v), ?_, ?_⟩
    · simp [Buf.keyAt, Buf.object, Buf.ofBytes, Res.ofRead, Res.bind, hf.keyAt]
    · have := hf.keyStr.strv e.kstr
      rw [Nat.add_zero] at this
      simp [Buf.strv, Buf.sub, Buf.ofBytes, Res.ofRead, Res.bind, this]
    · simp [Buf.valueAt, Buf.ofBytes, Res.ofRead, Res.bind, hf.value]
    · have hd := hf.bytes.decode_any hf.aligned e.vval
      have hb := hf.bound
      have ho := hf.order
      have hd' := decode_out m _ (m.length + 1) _ _ _ (by omega) hd
      rw [← forTable_decode] at hd'
      simp only [Buf.value, Buf.sub, Buf.ofBytes]
      generalize e.type.forTable = t at hd' ⊢
      cases t <;> first | exact hd' | (simp only [decode] at hd' ⊢; exact hd')

theorem objectFromCopies_stored {es : List Entry} {guess n : Nat} {m : Bytes}
    (h : objectFromCopies guess (es.map (·.src)) (zeros n) = some m) (h8 : 8 ∣ n) (hn : n < 2 ^ 32) (hl : endsAt (8 + 8 * guess) es ≤ n) :
    m.length = n ∧ Stored' m es := by
  simp only [objectFromCopies, Option.bind_eq_bind, Option.bind_eq_some_iff, List.length_map, List.map_map] at h
  obtain ⟨m0, w0, ⟨m1, off⟩, w1, m2, w2, ⟨m3, off'⟩, w3, w4⟩ := h
  dsimp only at w2 w3 w4
  have hg : es.length ≤ guess := by
    split at w3
    · refine Nat.le_of_not_lt fun hlt => ?_
      simp [realign, hlt] at w3
    · omega
  obtain ⟨e1, e2, e3, e4, e5⟩ := writeFields_laid es (m' := m1) (off' := off) w1 (by omega) (by omega)
  have hle := le_endsAt es (8 + 8 * guess)
  have l0 := writeBytes_some_length w0
  have l2 := writeBytes_some_length w2
  have l4 := writeBytes_some_length w4
  have hz : (zeros n).length = n := by simp [zeros]
  have hw2 : (leBytes 4 es.length).length = 4 := leBytes_length _ _
  have k2 : ∀ b, Kept m1 m2 8 b := fun b => kept_write w2 (.inr (by omega))
  have e3' : Laid m2 0 (8 + 8 * guess) es := e3.kept es ((k2 _).sub (by omega) (Nat.le_refl _)) ((k2 _).sub (by omega) (Nat.le_refl _))
  have hc2 : numElems m2 0 = some es.length := by
    have := readU_write w2
    unfold numElems
    rw [show 0 + 4 = 4 from rfl, this]
    congr 1
    exact Nat.mod_eq_of_lt (by omega)
  -- after closing the gap
  have mid : m3.length = n ∧ Laid m3 0 (8 + 8 * es.length) es ∧ off' = endsAt (8 + 8 * es.length) es ∧ numElems m3 0 = some es.length := by
    split at w3
    · obtain ⟨r1, r2, r3, r4, _⟩ := realign_laid w3 e3' e1
      refine ⟨by omega, r1, r2, ?_⟩
      unfold numElems at hc2 ⊢
      rw [r4.readU (by omega) (by omega)]; exact hc2
    · rename_i he
      have he : es.length = guess := by omega
      cases w3
      exact ⟨by omega, by rw [he]; exact e3', by rw [he]; exact e1, hc2⟩
  obtain ⟨l3, laid, ho, hc⟩ := mid
  subst ho
  have hsh : endsAt (8 + 8 * es.length) es ≤ n := by
    have := endsAt_shift es (s := 8 * (guess - es.length)) ⟨_, rfl⟩ (8 + 8 * es.length)
    rw [show 8 + 8 * es.length + 8 * (guess - es.length) = 8 + 8 * guess by omega] at this
    omega
  have hpad : alignUp (endsAt (8 + 8 * es.length) es) 8 ≤ n := alignUp_le_of_dvd (by decide) h8 hsh
  have hw4 : (leBytes 4 (alignUp (endsAt (8 + 8 * es.length) es) 8)).length = 4 := leBytes_length _ _
  have w4' : writeBytes m3 0 (leBytes 4 (alignUp (endsAt (8 + 8 * es.length) es) 8)) = some m := w4
  have k4 : ∀ b, Kept m3 m 4 b := fun b => kept_write w4' (.inr (by omega))
  have l4 := writeBytes_some_length w4'
  refine ⟨by omega, ⟨?_, ?_, by omega, laid.kept es ((k4 _).sub (by omega) (Nat.le_refl _)) ((k4 _).sub (by omega) (Nat.le_refl _))⟩⟩
  · unfold numElems at hc ⊢
    rw [(k4 8).readU (by omega) (by omega)]; exact hc
  · rw [readU_write w4']
    congr 1
    exact Nat.mod_eq_of_lt (by omega)

end Dart
