import Verif.Lemmas.Reach

/-
Copies of values present in memory, with whatever is between their parts.
-/
namespace Dart

variable {z : Bool}

/-- From `p` on, for `n` bytes, `m` has what `m'` has from `p'` on. -/
def Copied (m : Bytes) (p : Nat) (m' : Bytes) (p' n : Nat) : Prop :=
  ∀ q k, q + k ≤ n → readBytes m' (p' + q) k = readBytes m (p + q) k

theorem HasBytes.shift {m m' bs : Bytes} {p p' n a q : Nat} (h : HasBytes m a bs) (hc : Copied m p m' p' n)
    (ha : a = p + q) (hn : q + bs.length ≤ n) : HasBytes m' (p' + q) bs := by
  subst ha
  exact (hc q _ hn).trans h

theorem Copied.sub {m m' : Bytes} {p p' n q k : Nat} (hc : Copied m p m' p' n) (h : q + k ≤ n) :
    Copied m (p + q) m' (p' + q) k := by
  intro r l hl
  rw [Nat.add_assoc, Nat.add_assoc]
  exact hc (q + r) l (by omega)

mutual
theorem Stored.shift : ∀ (v : Val) {m m' : Bytes} {p p' : Nat}, Stored m p v → p' + sizeVal v ≤ m'.length →
    Copied m p m' p' (sizeVal v) → Stored m' p' v
  | .obj fs, m, m', p, p', h, hl, hc => by
    have h1 := le_fieldsEnd (8 + 8 * fs.length) fs
    have h2 := le_alignUp (fieldsEnd (8 + 8 * fs.length) fs) (a := 8) (by decide)
    have hs : sizeVal (.obj fs) = alignUp (fieldsEnd (8 + 8 * fs.length) fs) 8 := by simp [sizeVal]
    simp only [Stored] at h ⊢
    exact ⟨by simpa using h.1.shift (q := 0) hc rfl (by simp; omega), h.2.1.shift hc rfl (by simp; omega),
      StoredFields.shift fs h.2.2.1 hl hc (by omega) (by omega), hl⟩
  | .arr es, m, m', p, p', h, hl, hc => by
    have h1 := le_elemsEnd (8 + 8 * es.length) es
    have hs : sizeVal (.arr es) = elemsEnd (8 + 8 * es.length) es := by simp [sizeVal]
    simp only [Stored] at h ⊢
    exact ⟨by simpa using h.1.shift (q := 0) hc rfl (by simp; omega), h.2.1.shift hc rfl (by simp; omega),
      StoredElems.shift es h.2.2.1 hl hc (by omega) (by omega), hl⟩
  | .str s, m, m', p, p', h, hl, hc => by
    simp only [Stored, sizeVal] at h hc ⊢; simpa using h.shift (q := 0) hc rfl (by simp)
  | .int i, m, m', p, p', h, hl, hc => by
    simp only [Stored, sizeVal] at h hc ⊢; simpa using h.shift (q := 0) hc rfl (by omega)
  | .dec d, m, m', p, p', h, hl, hc => by
    simp only [Stored, sizeVal] at h hc ⊢; simpa using h.shift (q := 0) hc rfl (by omega)
  | .bool b, m, m', p, p', h, hl, hc => by
    simp only [Stored, sizeVal] at h hc ⊢; simpa using h.shift (q := 0) hc rfl (by simp)
  | .null, m, m', p, p', h, hl, hc => by simp only [Stored, sizeVal] at h hl ⊢; omega
theorem StoredFields.shift : ∀ (fs : List (Bytes × Val)) {m m' : Bytes} {b b' idx off n : Nat},
    StoredFields m b idx off fs → b' + n ≤ m'.length → Copied m b m' b' n → fieldsEnd off fs ≤ n →
    8 + 8 * (idx + fs.length) ≤ n → StoredFields m' b' idx off fs
  | [], m, m', b, b', idx, off, n, h, hl, hc, hn, hi => by simp [StoredFields]
  | (k, v) :: fs, m, m', b, b', idx, off, n, h, hl, hc, hn, hi => by
    have h1 := le_alignUp off (a := 2) (by decide)
    have h2 := le_alignUp (alignUp off 2 + strSize k) (align_pos v.rawType)
    have h3 := le_fieldsEnd (valOff off k v + sizeVal v) fs
    simp only [StoredFields, fieldsEnd, List.length_cons] at h hn hi ⊢
    simp only [keyOff, valOff] at *
    refine ⟨?_, ?_, ?_, ?_⟩
    · have := h.1.shift (q := 8 + 8 * idx) hc (by omega) (by simp; omega)
      rwa [← Nat.add_assoc] at this
    · exact h.2.1.shift hc rfl (by simp; omega)
    · exact Stored.shift v h.2.2.1 (by omega) (hc.sub (by omega))
    · exact StoredFields.shift fs h.2.2.2 hl hc (by omega) (by omega)
theorem StoredElems.shift : ∀ (es : List Val) {m m' : Bytes} {b b' idx off n : Nat},
    StoredElems m b idx off es → b' + n ≤ m'.length → Copied m b m' b' n → elemsEnd off es ≤ n →
    8 + 8 * (idx + es.length) ≤ n → StoredElems m' b' idx off es
  | [], m, m', b, b', idx, off, n, h, hl, hc, hn, hi => by simp [StoredElems]
  | v :: es, m, m', b, b', idx, off, n, h, hl, hc, hn, hi => by
    have h2 := le_alignUp off (align_pos v.rawType)
    have h3 := le_elemsEnd (alignUp off v.rawType.align + sizeVal v) es
    simp only [StoredElems, elemsEnd, List.length_cons] at h hn hi ⊢
    refine ⟨?_, ?_, ?_⟩
    · have := h.1.shift (q := 8 + 8 * idx) hc (by omega) (by simp; omega)
      rwa [← Nat.add_assoc] at this
    · exact Stored.shift v h.2.1 (by omega) (hc.sub (by omega))
    · exact StoredElems.shift es h.2.2 hl hc (by omega) (by omega)
end

/-- Bytes that stand for a value; if `z` is set, with all padding zero. -/
def Image (z : Bool) (v : Val) (bs : Bytes) : Prop :=
  bs.length = sizeVal v ∧ Stored bs 0 v ∧ (z = true → bs = enc v)

theorem readBytes_at {m : Bytes} {p n : Nat} (h : p + n ≤ m.length) :
    readBytes m p n = some ((m.drop p).take n) := if_pos h

theorem copied_part {X bs Y : Bytes} {p : Nat} (hX : X.length = p) :
    Copied bs 0 (X ++ (bs ++ Y)) p bs.length ∧ Copied (X ++ (bs ++ Y)) p bs 0 bs.length := by
  have : ∀ q k, q + k ≤ bs.length → readBytes (X ++ (bs ++ Y)) (p + q) k = readBytes bs (0 + q) k := by
    intro q k h
    rw [readBytes_at (by simp; omega), readBytes_at (by omega)]
    congr 1
    rw [← List.drop_drop, ← hX, List.drop_left, List.drop_append_of_le_length (by omega),
      List.take_append_of_le_length (by simp; omega), Nat.zero_add]
  exact ⟨this, fun q k h => (this q k h).symm⟩

theorem Image.at {v : Val} {X bs Y : Bytes} {p : Nat} (h : Image z v bs) (hX : X.length = p) (ha : v.rawType.align ∣ p)
    (hw : v.WF) (hf : Fits v) : At z (X ++ (bs ++ Y)) p v := by
  obtain ⟨h1, h2, h3⟩ := h
  refine ⟨Stored.shift v h2 (by simp; omega) ?_, fun e => ?_, ha, hw, hf⟩
  · rw [← h1]; exact (copied_part hX).1
  · rw [← h3 e]; exact hasBytes_iff.2 ⟨X, Y, rfl, hX⟩

theorem At.image {m : Bytes} {p : Nat} {v : Val} (h : At z m p v) :
    ∃ bs, readBytes m p (sizeVal v) = some bs ∧ Image z v bs := by
  have hl := h.size_le
  obtain ⟨h1, h2, _⟩ := h
  refine ⟨_, readBytes_at hl, ?_⟩
  have hlen : ((m.drop p).take (sizeVal v)).length = sizeVal v := by simp; omega
  have hm : m = m.take p ++ ((m.drop p).take (sizeVal v) ++ (m.drop p).drop (sizeVal v)) := by
    rw [List.take_append_drop, List.take_append_drop]
  have hp : (m.take p).length = p := by simp; omega
  refine ⟨hlen, Stored.shift v h1 (by omega) ?_, fun e => ?_⟩
  · have := (copied_part (bs := (m.drop p).take (sizeVal v)) (Y := (m.drop p).drop (sizeVal v)) hp).2
    rw [← hm, hlen] at this
    exact this
  · have := h2 e
    unfold HasBytes at this
    rw [enc_length, readBytes_at hl] at this
    exact Option.some.inj this

theorem Image.enc {v : Val} (hf : Fits v) : Image z v (enc v) := by
  refine ⟨enc_length v, ?_, fun _ => rfl⟩
  have := stored_enc (v := v) (X := []) (Y := []) (p := 0) rfl (Nat.dvd_zero _) hf
  simpa using this

theorem Image.str {s bs : Bytes} (h : Image z (.str s) bs) : bs = encStr s := by
  obtain ⟨h1, h2, _⟩ := h
  simp only [Stored] at h2
  simp only [sizeVal] at h1
  unfold HasBytes at h2
  rw [readBytes_at (by rw [encStr_length]; omega)] at h2
  have := Option.some.inj h2
  rw [List.drop_zero, List.take_of_length_le (by rw [encStr_length]; omega)] at this
  exact this

/-- The fields of an object with given images of their values. -/
def encFieldsW : Nat → List ((Bytes × Val) × Bytes) → Bytes
  | _, [] => []
  | off, ((k, v), bs) :: is =>
    zeros (keyOff off - off) ++ (encStr k ++ (zeros (valOff off k v - (keyOff off + strSize k)) ++
      (bs ++ encFieldsW (valOff off k v + sizeVal v) is)))

theorem encFieldsW_enc (is : List ((Bytes × Val) × Bytes)) (h : ∀ i ∈ is, i.2 = Dart.enc i.1.2) : ∀ off,
    encFieldsW off is = encFields off (is.map (·.1)) := by
  induction is with
  | nil => intro off; rfl
  | cons i is ih =>
    intro off
    obtain ⟨⟨k, v⟩, bs⟩ := i
    have hb := h _ (List.mem_cons_self)
    simp only at hb
    simp only [encFieldsW, List.map_cons, encFields, ih (fun i hi => h i (List.mem_cons_of_mem _ hi)), hb]

theorem encFieldsW_length (is : List ((Bytes × Val) × Bytes)) (h : ∀ i ∈ is, i.2.length = sizeVal i.1.2) : ∀ off,
    off + (encFieldsW off is).length = fieldsEnd off (is.map (·.1)) := by
  induction is with
  | nil => intro off; rfl
  | cons i is ih =>
    intro off
    obtain ⟨⟨k, v⟩, bs⟩ := i
    have hb := h _ (List.mem_cons_self)
    have hk := le_alignUp off (a := 2) (by decide)
    have hv := le_alignUp (alignUp off 2 + strSize k) (align_pos v.rawType)
    have := ih (fun i hi => h i (List.mem_cons_of_mem _ hi)) (valOff off k v + sizeVal v)
    simp only at hb
    simp only [encFieldsW, List.map_cons, fieldsEnd, List.length_append, zeros_length, encStr_length]
    simp only [valOff, keyOff] at *
    omega

theorem storedFields_of {is : List ((Bytes × Val) × Bytes)} : (∀ i ∈ is, Image z i.1.2 i.2) →
    ∀ {m P D R : Bytes} {base idx off : Nat},
    m = P ++ (encEntries off (is.map (·.1)) ++ (D ++ (encFieldsW off is ++ R))) → P.length = base + 8 + 8 * idx →
    base + off = P.length + 8 * is.length + D.length → StoredFields m base idx off (is.map (·.1)) := by
  induction is with
  | nil => intro _ m P D R base idx off hm hP hD; simp [StoredFields]
  | cons i is ih =>
    intro hi m P D R base idx off hm hP hD
    obtain ⟨⟨k, v⟩, bs⟩ := i
    have him := hi _ (List.mem_cons_self)
    simp only at him
    have hk := le_alignUp off (a := 2) (by decide)
    have hv := le_alignUp (alignUp off 2 + strSize k) (align_pos v.rawType)
    simp only [List.map_cons, encEntries, encFieldsW, List.append_assoc, List.length_cons] at hm hD
    simp only [List.map_cons, StoredFields]
    refine ⟨?_, ?_, ?_, ?_⟩
    · exact hasBytes_iff.2 ⟨P, _, hm, hP⟩
    · refine hasBytes_iff.2 ⟨P ++ (objEntry v.rawType (keyOff off) (cstr k) ++ (encEntries (valOff off k v + sizeVal v) (is.map (·.1)) ++
        (D ++ zeros (keyOff off - off)))), _, by rw [hm]; simp only [List.append_assoc]; rfl, ?_⟩
      simp only [List.length_append, objEntry_length, encEntries_length, zeros_length, List.length_map]
      simp only [keyOff]; omega
    · have hm' : m = (P ++ (objEntry v.rawType (keyOff off) (cstr k) ++ (encEntries (valOff off k v + sizeVal v) (is.map (·.1)) ++
        (D ++ (zeros (keyOff off - off) ++ (encStr k ++ zeros (valOff off k v - (keyOff off + strSize k)))))))) ++
          (bs ++ (encFieldsW (valOff off k v + sizeVal v) is ++ R)) := by
        rw [hm]; simp only [List.append_assoc]
      rw [hm']
      refine Stored.shift v him.2.1 ?_ ?_
      · simp only [List.length_append, objEntry_length, encEntries_length, zeros_length, List.length_map, encStr_length, him.1]
        simp only [valOff, keyOff]; omega
      · rw [← him.1]
        refine (copied_part ?_).1
        simp only [List.length_append, objEntry_length, encEntries_length, zeros_length, List.length_map, encStr_length]
        simp only [valOff, keyOff]; omega
    · refine ih (fun i h => hi i (List.mem_cons_of_mem _ h))
        (P := P ++ objEntry v.rawType (keyOff off) (cstr k))
        (D := D ++ (zeros (keyOff off - off) ++ (encStr k ++ (zeros (valOff off k v - (keyOff off + strSize k)) ++ bs))))
        (R := R) ?_ ?_ ?_
      · rw [hm]; simp only [List.append_assoc]
      · simp only [List.length_append, objEntry_length]; omega
      · simp only [List.length_append, objEntry_length, zeros_length, encStr_length, him.1]
        simp only [valOff, keyOff]; omega

/-- An object put together from images of its values. -/
theorem Image.obj {is : List ((Bytes × Val) × Bytes)} (h : ∀ i ∈ is, Image z i.1.2 i.2) :
    Image z (.obj (is.map (·.1))) (leBytes 4 (sizeVal (.obj (is.map (·.1)))) ++ (leBytes 4 is.length ++
      (encEntries (8 + 8 * is.length) (is.map (·.1)) ++ (encFieldsW (8 + 8 * is.length) is ++
        zeros (sizeVal (.obj (is.map (·.1))) - fieldsEnd (8 + 8 * is.length) (is.map (·.1))))))) := by
  have hle := le_alignUp (fieldsEnd (8 + 8 * is.length) (is.map (·.1))) (a := 8) (by decide)
  have hge := le_fieldsEnd (8 + 8 * is.length) (is.map (·.1))
  have hlen := encFieldsW_length is (fun i hi => (h i hi).1) (8 + 8 * is.length)
  have hs : sizeVal (.obj (is.map (·.1))) = alignUp (fieldsEnd (8 + 8 * is.length) (is.map (·.1))) 8 := by
    simp [sizeVal]
  have hL : (leBytes 4 (sizeVal (.obj (is.map (·.1)))) ++ (leBytes 4 is.length ++
      (encEntries (8 + 8 * is.length) (is.map (·.1)) ++ (encFieldsW (8 + 8 * is.length) is ++
        zeros (sizeVal (.obj (is.map (·.1))) - fieldsEnd (8 + 8 * is.length) (is.map (·.1))))))).length =
      sizeVal (.obj (is.map (·.1))) := by
    simp only [List.length_append, leBytes_length, encEntries_length, List.length_map, zeros_length]
    omega
  refine ⟨hL, ?_, fun e => ?_⟩
  · simp only [Stored, List.length_map]
    generalize sizeVal (.obj (is.map (·.1))) = S at *
    refine ⟨hasBytes_iff.2 ⟨[], _, (List.nil_append _).symm, rfl⟩, hasBytes_iff.2 ⟨leBytes 4 S, _, rfl, leBytes_length _ _⟩, ?_, ?_⟩
    · exact storedFields_of h (P := leBytes 4 S ++ leBytes 4 is.length) (D := [])
        (R := zeros (S - fieldsEnd (8 + 8 * is.length) (is.map (·.1))))
        (by simp only [List.append_assoc, List.nil_append]) (by simp) (by simp)
    · rw [hL]; omega
  · rw [encFieldsW_enc is (fun i hi => (h i hi).2.2 e)]
    simp only [Dart.enc, List.length_map]

theorem choose_images {α β : Type} {P : α → β → Prop} (xs : List α) (h : ∀ x ∈ xs, ∃ b, P x b) :
    ∃ ys : List (α × β), ys.map (·.1) = xs ∧ ∀ y ∈ ys, P y.1 y.2 := by
  induction xs with
  | nil => exact ⟨[], rfl, by simp⟩
  | cons x xs ih =>
    obtain ⟨b, hb⟩ := h x (List.mem_cons_self)
    obtain ⟨ys, h1, h2⟩ := ih (fun x hx => h x (List.mem_cons_of_mem _ hx))
    exact ⟨(x, b) :: ys, by simp [h1], fun y hy => by
      rcases List.mem_cons.1 hy with rfl | hy
      · exact hb
      · exact h2 y hy⟩

end Dart
