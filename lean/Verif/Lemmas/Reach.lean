import Verif.Lemmas.Decode

/-
Elements reachable in a finalized buffer by iteration.
-/
namespace Dart

variable {z : Bool}

/-- `v` is present at address `p` of `m`; if `z` is set, with all padding zero. -/
def At (z : Bool) (m : Bytes) (p : Nat) (v : Val) : Prop :=
  Stored m p v ∧ (z = true → HasBytes m p (enc v)) ∧ v.rawType.align ∣ p ∧ v.WF ∧ Fits v

theorem HasBytes.obj_val {m : Bytes} {p : Nat} {a b : List (Bytes × Val)} {k : Bytes} {v : Val}
    (h : HasBytes m p (enc (.obj (a ++ (k, v) :: b)))) : HasBytes m (p + valOff (objStart a b) k v) (enc v) := by
  obtain ⟨X, Y, rfl, rfl⟩ := hasBytes_iff.1 h
  exact hasBytes_iff.2 (obj_val_at a b k v X Y)

theorem HasBytes.arr_val {m : Bytes} {p : Nat} {a b : List Val} {v : Val}
    (h : HasBytes m p (enc (.arr (a ++ v :: b)))) : HasBytes m (p + elemOff a b v) (enc v) := by
  obtain ⟨X, Y, rfl, rfl⟩ := hasBytes_iff.1 h
  exact hasBytes_iff.2 (arr_val_at a b v X Y)

/-- Values encoded with zero padding are present. -/
theorem At.of_bytes {m : Bytes} {p : Nat} {v : Val} (h : HasBytes m p (enc v)) (ha : v.rawType.align ∣ p) (hw : v.WF)
    (hf : Fits v) : At z m p v := by
  obtain ⟨X, Y, rfl, rfl⟩ := hasBytes_iff.1 h
  exact ⟨stored_enc rfl ha hf, fun _ => h, ha, hw, hf⟩

theorem At.forget {m : Bytes} {p : Nat} {v : Val} (h : At z m p v) : At false m p v :=
  ⟨h.1, (fun e => by cases e), h.2.2⟩

theorem At.wf {m : Bytes} {p : Nat} {v : Val} (h : At z m p v) : v.WF := h.2.2.2.1

theorem At.fits {m : Bytes} {p : Nat} {v : Val} (h : At z m p v) : Fits v := h.2.2.2.2

theorem At.obj_parts {m : Bytes} {p : Nat} {fs : List (Bytes × Val)} (h : At z m p (.obj fs)) :
    numElems m p = some fs.length ∧ 8 ∣ p ∧ fs.length < 2 ^ 29 := by
  obtain ⟨hm, hz, ha, hw, hf⟩ := h
  simp only [Fits] at hf
  have := obj_len_lt hf.1
  exact ⟨numElems_obj (by omega) hm, by simpa [Val.rawType, RawType.align] using ha, this⟩

/-- Field `i` of an encoded object. -/
theorem At.obj_field {m : Bytes} {p : Nat} {fs : List (Bytes × Val)} (h : At z m p (.obj fs)) (i : Nat)
    (hi : i < fs.length) :
    ∃ kp vp, loadKey m p i = some kp ∧ 2 ∣ kp ∧ p < kp ∧ strv m .string kp = some fs[i].1 ∧
      findSizeof m .string kp = some (strSize fs[i].1) ∧ kp + strSize fs[i].1 ≤ vp ∧
      loadValue m p i = some (fs[i].2.rawType.forTable, vp) ∧ At z m vp fs[i].2 := by
  obtain ⟨h1, h8, hlen⟩ := h.obj_parts
  obtain ⟨hm, hz, ha, hw, hf⟩ := h
  obtain ⟨e1, e2⟩ := take_split fs i hi
  have hmem : fs[i] ∈ fs := List.getElem_mem hi
  generalize hkv : fs[i] = kv at e1 hmem ⊢
  obtain ⟨k, v⟩ := kv
  have hf' := hf
  simp only [Fits, fitsFields_iff] at hf'
  simp only [Val.WF, wfFields_iff] at hw
  rw [e1] at hm hz hf
  obtain ⟨r1, r2, r3, r4, _⟩ := obj_field_reads _ _ k v m p hm h8 hf
  obtain ⟨b1, b2, b3, b4⟩ := obj_bounds (fs.take i) (fs.drop (i + 1)) k v
  rw [e2] at r1 r4
  have h2 : 2 ∣ p := Nat.dvd_trans (by decide) h8
  refine ⟨_, _, r1, (Nat.dvd_add_right h2).2 (dvd_alignUp _ _), by omega, r2, r3, by simp only; omega, r4,
    hm.obj_parts.2.2, fun e => (hz e).obj_val,
    (Nat.dvd_add_right (Nat.dvd_trans (align_dvd_eight _) h8)).2 (dvd_alignUp _ _),
    (hw.2 _ hmem).2, (hf'.2 _ hmem).2⟩

theorem At.arr_parts {m : Bytes} {p : Nat} {es : List Val} (h : At z m p (.arr es)) :
    numElems m p = some es.length ∧ 8 ∣ p ∧ es.length < 2 ^ 29 := by
  obtain ⟨hm, hz, ha, hw, hf⟩ := h
  simp only [Fits] at hf
  have := arr_len_lt hf.1
  exact ⟨numElems_arr (by omega) hm, by simpa [Val.rawType, RawType.align] using ha, this⟩

/-- Element `i` of an encoded array. -/
theorem At.arr_elem {m : Bytes} {p : Nat} {es : List Val} (h : At z m p (.arr es)) (i : Nat)
    (hi : i < es.length) :
    ∃ vp, p < vp ∧ loadElem m p i = some (es[i].rawType.forTable, vp) ∧ At z m vp es[i] := by
  obtain ⟨h1, h8, hlen⟩ := h.arr_parts
  obtain ⟨hm, hz, ha, hw, hf⟩ := h
  obtain ⟨e1, e2⟩ := take_split es i hi
  have hmem : es[i] ∈ es := List.getElem_mem hi
  generalize hkv : es[i] = v at e1 hmem ⊢
  have hf' := hf
  simp only [Fits, fitsElems_iff] at hf'
  simp only [Val.WF, wfElems_iff] at hw
  rw [e1] at hm hz hf
  simp only [Fits] at hf
  have r4 := arr_elem_reads _ _ v m p hm hf.1
  obtain ⟨b1, b2, b3⟩ := arr_bounds (es.take i) (es.drop (i + 1)) v
  rw [e2] at r4
  exact ⟨_, by omega, r4, hm.arr_parts.2, fun e => (hz e).arr_val,
    (Nat.dvd_add_right (Nat.dvd_trans (align_dvd_eight _) h8)).2 (dvd_alignUp _ _),
    hw _ hmem, hf'.2 _ hmem⟩

theorem At.size_le {m : Bytes} {p : Nat} {v : Val} (h : At z m p v) : p + sizeVal v ≤ m.length := Stored.le h.1

/-- An encoded value decodes to itself. -/
theorem At.decode {m : Bytes} {p : Nat} {v : Val} (h : At z m p v) {fuel : Nat} (hfu : sizeVal v < fuel) :
    decode fuel m v.rawType.forTable p = some v := by
  obtain ⟨hm, hz, ha, hw, hf⟩ := h
  exact decode_stored v fuel m p hm ha hw hf hfu

theorem At.root {v : Val} {m : Bytes} (hw : v.WF) (h : finalize v = .ok m) : At true m 0 v := by
  obtain ⟨fs, n, rfl, hu, rfl, h1, h2⟩ := finalize_eq_ok hw h
  exact .of_bytes (hasBytes_iff.2 ⟨[], _, rfl, rfl⟩) (Nat.dvd_zero _) hw h2

theorem enc_injective {v w : Val} (hv : v.WF) (hw : w.WF) (fv : Fits v) (fw : Fits w)
    (ht : v.rawType.forTable = w.rawType.forTable) (h : enc v = enc w) : v = w := by
  have h1 := decode_enc v (sizeVal v + sizeVal w + 1) [] [] (enc v) 0 (by simp) rfl (Nat.dvd_zero _) hv fv (by omega)
  have h2 := decode_enc w (sizeVal v + sizeVal w + 1) [] [] (enc v) 0 (by simp [h]) rfl (Nat.dvd_zero _) hw fw (by omega)
  rw [ht] at h1
  rw [h1] at h2
  exact Option.some.inj h2

end Dart
