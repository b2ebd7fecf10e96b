import Verif.Lemmas.Bound
import Verif.Lemmas.Numeric
import Verif.Lemmas.Stored
import Verif.Model.Read

/-
Where the parts of an encoded object or array are, and what the readers see there.
-/
namespace Dart

mutual
/-- Induction on values with hypotheses for all members of an aggregate. -/
theorem Val.ind {P : Val → Prop} (hnull : P .null) (hbool : ∀ b, P (.bool b)) (hint : ∀ i, P (.int i))
    (hdec : ∀ d, P (.dec d)) (hstr : ∀ s, P (.str s)) (harr : ∀ es, (∀ e ∈ es, P e) → P (.arr es))
    (hobj : ∀ fs, (∀ f ∈ fs, P f.2) → P (.obj fs)) : ∀ v, P v
  | .null => hnull
  | .bool b => hbool b
  | .int i => hint i
  | .dec d => hdec d
  | .str s => hstr s
  | .arr es => harr es (Val.ind_elems hnull hbool hint hdec hstr harr hobj es)
  | .obj fs => hobj fs (Val.ind_fields hnull hbool hint hdec hstr harr hobj fs)
theorem Val.ind_elems {P : Val → Prop} (hnull : P .null) (hbool : ∀ b, P (.bool b)) (hint : ∀ i, P (.int i))
    (hdec : ∀ d, P (.dec d)) (hstr : ∀ s, P (.str s)) (harr : ∀ es, (∀ e ∈ es, P e) → P (.arr es))
    (hobj : ∀ fs, (∀ f ∈ fs, P f.2) → P (.obj fs)) : ∀ es : List Val, ∀ e ∈ es, P e
  | [] => fun _ h => by cases h
  | x :: xs => fun e h => by
    rcases List.mem_cons.1 h with h | h
    · exact h ▸ Val.ind hnull hbool hint hdec hstr harr hobj x
    · exact Val.ind_elems hnull hbool hint hdec hstr harr hobj xs e h
theorem Val.ind_fields {P : Val → Prop} (hnull : P .null) (hbool : ∀ b, P (.bool b)) (hint : ∀ i, P (.int i))
    (hdec : ∀ d, P (.dec d)) (hstr : ∀ s, P (.str s)) (harr : ∀ es, (∀ e ∈ es, P e) → P (.arr es))
    (hobj : ∀ fs, (∀ f ∈ fs, P f.2) → P (.obj fs)) : ∀ fs : List (Bytes × Val), ∀ f ∈ fs, P f.2
  | [] => fun _ h => by cases h
  | (k, v) :: xs => fun f h => by
    rcases List.mem_cons.1 h with h | h
    · exact h ▸ Val.ind hnull hbool hint hdec hstr harr hobj v
    · exact Val.ind_fields hnull hbool hint hdec hstr harr hobj xs f h
end

theorem fitsFields_iff (fs : List (Bytes × Val)) :
    FitsFields fs ↔ ∀ f ∈ fs, f.1.length ≤ 65535 ∧ Fits f.2 := by
  induction fs with
  | nil => simp [FitsFields]
  | cons f fs ih =>
    obtain ⟨k, v⟩ := f
    simp only [FitsFields, ih, List.forall_mem_cons]
    exact ⟨fun h => ⟨⟨h.1, h.2.1⟩, h.2.2⟩, fun h => ⟨h.1.1, h.1.2, h.2⟩⟩

theorem fitsElems_iff (es : List Val) : FitsElems es ↔ ∀ e ∈ es, Fits e := by
  induction es with
  | nil => simp [FitsElems]
  | cons e es ih => simp only [FitsElems, ih, List.forall_mem_cons]

theorem wfFields_iff (fs : List (Bytes × Val)) :
    WFFields fs ↔ ∀ f ∈ fs, f.1.length ≤ 65535 ∧ f.2.WF := by
  induction fs with
  | nil => simp [WFFields]
  | cons f fs ih =>
    obtain ⟨k, v⟩ := f
    simp only [WFFields, ih, List.forall_mem_cons]
    exact ⟨fun h => ⟨⟨h.1, h.2.1⟩, h.2.2⟩, fun h => ⟨h.1.1, h.1.2, h.2⟩⟩

theorem wfElems_iff (es : List Val) : WFElems es ↔ ∀ e ∈ es, e.WF := by
  induction es with
  | nil => simp [WFElems]
  | cons e es ih => simp only [WFElems, ih, List.forall_mem_cons]

/-! ### Appending field lists -/

theorem fieldsEnd_append (off : Nat) (a b : List (Bytes × Val)) :
    fieldsEnd off (a ++ b) = fieldsEnd (fieldsEnd off a) b := by
  induction a generalizing off with
  | nil => simp [fieldsEnd]
  | cons f a ih => obtain ⟨k, v⟩ := f; simp [fieldsEnd, ih]

theorem encEntries_append (off : Nat) (a b : List (Bytes × Val)) :
    encEntries off (a ++ b) = encEntries off a ++ encEntries (fieldsEnd off a) b := by
  induction a generalizing off with
  | nil => simp [fieldsEnd, encEntries]
  | cons f a ih => obtain ⟨k, v⟩ := f; simp [fieldsEnd, encEntries, ih]

theorem encFields_append (off : Nat) (a b : List (Bytes × Val)) :
    encFields off (a ++ b) = encFields off a ++ encFields (fieldsEnd off a) b := by
  induction a generalizing off with
  | nil => simp [fieldsEnd, encFields]
  | cons f a ih => obtain ⟨k, v⟩ := f; simp [fieldsEnd, encFields, ih]

theorem elemsEnd_append (off : Nat) (a b : List Val) :
    elemsEnd off (a ++ b) = elemsEnd (elemsEnd off a) b := by
  induction a generalizing off with
  | nil => simp [elemsEnd]
  | cons v a ih => simp [elemsEnd, ih]

theorem encArrEntries_append (off : Nat) (a b : List Val) :
    encArrEntries off (a ++ b) = encArrEntries off a ++ encArrEntries (elemsEnd off a) b := by
  induction a generalizing off with
  | nil => simp [elemsEnd, encArrEntries]
  | cons v a ih => simp [elemsEnd, encArrEntries, ih]

theorem encElems_append (off : Nat) (a b : List Val) :
    encElems off (a ++ b) = encElems off a ++ encElems (elemsEnd off a) b := by
  induction a generalizing off with
  | nil => simp [elemsEnd, encElems]
  | cons v a ih => simp [elemsEnd, encElems, ih]

/-! ### Objects -/

/-- Offset at which field number `a.length` of `a ++ (k,v) :: b` starts (before padding). -/
abbrev objStart (a b : List (Bytes × Val)) : Nat := fieldsEnd (8 + 8 * (a.length + (b.length + 1))) a

theorem obj_bounds (a b : List (Bytes × Val)) (k : Bytes) (v : Val) :
    8 + 8 * (a.length + (b.length + 1)) ≤ objStart a b ∧
    objStart a b ≤ keyOff (objStart a b) ∧
    keyOff (objStart a b) + strSize k ≤ valOff (objStart a b) k v ∧
    valOff (objStart a b) k v + sizeVal v ≤ sizeVal (.obj (a ++ (k, v) :: b)) := by
  refine ⟨le_fieldsEnd _ _, le_alignUp _ (by decide), le_alignUp _ (align_pos _), ?_⟩
  have h1 := le_alignUp (fieldsEnd (8 + 8 * (a ++ (k, v) :: b).length) (a ++ (k, v) :: b)) (a := 8) (by decide)
  have h2 := le_fieldsEnd (valOff (objStart a b) k v + sizeVal v) b
  simp only [sizeVal]
  rw [fieldsEnd_append] at h1 ⊢
  simp only [fieldsEnd, List.length_append, List.length_cons] at *
  exact Nat.le_trans h2 h1

section obj
variable (a b : List (Bytes × Val)) (k : Bytes) (v : Val) (pre post : Bytes)

/-- The table entry of a field. -/
theorem obj_entry_at : ∃ X Y, pre ++ (enc (.obj (a ++ (k, v) :: b)) ++ post) =
    X ++ (objEntry v.rawType (keyOff (objStart a b)) (cstr k) ++ Y) ∧
    X.length = pre.length + 8 + 8 * a.length := by
  simp only [enc, encEntries_append, encEntries, List.length_append, List.length_cons]
  refine ⟨pre ++ (leBytes 4 (sizeVal (.obj (a ++ (k, v) :: b))) ++ (leBytes 4 (a.length + (b.length + 1)) ++
    encEntries (8 + 8 * (a.length + (b.length + 1))) a)), ?Y, ?h1, ?h2⟩
  case h1 =>
    simp only [List.append_assoc]
    rfl
  case h2 =>
    simp; omega

/-- The key of a field. -/
theorem obj_key_at : ∃ X Y, pre ++ (enc (.obj (a ++ (k, v) :: b)) ++ post) = X ++ (encStr k ++ Y) ∧
    X.length = pre.length + keyOff (objStart a b) := by
  obtain ⟨h1, h2, h3, h4⟩ := obj_bounds a b k v
  have hl := encFields_length (8 + 8 * (a.length + (b.length + 1))) a
  simp only [enc, encFields_append, encFields, List.length_append, List.length_cons]
  refine ⟨pre ++ (leBytes 4 (sizeVal (.obj (a ++ (k, v) :: b))) ++ (leBytes 4 (a.length + (b.length + 1)) ++
    (encEntries (8 + 8 * (a.length + (b.length + 1))) (a ++ (k, v) :: b) ++
      (encFields (8 + 8 * (a.length + (b.length + 1))) a ++ zeros (keyOff (objStart a b) - objStart a b))))), ?Y, ?h1, ?h2⟩
  case h1 =>
    simp only [List.append_assoc]
    rfl
  case h2 =>
    simp only [List.length_append, leBytes_length, encEntries_length, zeros_length, List.length_cons]
    simp only [objStart] at *
    omega

/-- The value of a field. -/
theorem obj_val_at : ∃ X Y, pre ++ (enc (.obj (a ++ (k, v) :: b)) ++ post) = X ++ (enc v ++ Y) ∧
    X.length = pre.length + valOff (objStart a b) k v := by
  obtain ⟨h1, h2, h3, h4⟩ := obj_bounds a b k v
  have hl := encFields_length (8 + 8 * (a.length + (b.length + 1))) a
  simp only [enc, encFields_append, encFields, List.length_append, List.length_cons]
  refine ⟨pre ++ (leBytes 4 (sizeVal (.obj (a ++ (k, v) :: b))) ++ (leBytes 4 (a.length + (b.length + 1)) ++
    (encEntries (8 + 8 * (a.length + (b.length + 1))) (a ++ (k, v) :: b) ++
      (encFields (8 + 8 * (a.length + (b.length + 1))) a ++ (zeros (keyOff (objStart a b) - objStart a b) ++
        (encStr k ++ zeros (valOff (objStart a b) k v - (keyOff (objStart a b) + strSize k)))))))), ?Y, ?h1, ?h2⟩
  case h1 =>
    simp only [List.append_assoc]
    rfl
  case h2 =>
    simp only [List.length_append, leBytes_length, encEntries_length, zeros_length, List.length_cons, encStr_length]
    simp only [objStart] at *
    omega

end obj

theorem numElems_obj {fs : List (Bytes × Val)} (hn : fs.length < 2 ^ 32) {m : Bytes} {p : Nat}
    (h : Stored m p (.obj fs)) : numElems m p = some fs.length := by
  simp only [Stored] at h
  exact h.2.1.readU (by omega)

theorem StoredFields.split {m : Bytes} {base : Nat} {k : Bytes} {v : Val} {b : List (Bytes × Val)} :
    ∀ {a : List (Bytes × Val)} {idx off : Nat}, StoredFields m base idx off (a ++ (k, v) :: b) →
      HasBytes m (base + 8 + 8 * (idx + a.length)) (objEntry v.rawType (keyOff (fieldsEnd off a)) (cstr k)) ∧
      HasBytes m (base + keyOff (fieldsEnd off a)) (encStr k) ∧ Stored m (base + valOff (fieldsEnd off a) k v) v
  | [], idx, off, h => by
    simp only [List.nil_append, StoredFields] at h
    exact ⟨h.1, h.2.1, h.2.2.1⟩
  | (k', v') :: a, idx, off, h => by
    simp only [List.cons_append, StoredFields] at h
    have := StoredFields.split h.2.2.2
    simpa only [fieldsEnd, List.length_cons, Nat.add_assoc, Nat.add_comm 1] using this

theorem StoredElems.split {m : Bytes} {base : Nat} {v : Val} {b : List Val} :
    ∀ {a : List Val} {idx off : Nat}, StoredElems m base idx off (a ++ v :: b) →
      HasBytes m (base + 8 + 8 * (idx + a.length)) (arrEntry v.rawType (alignUp (elemsEnd off a) v.rawType.align)) ∧
      Stored m (base + alignUp (elemsEnd off a) v.rawType.align) v
  | [], idx, off, h => by
    simp only [List.nil_append, StoredElems] at h
    exact ⟨h.1, h.2.1⟩
  | v' :: a, idx, off, h => by
    simp only [List.cons_append, StoredElems] at h
    have := StoredElems.split h.2.2
    simpa only [elemsEnd, List.length_cons, Nat.add_assoc, Nat.add_comm 1] using this

/-- The parts of a field of an object that is present in memory. -/
theorem Stored.obj_parts {m : Bytes} {p : Nat} {a b : List (Bytes × Val)} {k : Bytes} {v : Val}
    (h : Stored m p (.obj (a ++ (k, v) :: b))) :
    HasBytes m (p + 8 + 8 * a.length) (objEntry v.rawType (keyOff (objStart a b)) (cstr k)) ∧
    HasBytes m (p + keyOff (objStart a b)) (encStr k) ∧ Stored m (p + valOff (objStart a b) k v) v := by
  simp only [Stored, List.length_append, List.length_cons] at h
  have := h.2.2.1.split
  simpa only [Nat.zero_add] using this

theorem obj_len_lt {fs : List (Bytes × Val)} (h : sizeVal (.obj fs) < 2 ^ 32) : fs.length < 2 ^ 29 := by
  have h1 := le_alignUp (fieldsEnd (8 + 8 * fs.length) fs) (a := 8) (by decide)
  have h2 := le_fieldsEnd (8 + 8 * fs.length) fs
  simp only [sizeVal] at h
  omega

theorem arr_len_lt {es : List Val} (h : sizeVal (.arr es) < 2 ^ 32) : es.length < 2 ^ 29 := by
  have h2 := le_elemsEnd (8 + 8 * es.length) es
  simp only [sizeVal] at h
  omega

theorem forTable_align (t : RawType) : t.forTable.align = t.align := by cases t <;> rfl

/-- Reading a table entry that is present in memory. -/
theorem objEntry_reads {m X Y : Bytes} {t : RawType} {off base idx : Nat} {c : Bytes}
    (hm : m = X ++ (objEntry t off c ++ Y)) (hX : X.length = base + 8 + 8 * idx) (ho : off < 2 ^ 32) :
    entOff m base idx = some off ∧ entType m base idx = some t.forTable ∧
    readU m 1 (base + 8 + 8 * idx + 5) = some (entryLen c) ∧
    readU m 1 (base + 8 + 8 * idx + 6) = some (entryP0 c).toNat ∧
    readU m 1 (base + 8 + 8 * idx + 7) = some (entryP1 c).toNat := by
  subst hm
  have hl : entryLen c < 256 ^ 1 := by unfold entryLen; split <;> omega
  have hc : t.forTable.code < 256 ^ 1 := Nat.lt_trans (code_lt _) (by decide)
  have e0 : [entryP0 c, entryP1 c] = leBytes 1 (entryP0 c).toNat ++ leBytes 1 (entryP1 c).toNat := by
    have h0 := UInt8.toNat_lt (entryP0 c)
    have h1 := UInt8.toNat_lt (entryP1 c)
    simp [leBytes, Nat.mod_eq_of_lt, h0, h1]
  unfold objEntry
  rw [e0]
  simp only [List.append_assoc]
  refine ⟨?_, ?_, ?_, ?_, ?_⟩
  · exact readU_mid X _ 4 off _ hX.symm (by omega)
  · unfold entType
    rw [cut, readU_mid _ _ 1 _ _ (by simp; omega) hc]
    simp [ofCode_code]
  · rw [cut, cut, readU_mid _ _ 1 _ _ (by simp; omega) hl]
  · rw [cut, cut, cut, readU_mid _ _ 1 _ _ (by simp; omega) (UInt8.toNat_lt _)]
  · rw [cut, cut, cut, cut, readU_mid _ _ 1 _ _ (by simp; omega) (UInt8.toNat_lt _)]

theorem arrEntry_reads {m X Y : Bytes} {t : RawType} {off base idx : Nat}
    (hm : m = X ++ (arrEntry t off ++ Y)) (hX : X.length = base + 8 + 8 * idx) (ho : off < 2 ^ 32) :
    entOff m base idx = some off ∧ entType m base idx = some t.forTable := by
  subst hm
  have hc : t.forTable.code < 256 ^ 1 := Nat.lt_trans (code_lt _) (by decide)
  unfold arrEntry
  simp only [List.append_assoc]
  refine ⟨?_, ?_⟩
  · exact readU_mid X _ 4 off _ hX.symm (by omega)
  · unfold entType
    rw [cut, readU_mid _ _ 1 _ _ (by simp; omega) hc]
    simp [ofCode_code]

theorem strLw_le {s : Bytes} (h : s.length ≤ 65535) : strLw s = 2 := by
  unfold strLw identifyString
  have h1 : ¬ s.length > 65535 := by omega
  by_cases h2 : s.length > ssoBytes <;> simp [h1, h2]

/-- Reading a key that is present in memory. -/
theorem key_reads {m X Y k : Bytes} {p : Nat} (hm : m = X ++ (encStr k ++ Y)) (hX : X.length = p)
    (hk : k.length ≤ 65535) :
    strv m .string p = some k ∧ findSizeof m .string p = some (strSize k) := by
  subst hm
  have hlw := strLw_le hk
  simp only [encStr, hlw, List.append_assoc]
  have h1 := readU_mid X (k ++ ([0] ++ Y)) 2 k.length p hX.symm (by omega)
  constructor
  · simp only [strv, strWidth, h1, Option.bind_eq_bind, Option.bind_some]
    rw [cut]
    exact readBytes_mid _ k _ _ _ (by simp [hX]) rfl
  · simp only [findSizeof, h1, strSize, hlw, Option.map_some]

/-- Everything a reader sees about one field of an object that is present in memory. -/
theorem obj_field_reads (a b : List (Bytes × Val)) (k : Bytes) (v : Val) (m : Bytes) (p : Nat)
    (hm : Stored m p (.obj (a ++ (k, v) :: b))) (h8 : 8 ∣ p)
    (hf : Fits (.obj (a ++ (k, v) :: b))) :
    loadKey m p a.length = some (p + keyOff (objStart a b)) ∧
    strv m .string (p + keyOff (objStart a b)) = some k ∧
    findSizeof m .string (p + keyOff (objStart a b)) = some (strSize k) ∧
    loadValue m p a.length = some (v.rawType.forTable, p + valOff (objStart a b) k v) ∧
    entOff m p a.length = some (keyOff (objStart a b)) ∧
    entType m p a.length = some v.rawType.forTable ∧
    readU m 1 (p + 8 + 8 * a.length + 5) = some (entryLen (cstr k)) ∧
    readU m 1 (p + 8 + 8 * a.length + 6) = some (entryP0 (cstr k)).toNat ∧
    readU m 1 (p + 8 + 8 * a.length + 7) = some (entryP1 (cstr k)).toNat := by
  obtain ⟨h1, h2, h3, h4⟩ := obj_bounds a b k v
  simp only [Fits, fitsFields_iff] at hf
  have hk := (hf.2 (k, v) (by simp)).1
  obtain ⟨he, hk', _⟩ := hm.obj_parts
  obtain ⟨X, Y, e1, e2⟩ := hasBytes_iff.1 he
  obtain ⟨X', Y', e1', e2'⟩ := hasBytes_iff.1 hk'
  have hoff : keyOff (objStart a b) < 2 ^ 32 := by
    have := hf.1; unfold strSize at h3; omega
  obtain ⟨r1, r2, r3⟩ := objEntry_reads e1 e2 hoff
  obtain ⟨s1, s2⟩ := key_reads e1' e2' hk
  refine ⟨?_, s1, s2, ?_, r1, r2, r3⟩
  · simp [loadKey, r1]
  · have hal : alignUp (p + keyOff (objStart a b) + strSize k) v.rawType.align = p + valOff (objStart a b) k v := by
      rw [Nat.add_assoc, alignUp_add_left (align_pos _) (Nat.dvd_trans (align_dvd_eight _) h8)]
    simp [loadValue, r1, r2, afterKey, s2, forTable_align, hal]

/-! ### Arrays -/

/-- Offset at which element number `a.length` of `a ++ v :: b` starts (before padding). -/
abbrev arrStart (a b : List Val) : Nat := elemsEnd (8 + 8 * (a.length + (b.length + 1))) a

/-- Offset of element number `a.length` of `a ++ v :: b`. -/
abbrev elemOff (a b : List Val) (v : Val) : Nat := alignUp (arrStart a b) v.rawType.align

theorem arr_bounds (a b : List Val) (v : Val) :
    8 + 8 * (a.length + (b.length + 1)) ≤ arrStart a b ∧
    arrStart a b ≤ elemOff a b v ∧
    elemOff a b v + sizeVal v ≤ sizeVal (.arr (a ++ v :: b)) := by
  refine ⟨le_elemsEnd _ _, le_alignUp _ (align_pos _), ?_⟩
  have h2 := le_elemsEnd (elemOff a b v + sizeVal v) b
  simp only [sizeVal]
  rw [elemsEnd_append]
  simp only [elemsEnd, List.length_append, List.length_cons] at *
  exact h2

section arr
variable (a b : List Val) (v : Val) (pre post : Bytes)

theorem arr_entry_at : ∃ X Y, pre ++ (enc (.arr (a ++ v :: b)) ++ post) =
    X ++ (arrEntry v.rawType (elemOff a b v) ++ Y) ∧ X.length = pre.length + 8 + 8 * a.length := by
  simp only [enc, encArrEntries_append, encArrEntries, List.length_append, List.length_cons]
  refine ⟨pre ++ (leBytes 4 (sizeVal (.arr (a ++ v :: b))) ++ (leBytes 4 (a.length + (b.length + 1)) ++
    encArrEntries (8 + 8 * (a.length + (b.length + 1))) a)), ?Y, ?h1, ?h2⟩
  case h1 =>
    simp only [List.append_assoc]
    rfl
  case h2 =>
    simp; omega

theorem arr_val_at : ∃ X Y, pre ++ (enc (.arr (a ++ v :: b)) ++ post) = X ++ (enc v ++ Y) ∧
    X.length = pre.length + elemOff a b v := by
  obtain ⟨h1, h2, h3⟩ := arr_bounds a b v
  have hl := encElems_length (8 + 8 * (a.length + (b.length + 1))) a
  simp only [enc, encElems_append, encElems, List.length_append, List.length_cons]
  refine ⟨pre ++ (leBytes 4 (sizeVal (.arr (a ++ v :: b))) ++ (leBytes 4 (a.length + (b.length + 1)) ++
    (encArrEntries (8 + 8 * (a.length + (b.length + 1))) (a ++ v :: b) ++
      (encElems (8 + 8 * (a.length + (b.length + 1))) a ++ zeros (elemOff a b v - arrStart a b))))), ?Y, ?h1, ?h2⟩
  case h1 =>
    simp only [List.append_assoc]
    rfl
  case h2 =>
    simp only [List.length_append, leBytes_length, encArrEntries_length, zeros_length, List.length_cons]
    simp only [arrStart] at *
    omega

end arr

theorem numElems_arr {es : List Val} (hn : es.length < 2 ^ 32) {m : Bytes} {p : Nat}
    (h : Stored m p (.arr es)) : numElems m p = some es.length := by
  simp only [Stored] at h
  exact h.2.1.readU (by omega)

/-- The parts of an element of an array that is present in memory. -/
theorem Stored.arr_parts {m : Bytes} {p : Nat} {a b : List Val} {v : Val} (h : Stored m p (.arr (a ++ v :: b))) :
    HasBytes m (p + 8 + 8 * a.length) (arrEntry v.rawType (elemOff a b v)) ∧ Stored m (p + elemOff a b v) v := by
  simp only [Stored, List.length_append, List.length_cons] at h
  have := h.2.2.1.split
  simpa only [Nat.zero_add] using this

theorem arr_elem_reads (a b : List Val) (v : Val) (m : Bytes) (p : Nat) (hm : Stored m p (.arr (a ++ v :: b)))
    (hf : sizeVal (.arr (a ++ v :: b)) < 2 ^ 32) :
    loadElem m p a.length = some (v.rawType.forTable, p + elemOff a b v) := by
  obtain ⟨h1, h2, h3⟩ := arr_bounds a b v
  obtain ⟨X, Y, e1, e2⟩ := hasBytes_iff.1 hm.arr_parts.1
  obtain ⟨r1, r2⟩ := arrEntry_reads e1 e2 (by omega)
  simp [loadElem, r1, r2]

end Dart
