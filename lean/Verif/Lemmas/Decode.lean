import Verif.Lemmas.Locate
import Verif.Spec.Depth

/-
The reader inverts the encoder, whatever the padding contains.
-/
namespace Dart

theorem foldlM_range {α : Type} (f : α → Nat → Option α) (S : Nat → α) (n : Nat)
    (h : ∀ i < n, f (S i) i = some (S (i + 1))) :
    (List.range n).foldlM f (S 0) = some (S n) := by
  induction n with
  | zero => rfl
  | succ n ih =>
    rw [List.range_succ, List.foldlM_append, ih (fun i hi => h i (by omega))]
    simp [h n (by omega)]

/-- Inserting a key greater than all present keys appends. -/
theorem mapInsert_append (l : List (Bytes × Val)) (k : Bytes) (v : Val)
    (h : ∀ f ∈ l, keyLt f.1 k = true) : mapInsert k v l = l ++ [(k, v)] := by
  induction l with
  | nil => rfl
  | cons f l ih =>
    obtain ⟨k', v'⟩ := f
    have h1 : keyLt k' k = true := h (k', v') (by simp)
    have h2 : keyLt k k' = false := keyLt_asymm h1
    simp [mapInsert, h1, h2, ih (fun f hf => h f (by simp [hf]))]

theorem take_split {α : Type} (l : List α) (i : Nat) (h : i < l.length) :
    l = l.take i ++ l[i] :: l.drop (i + 1) ∧ (l.take i).length = i := by
  constructor
  · rw [List.getElem_cons_drop]; simp
  · simp; omega

theorem take_succ_eq {α : Type} (l : List α) (i : Nat) (h : i < l.length) :
    l.take (i + 1) = l.take i ++ [l[i]] := by
  rw [List.take_succ_eq_append_getElem h]

theorem intBytes_read (i : BitVec 64) (X Y : Bytes) (p : Nat) (hX : X.length = p) :
    readInt (X ++ (intBytes (identifyInteger i) i ++ Y)) (identifyInteger i) p = some i := by
  have hpow : (256 : Nat) ^ 2 = 2 ^ 16 ∧ (256 : Nat) ^ 4 = 2 ^ 32 ∧ (256 : Nat) ^ 8 = 2 ^ 64 := by
    decide
  have hrd : ∀ w, readU (X ++ (leBytes w i.toNat ++ Y)) w p = some (i.toNat % 256 ^ w) := by
    intro w
    unfold readU
    rw [readBytes_mid X (leBytes w i.toNat) Y p w hX.symm (by simp)]
    simp [leNat_leBytes]
  have hlo : -(2 ^ 63 : Int) ≤ i.toInt := by
    have := BitVec.le_toInt i; simpa using this
  have hhi : i.toInt < (2 ^ 63 : Int) := by
    have := BitVec.toInt_lt (x := i); simpa using this
  unfold identifyInteger
  split
  · simp only [intBytes, readInt, hrd, Option.map_some, hpow]
    rw [signExt_of_range 64 (by decide) (by decide) i hlo hhi]
  · split
    · simp only [intBytes, readInt, hrd, Option.map_some, hpow]
      rw [signExt_of_range 32 (by decide) (by decide) i (by simp; omega) (by simp; omega)]
    · simp only [intBytes, readInt, hrd, Option.map_some, hpow]
      rw [signExt_of_range 16 (by decide) (by decide) i (by simp; omega) (by simp; omega)]

theorem decBytes_read (d : BitVec 64) (X Y : Bytes) (p : Nat) (hX : X.length = p) :
    readDec (X ++ (decBytes d ++ Y)) (identifyDecimal d) p = some d := by
  have hd := d.isLt
  unfold decBytes identifyDecimal
  cases h : narrowBits d.toNat with
  | none =>
    simp only [readDec]
    rw [readU_mid X Y 8 _ p hX.symm (by omega)]
    simp
  | some f =>
    obtain ⟨h1, h2⟩ := widen_narrow hd h
    simp only [readDec]
    rw [readU_mid X Y 4 _ p hX.symm (by omega)]
    simp [h1]

/-- Reading an encoded string value. -/
theorem str_read (s : Bytes) (X Y : Bytes) (p : Nat) (hX : X.length = p) (hs : s.length < 2 ^ 32) :
    strv (X ++ (encStr s ++ Y)) (identifyString s).forTable p = some s := by
  have key : ∀ w, s.length < 256 ^ w →
      (do let n ← readU (X ++ ((leBytes w s.length ++ (s ++ [0])) ++ Y)) w p
          readBytes (X ++ ((leBytes w s.length ++ (s ++ [0])) ++ Y)) (p + w) n) = some s := by
    intro w hw
    simp only [List.append_assoc]
    rw [readU_mid X _ w s.length p hX.symm hw]
    simp only [Option.bind_eq_bind, Option.bind_some]
    rw [cut]
    exact readBytes_mid _ s _ _ _ (by simp [hX]) rfl
  unfold encStr strLw strv identifyString
  by_cases h1 : s.length > 65535
  · simp only [h1, if_true, RawType.forTable, strWidth]
    exact key 4 (by omega)
  · have hb : s.length < 256 ^ 2 := by omega
    by_cases h2 : s.length > ssoBytes
    · simp only [h1, h2, if_true, if_false, RawType.forTable, strWidth]
      exact key 2 hb
    · simp only [h1, h2, if_false, RawType.forTable, strWidth]
      exact key 2 hb

theorem levels_field {k : Bytes} {v : Val} {fs : List (Bytes × Val)} (h : (k, v) ∈ fs) :
    Spec.levels v ≤ Spec.levelsFields fs := by
  induction fs with
  | nil => cases h
  | cons f fs ih =>
    obtain ⟨k', v'⟩ := f
    simp only [Spec.levelsFields]
    rcases List.mem_cons.1 h with h | h
    · cases h; omega
    · have := ih h; omega

theorem levels_elem {v : Val} {es : List Val} (h : v ∈ es) : Spec.levels v ≤ Spec.levelsElems es := by
  induction es with
  | nil => cases h
  | cons e es ih =>
    simp only [Spec.levelsElems]
    rcases List.mem_cons.1 h with h | h
    · subst h; omega
    · have := ih h; omega

theorem levelsFields_le {d : Nat} : ∀ {fs : List (Bytes × Val)}, (∀ f ∈ fs, Spec.levels f.2 ≤ d) → Spec.levelsFields fs ≤ d
  | [], _ => Nat.zero_le _
  | f :: fs, h => by
    have h1 := h f (by simp)
    have h2 := levelsFields_le (fs := fs) fun g hg => h g (by simp [hg])
    simp only [Spec.levelsFields]
    omega

theorem levelsElems_le {d : Nat} : ∀ {es : List Val}, (∀ e ∈ es, Spec.levels e ≤ d) → Spec.levelsElems es ≤ d
  | [], _ => Nat.zero_le _
  | e :: es, h => by
    have h1 := h e (by simp)
    have h2 := levelsElems_le (es := es) fun g hg => h g (by simp [hg])
    simp only [Spec.levelsElems]
    omega

theorem levels_pos (v : Val) : 1 ≤ Spec.levels v := by
  cases v <;> simp only [Spec.levels] <;> omega

/-- Every level takes space. -/
theorem levels_le_size (v : Val) : Spec.levels v ≤ sizeVal v + 1 := by
  induction v using Val.ind with
  | hobj fs ih =>
    simp only [Spec.levels]
    have : Spec.levelsFields fs ≤ sizeVal (.obj fs) := levelsFields_le fun f hf => by
      have h1 := ih f hf
      obtain ⟨k, v⟩ := f
      obtain ⟨a, b, hab⟩ := List.append_of_mem hf
      obtain ⟨b1, b2, b3, b4⟩ := obj_bounds a b k v
      rw [← hab] at b4
      unfold strSize at b3
      simp only at h1 ⊢
      omega
    omega
  | harr es ih =>
    simp only [Spec.levels]
    have : Spec.levelsElems es ≤ sizeVal (.arr es) := levelsElems_le fun v hv => by
      have h1 := ih v hv
      obtain ⟨a, b, hab⟩ := List.append_of_mem hv
      obtain ⟨b1, b2, b3⟩ := arr_bounds a b v
      rw [← hab] at b3
      omega
    omega
  | _ => simp only [Spec.levels]; omega

/-- A value that is present in memory decodes to itself. -/
theorem decode_levels (v : Val) : ∀ (fuel : Nat) (m : Bytes) (p : Nat), Stored m p v → v.rawType.align ∣ p → v.WF → Fits v →
    Spec.levels v ≤ fuel → decode fuel m v.rawType.forTable p = some v := by
  induction v using Val.ind with
  | hnull =>
    intro fuel m p hm ha hw hf hfu
    cases fuel with
    | zero => simp only [Spec.levels] at hfu; omega
    | succ fuel => rfl
  | hbool b =>
    intro fuel m p hm ha hw hf hfu
    cases fuel with
    | zero => simp only [Spec.levels] at hfu; omega
    | succ fuel =>
      have : readU m 1 p = some (if b then 1 else 0) := by
        have e : [if b then 1 else 0] = leBytes 1 (if b then 1 else 0) := by cases b <;> rfl
        simp only [Stored] at hm
        rw [e] at hm
        exact hm.readU (by cases b <;> decide)
      simp only [decode, Val.rawType, RawType.forTable, readBool, this]
      cases b <;> rfl
  | hint i =>
    intro fuel m p hm ha hw hf hfu
    cases fuel with
    | zero => simp only [Spec.levels] at hfu; omega
    | succ fuel =>
      simp only [Stored] at hm
      obtain ⟨X, Y, hm', hX⟩ := hasBytes_iff.1 hm
      have h := intBytes_read i X Y p hX
      rw [← hm'] at h
      simp only [Val.rawType]
      have ht : identifyInteger i = .longInteger ∨ identifyInteger i = .integer ∨
          identifyInteger i = .shortInteger := by
        unfold identifyInteger; split
        · simp
        · split <;> simp
      rcases ht with ht | ht | ht <;> rw [ht] at h ⊢ <;> simp [decode, RawType.forTable, h]
  | hdec d =>
    intro fuel m p hm ha hw hf hfu
    cases fuel with
    | zero => simp only [Spec.levels] at hfu; omega
    | succ fuel =>
      simp only [Stored] at hm
      obtain ⟨X, Y, hm', hX⟩ := hasBytes_iff.1 hm
      have h := decBytes_read d X Y p hX
      rw [← hm'] at h
      simp only [Val.rawType]
      have ht : identifyDecimal d = .longDecimal ∨ identifyDecimal d = .decimal := by
        unfold identifyDecimal; split <;> simp
      rcases ht with ht | ht <;> rw [ht] at h ⊢ <;> simp [decode, RawType.forTable, h]
  | hstr s =>
    intro fuel m p hm ha hw hf hfu
    cases fuel with
    | zero => simp only [Spec.levels] at hfu; omega
    | succ fuel =>
      simp only [Stored] at hm
      obtain ⟨X, Y, hm', hX⟩ := hasBytes_iff.1 hm
      have h := str_read s X Y p hX (by simpa [Fits] using hf)
      rw [← hm'] at h
      simp only [Val.rawType]
      have ht : (identifyString s).forTable = .bigString ∨ (identifyString s).forTable = .string := by
        unfold identifyString; split
        · simp [RawType.forTable]
        · split <;> simp [RawType.forTable]
      rcases ht with ht | ht <;> rw [ht] at h ⊢ <;> simp [decode, h]
  | harr es ih =>
    intro fuel m p hm ha hw hf hfu
    cases fuel with
    | zero => simp only [Spec.levels] at hfu; omega
    | succ fuel =>
      have h8 : 8 ∣ p := by simpa [Val.rawType, RawType.align] using ha
      have hf' := hf
      simp only [Fits, fitsElems_iff] at hf'
      simp only [Val.WF, wfElems_iff] at hw
      have hn := numElems_arr (by have := arr_len_lt hf'.1; omega) hm
      have hloop := foldlM_range (fun (acc : List Val) idx => do
          let (vt, vp) ← loadElem m p idx
          let v ← decode fuel m vt vp
          some (acc ++ [v])) (fun i => es.take i) es.length (by
        intro i hi
        obtain ⟨e1, e2⟩ := take_split es i hi
        have hme : Stored m p (.arr (es.take i ++ es[i] :: es.drop (i + 1))) := by
          rw [← e1]; exact hm
        have hsz : sizeVal (.arr (es.take i ++ es[i] :: es.drop (i + 1))) = sizeVal (.arr es) := by
          rw [← e1]
        have hl := arr_elem_reads (es.take i) (es.drop (i + 1)) es[i] m p hme (by rw [hsz]; exact hf'.1)
        obtain ⟨b1, b2, b3⟩ := arr_bounds (es.take i) (es.drop (i + 1)) es[i]
        rw [e2] at hl
        have hmem : es[i] ∈ es := List.getElem_mem hi
        have hd := ih es[i] hmem fuel m _ hme.arr_parts.2
          ((Nat.dvd_add_right (Nat.dvd_trans (align_dvd_eight _) h8)).2 (dvd_alignUp _ _))
          (hw _ hmem) (hf'.2 _ hmem) (by
            have := levels_elem hmem
            simp only [Spec.levels] at hfu
            omega)
        simp only [Option.bind_eq_bind, hl, Option.bind_some, hd, take_succ_eq es i hi])
      simp only [Val.rawType, RawType.forTable, decode, Option.bind_eq_bind, hn, Option.bind_some]
      simp only [List.take_zero, List.take_length, Option.bind_eq_bind] at hloop
      rw [hloop]
      rfl
  | hobj fs ih =>
    intro fuel m p hm ha hw hf hfu
    cases fuel with
    | zero => simp only [Spec.levels] at hfu; omega
    | succ fuel =>
      have h8 : 8 ∣ p := by simpa [Val.rawType, RawType.align] using ha
      have hf' := hf
      simp only [Fits, fitsFields_iff] at hf'
      simp only [Val.WF, wfFields_iff] at hw
      have hn := numElems_obj (by have := obj_len_lt hf'.1; omega) hm
      have hloop := foldlM_range (fun (acc : List (Bytes × Val)) idx => do
          let kp ← loadKey m p idx
          let k ← strv m .string kp
          let (vt, vp) ← loadValue m p idx
          let v ← decode fuel m vt vp
          some (mapInsert k v acc)) (fun i => fs.take i) fs.length (by
        intro i hi
        obtain ⟨e1, e2⟩ := take_split fs i hi
        have hmem : fs[i] ∈ fs := List.getElem_mem hi
        have hsort : ∀ f ∈ fs.take i, keyLt f.1 fs[i].1 = true := by
          intro f hf
          have hpw := hw.1
          rw [e1, List.pairwise_append] at hpw
          exact keyLt_iff_spec.2 (hpw.2.2 f hf fs[i] (List.mem_cons_self))
        obtain ⟨k, v⟩ : ∃ k v, fs[i] = (k, v) := ⟨_, _, rfl⟩
        obtain ⟨v, hkv⟩ := v
        rw [hkv] at e1 hmem hsort
        have hme : Stored m p (.obj (fs.take i ++ (k, v) :: fs.drop (i + 1))) := by
          rw [← e1]; exact hm
        have hfe : Fits (.obj (fs.take i ++ (k, v) :: fs.drop (i + 1))) := by
          rw [← e1]; exact hf
        have hsz : sizeVal (.obj (fs.take i ++ (k, v) :: fs.drop (i + 1))) = sizeVal (.obj fs) := by
          rw [← e1]
        obtain ⟨r1, r2, r3, r4, _⟩ := obj_field_reads (fs.take i) (fs.drop (i + 1)) k v m p hme h8 hfe
        obtain ⟨b1, b2, b3, b4⟩ := obj_bounds (fs.take i) (fs.drop (i + 1)) k v
        rw [e2] at r1 r4
        have hd := ih (k, v) hmem fuel m _ hme.obj_parts.2.2
          ((Nat.dvd_add_right (Nat.dvd_trans (align_dvd_eight _) h8)).2 (dvd_alignUp _ _))
          (hw.2 _ hmem).2 (hf'.2 _ hmem).2 (by
            have := levels_field hmem
            simp only [Spec.levels] at hfu
            show Spec.levels v ≤ fuel
            omega)
        simp only [Option.bind_eq_bind, r1, r2, r4, Option.bind_some, hd, take_succ_eq fs i hi, hkv]
        rw [mapInsert_append _ _ _ hsort])
      simp only [Val.rawType, RawType.forTable, decode, Option.bind_eq_bind, hn, Option.bind_some]
      simp only [List.take_zero, List.take_length, Option.bind_eq_bind] at hloop
      rw [hloop]
      rfl

theorem decode_stored (v : Val) (fuel : Nat) (m : Bytes) (p : Nat) (hm : Stored m p v) (ha : v.rawType.align ∣ p)
    (hw : v.WF) (hf : Fits v) (hfu : sizeVal v < fuel) : decode fuel m v.rawType.forTable p = some v :=
  decode_levels v fuel m p hm ha hw hf (by have := levels_le_size v; omega)

theorem decode_enc (v : Val) (fuel : Nat) (X Y m : Bytes) (p : Nat) (hm : m = X ++ (enc v ++ Y))
    (hX : X.length = p) (ha : v.rawType.align ∣ p) (hw : v.WF) (hf : Fits v) (hfu : sizeVal v < fuel) :
    decode fuel m v.rawType.forTable p = some v :=
  decode_stored v fuel m p (hm ▸ stored_enc hX ha hf) ha hw hf hfu

end Dart
