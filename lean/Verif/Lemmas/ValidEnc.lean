import Verif.Lemmas.Validate
import Verif.Lemmas.Shows
import Verif.Spec.Nulls

/-
The validator run on encodings produced by the library.
-/
namespace Dart

variable {z : Bool}

mutual
/-- The verdict of the validator on an encoded value: false exactly if some child does not start
strictly after the start of the previous one. -/
def okVal : Val → Bool
  | .obj fs => okFields 0 (8 + 8 * fs.length) fs
  | .arr es => okElems 0 (8 + 8 * es.length) es
  | _ => true
/-- Fields stored from offset `off` on, the previous child being at offset `prev`. -/
def okFields : Nat → Nat → List (Bytes × Val) → Bool
  | _, _, [] => true
  | prev, off, (k, v) :: fs =>
    decide (prev < keyOff off) && (okVal v && okFields (valOff off k v) (valOff off k v + sizeVal v) fs)
/-- Elements stored from offset `off` on. -/
def okElems : Nat → Nat → List Val → Bool
  | _, _, [] => true
  | prev, off, v :: es =>
    decide (prev < alignUp off v.rawType.align) &&
      (okVal v && okElems (alignUp off v.rawType.align) (alignUp off v.rawType.align + sizeVal v) es)
end

theorem Verdict.and_ok (a : Bool) (b : Unit → Verdict) (c : Bool) (h : b () = .ok c) :
    Verdict.and (.ok a) b = .ok (a && c) := by
  cases a
  · rfl
  · exact h

theorem Verdict.and_ok_true (b : Unit → Verdict) : Verdict.and (.ok true) b = b () := rfl

theorem rd_bind_some {α : Type} (a : α) (f : α → Verdict) : (rd (some a) >>= f) = f a := rfl

theorem encStr_valid {m X Y s : Bytes} {t : RawType} {p bytes : Nat} (hm : m = X ++ (encStr s ++ Y))
    (hX : X.length = p) (hs : s.length < 2 ^ 32) (ht : strWidth t = strLw s)
    (hb : strSize s ≤ bytes) : validString m t p bytes = .ok true := by
  have hlt : s.length < 256 ^ strLw s := by
    unfold strLw identifyString
    by_cases h1 : s.length > 65535
    · simp only [h1, if_true]; omega
    · by_cases h2 : s.length > ssoBytes <;> simp only [h1, h2, if_true, if_false] <;> omega
  unfold strSize at hb
  unfold validString
  rw [Verdict.and_true, check_true, ht]
  refine ⟨by omega, ?_⟩
  have h1 : readU m (strLw s) p = some s.length := by
    rw [hm]; unfold encStr; rw [List.append_assoc]
    exact readU_mid X _ _ _ _ hX.symm hlt
  have h2 : readU m 1 (p + strLw s + s.length) = some 0 := by
    have : m = (X ++ (leBytes (strLw s) s.length ++ s)) ++ (leBytes 1 0 ++ Y) := by
      rw [hm]; unfold encStr; simp [leBytes]
    rw [this]
    exact readU_mid _ _ 1 0 _ (by simp; omega) (by decide)
  rw [h1, rd_bind_some, Verdict.and_true, check_true]
  refine ⟨by omega, ?_⟩
  rw [h2, rd_bind_some, check_true]

theorem typesValid_of {m : Bytes} {p : Nat} : ∀ {n : Nat},
    (∀ i, i < n → ∃ t, entType m p i = some t) → typesValid m p n = .ok true
  | 0, _ => rfl
  | n + 1, h => by
    unfold typesValid
    rw [typesValid_of fun i hi => h i (by omega)]
    obtain ⟨t, ht⟩ := h n (by omega)
    unfold entType at ht
    rw [Option.bind_eq_some_iff] at ht
    obtain ⟨c, hc, ht⟩ := ht
    show (rd (readU m 1 (p + 8 + 8 * n + 4)) >>= _) = _
    rw [hc, rd_bind_some, check_true, ht]
    rfl

theorem childAddr_enc {p total prev off : Nat} {t : RawType} (h1 : off ≤ total) (h2 : t.align ∣ p + off) :
    childAddr p total (p + prev) (p + off) t = .ok (decide (prev < off)) := by
  unfold childAddr check
  rw [decide_eq_true (by omega), alignUp_of_dvd (align_pos t) h2]
  by_cases h : prev < off
  · rw [decide_eq_true h, decide_eq_true (by omega : p + prev < p + off)]
    simp [Verdict.and]
  · rw [decide_eq_false h, decide_eq_false (by omega : ¬ p + prev < p + off)]
    rfl

theorem identifyString_cases' (s : Bytes) : identifyString s = .string ∨
    identifyString s = .smallString ∨ identifyString s = .bigString := by
  unfold identifyString
  repeat' split
  all_goals simp

theorem sizeVal_header {m : Bytes} {p : Nat} {v : Val} (h : At z m p v) (ht : isTable v.rawType) :
    readU m 4 p = some (sizeVal v) := by
  obtain ⟨hm, hz, ha, hw, hf⟩ := h
  cases v with
  | obj fs =>
    simp only [Fits] at hf
    simp only [Stored] at hm
    exact hm.1.readU (by omega)
  | arr es =>
    simp only [Fits] at hf
    simp only [Stored] at hm
    exact hm.1.readU (by omega)
  | null => rcases ht with ht | ht <;> simp [Val.rawType] at ht
  | bool b => rcases ht with ht | ht <;> simp [Val.rawType] at ht
  | int i =>
    rcases identifyInteger_cases i with h | h | h <;> rcases ht with ht | ht <;>
      simp [Val.rawType, h] at ht
  | dec d =>
    rcases identifyDecimal_cases d with h | h <;> rcases ht with ht | ht <;>
      simp [Val.rawType, h] at ht
  | str s =>
    rcases identifyString_cases' s with h | h | h <;> rcases ht with ht | ht <;>
      simp [Val.rawType, h] at ht

theorem validFields_enc {rec : RawType → Nat → Nat → Verdict} {fs : List (Bytes × Val)}
    {m : Bytes} {p : Nat} (hm : Stored m p (.obj fs)) (hz : z = true → HasBytes m p (enc (.obj fs))) (h8 : 8 ∣ p)
    (hf : Fits (.obj fs)) (hw : (Val.obj fs).WF)
    (hstr : ∀ q s bytes X' Y', m = X' ++ (encStr s ++ Y') → X'.length = q → s.length ≤ 65535 →
      strSize s ≤ bytes → rec .string q bytes = .ok true)
    (hrec : ∀ v, (∃ k, (k, v) ∈ fs) → ∀ q bytes, At z m q v → sizeVal v ≤ bytes →
      rec v.rawType.forTable q bytes = .ok (okVal v)) :
    ∀ (b a : List (Bytes × Val)) (prev : Nat), fs = a ++ b →
      validFields rec m p (sizeVal (.obj fs)) b.length a.length (p + prev) =
        .ok (okFields prev (fieldsEnd (8 + 8 * fs.length) a) b)
  | [], _, _, _ => rfl
  | (k, v) :: b, a, prev, hab => by
    have hmem : (k, v) ∈ fs := by rw [hab]; simp
    have hoff : fieldsEnd (8 + 8 * fs.length) a = objStart a b := by rw [hab]; simp [objStart]
    have hend : fieldsEnd (8 + 8 * fs.length) (a ++ [(k, v)]) = valOff (objStart a b) k v + sizeVal v := by
      rw [fieldsEnd_append, hoff]; rfl
    have ih := validFields_enc hm hz h8 hf hw hstr hrec b (a ++ [(k, v)]) (valOff (objStart a b) k v)
      (by rw [hab]; simp)
    rw [hend] at ih
    rw [hoff]
    have hf' := hf
    have hw' := hw
    simp only [Fits, fitsFields_iff] at hf'
    simp only [Val.WF, wfFields_iff] at hw'
    have hk := (hf'.2 _ hmem).1
    obtain ⟨b1, b2, b3, b4⟩ := obj_bounds a b k v
    rw [← hab] at b4
    rw [hab] at hm hz hf
    obtain ⟨r1, r2, r3, r4, _⟩ := obj_field_reads a b k v m p hm h8 hf
    obtain ⟨X2, Y2, k1, k2⟩ := hasBytes_iff.1 hm.obj_parts.2.1
    have h2 : 2 ∣ p := Nat.dvd_trans (by decide) h8
    have hvat : At z m (p + valOff (objStart a b) k v) v :=
      ⟨hm.obj_parts.2.2, fun e => (hz e).obj_val,
        (Nat.dvd_add_right (Nat.dvd_trans (align_dvd_eight _) h8)).2 (dvd_alignUp _ _),
        (hw'.2 _ hmem).2, (hf'.2 _ hmem).2⟩
    simp only [List.length_cons]
    unfold validFields okFields
    rw [r1, rd_bind_some, childAddr_enc (by omega) ((Nat.dvd_add_right h2).2 (dvd_alignUp _ _))]
    refine Verdict.and_ok _ _ _ ?_
    rw [hstr _ k _ X2 Y2 k1 k2 hk (by omega)]
    show (rd (loadValue m p a.length) >>= _) = _
    rw [r4, rd_bind_some]
    show Verdict.and (childAddr p (sizeVal (.obj fs)) (p + keyOff (objStart a b))
      (p + valOff (objStart a b) k v) v.rawType.forTable) _ = _
    rw [childAddr_enc (by omega) (by
      rw [forTable_align]
      exact (Nat.dvd_add_right (Nat.dvd_trans (align_dvd_eight _) h8)).2 (dvd_alignUp _ _)),
      decide_eq_true (by unfold strSize at b3; omega)]
    simp only [Verdict.and_ok_true]
    rw [hrec v ⟨k, hmem⟩ _ _ hvat (by omega)]
    refine Verdict.and_ok _ _ _ ?_
    rw [List.length_append] at ih
    exact ih

theorem validElems_enc {rec : RawType → Nat → Nat → Verdict} {es : List Val}
    {m : Bytes} {p : Nat} (hm : Stored m p (.arr es)) (hz : z = true → HasBytes m p (enc (.arr es))) (h8 : 8 ∣ p)
    (hf : Fits (.arr es)) (hw : (Val.arr es).WF)
    (hrec : ∀ v ∈ es, ∀ q bytes, At z m q v → sizeVal v ≤ bytes →
      rec v.rawType.forTable q bytes = .ok (okVal v)) :
    ∀ (b a : List Val) (prev : Nat), es = a ++ b →
      validElems rec m p (sizeVal (.arr es)) b.length a.length (p + prev) =
        .ok (okElems prev (elemsEnd (8 + 8 * es.length) a) b)
  | [], _, _, _ => rfl
  | v :: b, a, prev, hab => by
    have hmem : v ∈ es := by rw [hab]; simp
    have hoff : elemsEnd (8 + 8 * es.length) a = arrStart a b := by rw [hab]; simp [arrStart]
    have hend : elemsEnd (8 + 8 * es.length) (a ++ [v]) = elemOff a b v + sizeVal v := by
      rw [elemsEnd_append, hoff]; rfl
    have ih := validElems_enc hm hz h8 hf hw hrec b (a ++ [v]) (elemOff a b v) (by rw [hab]; simp)
    rw [hend] at ih
    rw [hoff]
    have hf' := hf
    have hw' := hw
    simp only [Fits, fitsElems_iff] at hf'
    simp only [Val.WF, wfElems_iff] at hw'
    obtain ⟨b1, b2, b3⟩ := arr_bounds a b v
    rw [← hab] at b3
    rw [hab] at hm hz hf
    simp only [Fits] at hf
    have r4 := arr_elem_reads a b v m p hm hf.1
    have hal : v.rawType.align ∣ p + elemOff a b v :=
      (Nat.dvd_add_right (Nat.dvd_trans (align_dvd_eight _) h8)).2 (dvd_alignUp _ _)
    have hvat : At z m (p + elemOff a b v) v :=
      ⟨hm.arr_parts.2, fun e => (hz e).arr_val, hal, hw' _ hmem, hf'.2 _ hmem⟩
    simp only [List.length_cons]
    unfold validElems okElems
    rw [r4, rd_bind_some]
    show Verdict.and (childAddr p (sizeVal (.arr es)) (p + prev)
      (p + elemOff a b v) v.rawType.forTable) _ = _
    rw [childAddr_enc (by omega) (by rw [forTable_align]; exact hal)]
    refine Verdict.and_ok _ _ _ ?_
    show Verdict.and (rec v.rawType.forTable (p + elemOff a b v) _) _ = _
    rw [hrec v hmem _ _ hvat (by omega)]
    refine Verdict.and_ok _ _ _ ?_
    rw [List.length_append] at ih
    exact ih

theorem validTable_enc {m : Bytes} {p bytes total n : Nat} {loop : Nat → Nat → Verdict}
    (ht : readU m 4 p = some total) (hn : numElems m p = some n) (h1 : total ≤ bytes)
    (h2 : 8 + 8 * n ≤ total) (hty : ∀ i, i < n → ∃ t, entType m p i = some t) :
    validTable m p bytes loop = loop total n := by
  unfold validTable check
  rw [ht, hn, decide_eq_true (by omega), rd_bind_some]
  show Verdict.and _ _ = _
  rw [decide_eq_true h1, rd_bind_some]
  show Verdict.and _ _ = _
  rw [decide_eq_true h2, typesValid_of hty]
  rfl

/-- The validator on an encoded value. -/
theorem At.valid_levels : ∀ (v : Val) (m : Bytes) (p bytes fuel : Nat), At z m p v → sizeVal v ≤ bytes →
    Spec.levels v ≤ fuel → validBuffer m fuel v.rawType.forTable p bytes = .ok (okVal v) := by
  intro v
  induction v using Val.ind with
  | hobj fs ih =>
    intro m p bytes fuel hat hb hfu
    have hhead := sizeVal_header hat (Or.inl rfl)
    obtain ⟨hn, h8, _⟩ := hat.obj_parts
    have hat' := hat
    obtain ⟨hm, hz, ha, hw, hf⟩ := hat
    cases fuel with
    | zero => simp only [Spec.levels] at hfu; omega
    | succ fuel =>
      have hsz : 8 + 8 * fs.length ≤ sizeVal (.obj fs) := by
        have h1 := le_alignUp (fieldsEnd (8 + 8 * fs.length) fs) (a := 8) (by decide)
        have h2 := le_fieldsEnd (8 + 8 * fs.length) fs
        simp only [sizeVal]; omega
      show validTable m p bytes _ = _
      rw [validTable_enc hhead hn hb hsz fun i hi => by
        obtain ⟨kp, vp, _, _, _, _, _, _, hv, _⟩ := hat'.obj_field i hi
        unfold loadValue at hv
        simp only [Option.bind_eq_bind, Option.bind_eq_some_iff] at hv
        obtain ⟨_, _, t, ht, _⟩ := hv
        exact ⟨t, ht⟩]
      simp only [Spec.levels] at hfu
      by_cases hfs : fs = []
      · subst hfs
        rfl
      have hpos : 1 ≤ fuel := by
        cases fs with
        | nil => exact absurd rfl hfs
        | cons f fs =>
          have h1 := levels_pos f.2
          simp only [Spec.levelsFields] at hfu
          omega
      refine validFields_enc hm hz h8 hf hw ?_ ?_ fs [] 0 rfl
      · intro q s bytes X' Y' e1 e2 hs hb'
        cases fuel with
        | zero => omega
        | succ fuel =>
          exact encStr_valid (t := .string) e1 e2 (by omega) (by rw [strLw_le hs]; rfl) hb'
      · rintro v ⟨k, hk⟩ q bytes hat hb'
        refine ih _ hk m q bytes fuel hat hb' ?_
        have := levels_field hk
        show Spec.levels v ≤ fuel
        omega
  | harr es ih =>
    intro m p bytes fuel hat hb hfu
    have hhead := sizeVal_header hat (Or.inr rfl)
    obtain ⟨hn, h8, _⟩ := hat.arr_parts
    have hat' := hat
    obtain ⟨hm, hz, ha, hw, hf⟩ := hat
    cases fuel with
    | zero => simp only [Spec.levels] at hfu; omega
    | succ fuel =>
      have hsz : 8 + 8 * es.length ≤ sizeVal (.arr es) := by
        have h2 := le_elemsEnd (8 + 8 * es.length) es
        simp only [sizeVal]; omega
      show validTable m p bytes _ = _
      rw [validTable_enc hhead hn hb hsz fun i hi => by
        obtain ⟨vp, _, hv, _⟩ := hat'.arr_elem i hi
        unfold loadElem at hv
        simp only [Option.bind_eq_bind, Option.bind_eq_some_iff] at hv
        obtain ⟨t, ht, _⟩ := hv
        exact ⟨t, ht⟩]
      refine validElems_enc hm hz h8 hf hw ?_ es [] 0 rfl
      intro v hv q bytes hat hb'
      refine ih _ hv m q bytes fuel hat hb' ?_
      have := levels_elem hv
      simp only [Spec.levels] at hfu
      omega
  | hnull =>
    intro m p bytes fuel hat hb hfu
    cases fuel with
    | zero => simp only [Spec.levels] at hfu; omega
    | succ fuel => rfl
  | hbool b =>
    intro m p bytes fuel hat hb hfu
    cases fuel with
    | zero => simp only [Spec.levels] at hfu; omega
    | succ fuel => exact check_true.2 hb
  | hint i =>
    intro m p bytes fuel hat hb hfu
    cases fuel with
    | zero => simp only [Spec.levels] at hfu; omega
    | succ fuel =>
      simp only [sizeVal] at hb
      simp only [Val.rawType, okVal]
      rcases identifyInteger_cases i with h | h | h <;> rw [h] at hb ⊢ <;>
        simp only [intBytes, leBytes_length] at hb <;> exact check_true.2 hb
  | hdec d =>
    intro m p bytes fuel hat hb hfu
    cases fuel with
    | zero => simp only [Spec.levels] at hfu; omega
    | succ fuel =>
      simp only [sizeVal] at hb
      simp only [Val.rawType, okVal]
      have h := rawType_align_dec d [] 0
      rcases identifyDecimal_cases d with hd | hd <;> rw [hd] at h ⊢ <;>
        simp only [findSizeof, Option.some.injEq] at h <;> exact check_true.2 (by omega)
  | hstr s =>
    intro m p bytes fuel hat hb hfu
    obtain ⟨hm, hz, ha, hw, hf⟩ := hat
    simp only [Fits] at hf
    simp only [sizeVal] at hb
    simp only [Stored] at hm
    obtain ⟨X, Y, hm, hX⟩ := hasBytes_iff.1 hm
    cases fuel with
    | zero => simp only [Spec.levels] at hfu; omega
    | succ fuel =>
      simp only [Val.rawType, okVal]
      have hlw : strWidth (identifyString s).forTable = strLw s := by
        unfold strLw
        rcases identifyString_cases' s with h | h | h <;> rw [h] <;> rfl
      rcases identifyString_cases' s with h | h | h <;> rw [h] at hlw ⊢ <;>
        exact encStr_valid hm hX hf hlw hb

theorem At.valid (v : Val) (m : Bytes) (p bytes fuel : Nat) (h : At z m p v) (hb : sizeVal v ≤ bytes)
    (hf : sizeVal v < fuel) : validBuffer m fuel v.rawType.forTable p bytes = .ok (okVal v) :=
  At.valid_levels v m p bytes fuel h hb (by have := levels_le_size v; omega)

end Dart

namespace Dart

theorem sizeVal_pos {v : Val} (h : v ≠ .null) : 0 < sizeVal v := by
  cases v with
  | null => exact absurd rfl h
  | bool b => exact Nat.one_pos
  | int i =>
    simp only [sizeVal]
    rcases identifyInteger_cases i with h | h | h <;> rw [h] <;> simp [intBytes]
  | dec d =>
    have := rawType_align_dec d [] 0
    simp only [sizeVal]
    rcases identifyDecimal_cases d with hd | hd <;> rw [hd] at this <;>
      simp only [findSizeof, Option.some.injEq] at this <;> omega
  | str s => simp only [sizeVal, strSize]; omega
  | arr es =>
    have := le_elemsEnd (8 + 8 * es.length) es
    simp only [sizeVal]; omega
  | obj fs =>
    have h1 := le_alignUp (fieldsEnd (8 + 8 * fs.length) fs) (a := 8) (by decide)
    have := le_fieldsEnd (8 + 8 * fs.length) fs
    simp only [sizeVal]; omega

theorem keyOff_null (off : Nat) (k : Bytes) (hk : k.length ≤ 65535) :
    valOff off k .null = alignUp off 2 + k.length + 3 ∧ (alignUp off 2) % 2 = 0 := by
  have h2 := dvd_alignUp off 2
  refine ⟨?_, by omega⟩
  show alignUp (alignUp off 2 + strSize k) 1 = _
  rw [alignUp_one, strSize, strLw_le hk]
  omega

theorem alignUp_two (n : Nat) : alignUp n 2 = n + n % 2 := by
  unfold alignUp; omega

/-- A null does not hide the following key if its own key has even length. -/
theorem next_key {off : Nat} {k : Bytes} {v : Val} (hk : k.length ≤ 65535)
    (h : v = .null → k.length % 2 = 0) :
    valOff off k v < keyOff (valOff off k v + sizeVal v) := by
  by_cases hv : v = .null
  · subst hv
    obtain ⟨h1, h2⟩ := keyOff_null off k hk
    have := h rfl
    show _ < alignUp (valOff off k .null + 0) 2
    rw [h1, alignUp_two (alignUp off 2 + k.length + 3 + 0)]; omega
  · have := sizeVal_pos hv
    have h1 := le_alignUp (valOff off k v + sizeVal v) (a := 2) (by decide)
    show _ < alignUp _ 2
    omega

mutual
theorem okVal_harmless : ∀ v : Val, v.WF → v.NullsHarmless → okVal v = true
  | .obj fs, hw, h => by
    simp only [Val.WF] at hw
    simp only [okVal]
    have h1 := le_alignUp (8 + 8 * fs.length) (a := 2) (by decide)
    exact okFields_harmless fs 0 _ (by show _ < alignUp _ _; omega) hw.2 h
  | .arr es, hw, h => by
    simp only [okVal]
    exact okElems_harmless es 0 _ (by omega) hw h
  | .null, _, _ => rfl
  | .bool _, _, _ => rfl
  | .int _, _, _ => rfl
  | .dec _, _, _ => rfl
  | .str _, _, _ => rfl
theorem okFields_harmless : ∀ (fs : List (Bytes × Val)) (prev off : Nat), prev < keyOff off →
    WFFields fs → NullsHarmlessFields fs → okFields prev off fs = true
  | [], _, _, _, _, _ => rfl
  | (k, v) :: fs, prev, off, hp, hw, h => by
    simp only [WFFields] at hw
    simp only [NullsHarmlessFields] at h
    simp only [okFields, Bool.and_eq_true, decide_eq_true_eq]
    refine ⟨hp, okVal_harmless v hw.2.1 h.2.1, ?_⟩
    cases fs with
    | nil => rfl
    | cons f fs =>
      exact okFields_harmless (f :: fs) _ _ (next_key hw.1 fun hv => h.1 hv (by simp)) hw.2.2 h.2.2
theorem okElems_harmless : ∀ (es : List Val) (prev off : Nat), prev < off →
    WFElems es → NullsHarmlessElems es → okElems prev off es = true
  | [], _, _, _, _, _ => rfl
  | v :: es, prev, off, hp, hw, h => by
    simp only [WFElems] at hw
    simp only [NullsHarmlessElems] at h
    have h1 := le_alignUp off (align_pos v.rawType)
    simp only [okElems, Bool.and_eq_true, decide_eq_true_eq]
    refine ⟨by omega, okVal_harmless v hw.1 h.2.1, ?_⟩
    by_cases hv : v = .null
    · have := h.1 hv
      rw [this]
      rfl
    · have := sizeVal_pos hv
      exact okElems_harmless es _ _ (by omega) hw.2 h.2.2
end

theorem okFields_null_before (a : List (Bytes × Val)) (k : Bytes) (f : Bytes × Val)
    (b : List (Bytes × Val)) (hk : k.length ≤ 65535) (ho : k.length % 2 = 1) :
    ∀ prev off, okFields prev off (a ++ (k, .null) :: f :: b) = false := by
  induction a with
  | nil =>
    intro prev off
    obtain ⟨k', v'⟩ := f
    obtain ⟨h1, h2⟩ := keyOff_null off k hk
    have : ¬ valOff off k .null < keyOff (valOff off k .null + sizeVal .null) := by
      show ¬ _ < alignUp (valOff off k .null + 0) 2
      rw [h1, alignUp_two (alignUp off 2 + k.length + 3 + 0)]; omega
    simp only [List.nil_append, okFields, decide_eq_false this, Bool.false_and, Bool.and_false]
  | cons g a ih =>
    intro prev off
    obtain ⟨k', v'⟩ := g
    simp only [List.cons_append, okFields, ih, Bool.and_false]

theorem okElems_null_first (n : Nat) (w : Val) (es : List Val) :
    okElems 0 (8 + 8 * n) (.null :: w :: es) = false := by
  have h1 : alignUp (8 + 8 * n) Val.null.rawType.align = 8 + 8 * n := alignUp_one _
  have h2 : alignUp (8 + 8 * n + 0) w.rawType.align = 8 + 8 * n :=
    alignUp_of_dvd (align_pos _) (Nat.dvd_trans (align_dvd_eight _) (by omega))
  simp only [okElems, h1, sizeVal, h2, Nat.lt_irrefl, decide_false, Bool.false_and, Bool.and_false]

theorem isValid_finalized {v : Val} {m : Bytes} (hw : v.WF) (h : finalize v = .ok m) :
    isValid m = .ok (okVal v) := by
  have hat := At.root hw h
  have hs := hat.size_le
  obtain ⟨fs, n, rfl, _⟩ := finalize_eq_ok hw h
  exact At.valid _ m 0 m.length (m.length + 1) hat (by omega) (by omega)

theorem okVal_mem_false_obj {fs : List (Bytes × Val)} {k : Bytes} {v : Val} (hm : (k, v) ∈ fs)
    (hv : okVal v = false) : ∀ prev off, okFields prev off fs = false := by
  induction fs with
  | nil => cases hm
  | cons f fs ih =>
    intro prev off
    obtain ⟨k', v'⟩ := f
    rcases List.mem_cons.1 hm with h | h
    · cases h
      simp only [okFields, hv, Bool.false_and, Bool.and_false]
    · simp only [okFields, ih h, Bool.and_false]

end Dart
