import Verif.Model.Layout
import Verif.Lemmas.Basic

/-
A pure encoder, and the proof that the writer of `Verif.Model.Layout` produces exactly its output.
-/
namespace Dart

/-- Width of the length field of a string. -/
def strLw (s : Bytes) : Nat := match identifyString s with | .bigString => 4 | _ => 2
/-- Size of an encoded string. -/
def strSize (s : Bytes) : Nat := strLw s + s.length + 1
/-- An encoded string. -/
def encStr (s : Bytes) : Bytes := leBytes (strLw s) s.length ++ (s ++ [0])

mutual
/-- Size of an encoded value. -/
def sizeVal : Val → Nat
  | .obj fs => alignUp (fieldsEnd (8 + 8 * fs.length) fs) 8
  | .arr es => elemsEnd (8 + 8 * es.length) es
  | .str s => strSize s
  | .int i => (intBytes (identifyInteger i) i).length
  | .dec d => (decBytes d).length
  | .bool _ => 1
  | .null => 0
/-- Offset after the fields when they start at `off`. -/
def fieldsEnd : Nat → List (Bytes × Val) → Nat
  | off, [] => off
  | off, (k, v) :: fs =>
    fieldsEnd (alignUp (alignUp off 2 + strSize k) v.rawType.align + sizeVal v) fs
/-- Offset after the elements when they start at `off`. -/
def elemsEnd : Nat → List Val → Nat
  | off, [] => off
  | off, v :: es => elemsEnd (alignUp off v.rawType.align + sizeVal v) es
end

/-- Offset of the first key when the fields start at `off`. -/
abbrev keyOff (off : Nat) : Nat := alignUp off 2
/-- Offset of the first value. -/
abbrev valOff (off : Nat) (k : Bytes) (v : Val) : Nat :=
  alignUp (alignUp off 2 + strSize k) v.rawType.align

/-- Table entries of an object. -/
def encEntries : Nat → List (Bytes × Val) → Bytes
  | _, [] => []
  | off, (k, v) :: fs =>
    objEntry v.rawType (keyOff off) (cstr k) ++ encEntries (valOff off k v + sizeVal v) fs
/-- Table entries of an array. -/
def encArrEntries : Nat → List Val → Bytes
  | _, [] => []
  | off, v :: es =>
    arrEntry v.rawType (alignUp off v.rawType.align) ++
      (zeros 3 ++ encArrEntries (alignUp off v.rawType.align + sizeVal v) es)

mutual
/-- The encoding of a value. -/
def enc : Val → Bytes
  | .obj fs =>
    leBytes 4 (sizeVal (.obj fs)) ++ (leBytes 4 fs.length ++ (encEntries (8 + 8 * fs.length) fs ++
      (encFields (8 + 8 * fs.length) fs ++
        zeros (sizeVal (.obj fs) - fieldsEnd (8 + 8 * fs.length) fs))))
  | .arr es =>
    leBytes 4 (sizeVal (.arr es)) ++ (leBytes 4 es.length ++ (encArrEntries (8 + 8 * es.length) es ++
      encElems (8 + 8 * es.length) es))
  | .str s => encStr s
  | .int i => intBytes (identifyInteger i) i
  | .dec d => decBytes d
  | .bool b => [if b then 1 else 0]
  | .null => []
/-- The encoding of the fields of an object (padding, key, padding, value each). -/
def encFields : Nat → List (Bytes × Val) → Bytes
  | _, [] => []
  | off, (k, v) :: fs =>
    zeros (keyOff off - off) ++ (encStr k ++ (zeros (valOff off k v - (keyOff off + strSize k)) ++
      (enc v ++ encFields (valOff off k v + sizeVal v) fs)))
/-- The encoding of the elements of an array (padding, element each). -/
def encElems : Nat → List Val → Bytes
  | _, [] => []
  | off, v :: es =>
    zeros (alignUp off v.rawType.align - off) ++
      (enc v ++ encElems (alignUp off v.rawType.align + sizeVal v) es)
end

mutual
/-- Every recorded length and size fits its field, keys are at most 65535 bytes. -/
def Fits : Val → Prop
  | .obj fs => sizeVal (.obj fs) < 2 ^ 32 ∧ FitsFields fs
  | .arr es => sizeVal (.arr es) < 2 ^ 32 ∧ FitsElems es
  | .str s => s.length < 2 ^ 32
  | _ => True
/-- `Fits` for fields. -/
def FitsFields : List (Bytes × Val) → Prop
  | [] => True
  | (k, v) :: fs => k.length ≤ 65535 ∧ Fits v ∧ FitsFields fs
/-- `Fits` for elements. -/
def FitsElems : List Val → Prop
  | [] => True
  | v :: es => Fits v ∧ FitsElems es
end

/-! ### Sizes -/

@[simp] theorem objEntry_length (t off p) : (objEntry t off p).length = 8 := by
  simp [objEntry]
@[simp] theorem arrEntry_length (t off) : (arrEntry t off).length = 5 := by
  simp [arrEntry]

@[simp] theorem encStr_length (s : Bytes) : (encStr s).length = strSize s := by
  simp [encStr, strSize]; omega

@[simp] theorem encEntries_length (off) (fs : List (Bytes × Val)) :
    (encEntries off fs).length = 8 * fs.length := by
  induction fs generalizing off with
  | nil => rfl
  | cons f fs ih => obtain ⟨k, v⟩ := f; simp [encEntries, ih]; omega

@[simp] theorem encArrEntries_length (off) (es : List Val) :
    (encArrEntries off es).length = 8 * es.length := by
  induction es generalizing off with
  | nil => rfl
  | cons f es ih => simp [encArrEntries, ih]; omega

mutual
theorem enc_length : ∀ v : Val, (enc v).length = sizeVal v
  | .obj fs => by
    have h1 := encFields_length (8 + 8 * fs.length) fs
    have h2 := le_alignUp (fieldsEnd (8 + 8 * fs.length) fs) (a := 8) (by decide)
    simp only [enc, sizeVal, List.length_append, leBytes_length, encEntries_length, zeros_length]
    omega
  | .arr es => by
    have h1 := encElems_length (8 + 8 * es.length) es
    simp only [enc, sizeVal, List.length_append, leBytes_length, encArrEntries_length]
    omega
  | .str s => by simp [enc, sizeVal]
  | .int i => by simp [enc, sizeVal]
  | .dec d => by simp [enc, sizeVal]
  | .bool b => by simp [enc, sizeVal]
  | .null => by simp [enc, sizeVal]
theorem encFields_length : ∀ (off : Nat) (fs : List (Bytes × Val)),
    off + (encFields off fs).length = fieldsEnd off fs
  | off, [] => by simp [encFields, fieldsEnd]
  | off, (k, v) :: fs => by
    have h0 := enc_length v
    have h1 := encFields_length (valOff off k v + sizeVal v) fs
    have h2 := le_alignUp off (a := 2) (by decide)
    have h3 := le_alignUp (alignUp off 2 + strSize k) (align_pos v.rawType)
    simp only [encFields, fieldsEnd, List.length_append, zeros_length, encStr_length, h0]
    simp only [keyOff, valOff] at *
    omega
theorem encElems_length : ∀ (off : Nat) (es : List Val),
    off + (encElems off es).length = elemsEnd off es
  | off, [] => by simp [encElems, elemsEnd]
  | off, v :: es => by
    have h0 := enc_length v
    have h1 := encElems_length (alignUp off v.rawType.align + sizeVal v) es
    have h3 := le_alignUp off (align_pos v.rawType)
    simp only [encElems, elemsEnd, List.length_append, zeros_length, h0]
    omega
end

theorem le_fieldsEnd (off : Nat) (fs : List (Bytes × Val)) : off ≤ fieldsEnd off fs := by
  have := encFields_length off fs; omega
theorem le_elemsEnd (off : Nat) (es : List Val) : off ≤ elemsEnd off es := by
  have := encElems_length off es; omega

/-! ### The writer produces the encoding -/

theorem cut {A B C : Bytes} : A ++ (B ++ C) = (A ++ B) ++ C := (List.append_assoc _ _ _).symm

theorem layoutString_ok (lw : Nat) (s : Bytes) (pre post : Bytes) (p N : Nat) (hp : p = pre.length)
    (hN : lw + s.length + 1 ≤ N) :
    layoutString lw s p (pre ++ (zeros N ++ post)) =
      some (pre ++ ((leBytes lw s.length ++ (s ++ [0])) ++ (zeros (N - (lw + s.length + 1)) ++ post))) := by
  subst hp
  have e : zeros N = zeros lw ++ (zeros s.length ++ (zeros 1 ++ zeros (N - (lw + s.length + 1)))) := by
    simp only [← zeros_add]; congr 1; omega
  unfold layoutString
  rw [e]
  simp only [List.append_assoc]
  rw [writeBytes_mid pre (zeros lw) _ _ _ rfl (by simp)]
  simp only [Option.bind_eq_bind, Option.bind_some]
  rw [cut, writeBytes_mid _ (zeros s.length) _ _ _ (by simp) (by simp)]
  simp only [Option.bind_some]
  rw [cut, writeBytes_mid _ (zeros 1) _ _ _ (by simp; omega) (by simp)]
  simp only [List.append_assoc]

theorem layoutStr_ok (s : Bytes) (pre post : Bytes) (p N : Nat) (hp : p = pre.length)
    (hs : s.length < 2 ^ 32) (hN : strSize s ≤ N) :
    layoutStr s p (pre ++ (zeros N ++ post)) =
      some (pre ++ (encStr s ++ (zeros (N - strSize s) ++ post)), strSize s) := by
  unfold layoutStr
  unfold encStr strSize strLw at *
  unfold identifyString at *
  by_cases h1 : s.length > 65535
  · simp only [h1, if_true] at *
    rw [layoutString_ok 4 s pre post p N hp hN]
    simp only [Option.bind_eq_bind, Option.bind_some, findSizeof, List.append_assoc]
    rw [readU_mid pre _ 4 s.length p hp (by omega)]
    rfl
  · by_cases h2 : s.length > ssoBytes
    all_goals
      have hb : s.length < 256 ^ 2 := by omega
      simp only [h1, h2, if_true, if_false] at *
      rw [layoutString_ok 2 s pre post p N hp hN]
      simp only [Option.bind_eq_bind, Option.bind_some, findSizeof, List.append_assoc]
      rw [readU_mid pre _ 2 s.length p hp hb]
      rfl

theorem layoutStr_length {s m m' : Bytes} {p sz : Nat} (h : layoutStr s p m = some (m', sz)) :
    m'.length = m.length := by
  simp only [layoutStr, layoutString, Option.bind_eq_bind, Option.bind_assoc,
    Option.bind_eq_some_iff] at h
  obtain ⟨a, ha, b, hb, c, hc, d, hd, he⟩ := h
  cases he
  have := writeBytes_some_length ha
  have := writeBytes_some_length hb
  have := writeBytes_some_length hc
  omega

/-- Writing a block over zeros. -/
theorem write_zeros (pre post bs : Bytes) (p N : Nat) (hp : p = pre.length) (hN : bs.length ≤ N) :
    writeBytes (pre ++ (zeros N ++ post)) p bs =
      some (pre ++ (bs ++ (zeros (N - bs.length) ++ post))) := by
  rw [zeros_split hN, List.append_assoc, writeBytes_mid _ _ _ _ _ hp (by simp)]

theorem rawType_align_int (i : BitVec 64) (m : Bytes) (p : Nat) :
    findSizeof m (identifyInteger i) p = some (intBytes (identifyInteger i) i).length := by
  unfold identifyInteger
  repeat' split
  all_goals simp [findSizeof, intBytes]

theorem rawType_align_dec (d : BitVec 64) (m : Bytes) (p : Nat) :
    findSizeof m (identifyDecimal d) p = some (decBytes d).length := by
  unfold identifyDecimal decBytes
  cases narrowBits d.toNat <;> simp [findSizeof]

mutual
theorem layoutVal_ok : ∀ (v : Val) (pre post : Bytes) (p N : Nat), p = pre.length →
    v.rawType.align ∣ p → Fits v → sizeVal v ≤ N →
    layoutVal v p (pre ++ (zeros N ++ post)) =
      some (pre ++ (enc v ++ (zeros (N - sizeVal v) ++ post)), sizeVal v)
  | .obj fs, pre, post, p, N, hp, ha, hf, hN => by
    have hle := le_alignUp (fieldsEnd (8 + 8 * fs.length) fs) (a := 8) (by decide)
    have hle2 := le_fieldsEnd (8 + 8 * fs.length) fs
    have hsz : sizeVal (.obj fs) = alignUp (fieldsEnd (8 + 8 * fs.length) fs) 8 := by simp [sizeVal]
    have e : zeros N = zeros 4 ++ (zeros 4 ++ (zeros (8 * fs.length) ++ zeros (N - (8 + 8 * fs.length)))) := by
      simp only [← zeros_add]; congr 1; omega
    have hF := layoutFields_ok fs (pre ++ (zeros 4 ++ leBytes 4 fs.length)) [] post p 0 (8 + 8 * fs.length)
      (N - (8 + 8 * fs.length)) (by simp [hp]) (by simp [hp]; omega) (by simpa [Val.rawType, RawType.align] using ha)
      (by simp only [Fits] at hf; exact hf.2) (by omega)
    simp only [List.append_assoc, List.nil_append] at hF
    unfold layoutVal
    rw [e]
    simp only [List.append_assoc]
    rw [cut, writeBytes_mid (pre ++ zeros 4) (zeros 4) _ _ _ (by simp [hp]) (by simp)]
    simp only [List.append_assoc, Option.bind_eq_bind, Option.bind_some]
    rw [hF]
    simp only [Option.bind_some]
    rw [writeBytes_mid pre (zeros 4) _ _ _ hp (by simp)]
    simp only [Option.bind_some, findSizeof]
    rw [readU_mid pre _ 4 _ p hp (by simp only [Fits] at hf; omega)]
    simp only [Option.bind_some, enc, hsz, List.append_assoc]
    have e2 : zeros (8 + 8 * fs.length + (N - (8 + 8 * fs.length)) - fieldsEnd (8 + 8 * fs.length) fs)
        = zeros (alignUp (fieldsEnd (8 + 8 * fs.length) fs) 8 - fieldsEnd (8 + 8 * fs.length) fs)
          ++ zeros (N - alignUp (fieldsEnd (8 + 8 * fs.length) fs) 8) := by
      rw [← zeros_add]; congr 1; omega
    rw [e2, List.append_assoc]
  | .arr es, pre, post, p, N, hp, ha, hf, hN => by
    have hle2 := le_elemsEnd (8 + 8 * es.length) es
    have hsz : sizeVal (.arr es) = elemsEnd (8 + 8 * es.length) es := by simp [sizeVal]
    have e : zeros N = zeros 4 ++ (zeros 4 ++ (zeros (8 * es.length) ++ zeros (N - (8 + 8 * es.length)))) := by
      simp only [← zeros_add]; congr 1; omega
    have hF := layoutElems_ok es (pre ++ (zeros 4 ++ leBytes 4 es.length)) [] post p 0 (8 + 8 * es.length)
      (N - (8 + 8 * es.length)) (by simp [hp]) (by simp [hp]; omega) (by simpa [Val.rawType, RawType.align] using ha)
      (by simp only [Fits] at hf; exact hf.2) (by omega)
    simp only [List.append_assoc, List.nil_append] at hF
    unfold layoutVal
    rw [e]
    simp only [List.append_assoc]
    rw [cut, writeBytes_mid (pre ++ zeros 4) (zeros 4) _ _ _ (by simp [hp]) (by simp)]
    simp only [List.append_assoc, Option.bind_eq_bind, Option.bind_some]
    rw [hF]
    simp only [Option.bind_some]
    rw [writeBytes_mid pre (zeros 4) _ _ _ hp (by simp)]
    simp only [Option.bind_some, findSizeof]
    rw [readU_mid pre _ 4 _ p hp (by simp only [Fits] at hf; omega)]
    simp only [Option.bind_some, enc, hsz, List.append_assoc]
    have e2 : zeros (8 + 8 * es.length + (N - (8 + 8 * es.length)) - elemsEnd (8 + 8 * es.length) es)
        = zeros (N - elemsEnd (8 + 8 * es.length) es) := by
      congr 1; omega
    rw [e2]
  | .str s, pre, post, p, N, hp, ha, hf, hN => by
    simp only [layoutVal, enc, sizeVal, Fits] at *
    exact layoutStr_ok s pre post p N hp hf hN
  | .int i, pre, post, p, N, hp, ha, hf, hN => by
    simp only [layoutVal, enc, sizeVal] at *
    rw [write_zeros pre post _ p N hp hN]
    simp only [Option.bind_eq_bind, Option.bind_some, rawType_align_int]
  | .dec d, pre, post, p, N, hp, ha, hf, hN => by
    simp only [layoutVal, enc, sizeVal] at *
    rw [write_zeros pre post _ p N hp hN]
    simp only [Option.bind_eq_bind, Option.bind_some, rawType_align_dec]
  | .bool b, pre, post, p, N, hp, ha, hf, hN => by
    simp only [layoutVal, enc, sizeVal] at *
    rw [write_zeros pre post _ p N hp (by simpa using hN)]
    simp [findSizeof]
  | .null, pre, post, p, N, hp, ha, hf, hN => by
    simp [layoutVal, enc, sizeVal]
theorem layoutFields_ok : ∀ (fs : List (Bytes × Val)) (P D post : Bytes) (base idx off N : Nat),
    P.length = base + 8 + 8 * idx → base + off = P.length + 8 * fs.length + D.length → 8 ∣ base →
    FitsFields fs → fieldsEnd off fs ≤ off + N →
    layoutFields fs base idx off (P ++ (zeros (8 * fs.length) ++ (D ++ (zeros N ++ post)))) =
      some (P ++ (encEntries off fs ++ (D ++ (encFields off fs ++
        (zeros (off + N - fieldsEnd off fs) ++ post)))), fieldsEnd off fs)
  | [], P, D, post, base, idx, off, N, hP, hD, hb, hf, hN => by
    have : off + N - off = N := by omega
    simp [layoutFields, encEntries, encFields, fieldsEnd, this]
  | (k, v) :: fs, P, D, post, base, idx, off, N, hP, hD, hb, hf, hN => by
    have a2 : (2 : Nat) ∣ base := Nat.dvd_trans (by decide) hb
    have ha : v.rawType.align ∣ base := Nat.dvd_trans (align_dvd_eight _) hb
    have hk := le_alignUp off (a := 2) (by decide)
    have hv := le_alignUp (alignUp off 2 + strSize k) (align_pos v.rawType)
    have hend := le_fieldsEnd (valOff off k v + sizeVal v) fs
    simp only [fieldsEnd] at hN
    simp only [FitsFields] at hf
    simp only [List.length_cons] at *
    have ek : base + off + (base + alignUp off 2 - (base + off)) = base + alignUp off 2 := by omega
    have ek2 : off + (base + alignUp off 2 - (base + off)) = alignUp off 2 := by omega
    have ev : ∀ x, x ≤ alignUp x v.rawType.align → x + (base + alignUp x v.rawType.align - (base + x)) = alignUp x v.rawType.align := by
      intro x hx; omega
    have hsplit : zeros (8 * (fs.length + 1)) = zeros 8 ++ zeros (8 * fs.length) := by
      rw [← zeros_add]; congr 1; omega
    have hN0 : zeros N = zeros (alignUp off 2 - off) ++ zeros (N - (alignUp off 2 - off)) := by
      apply zeros_split
      simp only [valOff] at hend; omega
    have hN1 : zeros (N - (alignUp off 2 - off) - strSize k) =
        zeros (valOff off k v - (keyOff off + strSize k)) ++
          zeros (off + N - valOff off k v) := by
      rw [← zeros_add]; congr 1; simp only [valOff, keyOff] at *; omega
    have hs : RawType.string.align = 2 := rfl
    unfold layoutFields
    simp only [hs, alignUp_add_left (by decide : 0 < 2) a2, ek2]
    rw [hsplit, List.append_assoc,
      writeBytes_mid P (zeros 8) _ _ _ (by omega) (by simp)]
    simp only [Option.bind_eq_bind, Option.bind_some]
    rw [hN0]
    -- key
    have hA := layoutStr_ok k (P ++ (objEntry v.rawType (alignUp off 2) (cstr k) ++ (zeros (8 * fs.length) ++ (D ++ zeros (alignUp off 2 - off)))))
      post (base + alignUp off 2) (N - (alignUp off 2 - off)) (by simp; omega) (by omega)
      (by simp only [valOff] at hend; omega)
    simp only [List.append_assoc] at hA ⊢
    rw [hA]
    simp only [Option.bind_some]
    rw [alignUp_add_left (align_pos _) ha, ev _ hv, hN1]
    -- value
    have hB := layoutVal_ok v (P ++ (objEntry v.rawType (alignUp off 2) (cstr k) ++ (zeros (8 * fs.length) ++ (D ++ (zeros (alignUp off 2 - off) ++ (encStr k ++ zeros (valOff off k v - (keyOff off + strSize k))))))))
      post (base + valOff off k v) (off + N - valOff off k v)
      (by simp; simp only [valOff, keyOff]; omega)
      (by exact (Nat.dvd_add_right ha).2 (dvd_alignUp _ _)) hf.2.1 (by simp only [valOff] at *; omega)
    simp only [List.append_assoc] at hB ⊢
    rw [hB]
    simp only [Option.bind_some]
    -- rest
    have hC := layoutFields_ok fs (P ++ objEntry v.rawType (alignUp off 2) (cstr k))
      (D ++ (zeros (alignUp off 2 - off) ++ (encStr k ++ (zeros (valOff off k v - (keyOff off + strSize k)) ++ enc v))))
      post base (idx + 1) (valOff off k v + sizeVal v) (off + N - valOff off k v - sizeVal v)
      (by simp; omega)
      (by simp [enc_length]; simp only [valOff, keyOff] at *; omega)
      hb hf.2.2 (by simp only [valOff] at *; omega)
    simp only [List.append_assoc] at hC ⊢
    rw [hC]
    simp only [encEntries, encFields, fieldsEnd, List.append_assoc]
    have e4 : valOff off k v + sizeVal v + (off + N - valOff off k v - sizeVal v) = off + N := by
      simp only [valOff] at *; omega
    rw [e4]
theorem layoutElems_ok : ∀ (es : List Val) (P D post : Bytes) (base idx off N : Nat),
    P.length = base + 8 + 8 * idx → base + off = P.length + 8 * es.length + D.length → 8 ∣ base →
    FitsElems es → elemsEnd off es ≤ off + N →
    layoutElems es base idx off (P ++ (zeros (8 * es.length) ++ (D ++ (zeros N ++ post)))) =
      some (P ++ (encArrEntries off es ++ (D ++ (encElems off es ++
        (zeros (off + N - elemsEnd off es) ++ post)))), elemsEnd off es)
  | [], P, D, post, base, idx, off, N, hP, hD, hb, hf, hN => by
    have : off + N - off = N := by omega
    simp [layoutElems, encArrEntries, encElems, elemsEnd, this]
  | v :: es, P, D, post, base, idx, off, N, hP, hD, hb, hf, hN => by
    have ha : v.rawType.align ∣ base := Nat.dvd_trans (align_dvd_eight _) hb
    have hv := le_alignUp off (align_pos v.rawType)
    have hend := le_elemsEnd (alignUp off v.rawType.align + sizeVal v) es
    simp only [elemsEnd] at hN
    simp only [FitsElems] at hf
    simp only [List.length_cons] at *
    have ev : off + (base + alignUp off v.rawType.align - (base + off)) = alignUp off v.rawType.align := by omega
    have hsplit : zeros (8 * (es.length + 1)) = zeros 5 ++ (zeros 3 ++ zeros (8 * es.length)) := by
      rw [← zeros_add, ← zeros_add]; congr 1; omega
    have hN0 : zeros N = zeros (alignUp off v.rawType.align - off) ++ zeros (off + N - alignUp off v.rawType.align) := by
      rw [← zeros_add]; congr 1; omega
    unfold layoutElems
    simp only [alignUp_add_left (align_pos _) ha, ev]
    rw [hsplit, List.append_assoc,
      writeBytes_mid P (zeros 5) _ _ _ (by omega) (by simp)]
    simp only [Option.bind_eq_bind, Option.bind_some]
    rw [hN0]
    have hB := layoutVal_ok v (P ++ (arrEntry v.rawType (alignUp off v.rawType.align) ++ (zeros 3 ++ (zeros (8 * es.length) ++ (D ++ zeros (alignUp off v.rawType.align - off))))))
      post (base + alignUp off v.rawType.align) (off + N - alignUp off v.rawType.align)
      (by simp; omega)
      (by exact (Nat.dvd_add_right ha).2 (dvd_alignUp _ _)) hf.1 (by omega)
    simp only [List.append_assoc] at hB ⊢
    rw [hB]
    simp only [Option.bind_some]
    have hC := layoutElems_ok es (P ++ (arrEntry v.rawType (alignUp off v.rawType.align) ++ zeros 3))
      (D ++ (zeros (alignUp off v.rawType.align - off) ++ enc v))
      post base (idx + 1) (alignUp off v.rawType.align + sizeVal v) (off + N - alignUp off v.rawType.align - sizeVal v)
      (by simp; omega)
      (by simp [enc_length]; omega)
      hb hf.2 (by omega)
    simp only [List.append_assoc] at hC ⊢
    rw [hC]
    simp only [encArrEntries, encElems, elemsEnd, List.append_assoc]
    have e4 : alignUp off v.rawType.align + sizeVal v + (off + N - alignUp off v.rawType.align - sizeVal v) = off + N := by
      omega
    rw [e4]
end

end Dart
