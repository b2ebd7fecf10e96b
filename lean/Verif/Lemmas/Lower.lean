import Verif.Model.Lower
import Verif.Lemmas.Stored

/-
The JSON lowering is the heap writer applied to the value of the document; sizes and memory safety without any limits
and on memory with arbitrary contents.
-/
namespace Dart

mutual
/-- The value written for a document. -/
def Json.image : Json → Val
  | .obj fs => .obj (imageFields fs)
  | .arr es => .arr (imageElems es)
  | .str s => .str s
  | .num n => if n < 2 ^ 63 then .int (BitVec.ofInt 64 n) else .dec (intToDouble n)
  | .dbl d => .dec d
  | .bool b => .bool b
  | .null => .null
def imageFields : List (Bytes × Json) → List (Bytes × Val)
  | [] => []
  | (k, v) :: fs => (k, v.image) :: imageFields fs
def imageElems : List Json → List Val
  | [] => []
  | v :: es => v.image :: imageElems es
end

theorem imageFields_length : ∀ fs : List (Bytes × Json), (imageFields fs).length = fs.length
  | [] => rfl
  | (k, v) :: fs => by simp [imageFields, imageFields_length fs]
theorem imageElems_length : ∀ es : List Json, (imageElems es).length = es.length
  | [] => rfl
  | v :: es => by simp [imageElems, imageElems_length es]

theorem identify_image (j : Json) : j.identify = j.image.rawType := by
  cases j <;> simp only [Json.identify, Json.image, Val.rawType]
  split <;> rfl

mutual
theorem lower_image : ∀ (j : Json) (p : Nat) (m : Bytes), j.lower p m = layoutVal j.image p m
  | .obj fs, p, m => by
    simp only [Json.lower, Json.image, layoutVal, imageFields_length, lowerFields_image fs]
  | .arr es, p, m => by
    simp only [Json.lower, Json.image, layoutVal, imageElems_length, lowerElems_image es]
  | .str s, p, m => by simp only [Json.lower, Json.image, layoutVal]
  | .num n, p, m => by
    simp only [Json.lower, Json.image]
    split <;> simp only [layoutVal]
  | .dbl d, p, m => by simp only [Json.lower, Json.image, layoutVal]
  | .bool b, p, m => by simp only [Json.lower, Json.image, layoutVal]
  | .null, p, m => by simp only [Json.lower, Json.image, layoutVal]
theorem lowerFields_image : ∀ (fs : List (Bytes × Json)) (base idx off : Nat) (m : Bytes),
    lowerFields fs base idx off m = layoutFields (imageFields fs) base idx off m
  | [], base, idx, off, m => by simp only [lowerFields, imageFields, layoutFields]
  | (k, v) :: fs, base, idx, off, m => by
    simp only [lowerFields, imageFields, layoutFields, identify_image, lower_image v, lowerFields_image fs]
theorem lowerElems_image : ∀ (es : List Json) (base idx off : Nat) (m : Bytes),
    lowerElems es base idx off m = layoutElems (imageElems es) base idx off m
  | [], base, idx, off, m => by simp only [lowerElems, imageElems, layoutElems]
  | v :: es, base, idx, off, m => by
    simp only [lowerElems, imageElems, layoutElems, identify_image, lower_image v, lowerElems_image es]
end

/-! ### Writes stay in bounds, whatever the contents of the memory and however large the value -/

theorem layoutString_inb {lw : Nat} {s m : Bytes} {p : Nat} (h : p + (lw + s.length + 1) ≤ m.length) :
    ∃ m', layoutString lw s p m = some m' ∧ m'.length = m.length ∧ readU m' lw p = some (s.length % 256 ^ lw) := by
  unfold layoutString
  obtain ⟨a, ha, la⟩ := writeBytes_inb (m := m) (p := p) (bs := leBytes lw s.length) (by simp; omega)
  obtain ⟨b, hb, lb⟩ := writeBytes_inb (m := a) (p := p + lw) (bs := s) (by omega)
  obtain ⟨c, hc, lc⟩ := writeBytes_inb (m := b) (p := p + lw + s.length) (bs := [0]) (by simp; omega)
  refine ⟨c, ?_, by omega, ?_⟩
  · simp only [ha, hb, hc, Option.bind_eq_bind, Option.bind_some]
  · unfold readU
    rw [readBytes_write_other hc (by omega), readBytes_write_other hb (by omega)]
    have := readBytes_write ha
    rw [leBytes_length] at this
    rw [this]
    simp [leNat_leBytes]

theorem layoutStr_inb {s m : Bytes} {p : Nat} (h : p + strSize s ≤ m.length) :
    ∃ m' sz, layoutStr s p m = some (m', sz) ∧ m'.length = m.length ∧ sz ≤ strSize s := by
  unfold layoutStr
  unfold strSize strLw at *
  unfold identifyString at *
  by_cases h1 : s.length > 65535
  · simp only [h1, if_true] at *
    obtain ⟨m', e, l, r⟩ := layoutString_inb h
    simp only [e, Option.bind_eq_bind, Option.bind_some, findSizeof, r, Option.map_some]
    exact ⟨_, _, rfl, l, by have := Nat.mod_le s.length (256 ^ 4); omega⟩
  · by_cases h2 : s.length > ssoBytes
    all_goals
      simp only [h1, h2, if_true, if_false] at *
      obtain ⟨m', e, l, r⟩ := layoutString_inb h
      simp only [e, Option.bind_eq_bind, Option.bind_some, findSizeof, r, Option.map_some]
      exact ⟨_, _, rfl, l, by have := Nat.mod_le s.length (256 ^ 2); omega⟩

theorem fieldsEnd_le_of : ∀ (fs : List (Bytes × Val)) {a b : Nat}, a ≤ b → fieldsEnd a fs ≤ fieldsEnd b fs
  | [], _, _, h => by simpa only [fieldsEnd] using h
  | (k, v) :: fs, a, b, h => by
    simp only [fieldsEnd]
    refine fieldsEnd_le_of fs (Nat.add_le_add_right (alignUp_mono _ (Nat.add_le_add_right (alignUp_mono _ h) _)) _)
theorem elemsEnd_le_of : ∀ (es : List Val) {a b : Nat}, a ≤ b → elemsEnd a es ≤ elemsEnd b es
  | [], _, _, h => by simpa only [elemsEnd] using h
  | v :: es, a, b, h => by
    simp only [elemsEnd]
    exact elemsEnd_le_of es (Nat.add_le_add_right (alignUp_mono _ h) _)

mutual
theorem layoutVal_inb : ∀ (v : Val) {p : Nat} {m : Bytes}, v.rawType.align ∣ p → p + sizeVal v ≤ m.length →
    ∃ m' sz, layoutVal v p m = some (m', sz) ∧ m'.length = m.length ∧ sz ≤ sizeVal v
  | .obj fs, p, m, ha, h => by
    have hle := le_alignUp (fieldsEnd (8 + 8 * fs.length) fs) (a := 8) (by decide)
    have hle2 := le_fieldsEnd (8 + 8 * fs.length) fs
    simp only [sizeVal] at h ⊢
    obtain ⟨a, ea, la⟩ := writeBytes_inb (m := m) (p := p + 4) (bs := leBytes 4 fs.length) (by simp; omega)
    obtain ⟨b, o, eb, lb, ho⟩ := layoutFields_inb fs (p := p) (i := 0) (off := 8 + 8 * fs.length)
      (B := 8 + 8 * fs.length) (m := a) ha (by omega) (by omega) (by omega)
    have hm := alignUp_mono 8 ho
    obtain ⟨c, ec, lc⟩ := writeBytes_inb (m := b) (p := p) (bs := leBytes 4 (alignUp o 8)) (by simp; omega)
    have r := readU_write ec
    simp only [layoutVal, ea, eb, ec, findSizeof, r, Option.bind_eq_bind, Option.bind_some]
    exact ⟨_, _, rfl, by omega, Nat.le_trans (Nat.mod_le _ _) hm⟩
  | .arr es, p, m, ha, h => by
    have hle2 := le_elemsEnd (8 + 8 * es.length) es
    simp only [sizeVal] at h ⊢
    obtain ⟨a, ea, la⟩ := writeBytes_inb (m := m) (p := p + 4) (bs := leBytes 4 es.length) (by simp; omega)
    obtain ⟨b, o, eb, lb, ho⟩ := layoutElems_inb es (p := p) (i := 0) (off := 8 + 8 * es.length)
      (B := 8 + 8 * es.length) (m := a) ha (by omega) (by omega) (by omega)
    obtain ⟨c, ec, lc⟩ := writeBytes_inb (m := b) (p := p) (bs := leBytes 4 o) (by simp; omega)
    have r := readU_write ec
    simp only [layoutVal, ea, eb, ec, findSizeof, r, Option.bind_eq_bind, Option.bind_some]
    exact ⟨_, _, rfl, by omega, Nat.le_trans (Nat.mod_le _ _) ho⟩
  | .str s, p, m, ha, h => by
    simp only [sizeVal, layoutVal] at h ⊢
    exact layoutStr_inb h
  | .int i, p, m, ha, h => by
    simp only [sizeVal, layoutVal] at h ⊢
    obtain ⟨a, ea, la⟩ := writeBytes_inb h
    simp only [ea, rawType_align_int, Option.bind_eq_bind, Option.bind_some]
    exact ⟨_, _, rfl, la, Nat.le_refl _⟩
  | .dec d, p, m, ha, h => by
    simp only [sizeVal, layoutVal] at h ⊢
    obtain ⟨a, ea, la⟩ := writeBytes_inb h
    simp only [ea, rawType_align_dec, Option.bind_eq_bind, Option.bind_some]
    exact ⟨_, _, rfl, la, Nat.le_refl _⟩
  | .bool b, p, m, ha, h => by
    simp only [sizeVal, layoutVal] at h ⊢
    obtain ⟨a, ea, la⟩ := writeBytes_inb (m := m) (p := p) (bs := [if b then 1 else 0]) h
    simp only [ea, findSizeof, Option.bind_eq_bind, Option.bind_some]
    exact ⟨_, _, rfl, la, Nat.le_refl _⟩
  | .null, p, m, ha, h => by
    simp only [sizeVal, layoutVal]
    exact ⟨_, _, rfl, rfl, Nat.le_refl _⟩
theorem layoutFields_inb : ∀ (fs : List (Bytes × Val)) {p i off B : Nat} {m : Bytes}, 8 ∣ p → off ≤ B →
    p + 8 + 8 * (i + fs.length) ≤ m.length → p + fieldsEnd B fs ≤ m.length →
    ∃ m' o, layoutFields fs p i off m = some (m', o) ∧ m'.length = m.length ∧ o ≤ fieldsEnd B fs
  | [], p, i, off, B, m, ha, hB, hi, h => by
    simp only [layoutFields, fieldsEnd]
    exact ⟨_, _, rfl, rfl, hB⟩
  | (k, v) :: fs, p, i, off, B, m, ha, hB, hi, h => by
    have a2 : (2 : Nat) ∣ p := Nat.dvd_trans (by decide) ha
    have av : v.rawType.align ∣ p := Nat.dvd_trans (align_dvd_eight _) ha
    have hk := le_alignUp off (a := 2) (by decide)
    have hkB := alignUp_mono 2 hB
    simp only [fieldsEnd, List.length_cons] at h hi ⊢
    have hend := le_fieldsEnd (alignUp (alignUp B 2 + strSize k) v.rawType.align + sizeVal v) fs
    have hvB := le_alignUp (alignUp B 2 + strSize k) (align_pos v.rawType)
    have hs : RawType.string.align = 2 := rfl
    have ek : off + (p + alignUp off 2 - (p + off)) = alignUp off 2 := by omega
    obtain ⟨a, ea, la⟩ := writeBytes_inb (m := m) (p := p + 8 + 8 * i)
      (bs := objEntry v.rawType (alignUp off 2) (cstr k)) (by simp; omega)
    obtain ⟨b, sz, eb, lb, hb⟩ := layoutStr_inb (s := k) (m := a) (p := p + alignUp off 2) (by omega)
    have hv := le_alignUp (alignUp off 2 + sz) (align_pos v.rawType)
    have ev : alignUp off 2 + sz + (p + alignUp (alignUp off 2 + sz) v.rawType.align - (p + (alignUp off 2 + sz)))
        = alignUp (alignUp off 2 + sz) v.rawType.align := by omega
    have hvm : alignUp (alignUp off 2 + sz) v.rawType.align ≤ alignUp (alignUp B 2 + strSize k) v.rawType.align :=
      alignUp_mono _ (by omega)
    obtain ⟨c, s2, ec, lc, hc⟩ := layoutVal_inb v (p := p + alignUp (alignUp off 2 + sz) v.rawType.align) (m := b)
      ((Nat.dvd_add_right av).2 (dvd_alignUp _ _)) (by omega)
    obtain ⟨d, o, ed, ld, hd⟩ := layoutFields_inb fs (p := p) (i := i + 1)
      (off := alignUp (alignUp off 2 + sz) v.rawType.align + s2)
      (B := alignUp (alignUp B 2 + strSize k) v.rawType.align + sizeVal v) (m := c) ha (by omega) (by omega) (by omega)
    refine ⟨d, o, ?_, by omega, hd⟩
    simp only [layoutFields, hs, alignUp_add_left (by decide : 0 < 2) a2, ek, ea, eb, Option.bind_eq_bind,
      Option.bind_some, alignUp_add_left (align_pos _) av, ev, ec, ed]
theorem layoutElems_inb : ∀ (es : List Val) {p i off B : Nat} {m : Bytes}, 8 ∣ p → off ≤ B →
    p + 8 + 8 * (i + es.length) ≤ m.length → p + elemsEnd B es ≤ m.length →
    ∃ m' o, layoutElems es p i off m = some (m', o) ∧ m'.length = m.length ∧ o ≤ elemsEnd B es
  | [], p, i, off, B, m, ha, hB, hi, h => by
    simp only [layoutElems, elemsEnd]
    exact ⟨_, _, rfl, rfl, hB⟩
  | v :: es, p, i, off, B, m, ha, hB, hi, h => by
    have av : v.rawType.align ∣ p := Nat.dvd_trans (align_dvd_eight _) ha
    simp only [elemsEnd, List.length_cons] at h hi ⊢
    have hend := le_elemsEnd (alignUp B v.rawType.align + sizeVal v) es
    have hv := le_alignUp off (align_pos v.rawType)
    have hvm : alignUp off v.rawType.align ≤ alignUp B v.rawType.align := alignUp_mono _ hB
    have ev : off + (p + alignUp off v.rawType.align - (p + off)) = alignUp off v.rawType.align := by omega
    obtain ⟨a, ea, la⟩ := writeBytes_inb (m := m) (p := p + 8 + 8 * i)
      (bs := arrEntry v.rawType (alignUp off v.rawType.align)) (by simp; omega)
    obtain ⟨c, s2, ec, lc, hc⟩ := layoutVal_inb v (p := p + alignUp off v.rawType.align) (m := a)
      ((Nat.dvd_add_right av).2 (dvd_alignUp _ _)) (by omega)
    obtain ⟨d, o, ed, ld, hd⟩ := layoutElems_inb es (p := p) (i := i + 1) (off := alignUp off v.rawType.align + s2)
      (B := alignUp B v.rawType.align + sizeVal v) (m := c) ha (by omega) (by omega) (by omega)
    refine ⟨d, o, ?_, by omega, hd⟩
    simp only [layoutElems, ea, Option.bind_eq_bind,
      Option.bind_some, alignUp_add_left (align_pos _) av, ev, ec, ed]
end

end Dart
