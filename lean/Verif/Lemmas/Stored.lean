import Verif.Lemmas.Encode

/-
Values present in memory, whatever the bytes between their parts; the writer of `Verif.Model.Layout` puts them there
whatever the memory contained.
-/
namespace Dart

theorem writeBytes_inb {m : Bytes} {p : Nat} {bs : Bytes} (h : p + bs.length ≤ m.length) :
    ∃ m', writeBytes m p bs = some m' ∧ m'.length = m.length := by
  refine ⟨_, if_pos h, ?_⟩
  simp; omega

theorem readBytes_write {m m' : Bytes} {p : Nat} {bs : Bytes} (h : writeBytes m p bs = some m') :
    readBytes m' p bs.length = some bs := by
  unfold writeBytes at h
  split at h
  · cases h
    rw [List.append_assoc]
    exact readBytes_mid _ _ _ _ _ (by simp; omega) rfl
  · cases h

theorem readBytes_write_other {m m' : Bytes} {p q n : Nat} {bs : Bytes} (h : writeBytes m p bs = some m')
    (hd : q + n ≤ p ∨ p + bs.length ≤ q) : readBytes m' q n = readBytes m q n := by
  have hl := writeBytes_some_length h
  unfold writeBytes at h
  split at h
  · cases h
    unfold readBytes
    rw [hl]
    split
    · congr 1
      apply List.ext_getElem?
      intro i
      simp only [List.getElem?_take, List.getElem?_drop]
      split
      · rcases hd with hd | hd
        · rw [List.append_assoc, List.getElem?_append_left (by simp; omega), List.getElem?_take_of_lt (by omega)]
        · rw [List.getElem?_append_right (by simp; omega), List.getElem?_drop]
          congr 1
          simp; omega
      · rfl
    · rfl
  · cases h

theorem readU_write {m m' : Bytes} {p w n : Nat} (h : writeBytes m p (leBytes w n) = some m') :
    readU m' w p = some (n % 256 ^ w) := by
  have := readBytes_write h
  rw [leBytes_length] at this
  simp [readU, this, leNat_leBytes]

/-- These bytes are in memory at that address. -/
def HasBytes (m : Bytes) (p : Nat) (bs : Bytes) : Prop := readBytes m p bs.length = some bs

theorem hasBytes_iff {m bs : Bytes} {p : Nat} : HasBytes m p bs ↔ ∃ X Y, m = X ++ (bs ++ Y) ∧ X.length = p := by
  constructor
  · intro h
    unfold HasBytes readBytes at h
    split at h
    · rename_i hl
      refine ⟨m.take p, m.drop (p + bs.length), ?_, by simp; omega⟩
      have h := Option.some.inj h
      have e1 := (List.take_append_drop p m).symm
      have e2 := (List.take_append_drop bs.length (m.drop p)).symm
      rw [h, List.drop_drop] at e2
      rw [← e2]
      exact e1
    · cases h
  · rintro ⟨X, Y, rfl, rfl⟩
    exact readBytes_mid X bs Y _ _ rfl rfl

theorem HasBytes.le {m bs : Bytes} {p : Nat} (h : HasBytes m p bs) : p + bs.length ≤ m.length := by
  unfold HasBytes readBytes at h
  split at h
  · assumption
  · cases h

mutual
/-- The value is in memory at that address. -/
def Stored (m : Bytes) (p : Nat) : Val → Prop
  | .obj fs => HasBytes m p (leBytes 4 (sizeVal (.obj fs))) ∧ HasBytes m (p + 4) (leBytes 4 fs.length) ∧
      StoredFields m p 0 (8 + 8 * fs.length) fs ∧ p + sizeVal (.obj fs) ≤ m.length
  | .arr es => HasBytes m p (leBytes 4 (sizeVal (.arr es))) ∧ HasBytes m (p + 4) (leBytes 4 es.length) ∧
      StoredElems m p 0 (8 + 8 * es.length) es ∧ p + sizeVal (.arr es) ≤ m.length
  | .str s => HasBytes m p (encStr s)
  | .int i => HasBytes m p (intBytes (identifyInteger i) i)
  | .dec d => HasBytes m p (decBytes d)
  | .bool b => HasBytes m p [if b then 1 else 0]
  | .null => p ≤ m.length
/-- Fields with their table entries from number `idx` on. -/
def StoredFields (m : Bytes) (base idx off : Nat) : List (Bytes × Val) → Prop
  | [] => True
  | (k, v) :: fs => HasBytes m (base + 8 + 8 * idx) (objEntry v.rawType (keyOff off) (cstr k)) ∧
      HasBytes m (base + keyOff off) (encStr k) ∧ Stored m (base + valOff off k v) v ∧
      StoredFields m base (idx + 1) (valOff off k v + sizeVal v) fs
/-- Elements with their table entries from number `idx` on. -/
def StoredElems (m : Bytes) (base idx off : Nat) : List Val → Prop
  | [] => True
  | v :: es => HasBytes m (base + 8 + 8 * idx) (arrEntry v.rawType (alignUp off v.rawType.align)) ∧
      Stored m (base + alignUp off v.rawType.align) v ∧
      StoredElems m base (idx + 1) (alignUp off v.rawType.align + sizeVal v) es
end

/-- Memory keeps its contents from `lo` to `hi`. -/
def Keeps (m m' : Bytes) (lo hi : Nat) : Prop := ∀ q n, lo ≤ q → q + n ≤ hi → readBytes m' q n = readBytes m q n

theorem HasBytes.keep {m m' bs : Bytes} {p lo hi : Nat} (h : HasBytes m p bs) (hk : Keeps m m' lo hi) (h1 : lo ≤ p)
    (h2 : p + bs.length ≤ hi) : HasBytes m' p bs := (hk p _ h1 h2).trans h

theorem Keeps.mono {m m' : Bytes} {lo hi lo' hi' : Nat} (h : Keeps m m' lo hi) (h1 : lo ≤ lo') (h2 : hi' ≤ hi) :
    Keeps m m' lo' hi' := fun q n hq hn => h q n (by omega) (by omega)

theorem Keeps.trans {m m' m'' : Bytes} {lo hi : Nat} (h : Keeps m m' lo hi) (h' : Keeps m' m'' lo hi) :
    Keeps m m'' lo hi := fun q n hq hn => (h' q n hq hn).trans (h q n hq hn)

mutual
theorem Stored.keep : ∀ (v : Val) {m m' : Bytes} {p : Nat}, Stored m p v → m'.length = m.length →
    Keeps m m' p (p + sizeVal v) → Stored m' p v
  | .obj fs, m, m', p, h, hl, hk => by
    have h1 := le_fieldsEnd (8 + 8 * fs.length) fs
    have h2 := le_alignUp (fieldsEnd (8 + 8 * fs.length) fs) (a := 8) (by decide)
    have hs : sizeVal (.obj fs) = alignUp (fieldsEnd (8 + 8 * fs.length) fs) 8 := by simp [sizeVal]
    simp only [Stored] at h ⊢
    exact ⟨h.1.keep hk (by omega) (by simp; omega), h.2.1.keep hk (by omega) (by simp; omega),
      StoredFields.keep fs h.2.2.1 hl (hk.mono (by omega) (by omega)) (by omega), by omega⟩
  | .arr es, m, m', p, h, hl, hk => by
    have h1 := le_elemsEnd (8 + 8 * es.length) es
    have hs : sizeVal (.arr es) = elemsEnd (8 + 8 * es.length) es := by simp [sizeVal]
    simp only [Stored] at h ⊢
    exact ⟨h.1.keep hk (by omega) (by simp; omega), h.2.1.keep hk (by omega) (by simp; omega),
      StoredElems.keep es h.2.2.1 hl (hk.mono (by omega) (by omega)) (by omega), by omega⟩
  | .str s, m, m', p, h, hl, hk => by
    simp only [Stored, sizeVal] at h hk ⊢; exact h.keep hk (by omega) (by simp)
  | .int i, m, m', p, h, hl, hk => by
    simp only [Stored, sizeVal] at h hk ⊢; exact h.keep hk (by omega) (by omega)
  | .dec d, m, m', p, h, hl, hk => by
    simp only [Stored, sizeVal] at h hk ⊢; exact h.keep hk (by omega) (by omega)
  | .bool b, m, m', p, h, hl, hk => by
    simp only [Stored, sizeVal] at h hk ⊢; exact h.keep hk (by omega) (by simp)
  | .null, m, m', p, h, hl, hk => by simp only [Stored] at h ⊢; omega
theorem StoredFields.keep : ∀ (fs : List (Bytes × Val)) {m m' : Bytes} {base idx off : Nat}, StoredFields m base idx off fs →
    m'.length = m.length → Keeps m m' base (base + fieldsEnd off fs) → 8 + 8 * (idx + fs.length) ≤ off →
    StoredFields m' base idx off fs
  | [], m, m', base, idx, off, h, hl, hk, ho => by simp [StoredFields]
  | (k, v) :: fs, m, m', base, idx, off, h, hl, hk, ho => by
    have h1 := le_alignUp off (a := 2) (by decide)
    have h2 := le_alignUp (alignUp off 2 + strSize k) (align_pos v.rawType)
    have h3 := le_fieldsEnd (valOff off k v + sizeVal v) fs
    simp only [StoredFields, fieldsEnd, List.length_cons] at h hk ho ⊢
    simp only [keyOff, valOff] at *
    refine ⟨h.1.keep hk (by omega) (by simp; omega), h.2.1.keep hk (by omega) (by simp; omega),
      Stored.keep v h.2.2.1 hl (hk.mono (by omega) (by omega)), StoredFields.keep fs h.2.2.2 hl hk (by omega)⟩
theorem StoredElems.keep : ∀ (es : List Val) {m m' : Bytes} {base idx off : Nat}, StoredElems m base idx off es →
    m'.length = m.length → Keeps m m' base (base + elemsEnd off es) → 8 + 8 * (idx + es.length) ≤ off →
    StoredElems m' base idx off es
  | [], m, m', base, idx, off, h, hl, hk, ho => by simp [StoredElems]
  | v :: es, m, m', base, idx, off, h, hl, hk, ho => by
    have h2 := le_alignUp off (align_pos v.rawType)
    have h3 := le_elemsEnd (alignUp off v.rawType.align + sizeVal v) es
    simp only [StoredElems, elemsEnd, List.length_cons] at h hk ho ⊢
    refine ⟨h.1.keep hk (by omega) (by simp; omega), Stored.keep v h.2.1 hl (hk.mono (by omega) (by omega)),
      StoredElems.keep es h.2.2 hl hk (by omega)⟩
end

theorem hasBytes_write {m m' : Bytes} {p : Nat} {bs : Bytes} (h : writeBytes m p bs = some m') : HasBytes m' p bs :=
  readBytes_write h

theorem keeps_write {m m' : Bytes} {p : Nat} {bs : Bytes} (h : writeBytes m p bs = some m') :
    (∀ lo, Keeps m m' lo p) ∧ ∀ hi, Keeps m m' (p + bs.length) hi :=
  ⟨fun _ _ _ _ _ => readBytes_write_other h (by omega), fun _ _ _ _ _ => readBytes_write_other h (by omega)⟩

theorem HasBytes.append {m a b : Bytes} {p : Nat} (h1 : HasBytes m p a) (h2 : HasBytes m (p + a.length) b) :
    HasBytes m p (a ++ b) := by
  rw [hasBytes_iff] at *
  obtain ⟨X, Y, rfl, hX⟩ := h1
  obtain ⟨Z, W, h, hZ⟩ := h2
  rw [← List.append_assoc] at h
  have := List.append_inj h (by simp; omega)
  exact ⟨X, W, by rw [this.2]; simp, hX⟩

theorem layoutString_stored {lw : Nat} {s m : Bytes} {p : Nat} (h : p + (lw + s.length + 1) ≤ m.length) :
    ∃ m', layoutString lw s p m = some m' ∧ m'.length = m.length ∧ HasBytes m' p (leBytes lw s.length ++ (s ++ [0])) ∧
      (∀ lo, Keeps m m' lo p) ∧ ∀ hi, Keeps m m' (p + (lw + s.length + 1)) hi := by
  unfold layoutString
  obtain ⟨a, ha, la⟩ := writeBytes_inb (m := m) (p := p) (bs := leBytes lw s.length) (by simp; omega)
  obtain ⟨b, hb, lb⟩ := writeBytes_inb (m := a) (p := p + lw) (bs := s) (by omega)
  obtain ⟨c, hc, lc⟩ := writeBytes_inb (m := b) (p := p + lw + s.length) (bs := [0]) (by simp; omega)
  have ka := keeps_write ha
  have kb := keeps_write hb
  have kc := keeps_write hc
  simp only [leBytes_length, List.length_singleton] at ka kb kc
  refine ⟨c, ?_, by omega, ?_, ?_, ?_⟩
  · simp only [ha, hb, hc, Option.bind_eq_bind, Option.bind_some]
  · refine HasBytes.append ?_ (HasBytes.append ?_ ?_)
    · exact ((hasBytes_write ha).keep (kb.1 p) (by omega) (by simp)).keep (kc.1 p) (by omega) (by simp)
    · simp only [leBytes_length]
      exact (hasBytes_write hb).keep (kc.1 p) (by omega) (by omega)
    · simp only [leBytes_length]; exact hasBytes_write hc
  · exact fun lo => (ka.1 lo).trans (((kb.1 lo).mono (by omega) (by omega)).trans ((kc.1 lo).mono (by omega) (by omega)))
  · intro hi
    exact ((ka.2 hi).mono (by omega) (by omega)).trans
      (((kb.2 hi).mono (by omega) (by omega)).trans ((kc.2 hi).mono (by omega) (by omega)))

theorem HasBytes.left {m a b : Bytes} {p : Nat} (h : HasBytes m p (a ++ b)) : HasBytes m p a := by
  rw [hasBytes_iff] at *
  obtain ⟨X, Y, rfl, hX⟩ := h
  exact ⟨X, b ++ Y, by simp, hX⟩

theorem HasBytes.right {m a b : Bytes} {p : Nat} (h : HasBytes m p (a ++ b)) : HasBytes m (p + a.length) b := by
  rw [hasBytes_iff] at *
  obtain ⟨X, Y, rfl, hX⟩ := h
  exact ⟨X ++ a, Y, by simp, by simp [hX]⟩

theorem HasBytes.readU {m : Bytes} {p w n : Nat} (h : HasBytes m p (leBytes w n)) (hn : n < 256 ^ w) :
    readU m w p = some n := by
  obtain ⟨X, Y, rfl, hX⟩ := hasBytes_iff.1 h
  exact readU_mid X Y w n p hX.symm hn

theorem layoutStr_stored {s m : Bytes} {p : Nat} (hs : s.length < 2 ^ 32) (h : p + strSize s ≤ m.length) :
    ∃ m', layoutStr s p m = some (m', strSize s) ∧ m'.length = m.length ∧ HasBytes m' p (encStr s) ∧
      (∀ lo, Keeps m m' lo p) ∧ ∀ hi, Keeps m m' (p + strSize s) hi := by
  unfold layoutStr
  unfold encStr strSize strLw at *
  unfold identifyString at *
  by_cases h1 : s.length > 65535
  · simp only [h1, if_true] at *
    obtain ⟨m', e, l, r, k⟩ := layoutString_stored h
    simp only [e, Option.bind_eq_bind, Option.bind_some, findSizeof, r.left.readU (show _ < 256 ^ 4 by omega),
      Option.map_some]
    exact ⟨_, rfl, l, r, k⟩
  · have hb : s.length < 256 ^ 2 := by omega
    by_cases h2 : s.length > ssoBytes
    all_goals
      simp only [h1, h2, if_true, if_false] at *
      obtain ⟨m', e, l, r, k⟩ := layoutString_stored h
      simp only [e, Option.bind_eq_bind, Option.bind_some, findSizeof, r.left.readU hb,
        Option.map_some]
      exact ⟨_, rfl, l, r, k⟩

mutual
theorem layoutVal_stored : ∀ (v : Val) {p : Nat} {m : Bytes}, v.rawType.align ∣ p → Fits v → p + sizeVal v ≤ m.length →
    ∃ m', layoutVal v p m = some (m', sizeVal v) ∧ m'.length = m.length ∧ Stored m' p v ∧
      (∀ lo, Keeps m m' lo p) ∧ ∀ hi, Keeps m m' (p + sizeVal v) hi
  | .obj fs, p, m, ha, hf, h => by
    have hle := le_alignUp (fieldsEnd (8 + 8 * fs.length) fs) (a := 8) (by decide)
    have hle2 := le_fieldsEnd (8 + 8 * fs.length) fs
    have hs : sizeVal (.obj fs) = alignUp (fieldsEnd (8 + 8 * fs.length) fs) 8 := by simp [sizeVal]
    simp only [Fits] at hf
    obtain ⟨a, ea, la⟩ := writeBytes_inb (m := m) (p := p + 4) (bs := leBytes 4 fs.length) (by simp; omega)
    obtain ⟨b, eb, lb, hb, k1, k2, k3⟩ := layoutFields_stored fs (p := p) (i := 0) (off := 8 + 8 * fs.length) (m := a)
      ha hf.2 (by omega) (by omega)
    obtain ⟨c, ec, lc⟩ := writeBytes_inb (m := b) (p := p) (bs := leBytes 4 (alignUp (fieldsEnd (8 + 8 * fs.length) fs) 8))
      (by simp; omega)
    have ka := keeps_write ea
    have kc := keeps_write ec
    simp only [leBytes_length] at ka kc
    have hc := hasBytes_write ec
    have r := hc.readU (by omega)
    refine ⟨c, ?_, by omega, ?_, ?_, ?_⟩
    · simp only [layoutVal, ea, eb, ec, findSizeof, r, Option.bind_eq_bind, Option.bind_some, hs]
    · simp only [Stored]
      refine ⟨by rw [hs]; exact hc, ?_, ?_, by omega⟩
      · exact ((hasBytes_write ea).keep (k1 p) (by omega) (by simp)).keep (kc.2 (p + 8)) (by omega) (by simp)
      · exact hb.2 c lc (kc.2 _)
    · intro lo
      exact ((ka.1 lo).mono (by omega) (by omega)).trans (((k1 lo).mono (by omega) (by omega)).trans (kc.1 lo))
    · intro hi
      exact ((ka.2 hi).mono (by omega) (by omega)).trans
        (((k3 hi).mono (by omega) (by omega)).trans ((kc.2 hi).mono (by omega) (by omega)))
  | .arr es, p, m, ha, hf, h => by
    have hle2 := le_elemsEnd (8 + 8 * es.length) es
    have hs : sizeVal (.arr es) = elemsEnd (8 + 8 * es.length) es := by simp [sizeVal]
    simp only [Fits] at hf
    obtain ⟨a, ea, la⟩ := writeBytes_inb (m := m) (p := p + 4) (bs := leBytes 4 es.length) (by simp; omega)
    obtain ⟨b, eb, lb, hb, k1, k2, k3⟩ := layoutElems_stored es (p := p) (i := 0) (off := 8 + 8 * es.length) (m := a)
      ha hf.2 (by omega) (by omega)
    obtain ⟨c, ec, lc⟩ := writeBytes_inb (m := b) (p := p) (bs := leBytes 4 (elemsEnd (8 + 8 * es.length) es))
      (by simp; omega)
    have ka := keeps_write ea
    have kc := keeps_write ec
    simp only [leBytes_length] at ka kc
    have hc := hasBytes_write ec
    have r := hc.readU (by omega)
    refine ⟨c, ?_, by omega, ?_, ?_, ?_⟩
    · simp only [layoutVal, ea, eb, ec, findSizeof, r, Option.bind_eq_bind, Option.bind_some, hs]
    · simp only [Stored]
      refine ⟨by rw [hs]; exact hc, ?_, ?_, by omega⟩
      · exact ((hasBytes_write ea).keep (k1 p) (by omega) (by simp)).keep (kc.2 (p + 8)) (by omega) (by simp)
      · exact hb.2 c lc (kc.2 _)
    · intro lo
      exact ((ka.1 lo).mono (by omega) (by omega)).trans (((k1 lo).mono (by omega) (by omega)).trans (kc.1 lo))
    · intro hi
      exact ((ka.2 hi).mono (by omega) (by omega)).trans
        (((k3 hi).mono (by omega) (by omega)).trans ((kc.2 hi).mono (by omega) (by omega)))
  | .str s, p, m, ha, hf, h => by
    simp only [sizeVal, layoutVal, Fits, Stored] at h hf ⊢
    exact layoutStr_stored hf h
  | .int i, p, m, ha, hf, h => by
    simp only [sizeVal, layoutVal, Stored] at h ⊢
    obtain ⟨a, ea, la⟩ := writeBytes_inb h
    simp only [ea, rawType_align_int, Option.bind_eq_bind, Option.bind_some]
    exact ⟨_, rfl, la, hasBytes_write ea, keeps_write ea⟩
  | .dec d, p, m, ha, hf, h => by
    simp only [sizeVal, layoutVal, Stored] at h ⊢
    obtain ⟨a, ea, la⟩ := writeBytes_inb h
    simp only [ea, rawType_align_dec, Option.bind_eq_bind, Option.bind_some]
    exact ⟨_, rfl, la, hasBytes_write ea, keeps_write ea⟩
  | .bool b, p, m, ha, hf, h => by
    simp only [sizeVal, layoutVal, Stored] at h ⊢
    obtain ⟨a, ea, la⟩ := writeBytes_inb (m := m) (p := p) (bs := [if b then 1 else 0]) h
    simp only [ea, findSizeof, Option.bind_eq_bind, Option.bind_some]
    exact ⟨_, rfl, la, hasBytes_write ea, keeps_write ea⟩
  | .null, p, m, ha, hf, h => by
    simp only [sizeVal, layoutVal, Stored] at h ⊢
    exact ⟨_, rfl, rfl, h, fun _ _ _ _ _ => rfl, fun _ _ _ _ _ => rfl⟩
theorem layoutFields_stored : ∀ (fs : List (Bytes × Val)) {p i off : Nat} {m : Bytes}, 8 ∣ p → FitsFields fs →
    8 + 8 * (i + fs.length) ≤ off → p + fieldsEnd off fs ≤ m.length →
    ∃ m', layoutFields fs p i off m = some (m', fieldsEnd off fs) ∧ m'.length = m.length ∧
      (StoredFields m' p i off fs ∧ ∀ m'', m''.length = m'.length →
        Keeps m' m'' (p + 4) (p + fieldsEnd off fs) → StoredFields m'' p i off fs) ∧
      (∀ lo, Keeps m m' lo (p + 8 + 8 * i)) ∧ Keeps m m' (p + 8 + 8 * (i + fs.length)) (p + off) ∧
      ∀ hi, Keeps m m' (p + fieldsEnd off fs) hi
  | [], p, i, off, m, ha, hf, hi, h => by
    simp only [layoutFields, fieldsEnd, StoredFields]
    exact ⟨_, rfl, rfl, ⟨trivial, fun _ _ _ => trivial⟩, fun _ _ _ _ _ => rfl, fun _ _ _ _ => rfl, fun _ _ _ _ _ => rfl⟩
  | (k, v) :: fs, p, i, off, m, ha, hf, hi, h => by
    have a2 : (2 : Nat) ∣ p := Nat.dvd_trans (by decide) ha
    have av : v.rawType.align ∣ p := Nat.dvd_trans (align_dvd_eight _) ha
    have hk := le_alignUp off (a := 2) (by decide)
    have hv := le_alignUp (alignUp off 2 + strSize k) (align_pos v.rawType)
    simp only [fieldsEnd, List.length_cons, FitsFields] at h hi hf ⊢
    have hend := le_fieldsEnd (alignUp (alignUp off 2 + strSize k) v.rawType.align + sizeVal v) fs
    have hs : RawType.string.align = 2 := rfl
    have ek : off + (p + alignUp off 2 - (p + off)) = alignUp off 2 := by omega
    have ev : alignUp off 2 + strSize k + (p + alignUp (alignUp off 2 + strSize k) v.rawType.align -
        (p + (alignUp off 2 + strSize k))) = alignUp (alignUp off 2 + strSize k) v.rawType.align := by omega
    obtain ⟨a, ea, la⟩ := writeBytes_inb (m := m) (p := p + 8 + 8 * i)
      (bs := objEntry v.rawType (alignUp off 2) (cstr k)) (by simp; omega)
    obtain ⟨b, eb, lb, hb, kb1, kb2⟩ := layoutStr_stored (s := k) (m := a) (p := p + alignUp off 2) (by omega) (by omega)
    obtain ⟨c, ec, lc, hc, kc1, kc2⟩ := layoutVal_stored v (p := p + alignUp (alignUp off 2 + strSize k) v.rawType.align)
      (m := b) ((Nat.dvd_add_right av).2 (dvd_alignUp _ _)) hf.2.1 (by omega)
    obtain ⟨d, ed, ld, hd, kd1, kd2, kd3⟩ := layoutFields_stored fs (p := p) (i := i + 1)
      (off := alignUp (alignUp off 2 + strSize k) v.rawType.align + sizeVal v) (m := c) ha hf.2.2 (by omega) (by omega)
    have ka := keeps_write ea
    simp only [objEntry_length] at ka
    have he : HasBytes d (p + 8 + 8 * i) (objEntry v.rawType (alignUp off 2) (cstr k)) :=
      (((hasBytes_write ea).keep (kb1 0) (by omega) (by simp; omega)).keep (kc1 0) (by omega) (by simp; omega)).keep
        (kd1 0) (by omega) (by simp; omega)
    have hek : HasBytes d (p + alignUp off 2) (encStr k) :=
      (hb.keep (kc1 0) (by omega) (by simp; omega)).keep kd2 (by omega) (by simp; omega)
    have hev : Stored d (p + alignUp (alignUp off 2 + strSize k) v.rawType.align) v :=
      Stored.keep v hc ld (kd2.mono (by omega) (by omega))
    refine ⟨d, ?_, by omega, ⟨?_, ?_⟩, ?_, ?_, ?_⟩
    · simp only [layoutFields, hs, alignUp_add_left (by decide : 0 < 2) a2, ek, ea, eb, Option.bind_eq_bind,
        Option.bind_some, alignUp_add_left (align_pos _) av, ev, ec, ed]
    · simp only [StoredFields, keyOff, valOff]
      exact ⟨he, hek, hev, hd.1⟩
    · intro m'' hl hkk
      simp only [StoredFields, keyOff, valOff]
      exact ⟨he.keep hkk (by omega) (by simp; omega), hek.keep hkk (by omega) (by simp; omega),
        Stored.keep v hev hl (hkk.mono (by omega) (by omega)), hd.2 m'' hl hkk⟩
    · intro lo
      exact (ka.1 lo).trans (((kb1 lo).mono (by omega) (by omega)).trans (((kc1 lo).mono (by omega) (by omega)).trans
        ((kd1 lo).mono (by omega) (by omega))))
    · exact ((ka.2 _).mono (by omega) (Nat.le_refl _)).trans (((kb1 _).mono (Nat.le_refl _) (by omega)).trans
        (((kc1 _).mono (Nat.le_refl _) (by omega)).trans (kd2.mono (by omega) (by omega))))
    · intro hi
      exact ((ka.2 hi).mono (by omega) (by omega)).trans (((kb2 hi).mono (by omega) (by omega)).trans
        (((kc2 hi).mono (by omega) (by omega)).trans (kd3 hi)))
theorem layoutElems_stored : ∀ (es : List Val) {p i off : Nat} {m : Bytes}, 8 ∣ p → FitsElems es →
    8 + 8 * (i + es.length) ≤ off → p + elemsEnd off es ≤ m.length →
    ∃ m', layoutElems es p i off m = some (m', elemsEnd off es) ∧ m'.length = m.length ∧
      (StoredElems m' p i off es ∧ ∀ m'', m''.length = m'.length →
        Keeps m' m'' (p + 4) (p + elemsEnd off es) → StoredElems m'' p i off es) ∧
      (∀ lo, Keeps m m' lo (p + 8 + 8 * i)) ∧ Keeps m m' (p + 8 + 8 * (i + es.length)) (p + off) ∧
      ∀ hi, Keeps m m' (p + elemsEnd off es) hi
  | [], p, i, off, m, ha, hf, hi, h => by
    simp only [layoutElems, elemsEnd, StoredElems]
    exact ⟨_, rfl, rfl, ⟨trivial, fun _ _ _ => trivial⟩, fun _ _ _ _ _ => rfl, fun _ _ _ _ => rfl, fun _ _ _ _ _ => rfl⟩
  | v :: es, p, i, off, m, ha, hf, hi, h => by
    have av : v.rawType.align ∣ p := Nat.dvd_trans (align_dvd_eight _) ha
    have hv := le_alignUp off (align_pos v.rawType)
    simp only [elemsEnd, List.length_cons, FitsElems] at h hi hf ⊢
    have hend := le_elemsEnd (alignUp off v.rawType.align + sizeVal v) es
    have ev : off + (p + alignUp off v.rawType.align - (p + off)) = alignUp off v.rawType.align := by omega
    obtain ⟨a, ea, la⟩ := writeBytes_inb (m := m) (p := p + 8 + 8 * i)
      (bs := arrEntry v.rawType (alignUp off v.rawType.align)) (by simp; omega)
    obtain ⟨c, ec, lc, hc, kc1, kc2⟩ := layoutVal_stored v (p := p + alignUp off v.rawType.align)
      (m := a) ((Nat.dvd_add_right av).2 (dvd_alignUp _ _)) hf.1 (by omega)
    obtain ⟨d, ed, ld, hd, kd1, kd2, kd3⟩ := layoutElems_stored es (p := p) (i := i + 1)
      (off := alignUp off v.rawType.align + sizeVal v) (m := c) ha hf.2 (by omega) (by omega)
    have ka := keeps_write ea
    simp only [arrEntry_length] at ka
    have he : HasBytes d (p + 8 + 8 * i) (arrEntry v.rawType (alignUp off v.rawType.align)) :=
      ((hasBytes_write ea).keep (kc1 0) (by omega) (by simp; omega)).keep (kd1 0) (by omega) (by simp; omega)
    have hev : Stored d (p + alignUp off v.rawType.align) v :=
      Stored.keep v hc ld (kd2.mono (by omega) (by omega))
    refine ⟨d, ?_, by omega, ⟨?_, ?_⟩, ?_, ?_, ?_⟩
    · simp only [layoutElems, ea, Option.bind_eq_bind,
        Option.bind_some, alignUp_add_left (align_pos _) av, ev, ec, ed]
    · simp only [StoredElems]
      exact ⟨he, hev, hd.1⟩
    · intro m'' hl hkk
      simp only [StoredElems]
      exact ⟨he.keep hkk (by omega) (by simp; omega),
        Stored.keep v hev hl (hkk.mono (by omega) (by omega)), hd.2 m'' hl hkk⟩
    · intro lo
      exact (ka.1 lo).trans (((kc1 lo).mono (by omega) (by omega)).trans
        ((kd1 lo).mono (by omega) (by omega)))
    · exact ((ka.2 _).mono (by omega) (Nat.le_refl _)).trans
        (((kc1 _).mono (Nat.le_refl _) (by omega)).trans (kd2.mono (by omega) (by omega)))
    · intro hi
      exact ((ka.2 hi).mono (by omega) (by omega)).trans
        (((kc2 hi).mono (by omega) (by omega)).trans (kd3 hi))
end

/-- The pure encoding is one way to hold a value. -/
theorem stored_enc {v : Val} {X Y : Bytes} {p : Nat} (hX : X.length = p) (ha : v.rawType.align ∣ p) (hf : Fits v) :
    Stored (X ++ (enc v ++ Y)) p v := by
  obtain ⟨m', e, _, h, _⟩ := layoutVal_stored v (p := p) (m := X ++ (zeros (sizeVal v) ++ Y)) ha hf (by simp [hX])
  rw [layoutVal_ok v X Y p (sizeVal v) hX.symm ha hf (Nat.le_refl _)] at e
  simp only [Nat.sub_self, zeros_zero, List.nil_append, Option.some.injEq, Prod.mk.injEq, and_true] at e
  rw [e]
  exact h

theorem Stored.le {m : Bytes} {p : Nat} {v : Val} (h : Stored m p v) : p + sizeVal v ≤ m.length := by
  cases v with
  | obj fs => simp only [Stored] at h; exact h.2.2.2
  | arr es => simp only [Stored] at h; exact h.2.2.2
  | str s => simp only [Stored, sizeVal] at *; have := h.le; simpa using this
  | int s => simp only [Stored, sizeVal] at *; exact h.le
  | dec s => simp only [Stored, sizeVal] at *; exact h.le
  | bool s => simp only [Stored, sizeVal] at *; exact h.le
  | null => simpa [Stored, sizeVal] using h

end Dart
