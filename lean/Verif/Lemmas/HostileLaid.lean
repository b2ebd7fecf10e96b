import Verif.Lemmas.HostileWhole

/-
What the merging and projecting constructors leave in memory, for fields of validated objects.
-/
namespace Dart
open Spec

/-- A field to be copied, with everything known about it. -/
structure Entry where
  src : SrcField
  key : Bytes
  val : Val
  type : RawType
  kb : Bytes
  vb : Bytes
  str : src.str = key
  kcopy : ∀ (p : Nat) (m : Bytes), copyElem src.key p m = (writeBytes m p kb).map (·, kb.length)
  vtype : src.val.type = type
  vcopy : ∀ (p : Nat) (m : Bytes), copyElem src.val p m = (writeBytes m p vb).map (·, vb.length)
  klen : kb.length = key.length + 3
  kvalid : validBuffer kb (kb.length + 1) .string 0 kb.length = .ok true
  kstr : strv kb .string 0 = some key
  vvalid : validBuffer vb (vb.length + 1) type 0 vb.length = .ok true
  vval : decode (vb.length + 1) vb type 0 = some val
  vsize : findSizeof vb type 0 = some vb.length

/-- Where fields end that are stored one behind the other. -/
def endsAt : Nat → List Entry → Nat
  | off, [] => off
  | off, e :: es => endsAt (alignUp (alignUp off 2 + e.kb.length) e.type.align + e.vb.length) es

theorem le_endsAt (es : List Entry) : ∀ off, off ≤ endsAt off es := by
  induction es with
  | nil => exact fun _ => Nat.le_refl _
  | cons e es ih =>
    intro off
    simp only [endsAt]
    have h1 := le_alignUp off (a := 2) (by decide)
    have h2 := le_alignUp (alignUp off 2 + e.kb.length) (align_pos e.type)
    have h3 := ih (alignUp (alignUp off 2 + e.kb.length) e.type.align + e.vb.length)
    omega

theorem endsAt_shift (es : List Entry) {s : Nat} (hs : 8 ∣ s) : ∀ off, endsAt (off + s) es = endsAt off es + s := by
  induction es with
  | nil => exact fun _ => rfl
  | cons e es ih =>
    intro off
    simp only [endsAt]
    rw [alignUp_add_right (by decide) (Nat.dvd_trans (by decide) hs), Nat.add_right_comm,
      alignUp_add_right (align_pos e.type) (Nat.dvd_trans (align_dvd_eight _) hs), Nat.add_right_comm, ih]

/-- The table from entry `idx` on, and the data from `off` on, are those of the fields. -/
def Laid (m : Bytes) : Nat → Nat → List Entry → Prop
  | _, _, [] => True
  | idx, off, e :: es =>
    entOff m 0 idx = some (alignUp off 2) ∧ entType m 0 idx = some e.type.forTable ∧
    readBytes m (alignUp off 2) e.kb.length = some e.kb ∧
    readBytes m (alignUp (alignUp off 2 + e.kb.length) e.type.align) e.vb.length = some e.vb ∧
    Laid m (idx + 1) (alignUp (alignUp off 2 + e.kb.length) e.type.align + e.vb.length) es

/-- Memory from `a` up to `b` stays. -/
def Kept (m m' : Bytes) (a b : Nat) : Prop := ∀ q n, a ≤ q → q + n ≤ b → readBytes m' q n = readBytes m q n

theorem Kept.trans {m m' m'' : Bytes} {a b : Nat} (h : Kept m m' a b) (h' : Kept m' m'' a b) : Kept m m'' a b :=
  fun q n h1 h2 => (h' q n h1 h2).trans (h q n h1 h2)

theorem Kept.sub {m m' : Bytes} {a b a' b' : Nat} (h : Kept m m' a b) (ha : a ≤ a') (hb : b' ≤ b) : Kept m m' a' b' :=
  fun q n h1 h2 => h q n (by omega) (by omega)

theorem kept_write {m m' bs : Bytes} {p a b : Nat} (h : writeBytes m p bs = some m') (hp : b ≤ p ∨ p + bs.length ≤ a) : Kept m m' a b :=
  fun q n h1 h2 => readBytes_write_other h (by omega)

theorem Kept.readU {m m' : Bytes} {a b w q : Nat} (h : Kept m m' a b) (h1 : a ≤ q) (h2 : q + w ≤ b) : readU m' w q = readU m w q := by
  unfold Dart.readU; rw [h q w h1 h2]

theorem Kept.entOff {m m' : Bytes} {a b i : Nat} (h : Kept m m' a b) (h1 : a ≤ 8 + 8 * i) (h2 : 8 + 8 * i + 8 ≤ b) :
    entOff m' 0 i = entOff m 0 i := h.readU (by omega) (by omega)

theorem Kept.entType {m m' : Bytes} {a b i : Nat} (h : Kept m m' a b) (h1 : a ≤ 8 + 8 * i) (h2 : 8 + 8 * i + 8 ≤ b) :
    entType m' 0 i = entType m 0 i := by
  unfold Dart.entType; rw [h.readU (by omega) (by omega)]

theorem Laid.kept {m m' : Bytes} : ∀ (es : List Entry) {idx off : Nat}, Laid m idx off es →
    Kept m m' (8 + 8 * idx) (8 + 8 * (idx + es.length)) → Kept m m' off (endsAt off es) → Laid m' idx off es
  | [], _, _, _, _, _ => trivial
  | e :: es, idx, off, h, h1, h2 => by
    obtain ⟨a1, a2, a3, a4, a5⟩ := h
    simp only [endsAt, List.length_cons] at h1 h2
    have g1 := le_alignUp off (a := 2) (by decide)
    have g2 := le_alignUp (alignUp off 2 + e.kb.length) (align_pos e.type)
    have g3 := le_endsAt es (alignUp (alignUp off 2 + e.kb.length) e.type.align + e.vb.length)
    refine ⟨by rw [h1.entOff (by omega) (by omega)]; exact a1, by rw [h1.entType (by omega) (by omega)]; exact a2,
      by rw [h2 _ _ (by omega) (by omega)]; exact a3, by rw [h2 _ _ (by omega) (by omega)]; exact a4,
      Laid.kept es a5 (h1.sub (by omega) (by omega)) (h2.sub (by omega) (by omega))⟩

theorem objEntry_shows {m : Bytes} {idx off : Nat} {t : RawType} {s : Bytes} (hr : readBytes m (8 + 8 * idx) 8 = some (objEntry t off s))
    (ho : off < 2 ^ 32) : entOff m 0 idx = some off ∧ entType m 0 idx = some t.forTable := by
  have hl := LiesIn.of_read (c := objEntry t off s) (m := m) (p := 8 + 8 * idx) (by rw [objEntry_length']; exact hr)
  constructor
  · refine hl.readU' (q := 0) (by omega) ?_
    unfold readU readBytes
    rw [if_pos (by rw [objEntry_length']; decide)]
    simp only [List.drop_zero, Option.map_some, Option.some.injEq]
    rw [show (objEntry t off s).take 4 = leBytes 4 off by simp [objEntry, leBytes], leNat_leBytes, Nat.mod_eq_of_lt ho]
  · unfold entType
    rw [hl.readU' (q := 4) (x := t.forTable.code) (by omega)]
    · exact ofCode_code _
    · unfold readU readBytes
      rw [if_pos (by rw [objEntry_length']; decide)]
      simp only [Option.map_some, Option.some.injEq]
      rw [show ((objEntry t off s).drop 4).take 1 = leBytes 1 t.forTable.code by simp [objEntry, leBytes], leNat_leBytes,
        Nat.mod_eq_of_lt (by cases t <;> decide)]

/-- What the field loop leaves behind. -/
theorem writeFields_laid (es : List Entry) : ∀ {idx off off' : Nat} {m m' : Bytes},
    writeFields (es.map fun e => copyWriter e.src) idx off m = some (m', off') → 8 + 8 * (idx + es.length) ≤ off →
    endsAt off es < 2 ^ 32 → off' = endsAt off es ∧ m'.length = m.length ∧ Laid m' idx off es ∧
      Kept m m' 0 (8 + 8 * idx) ∧ Kept m m' (8 + 8 * (idx + es.length)) off := by
  induction es with
  | nil =>
    intro idx off off' m m' h _ _
    cases h
    exact ⟨rfl, rfl, trivial, fun _ _ _ _ => rfl, fun _ _ _ _ => rfl⟩
  | cons e es ih =>
    intro idx off off' m m' h ho hlt
    have hst : RawType.string.align = 2 := rfl
    have ht : (copyWriter e.src).type = e.type := e.vtype
    have hkk : (copyWriter e.src).key = copyElem e.src.key := rfl
    have hvv : (copyWriter e.src).val = copyElem e.src.val := rfl
    simp only [List.map_cons, writeFields, hst, Option.bind_eq_bind, Option.bind_eq_some_iff, ht, hkk, hvv, e.kcopy, e.vcopy,
      Option.map_eq_some_iff] at h
    obtain ⟨m1, w1, _, ⟨m2, w2, rfl⟩, _, ⟨m3, w3, rfl⟩, w4⟩ := h
    dsimp only at w3 w4
    simp only [endsAt, List.length_cons] at hlt ho ⊢
    have g1 := le_alignUp off (a := 2) (by decide)
    have g2 := le_alignUp (alignUp off 2 + e.kb.length) (align_pos e.type)
    have g3 := le_endsAt es (alignUp (alignUp off 2 + e.kb.length) e.type.align + e.vb.length)
    simp only [Laid]
    generalize ha : alignUp off 2 = a at *
    generalize hb : alignUp (a + e.kb.length) e.type.align = v at *
    obtain ⟨e1, e2, e3, e4, e5⟩ := ih w4 (by omega) hlt
    have l1 := writeBytes_some_length w1
    have l2 := writeBytes_some_length w2
    have l3 := writeBytes_some_length w3
    have k4 : Kept m3 m' 0 (8 + 8 * (idx + 1)) := e4
    have r1 := readBytes_write w1
    rw [objEntry_length'] at r1
    have r1' : readBytes m' (8 + 8 * idx) 8 = some (objEntry (copyWriter e.src).type a (cstr (copyWriter e.src).pre)) := by
      rw [k4 _ _ (by omega) (by omega), kept_write (a := 0) (b := 8 + 8 * (idx + 1)) w3 (by omega) _ _ (by omega) (by omega),
        kept_write (a := 0) (b := 8 + 8 * (idx + 1)) w2 (by omega) _ _ (by omega) (by omega), ht]
      exact r1
    obtain ⟨o1, o2⟩ := objEntry_shows r1' (by omega)
    rw [ht] at o2
    have r2 := readBytes_write w2
    have r3 := readBytes_write w3
    refine ⟨e1, by omega, ⟨o1, o2, ?_, ?_, e3⟩, ?_, ?_⟩
    · rw [e5 _ _ (by omega) (by omega), kept_write (a := a) (b := v) w3 (by omega) _ _ (by omega) (by omega)]; exact r2
    · rw [e5 _ _ (by omega) (by omega)]; exact r3
    · exact (((kept_write w1 (.inl (Nat.le_refl _))).trans (kept_write w2 (.inl (by omega)))).trans
        (kept_write w3 (.inl (by omega)))).trans (k4.sub (by omega) (by omega))
    · exact (((kept_write w1 (.inr (by rw [objEntry_length']; omega))).trans (kept_write w2 (.inl (by omega)))).trans
        (kept_write w3 (.inl (by omega)))).trans (e5.sub (by omega) (by omega))

/-! ### Closing the gap -/

theorem adjustOffsets_spec {diff : Nat} : ∀ (n : Nat) {m m' : Bytes}, adjustOffsets diff n m = some m' →
    (∀ b, Kept m m' (8 + 8 * n) b) ∧ (∀ b, b ≤ 8 → Kept m m' 0 b) ∧
    (∀ i, entType m' 0 i = entType m 0 i) ∧
    ∀ i, i < n → ∀ o, entOff m 0 i = some o → diff ≤ o → entOff m' 0 i = some (o - diff)
  | 0, _, _, h => by
    cases h
    exact ⟨fun _ _ _ _ _ => rfl, fun _ _ _ _ _ _ => rfl, fun _ => rfl, fun i hi => absurd hi (Nat.not_lt_zero i)⟩
  | n + 1, m, m', h => by
    simp only [adjustOffsets, Option.bind_eq_bind, Option.bind_eq_some_iff] at h
    obtain ⟨m1, h1, o, ho, h2⟩ := h
    obtain ⟨a1, a2, a3, a4⟩ := adjustOffsets_spec n h1
    have hw : (leBytes 4 (o + 2 ^ 32 - diff)).length = 4 := leBytes_length _ _
    refine ⟨fun b => ((a1 b).sub (by omega) (Nat.le_refl b)).trans (kept_write h2 (.inr (by omega))),
      fun b hb => (a2 b hb).trans (kept_write h2 (.inl (by omega))), fun i => ?_, fun i hi p hp hd => ?_⟩
    · rw [← a3 i]
      unfold entType readU
      rw [readBytes_write_other h2 (by rw [hw]; omega)]
    · by_cases he : i = n
      · subst he
        have e0 : entOff m1 0 i = some p := by
          rw [(a1 (8 + 8 * i + 8)).entOff (Nat.le_refl _) (Nat.le_refl _)]; exact hp
        rw [ho] at e0
        cases e0
        have hlt : o < 2 ^ 32 := by have := (readU_bound ho).2; omega
        have := readU_write h2
        unfold entOff
        rw [show 0 + 8 + 8 * i = 8 + 8 * i by omega, this]
        congr 1
        rw [show o + 2 ^ 32 - diff = (o - diff) + 2 ^ 32 by omega]
        show (o - diff + 2 ^ 32) % 256 ^ 4 = _
        rw [show (256 : Nat) ^ 4 = 2 ^ 32 by decide, Nat.add_mod_right, Nat.mod_eq_of_lt (by omega)]
      · have e1 := a4 i (by omega) p hp hd
        rw [← e1]
        exact (kept_write (a := 8 + 8 * i) (b := 8 + 8 * i + 8) h2 (by omega)).entOff (Nat.le_refl _) (Nat.le_refl _)

theorem realign_laid {es : List Entry} {guess off off' : Nat} {m m' : Bytes} (h : realign es.length guess off m = some (m', off'))
    (hl : Laid m 0 (8 + 8 * guess) es) (ho : off = endsAt (8 + 8 * guess) es) :
    Laid m' 0 (8 + 8 * es.length) es ∧ off' = endsAt (8 + 8 * es.length) es ∧ m'.length = m.length ∧ Kept m m' 0 8 ∧ es.length ≤ guess := by
  have hg : es.length ≤ guess := by
    refine Nat.le_of_not_lt fun hlt => ?_
    simp [realign, hlt] at h
  simp only [realign, if_neg (Nat.not_lt.2 hg), Option.bind_eq_bind, Option.bind_some, Option.bind_eq_some_iff] at h
  obtain ⟨t, ht, data, hdata, m1, w1, m2, w2, m3, w3, hfin⟩ := h
  simp only [Option.some.injEq, Prod.mk.injEq] at hfin
  obtain ⟨hm3, hoff'⟩ := hfin
  subst hm3
  rw [alignUp_of_dvd (align_pos t) (Nat.dvd_trans (align_dvd_eight t) ⟨1 + es.length, by omega⟩)] at *
  have hdl := readBytes_length hdata
  have hle := le_endsAt es (8 + 8 * guess)
  have hsh : endsAt (8 + 8 * guess) es = endsAt (8 + 8 * es.length) es + (8 + 8 * guess - (8 + 8 * es.length)) := by
    rw [← endsAt_shift es (s := 8 + 8 * guess - (8 + 8 * es.length)) ⟨guess - es.length, by omega⟩]; congr 1; omega
  have hle' := le_endsAt es (8 + 8 * es.length)
  obtain ⟨a1, a2, a3, a4⟩ := adjustOffsets_spec _ w2
  have hzl : (zeros (8 + 8 * guess - (8 + 8 * es.length))).length = 8 + 8 * guess - (8 + 8 * es.length) := by simp [zeros]
  generalize hdf : 8 + 8 * guess - (8 + 8 * es.length) = diff at *
  have h8 : 8 ∣ diff := ⟨guess - es.length, by omega⟩
  have l1 := writeBytes_some_length w1
  have l2 := adjustOffsets_length _ _ w2
  have l3 := writeBytes_some_length w3
  refine ⟨?_, by omega, by omega, ?_, hg⟩
  · have hl' : Laid m 0 (8 + 8 * es.length + diff) es := by rw [show 8 + 8 * es.length + diff = 8 + 8 * guess by omega]; exact hl
    have key : ∀ i, i < es.length → entOff m1 0 i = entOff m 0 i ∧ entType m1 0 i = entType m 0 i ∧
        entOff m3 0 i = entOff m2 0 i ∧ entType m3 0 i = entType m2 0 i := fun i hi => by
      have k1 : Kept m m1 (8 + 8 * i) (8 + 8 * i + 8) := kept_write w1 (.inl (by omega))
      have k3 : Kept m2 m3 (8 + 8 * i) (8 + 8 * i + 8) := kept_write w3 (.inl (by omega))
      exact ⟨k1.entOff (Nat.le_refl _) (Nat.le_refl _), k1.entType (Nat.le_refl _) (Nat.le_refl _),
        k3.entOff (Nat.le_refl _) (Nat.le_refl _), k3.entType (Nat.le_refl _) (Nat.le_refl _)⟩
    have gen : ∀ (fs : List Entry) (idx off0 : Nat), idx + fs.length = es.length → 8 + 8 * es.length ≤ off0 →
        endsAt off0 fs + diff ≤ off → Laid m idx (off0 + diff) fs → Laid m3 idx off0 fs := by
      intro fs
      induction fs with
      | nil => intros; trivial
      | cons e fs ih =>
        intro idx off0 hi h0 hend hlaid
        simp only [Laid, List.length_cons, endsAt] at hlaid hend hi ⊢
        rw [alignUp_add_right (by decide) (Nat.dvd_trans (by decide) h8), Nat.add_right_comm,
          alignUp_add_right (align_pos e.type) (Nat.dvd_trans (align_dvd_eight _) h8), Nat.add_right_comm] at hlaid
        obtain ⟨b1, b2, b3, b4, b5⟩ := hlaid
        have g1 := le_alignUp off0 (a := 2) (by decide)
        have g2 := le_alignUp (alignUp off0 2 + e.kb.length) (align_pos e.type)
        have g3 := le_endsAt fs (alignUp (alignUp off0 2 + e.kb.length) e.type.align + e.vb.length)
        obtain ⟨c1, c2, c3, c4⟩ := key idx (by omega)
        have mv : ∀ q n, 8 + 8 * es.length ≤ q → q + n + diff ≤ off → readBytes m3 q n = readBytes m (q + diff) n := fun q n h1 h2 => by
          rw [kept_write (a := q) (b := q + n) w3 (.inl (by omega)) q n (Nat.le_refl _) (Nat.le_refl _), a1 (q + n) q n h1 (Nat.le_refl _)]
          have hli := LiesIn.of_read (c := data) (m := m1) (p := 8 + 8 * es.length) (readBytes_write w1)
          have hls := LiesIn.of_read (c := data) (m := m) (p := 8 + 8 * guess) (by rw [hdl]; exact hdata)
          obtain ⟨x, hx⟩ := readBytes_some (m := data) (p := q - (8 + 8 * es.length)) (n := n) (by omega)
          have r1 := hli _ _ _ hx
          have r2 := hls _ _ _ hx
          rw [show 8 + 8 * es.length + (q - (8 + 8 * es.length)) = q by omega] at r1
          rw [show 8 + 8 * guess + (q - (8 + 8 * es.length)) = q + diff by omega] at r2
          rw [r1, r2]
        refine ⟨?_, by rw [c4, a3, c2]; exact b2, by rw [mv _ _ (by omega) (by omega)]; exact b3,
          by rw [mv _ _ (by omega) (by omega)]; exact b4, ih (idx + 1) _ (by omega) (by omega) (by omega) b5⟩
        have := a4 idx (by omega) _ (by rw [c1]; exact b1) (by omega)
        rw [c3, this, Nat.add_sub_cancel]
    exact gen es 0 _ (by omega) (Nat.le_refl _) (by omega) hl'
  · exact ((kept_write w1 (.inl (by omega))).trans (a2 8 (by omega))).trans (kept_write w3 (.inl (by omega)))

end Dart
