import Verif.Lemmas.HostileRead
import Verif.Lemmas.Room
import Verif.Lemmas.Lower
import Verif.Lemmas.Make
import Verif.Spec.Hostile

/-
Merging and projecting validated objects: when everything written fits into the allocation.
-/
namespace Dart
open Spec

/-! ### Copying an element -/

/-- `n` bytes are copied for this element. -/
def Copied' (b : Buf) (n : Nat) : Prop := ∃ bs, bs.length = n ∧
  ∀ (p : Nat) (m : Bytes), copyElem b p m = (writeBytes m p bs).map (·, n)

theorem SafeBuf.copied {b : Buf} (h : SafeBuf b) {n : Nat} (hn : b.sizeof = some n) : Copied' b n := by
  obtain ⟨k, bs, h1, h2, h3, _⟩ := h.sized
  rw [hn] at h1; cases h1
  refine ⟨bs, h3, fun p m => ?_⟩
  unfold copyElem
  rw [hn]
  simp only [Option.bind_eq_bind, Option.bind_some, h2]
  cases writeBytes m p bs <;> rfl

/-- The field is stored like this. -/
structure SrcIs (f : SrcField) (p : Piece) : Prop where
  str : f.str = p.key
  key : Copied' f.key (p.key.length + 3)
  type : f.val.type = p.type
  val : Copied' f.val p.size

theorem endOf_cons (off : Nat) (p : Piece) (ps : List Piece) : endOf off (p :: ps) =
    endOf (alignUp (alignUp off 2 + (p.key.length + 3)) p.type.align + p.size) ps := by
  simp only [endOf, upTo_eq _ (align_pos p.type), upTo_eq off (show 0 < 2 by decide)]

theorem le_endOf (ps : List Piece) : ∀ off, off ≤ endOf off ps := by
  induction ps with
  | nil => exact fun _ => Nat.le_refl _
  | cons p ps ih =>
    intro off
    rw [endOf_cons]
    have h1 := le_alignUp off (a := 2) (by decide)
    have h2 := le_alignUp (alignUp off 2 + (p.key.length + 3)) (align_pos p.type)
    have h3 := ih (alignUp (alignUp off 2 + (p.key.length + 3)) p.type.align + p.size)
    omega

theorem endOf_sublist {ps qs : List Piece} (h : ps.Sublist qs) : ∀ {a b : Nat}, a ≤ b → endOf a ps ≤ endOf b qs := by
  induction h with
  | slnil => exact fun h => h
  | cons p h ih =>
    intro a b hab
    rw [endOf_cons]
    apply ih
    have h1 := le_alignUp b (a := 2) (by decide)
    have h2 := le_alignUp (alignUp b 2 + (p.key.length + 3)) (align_pos p.type)
    omega
  | cons_cons p h ih =>
    intro a b hab
    rw [endOf_cons, endOf_cons]
    apply ih
    have h1 := alignUp_mono 2 hab
    have h2 := alignUp_mono p.type.align (show alignUp a 2 + (p.key.length + 3) ≤ alignUp b 2 + (p.key.length + 3) by omega)
    omega

/-! ### The loop -/

/-- What the memory below `B` contains stays. -/
def Below (m m' : Bytes) (B : Nat) : Prop := ∀ q n, q + n ≤ B → readBytes m' q n = readBytes m q n

theorem Below.trans {m m' m'' : Bytes} {B : Nat} (h : Below m m' B) (h' : Below m' m'' B) : Below m m'' B :=
  fun q n hq => (h' q n hq).trans (h q n hq)

theorem writeBytes_below {m m' bs : Bytes} {p B : Nat} (h : writeBytes m p bs = some m') (hp : B ≤ p) : Below m m' B :=
  fun q n hq => readBytes_write_other h (.inl (by omega))

/-- A pair of lists, the second describing the first. -/
inductive AllSrc : List SrcField → List Piece → Prop
  | nil : AllSrc [] []
  | cons {f p fs ps} : SrcIs f p → AllSrc fs ps → AllSrc (f :: fs) (p :: ps)

theorem AllSrc.length {fs : List SrcField} {ps : List Piece} (h : AllSrc fs ps) : fs.length = ps.length := by
  induction h with
  | nil => rfl
  | cons _ _ ih => simp [ih]

theorem writeFields_step {f : SrcField} {p : Piece} (h : SrcIs f p) : ∃ k v : Bytes, k.length = p.key.length + 3 ∧ v.length = p.size ∧
    ∀ (fs : List SrcField) (idx off : Nat) (m : Bytes) (r : Bytes × Nat),
    writeFields ((f :: fs).map copyWriter) idx off m = some r ↔ ∃ m1 m2 m3,
      writeBytes m (8 + 8 * idx) (objEntry p.type (alignUp off 2) (cstr p.key)) = some m1 ∧
      writeBytes m1 (alignUp off 2) k = some m2 ∧
      writeBytes m2 (alignUp (alignUp off 2 + (p.key.length + 3)) p.type.align) v = some m3 ∧
      writeFields (fs.map copyWriter) (idx + 1) (alignUp (alignUp off 2 + (p.key.length + 3)) p.type.align + p.size) m3 = some r := by
  obtain ⟨k, hk1, hk2⟩ := h.key
  obtain ⟨v, hv1, hv2⟩ := h.val
  refine ⟨k, v, hk1, hv1, fun fs idx off m r => ?_⟩
  have hst : RawType.string.align = 2 := rfl
  simp only [List.map_cons, writeFields, hst, Option.bind_eq_bind, Option.bind_eq_some_iff]
  have ht : (copyWriter f).type = p.type := h.type
  have hp : (copyWriter f).pre = p.key := h.str
  have hkk : (copyWriter f).key = copyElem f.key := rfl
  have hvv : (copyWriter f).val = copyElem f.val := rfl
  simp only [ht, hp, hkk, hvv, hk2, hv2, Option.map_eq_some_iff]
  constructor
  · rintro ⟨m1, w1, _, ⟨m2, w2, rfl⟩, _, ⟨m3, w3, rfl⟩, w4⟩
    exact ⟨m1, m2, m3, w1, w2, w3, w4⟩
  · rintro ⟨m1, m2, m3, w1, w2, w3, w4⟩
    exact ⟨m1, w1, _, ⟨m2, w2, rfl⟩, _, ⟨m3, w3, rfl⟩, w4⟩

theorem objEntry_length' (t : RawType) (off : Nat) (s : Bytes) : (objEntry t off s).length = 8 := by
  simp [objEntry, leBytes_length]

/-- Everything written stays in the allocation if the fields end in it. -/
theorem writeFields_fitting {fs : List SrcField} {ps : List Piece} (h : AllSrc fs ps) : ∀ {idx off : Nat} {m : Bytes},
    8 + 8 * (idx + fs.length) ≤ off → endOf off ps ≤ m.length → ∃ m', writeFields (fs.map copyWriter) idx off m = some (m', endOf off ps) ∧
      m'.length = m.length ∧ Below m m' (8 + 8 * idx) ∧
      (fs ≠ [] → ∃ t : RawType, readBytes m' (8 + 8 * idx + 4) 1 = some (leBytes 1 t.forTable.code)) := by
  induction h with
  | nil =>
    intro idx off m _ _
    exact ⟨m, rfl, rfl, fun _ _ _ => rfl, fun h => absurd rfl h⟩
  | cons hf hr ih =>
    rename_i f p fs ps
    intro idx off m ho hm
    obtain ⟨k, v, hk, hv, hs⟩ := writeFields_step hf
    rw [endOf_cons] at hm ⊢
    have h1 := le_alignUp off (a := 2) (by decide)
    have h2 := le_alignUp (alignUp off 2 + (p.key.length + 3)) (align_pos p.type)
    have h3 := le_endOf ps (alignUp (alignUp off 2 + (p.key.length + 3)) p.type.align + p.size)
    rw [List.length_cons] at ho
    generalize ha : alignUp off 2 = a at hs h1 h2 h3 hm ⊢
    generalize hb : alignUp (a + (p.key.length + 3)) p.type.align = b at hs h2 h3 hm ⊢
    obtain ⟨m1, w1, l1⟩ := writeBytes_inb (m := m) (p := 8 + 8 * idx) (bs := objEntry p.type a (cstr p.key))
      (by rw [objEntry_length']; omega)
    obtain ⟨m2, w2, l2⟩ := writeBytes_inb (m := m1) (p := a) (bs := k) (by omega)
    obtain ⟨m3, w3, l3⟩ := writeBytes_inb (m := m2) (p := b) (bs := v) (by omega)
    obtain ⟨m', w4, l4, b4, _⟩ := ih (idx := idx + 1) (off := b + p.size) (m := m3) (by omega) (by omega)
    have hb2 : Below m1 m2 (8 + 8 * (idx + 1)) := writeBytes_below w2 (by omega)
    have hb3 : Below m2 m3 (8 + 8 * (idx + 1)) := writeBytes_below w3 (by omega)
    have hb' : Below m1 m' (8 + 8 * (idx + 1)) := (hb2.trans hb3).trans b4
    refine ⟨m', (hs fs idx off m _).2 ⟨m1, m2, m3, by rw [ha]; exact w1, by rw [ha]; exact w2, by rw [ha, hb]; exact w3,
      by rw [ha, hb]; exact w4⟩, by omega, ?_, fun _ => ⟨p.type, ?_⟩⟩
    · intro q n hq
      rw [hb' q n (by omega)]
      exact writeBytes_below w1 (Nat.le_refl _) q n hq
    · rw [hb' _ 1 (by omega)]
      have := writeBytes_bound w1
      rw [objEntry_length'] at this
      unfold writeBytes at w1
      rw [if_pos (by rw [objEntry_length']; exact this)] at w1
      cases w1
      unfold readBytes
      rw [if_pos (by omega)]
      congr 1
      rw [List.append_assoc, List.drop_append, List.length_take, List.drop_eq_nil_of_le (by rw [List.length_take]; omega),
        Nat.min_eq_left (by omega), show 8 + 8 * idx + 4 - (8 + 8 * idx) = 4 by omega]
      simp [objEntry, leBytes]

/-- Otherwise the last field is written past the end. -/
theorem writeFields_stays {fs : List SrcField} {ps : List Piece} (h : AllSrc fs ps) : ∀ {idx off : Nat} {m : Bytes} {r : Bytes × Nat},
    writeFields (fs.map copyWriter) idx off m = some r → r.2 = endOf off ps ∧ r.1.length = m.length ∧ (fs ≠ [] → endOf off ps ≤ m.length) := by
  induction h with
  | nil =>
    intro idx off m r hr
    cases hr
    exact ⟨rfl, rfl, fun h => absurd rfl h⟩
  | cons hf hr ih =>
    rename_i f p fs ps
    intro idx off m r h
    obtain ⟨k, v, hk, hv, hs⟩ := writeFields_step hf
    obtain ⟨m1, m2, m3, w1, w2, w3, w4⟩ := (hs fs idx off m r).1 h
    obtain ⟨e1, e2, e3⟩ := ih w4
    have l1 := writeBytes_some_length w1
    have l2 := writeBytes_some_length w2
    have l3 := writeBytes_some_length w3
    have b3 := writeBytes_bound w3
    rw [endOf_cons]
    refine ⟨e1, by omega, fun _ => ?_⟩
    cases hr with
    | nil => show alignUp _ _ + p.size ≤ _; omega
    | cons _ _ => have := e3 (by simp); omega

theorem adjustOffsets_fits (diff : Nat) : ∀ (n : Nat) {m : Bytes}, 8 + 8 * n ≤ m.length → ∃ m', adjustOffsets diff n m = some m' := by
  intro n
  induction n with
  | zero => exact fun _ => ⟨_, rfl⟩
  | succ n ih =>
    intro m h
    obtain ⟨m1, h1⟩ := ih (m := m) (by omega)
    have l1 := adjustOffsets_length _ _ h1
    obtain ⟨o, ho⟩ := readU_some (m := m1) (w := 4) (p := 0 + 8 + 8 * n) (by omega)
    obtain ⟨m2, h2, _⟩ := writeBytes_inb (m := m1) (p := 8 + 8 * n) (bs := leBytes 4 (o + 2 ^ 32 - diff)) (by rw [leBytes_length]; omega)
    refine ⟨m2, ?_⟩
    simp only [adjustOffsets, h1, Option.bind_eq_bind, Option.bind_some, entOff, ho]
    exact h2

theorem realign_fits' {elems guess off : Nat} {m : Bytes} {t : RawType} (hg : elems ≤ guess) (ht : entType m 0 0 = some t)
    (ho : 8 + 8 * guess ≤ off) (hm : off ≤ m.length) : ∃ m' off', realign elems guess off m = some (m', off') := by
  have ha : alignUp (8 + 8 * elems) t.align = 8 + 8 * elems :=
    alignUp_of_dvd (align_pos t) (Nat.dvd_trans (align_dvd_eight t) ⟨1 + elems, by omega⟩)
  obtain ⟨data, hd⟩ := readBytes_some (m := m) (p := 8 + 8 * guess) (n := off - (8 + 8 * guess)) (by omega)
  have hl : data.length = off - (8 + 8 * guess) := by
    unfold readBytes at hd
    rw [if_pos (by omega)] at hd
    cases hd
    simp; omega
  obtain ⟨m1, h1, l1⟩ := writeBytes_inb (m := m) (p := 8 + 8 * elems) (bs := data) (by omega)
  obtain ⟨m2, h2⟩ := adjustOffsets_fits (8 + 8 * guess - (8 + 8 * elems)) elems (m := m1) (by omega)
  have l2 := adjustOffsets_length _ _ h2
  obtain ⟨m3, h3, _⟩ := writeBytes_inb (m := m2) (p := off - (8 + 8 * guess - (8 + 8 * elems)))
    (bs := zeros (8 + 8 * guess - (8 + 8 * elems))) (by simp [zeros]; omega)
  refine ⟨m3, off - (8 + 8 * guess - (8 + 8 * elems)), ?_⟩
  simp only [realign, if_neg (Nat.not_lt.2 hg), Option.bind_eq_bind, Option.bind_some, ht, ha, hd, h1, h2, h3]

theorem ofCode_forTable (t : RawType) : ∃ u, RawType.ofCode t.forTable.code = some u := by cases t <;> exact ⟨_, rfl⟩

/-- The merging and projecting constructors stay within their allocation exactly if there are no more fields than guessed and
the fields, laid out behind room for as many as guessed, end in it. -/
theorem objectFromCopies_iff {fs : List SrcField} {ps : List Piece} (h : AllSrc fs ps) {guess n : Nat} (hn : 8 ≤ n) :
    (∃ m, objectFromCopies guess fs (zeros n) = some m) ↔ ps.length ≤ guess ∧ endOf (8 + 8 * guess) ps ≤ n := by
  have hz : (zeros n).length = n := by simp [zeros]
  obtain ⟨m0, w0, l0⟩ := writeBytes_inb (m := zeros n) (p := 4) (bs := leBytes 4 0) (by rw [leBytes_length]; omega)
  have hfl := h.length
  have hle := le_endOf ps (8 + 8 * guess)
  constructor
  · rintro ⟨m, hm⟩
    simp only [objectFromCopies, w0, Option.bind_eq_bind, Option.bind_some, Option.bind_eq_some_iff] at hm
    obtain ⟨⟨m1, off⟩, w1, m2, w2, ⟨m3, off'⟩, w3, _⟩ := hm
    obtain ⟨e1, e2, e3⟩ := writeFields_stays h w1
    dsimp only at e1 e2
    have l2 := writeBytes_some_length w2
    split at w3
    · rename_i hne
      have hg : fs.length ≤ guess := by
        refine Nat.le_of_not_lt fun hlt => ?_
        simp [realign, hlt] at w3
      dsimp only at w3 w2 l2
      have := (realign_fits w3).2 (by omega) (by omega)
      exact ⟨by omega, by omega⟩
    · rename_i he
      refine ⟨by omega, ?_⟩
      cases h with
      | nil => simp at he; subst he; exact hn
      | cons _ _ => have := e3 (by simp); omega
  · rintro ⟨hg, he⟩
    obtain ⟨m1, w1, l1, b1, t1⟩ := writeFields_fitting h (idx := 0) (off := 8 + 8 * guess) (m := m0) (by omega) (by omega)
    obtain ⟨m2, w2, l2⟩ := writeBytes_inb (m := m1) (p := 4) (bs := leBytes 4 fs.length) (by rw [leBytes_length]; omega)
    have hfin : ∀ {m : Bytes} (o : Nat), m.length = n → ∃ m', finishObject o m = some m' := fun {m} o hl => by
      obtain ⟨m', w, _⟩ := writeBytes_inb (m := m) (p := 0) (bs := leBytes 4 (alignUp o 8)) (by rw [leBytes_length]; omega)
      exact ⟨m', w⟩
    simp only [objectFromCopies, w0, Option.bind_eq_bind, Option.bind_some, w1, w2]
    by_cases hne : fs.length ≠ guess
    · rw [if_pos hne]
      have ht : ∃ t, entType m2 0 0 = some t := by
        have hr : readBytes m2 12 1 = readBytes m1 12 1 := readBytes_write_other w2 (.inr (by rw [leBytes_length]; decide))
        unfold entType readU
        rw [show 0 + 8 + 8 * 0 + 4 = 12 from rfl, hr]
        by_cases hz' : fs = []
        · subst hz'
          cases h
          cases w1
          rw [readBytes_write_other w0 (.inr (by rw [leBytes_length]; decide)), readBytes, if_pos (by simp at hne; omega)]
          refine ⟨.object, ?_⟩
          have : ((zeros n).drop 12).take 1 = [0] := by
            simp only [zeros, List.drop_replicate, List.take_replicate]
            rw [show min 1 (n - 12) = 1 by simp at hne; omega]
            rfl
          rw [this]
          rfl
        · obtain ⟨t, ht⟩ := t1 hz'
          rw [show 12 = 8 + 8 * 0 + 4 from rfl, ht]
          obtain ⟨u, hu⟩ := ofCode_forTable t
          refine ⟨u, ?_⟩
          simp only [Option.map_some, Option.bind_some]
          rw [leNat_leBytes, Nat.mod_eq_of_lt (by cases t <;> decide)]
          exact hu
      obtain ⟨t, ht⟩ := ht
      obtain ⟨m3, o3, w3⟩ := realign_fits' (elems := fs.length) (guess := guess) (off := endOf (8 + 8 * guess) ps) (by omega) ht hle (by omega)
      rw [w3]
      exact hfin _ (by rw [(realign_fits w3).1]; omega)
    · rw [if_neg hne]
      exact hfin _ (show m2.length = n by omega)

end Dart
