import Verif.Lemmas.Merge
import Verif.Lemmas.Shows
import Verif.Lemmas.Image

/-
What the field loops of the object constructors leave in memory.
-/
namespace Dart
open Dart.Spec

theorem leBytes_add_pow (w n : Nat) : leBytes w (n + 256 ^ w) = leBytes w n := by
  induction w generalizing n with
  | zero => rfl
  | succ w ih =>
    simp only [leBytes]
    have h1 : (n + 256 ^ (w + 1)) % 256 = n % 256 := by
      rw [Nat.pow_succ, Nat.mul_comm]; exact Nat.add_mul_mod_self_left _ _ _
    have h2 : (n + 256 ^ (w + 1)) / 256 = n / 256 + 256 ^ w := by
      rw [Nat.pow_succ, Nat.mul_comm, Nat.add_mul_div_left _ _ (by decide)]
    rw [h1, h2, ih]

/-! ### Shifting by a multiple of eight -/

theorem alignUp_add_right {n b a : Nat} (ha : 0 < a) (hb : a ∣ b) : alignUp (n + b) a = alignUp n a + b := by
  rw [Nat.add_comm, alignUp_add_left ha hb, Nat.add_comm]

theorem valOff_shift (off s : Nat) (k : Bytes) (v : Val) (hs : 8 ∣ s) :
    keyOff (off + s) = keyOff off + s ∧ valOff (off + s) k v = valOff off k v + s := by
  have h2 : 2 ∣ s := Nat.dvd_trans (by decide) hs
  have ha : v.rawType.align ∣ s := Nat.dvd_trans (align_dvd_eight _) hs
  simp only [keyOff, valOff]
  rw [alignUp_add_right (by decide) h2]
  refine ⟨rfl, ?_⟩
  rw [Nat.add_right_comm, alignUp_add_right (align_pos _) ha]

theorem fieldsEnd_shift (fs : List (Bytes × Val)) (s : Nat) (hs : 8 ∣ s) : ∀ off : Nat,
    fieldsEnd (off + s) fs = fieldsEnd off fs + s := by
  induction fs with
  | nil => intro off; simp [fieldsEnd]
  | cons f fs ih =>
    intro off
    obtain ⟨k, v⟩ := f
    simp only [fieldsEnd]
    rw [← ih]
    have := (valOff_shift off s k v hs).2
    simp only [valOff] at this
    rw [this]; congr 1; omega

theorem encFieldsW_shift (is : List ((Bytes × Val) × Bytes)) (s : Nat) (hs : 8 ∣ s) : ∀ off : Nat,
    encFieldsW (off + s) is = encFieldsW off is := by
  induction is with
  | nil => intro off; simp [encFieldsW]
  | cons f fs ih =>
    intro off
    obtain ⟨⟨k, v⟩, bs⟩ := f
    obtain ⟨h1, h2⟩ := valOff_shift off s k v hs
    have h3 : valOff off k v + s + sizeVal v = valOff off k v + sizeVal v + s := by omega
    simp only [encFieldsW]
    have h4 : keyOff off + s - (off + s) = keyOff off - off := by omega
    have h5 : valOff off k v + s - (keyOff off + s + strSize k) = valOff off k v - (keyOff off + strSize k) := by omega
    rw [h1, h2, h3, ih, h4, h5]

theorem fieldsEnd_mono (fs : List (Bytes × Val)) : ∀ {a b : Nat}, a ≤ b → fieldsEnd a fs ≤ fieldsEnd b fs := by
  induction fs with
  | nil => intro a b h; simpa [fieldsEnd] using h
  | cons f fs ih =>
    intro a b h
    obtain ⟨k, v⟩ := f
    simp only [fieldsEnd]
    apply ih
    have h1 := alignUp_mono 2 h
    have h2 := alignUp_mono v.rawType.align (show alignUp a 2 + strSize k ≤ alignUp b 2 + strSize k by omega)
    omega

/-- Leaving out fields never moves the end up. -/
theorem fieldsEnd_sublist {fs gs : List (Bytes × Val)} (h : fs.Sublist gs) : ∀ {a b : Nat}, a ≤ b →
    fieldsEnd a fs ≤ fieldsEnd b gs := by
  induction h with
  | slnil => intro a b h; simpa [fieldsEnd] using h
  | cons f h ih =>
    intro a b hab
    obtain ⟨k, v⟩ := f
    simp only [fieldsEnd]
    apply ih
    have h1 := le_alignUp b (a := 2) (by decide)
    have h2 := le_alignUp (alignUp b 2 + strSize k) (align_pos v.rawType)
    omega
  | cons_cons f h ih =>
    intro a b hab
    obtain ⟨k, v⟩ := f
    simp only [fieldsEnd]
    apply ih
    have h1 := alignUp_mono 2 hab
    have h2 := alignUp_mono v.rawType.align (show alignUp a 2 + strSize k ≤ alignUp b 2 + strSize k by omega)
    omega

/-! ### The loop -/

theorem objEntry_forTable {t t' : RawType} (h : t.forTable = t'.forTable) (off : Nat) (c : Bytes) :
    objEntry t off c = objEntry t' off c := by
  unfold objEntry; rw [h]

/-- The writer puts exactly the key and the given image of the value into zeroed memory. -/
structure Writes (w : FieldWriter) (i : (Bytes × Val) × Bytes) : Prop where
  type : w.type.forTable = i.1.2.rawType.forTable
  pre : w.pre = i.1.1
  key : ∀ (X Y : Bytes) (p N : Nat), p = X.length → strSize i.1.1 ≤ N →
    w.key p (X ++ (zeros N ++ Y)) = some (X ++ (encStr i.1.1 ++ (zeros (N - strSize i.1.1) ++ Y)), strSize i.1.1)
  val : ∀ (X Y : Bytes) (p N : Nat), p = X.length → i.1.2.rawType.align ∣ p → sizeVal i.1.2 ≤ N →
    w.val p (X ++ (zeros N ++ Y)) = some (X ++ (i.2 ++ (zeros (N - sizeVal i.1.2) ++ Y)), sizeVal i.1.2)
  len : i.2.length = sizeVal i.1.2

theorem Writes.align {w : FieldWriter} {i : (Bytes × Val) × Bytes} (h : Writes w i) : w.type.align = i.1.2.rawType.align := by
  rw [← forTable_align, h.type, forTable_align]

theorem writeFields_ok (xs : List (FieldWriter × (Bytes × Val) × Bytes)) : (∀ x ∈ xs, Writes x.1 x.2) →
    ∀ (P D post : Bytes) (idx off N : Nat),
    P.length = 8 + 8 * idx → off = P.length + 8 * xs.length + D.length →
    fieldsEnd off (xs.map (·.2.1)) ≤ off + N →
    writeFields (xs.map (·.1)) idx off (P ++ (zeros (8 * xs.length) ++ (D ++ (zeros N ++ post)))) =
      some (P ++ (encEntries off (xs.map (·.2.1)) ++ (D ++ (encFieldsW off (xs.map (·.2)) ++
        (zeros (off + N - fieldsEnd off (xs.map (·.2.1))) ++ post)))), fieldsEnd off (xs.map (·.2.1))) := by
  induction xs with
  | nil =>
    intro _ P D post idx off N hP hD hN
    have : off + N - off = N := by omega
    simp [writeFields, encEntries, encFieldsW, fieldsEnd, this]
  | cons x xs ih =>
    intro hx P D post idx off N hP hD hN
    obtain ⟨w, ⟨k, v⟩, bs⟩ := x
    have hw : Writes w ((k, v), bs) := hx (w, (k, v), bs) (by simp)
    have hbl : bs.length = sizeVal v := hw.len
    have ih := ih (fun x hx' => hx x (by simp [hx']))
    have hk := le_alignUp off (a := 2) (by decide)
    have hv := le_alignUp (alignUp off 2 + strSize k) (align_pos v.rawType)
    have hend := le_fieldsEnd (valOff off k v + sizeVal v) (xs.map (·.2.1))
    simp only [List.map_cons, fieldsEnd] at hN
    simp only [List.map_cons, List.length_cons] at *
    have hsplit : zeros (8 * (xs.length + 1)) = zeros 8 ++ zeros (8 * xs.length) := by
      rw [← zeros_add]; congr 1; omega
    have hN0 : zeros N = zeros (alignUp off 2 - off) ++ zeros (N - (alignUp off 2 - off)) := by
      apply zeros_split
      simp only [valOff] at hend; omega
    have hN1 : zeros (N - (alignUp off 2 - off) - strSize k) =
        zeros (valOff off k v - (keyOff off + strSize k)) ++
          zeros (off + N - valOff off k v) := by
      rw [← zeros_add]; congr 1; simp only [valOff, keyOff] at *; omega
    have hs : RawType.string.align = 2 := rfl
    unfold writeFields
    simp only [hs]
    rw [hsplit, List.append_assoc,
      writeBytes_mid P (zeros 8) _ _ _ (by omega) (by simp)]
    simp only [Option.bind_eq_bind, Option.bind_some]
    rw [hN0, hw.pre, objEntry_forTable hw.type]
    -- key
    have hA := hw.key (P ++ (objEntry v.rawType (alignUp off 2) (cstr k) ++ (zeros (8 * xs.length) ++ (D ++ zeros (alignUp off 2 - off)))))
      post (alignUp off 2) (N - (alignUp off 2 - off)) (by simp; omega)
      (by show strSize k ≤ _; simp only [valOff] at hend; omega)
    simp only [List.append_assoc] at hA ⊢
    rw [hA]
    simp only [Option.bind_some]
    rw [hw.align, hN1]
    -- value
    have hB := hw.val (P ++ (objEntry v.rawType (alignUp off 2) (cstr k) ++ (zeros (8 * xs.length) ++ (D ++ (zeros (alignUp off 2 - off) ++ (encStr k ++ zeros (valOff off k v - (keyOff off + strSize k))))))))
      post (valOff off k v) (off + N - valOff off k v)
      (by simp; simp only [valOff, keyOff]; omega)
      (dvd_alignUp _ _) (by show sizeVal v ≤ _; simp only [valOff] at *; omega)
    simp only [List.append_assoc] at hB ⊢
    rw [hB]
    simp only [Option.bind_some]
    -- rest
    have hC := ih (P ++ objEntry v.rawType (alignUp off 2) (cstr k))
      (D ++ (zeros (alignUp off 2 - off) ++ (encStr k ++ (zeros (valOff off k v - (keyOff off + strSize k)) ++ bs))))
      post (idx + 1) (valOff off k v + sizeVal v) (off + N - valOff off k v - sizeVal v)
      (by simp; omega)
      (by simp [hbl]; simp only [valOff, keyOff] at *; omega)
      (by simp only [valOff] at *; omega)
    simp only [List.append_assoc] at hC ⊢
    rw [hC]
    simp only [encEntries, encFieldsW, fieldsEnd, List.append_assoc]
    have e4 : valOff off k v + sizeVal v + (off + N - valOff off k v - sizeVal v) = off + N := by
      simp only [valOff] at *; omega
    rw [e4]

/-! ### Copying an element out of a buffer -/

variable {z : Bool}

theorem findSizeof_at {m : Bytes} {p : Nat} {v : Val} (h : At z m p v) :
    findSizeof m v.rawType.forTable p = some (sizeVal v) := by
  obtain ⟨hm, _, _, _, hf⟩ := h
  cases v with
  | obj fs =>
    simp only [Fits] at hf
    simp only [Stored] at hm
    exact hm.1.readU (by omega)
  | arr es =>
    simp only [Fits] at hf
    simp only [Stored] at hm
    exact hm.1.readU (by omega)
  | str s =>
    simp only [Fits] at hf
    simp only [Stored] at hm
    obtain ⟨X, Y, rfl, hX⟩ := hasBytes_iff.1 hm
    simp only [Val.rawType, encStr, sizeVal, strSize, strLw, List.append_assoc]
    unfold identifyString
    by_cases h1 : s.length > 65535
    · simp only [h1, if_true, RawType.forTable, findSizeof]
      rw [readU_mid X _ 4 s.length p hX.symm (by omega)]
      rfl
    · have hb : s.length < 256 ^ 2 := by omega
      by_cases h2 : s.length > ssoBytes
      · simp only [h1, h2, if_true, if_false, RawType.forTable, findSizeof]
        rw [readU_mid X _ 2 s.length p hX.symm hb]
        rfl
      · simp only [h1, h2, if_false, RawType.forTable, findSizeof]
        rw [readU_mid X _ 2 s.length p hX.symm hb]
        rfl
  | int i =>
    have := rawType_align_int i m p
    rcases identifyInteger_cases i with h | h | h <;>
      simp [Val.rawType, h, RawType.forTable, findSizeof, sizeVal, intBytes]
  | dec d =>
    have := rawType_align_dec d m p
    rcases identifyDecimal_cases d with h | h <;>
      simpa [Val.rawType, h, RawType.forTable, sizeVal] using this
  | bool b => rfl
  | null => rfl

theorem Shows.sizeof {b : Buf} {v : Val} (h : Shows z b v) : b.sizeof = some (sizeVal v) := by
  rcases h with ⟨h, rfl⟩ | ⟨p, h1, h2, h3⟩
  · simp [Buf.sizeof, h, sizeVal]
  · have := findSizeof_at h3
    rw [← h1] at this
    unfold Buf.sizeof
    rw [h2]
    split
    · rename_i hn; rw [hn] at this; simpa [findSizeof] using this
    · rename_i e _; cases e; exact this
    · rename_i e _; cases e

theorem sizeVal_null : sizeVal .null = 0 := rfl

theorem Shows.read {b : Buf} {v : Val} (h : Shows z b v) :
    ∃ bs, b.elemBytes (sizeVal v) = some bs ∧ Image z v bs := by
  unfold Buf.elemBytes
  by_cases h0 : sizeVal v = 0
  · rw [if_pos h0]
    rcases h with ⟨_, rfl⟩ | ⟨q, _, h2, h3⟩
    · exact ⟨[], rfl, rfl, by simp [Stored], fun _ => by simp [enc]⟩
    · obtain ⟨bs, h4, h5⟩ := h3.image
      have := h5.1
      rw [h0] at this
      rw [List.length_eq_zero_iff.1 this] at h5
      exact ⟨[], rfl, h5⟩
  · rw [if_neg h0]
    rcases h with ⟨_, rfl⟩ | ⟨q, _, h2, h3⟩
    · exact absurd rfl h0
    · rw [h2]; exact h3.image

/-- What copying the element copies. -/
def Copies (z : Bool) (b : Buf) (v : Val) (bs : Bytes) : Prop :=
  Image z v bs ∧ ∀ p m, copyElem b p m = (writeBytes m p bs).map fun m => (m, sizeVal v)

theorem Shows.copies {b : Buf} {v : Val} (h : Shows z b v) : ∃ bs, Copies z b v bs := by
  obtain ⟨bs, h1, h2⟩ := h.read
  refine ⟨bs, h2, fun p m => ?_⟩
  unfold copyElem
  rw [h.sizeof]
  simp only [Option.bind_eq_bind, Option.bind_some, h1]
  cases writeBytes m p bs <;> rfl

theorem Copies.ok {b : Buf} {v : Val} {bs : Bytes} (h : Copies z b v bs)
    (X Y : Bytes) (p N : Nat) (hp : p = X.length) (hN : sizeVal v ≤ N) :
    copyElem b p (X ++ (zeros N ++ Y)) = some (X ++ (bs ++ (zeros (N - sizeVal v) ++ Y)), sizeVal v) := by
  rw [h.2, write_zeros X Y bs p N hp (by rw [h.1.1]; exact hN), h.1.1]
  rfl

/-! ### Closing the gap -/

theorem adjustOffsets_ok (diff off : Nat) (H T : Bytes) (hH : H.length = 8) (hd : 8 ∣ diff) (b : List (Bytes × Val)) :
    ∀ (n : Nat) (a : List (Bytes × Val)), a.length = n →
    (∀ c k v d, a = c ++ (k, v) :: d → keyOff (fieldsEnd (off + diff) c) < 2 ^ 32) →
    adjustOffsets diff n (H ++ (encEntries (off + diff) (a ++ b) ++ T)) =
      some (H ++ (encEntries off a ++ (encEntries (fieldsEnd (off + diff) a) b ++ T))) := by
  intro n
  induction n generalizing b with
  | zero =>
    intro a ha _
    have : a = [] := List.length_eq_zero_iff.1 ha
    subst this
    simp [adjustOffsets, encEntries, fieldsEnd]
  | succ n ih =>
    intro a ha hlt
    rcases List.eq_nil_or_concat a with rfl | ⟨c, ⟨k, v⟩, rfl⟩
    · simp at ha
    · simp only [List.concat_eq_append, List.length_append, List.length_singleton] at ha hlt ⊢
      have hc : c.length = n := by omega
      have h1 := ih ((k, v) :: b) c hc (fun c' k' v' d' e => hlt c' k' v' (d' ++ [(k, v)]) (by rw [e]; simp))
      have h2 := hlt c k v [] rfl
      simp only [adjustOffsets]
      rw [List.append_assoc, List.singleton_append, h1]
      simp only [Option.bind_eq_bind, Option.bind_some, encEntries, List.append_assoc]
      obtain ⟨r1, _⟩ := objEntry_reads (m := H ++ (encEntries off c ++ (objEntry v.rawType (keyOff (fieldsEnd (off + diff) c)) (cstr k) ++
        (encEntries (valOff (fieldsEnd (off + diff) c) k v + sizeVal v) b ++ T)))) (X := H ++ encEntries off c)
        (base := 0) (idx := n) (t := v.rawType) (c := cstr k) (by simp only [List.append_assoc]; rfl) (by simp [hH, hc]) h2
      rw [r1]
      simp only [Option.bind_some]
      have e1 : objEntry v.rawType (keyOff (fieldsEnd (off + diff) c)) (cstr k) =
        leBytes 4 (keyOff (fieldsEnd (off + diff) c)) ++ (leBytes 1 v.rawType.forTable.code ++ (leBytes 1 (entryLen (cstr k)) ++ [entryP0 (cstr k), entryP1 (cstr k)])) := by
        simp [objEntry]
      rw [e1, List.append_assoc, cut, writeBytes_mid (H ++ encEntries off c) (leBytes 4 _) _ _ _ (by simp [hH, hc]) (by simp)]
      have e2 : keyOff (fieldsEnd (off + diff) c) + 2 ^ 32 - diff = keyOff (fieldsEnd off c) + 256 ^ 4 := by
        rw [fieldsEnd_shift c diff hd, (valOff_shift _ diff k v hd).1]
        omega
      rw [e2, leBytes_add_pow, encEntries_append]
      simp only [encEntries, fieldsEnd_append, fieldsEnd, objEntry, List.append_assoc, List.append_nil]

theorem keyOff_lt_of_end (a : List (Bytes × Val)) (off L : Nat) (h : fieldsEnd off a < L)
    (c : List (Bytes × Val)) (k : Bytes) (v : Val) (d : List (Bytes × Val)) (e : a = c ++ (k, v) :: d) :
    keyOff (fieldsEnd off c) < L := by
  subst e
  rw [fieldsEnd_append] at h
  simp only [fieldsEnd] at h
  have h1 := le_fieldsEnd (valOff (fieldsEnd off c) k v + sizeVal v) d
  have h2 := le_alignUp (alignUp (fieldsEnd off c) 2 + strSize k) (align_pos v.rawType)
  simp only [valOff, keyOff] at *
  omega

theorem readBytes_all (A B : Bytes) (p n : Nat) (hp : p = A.length) (hn : n = B.length) (C : Bytes) :
    readBytes (A ++ (B ++ C)) p n = some B := readBytes_mid A B C p n hp hn

/-- Moving a block down over `d` bytes: what was behind the new end is some block of the same length. -/
theorem move_down (A G F R : Bytes) (p : Nat) (hp : p = A.length) :
    ∃ G', G'.length = G.length ∧
      writeBytes (A ++ (G ++ (F ++ R))) p F = some (A ++ (F ++ (G' ++ R))) := by
  refine ⟨(G ++ F).drop F.length, by simp, ?_⟩
  have e : G ++ (F ++ R) = (G ++ F).take F.length ++ ((G ++ F).drop F.length ++ R) := by
    rw [← List.append_assoc, ← List.append_assoc, List.take_append_drop]
  rw [e, writeBytes_mid A ((G ++ F).take F.length) _ F p hp (by simp)]

theorem realign_ok (H : Bytes) (hH : H.length = 8) (is : List ((Bytes × Val) × Bytes)) (fs : List (Bytes × Val))
    (hfs : is.map (·.1) = fs) (hlen : ∀ i ∈ is, i.2.length = sizeVal i.1.2) (d R : Nat) (hd : 0 < d)
    (hl : fieldsEnd (8 + 8 * (fs.length + d)) fs < 2 ^ 32) :
    realign fs.length (fs.length + d) (fieldsEnd (8 + 8 * (fs.length + d)) fs)
      (H ++ (encEntries (8 + 8 * (fs.length + d)) fs ++ (zeros (8 * d) ++
        (encFieldsW (8 + 8 * (fs.length + d)) is ++ zeros R)))) =
    some (H ++ (encEntries (8 + 8 * fs.length) fs ++ (encFieldsW (8 + 8 * fs.length) is ++
      (zeros (8 * d) ++ zeros R))), fieldsEnd (8 + 8 * fs.length) fs) := by
  have hoff : 8 + 8 * (fs.length + d) = 8 + 8 * fs.length + 8 * d := by omega
  have h8 : 8 ∣ 8 * d := Nat.dvd_mul_right _ _
  have hfl := encFieldsW_length is hlen (8 + 8 * (fs.length + d))
  rw [hfs] at hfl
  have hend := fieldsEnd_shift fs (8 * d) h8 (8 + 8 * fs.length)
  rw [← hoff] at hend
  -- type of the first entry
  have ht : ∃ t, entType (H ++ (encEntries (8 + 8 * (fs.length + d)) fs ++ (zeros (8 * d) ++
        (encFieldsW (8 + 8 * (fs.length + d)) is ++ zeros R)))) 0 0 = some t := by
    cases hfc : fs with
    | nil =>
      refine ⟨.object, ?_⟩
      have e : zeros (8 * d) = zeros 4 ++ (leBytes 1 0 ++ zeros (8 * d - 5)) := by
        have : leBytes 1 0 = zeros 1 := rfl
        rw [this, ← zeros_add, ← zeros_add]; congr 1; omega
      simp only [encEntries, List.nil_append, entType]
      rw [e, List.append_assoc, List.append_assoc, cut, readU_mid (H ++ zeros 4) _ 1 0 _ (by simp [hH]) (by decide)]
      rfl
    | cons f gs =>
      obtain ⟨k, v⟩ := f
      have hk := keyOff_lt_of_end fs _ _ hl [] k v gs hfc
      rw [hfc] at hk
      obtain ⟨_, r2, _⟩ := objEntry_reads (m := H ++ (encEntries (8 + 8 * (((k, v) :: gs).length + d)) ((k, v) :: gs) ++ (zeros (8 * d) ++
        (encFieldsW (8 + 8 * (((k, v) :: gs).length + d)) is ++ zeros R)))) (X := H)
        (base := 0) (idx := 0) (t := v.rawType) (off := keyOff (8 + 8 * (((k, v) :: gs).length + d))) (c := cstr k)
        (by simp only [encEntries, List.append_assoc]; rfl) (by simp [hH]) (by simpa [fieldsEnd] using hk)
      exact ⟨_, r2⟩
  obtain ⟨t, ht⟩ := ht
  have hdst : alignUp (8 + 8 * fs.length) t.align = 8 + 8 * fs.length := by
    apply alignUp_of_dvd (align_pos _)
    exact Nat.dvd_trans (align_dvd_eight _) (by omega)
  unfold realign
  rw [if_neg (show ¬ fs.length + d < fs.length by omega), ht]
  simp only [Option.bind_eq_bind, Option.bind_some, hdst]
  have hdiff : 8 + 8 * (fs.length + d) - (8 + 8 * fs.length) = 8 * d := by omega
  rw [hdiff]
  have hread : readBytes (H ++ (encEntries (8 + 8 * (fs.length + d)) fs ++ (zeros (8 * d) ++
        (encFieldsW (8 + 8 * (fs.length + d)) is ++ zeros R)))) (8 + 8 * (fs.length + d))
        (fieldsEnd (8 + 8 * (fs.length + d)) fs - (8 + 8 * (fs.length + d))) =
      some (encFieldsW (8 + 8 * (fs.length + d)) is) := by
    rw [cut, cut]
    exact readBytes_mid _ _ _ _ _ (by simp [hH]; omega) (by omega)
  rw [hread]
  simp only [Option.bind_some]
  obtain ⟨G', hG', hw⟩ := move_down (H ++ encEntries (8 + 8 * (fs.length + d)) fs) (zeros (8 * d))
    (encFieldsW (8 + 8 * (fs.length + d)) is) (zeros R) (8 + 8 * fs.length) (by simp [hH])
  simp only [List.append_assoc, zeros_length] at hw hG'
  rw [hw]
  simp only [Option.bind_some]
  have hadj := adjustOffsets_ok (8 * d) (8 + 8 * fs.length) H
    (encFieldsW (8 + 8 * (fs.length + d)) is ++ (G' ++ zeros R)) hH h8 [] fs.length fs rfl
    (fun c k v e he => keyOff_lt_of_end fs _ _ (hoff ▸ hl) c k v e he)
  simp only [List.append_nil, encEntries, List.nil_append, ← hoff] at hadj
  rw [hadj]
  simp only [Option.bind_some]
  have hsub : fieldsEnd (8 + 8 * (fs.length + d)) fs - 8 * d = fieldsEnd (8 + 8 * fs.length) fs := by omega
  rw [hsub, cut, cut, writeBytes_mid _ G' _ (zeros (8 * d)) _ (by simp [hH]; omega) (by simp [hG'])]
  simp only [Option.bind_some, List.append_assoc]
  rw [hoff, encFieldsW_shift is (8 * d) h8]

/-- The object with these images of its values. -/
def encObjW (is : List ((Bytes × Val) × Bytes)) : Bytes :=
  leBytes 4 (sizeVal (.obj (is.map (·.1)))) ++ (leBytes 4 is.length ++
    (encEntries (8 + 8 * is.length) (is.map (·.1)) ++ (encFieldsW (8 + 8 * is.length) is ++
      zeros (sizeVal (.obj (is.map (·.1))) - fieldsEnd (8 + 8 * is.length) (is.map (·.1))))))

theorem Image.objW {is : List ((Bytes × Val) × Bytes)} (h : ∀ i ∈ is, Image z i.1.2 i.2) :
    Image z (.obj (is.map (·.1))) (encObjW is) := Image.obj h

theorem obj_enc_parts (is : List ((Bytes × Val) × Bytes)) (total : Nat) (h : sizeVal (.obj (is.map (·.1))) ≤ total) :
    encObjW is ++ zeros (total - sizeVal (.obj (is.map (·.1)))) =
      leBytes 4 (sizeVal (.obj (is.map (·.1)))) ++ (leBytes 4 is.length ++ (encEntries (8 + 8 * is.length) (is.map (·.1)) ++
        (encFieldsW (8 + 8 * is.length) is ++ zeros (total - fieldsEnd (8 + 8 * is.length) (is.map (·.1)))))) := by
  have hle := le_alignUp (fieldsEnd (8 + 8 * is.length) (is.map (·.1))) (a := 8) (by decide)
  have hsz : sizeVal (.obj (is.map (·.1))) = alignUp (fieldsEnd (8 + 8 * is.length) (is.map (·.1))) 8 := by simp [sizeVal]
  simp only [encObjW, List.append_assoc, ← zeros_add]
  congr 5
  omega

/-- A source field stands for a field of the model. -/
def SrcOf (z : Bool) (s : SrcField) (f : Bytes × Val) : Prop :=
  s.str = f.1 ∧ Shows z s.key (.str f.1) ∧ Shows z s.val f.2

theorem Shows.forTable {b : Buf} {v : Val} (h : Shows z b v) : b.type.forTable = v.rawType.forTable := by
  rcases h with ⟨h, e⟩ | ⟨q, e1, _, _⟩
  · simp [h, e, Val.rawType]
  · rw [e1]; cases v.rawType <;> rfl

theorem SrcOf.writes {s : SrcField} {f : Bytes × Val} (h : SrcOf z s f) :
    ∃ bs, Image z f.2 bs ∧ Writes (copyWriter s) (f, bs) := by
  obtain ⟨h1, h3, h5⟩ := h
  obtain ⟨ks, hk⟩ := h3.copies
  obtain ⟨bs, hv⟩ := h5.copies
  refine ⟨bs, hv.1, h5.forTable, h1, fun X Y p N hp hN => ?_, fun X Y p N hp _ hN => hv.ok X Y p N hp hN, hv.1.1⟩
  have := hk.ok X Y p N hp (by simpa [sizeVal] using hN)
  rw [hk.1.str] at this
  simp only [sizeVal] at this
  exact this

theorem objectFromCopies_images (xs : List (SrcField × (Bytes × Val) × Bytes)) (hx : ∀ x ∈ xs, Writes (copyWriter x.1) x.2)
    (guess total : Nat) (hg : xs.length ≤ guess) (hend : fieldsEnd (8 + 8 * guess) (xs.map (·.2.1)) ≤ total)
    (h8 : 8 ∣ total) (ht : total < 2 ^ 32) :
    objectFromCopies guess (xs.map (·.1)) (zeros total) =
      some (encObjW (xs.map (·.2)) ++ zeros (total - sizeVal (.obj (xs.map (·.2.1))))) ∧
    sizeVal (.obj (xs.map (·.2.1))) ≤ total := by
  obtain ⟨d, rfl⟩ : ∃ d, guess = xs.length + d := ⟨guess - xs.length, by omega⟩
  have hge := le_fieldsEnd (8 + 8 * (xs.length + d)) (xs.map (·.2.1))
  have hsh := fieldsEnd_shift (xs.map (·.2.1)) (8 * d) (Nat.dvd_mul_right _ _) (8 + 8 * xs.length)
  have hoff : 8 + 8 * xs.length + 8 * d = 8 + 8 * (xs.length + d) := by omega
  rw [hoff] at hsh
  have hlen : (xs.map (·.2.1)).length = xs.length := by simp
  have hlen' : (xs.map (·.2)).length = xs.length := by simp
  have hmm : (xs.map (·.2)).map (·.1) = xs.map (·.2.1) := by simp
  have hsz : sizeVal (.obj (xs.map (·.2.1))) ≤ total := by
    simp only [sizeVal, hlen]
    exact alignUp_le_of_dvd (by decide) h8 (by omega)
  refine ⟨?_, hsz⟩
  have hz : zeros total = zeros 4 ++ (zeros 4 ++ (zeros (8 * xs.length) ++ (zeros (8 * d) ++
      (zeros (total - (8 + 8 * (xs.length + d))) ++ [])))) := by
    simp only [List.append_nil, ← zeros_add]; congr 1; omega
  have hmap : (xs.map (·.1)).map copyWriter = (xs.map fun x => (copyWriter x.1, x.2)).map (·.1) := by simp
  have hmap2 : xs.map (·.2) = (xs.map fun x => (copyWriter x.1, x.2)).map (·.2) := by simp
  have hmap3 : xs.map (·.2.1) = (xs.map fun x => (copyWriter x.1, x.2)).map (·.2.1) := by simp
  have hl0 : leBytes 4 0 = zeros 4 := rfl
  have hW := writeFields_ok (xs.map fun x => (copyWriter x.1, x.2))
    (by
      intro x hx'
      obtain ⟨y, hy, rfl⟩ := List.mem_map.1 hx'
      exact hx y hy)
    (zeros 4 ++ zeros 4) (zeros (8 * d)) [] 0 (8 + 8 * (xs.length + d)) (total - (8 + 8 * (xs.length + d)))
    (by simp) (by simp; omega) (by rw [← hmap3]; omega)
  rw [← hmap, ← hmap2, ← hmap3] at hW
  simp only [List.length_map, List.append_assoc, List.append_nil] at hW
  unfold objectFromCopies
  rw [hz]
  simp only [List.append_nil]
  rw [writeBytes_mid (zeros 4) (zeros 4) _ _ _ (by simp) (by simp)]
  simp only [Option.bind_eq_bind, Option.bind_some, hl0]
  rw [hW]
  simp only [Option.bind_some, List.length_map]
  rw [writeBytes_mid (zeros 4) (zeros 4) _ _ _ (by simp) (by simp)]
  simp only [Option.bind_some]
  have hparts := obj_enc_parts (xs.map (·.2)) total (by rw [hmm]; exact hsz)
  rw [hmm, hlen'] at hparts
  rw [hparts]
  have hrest : 8 + 8 * (xs.length + d) + (total - (8 + 8 * (xs.length + d))) = total := by omega
  rw [hrest]
  by_cases hd : d = 0
  · subst hd
    simp only [Nat.add_zero, ne_eq, not_true_eq_false, if_false, Option.bind_some, Nat.mul_zero, finishObject]
    have : zeros 0 = [] := rfl
    rw [this, List.nil_append]
    rw [← List.nil_append (zeros 4 ++ _), writeBytes_mid [] (zeros 4) _ _ 0 rfl (by simp)]
    simp [sizeVal]
  · have hne : xs.length ≠ xs.length + d := by omega
    simp only [hne, ne_eq, not_false_eq_true, if_true]
    have hR := realign_ok (zeros 4 ++ leBytes 4 xs.length) (by simp) (xs.map (·.2)) (xs.map (·.2.1)) hmm
      (fun i hi => by obtain ⟨x, hx', rfl⟩ := List.mem_map.1 hi; exact (hx x hx').len) d
      (total - fieldsEnd (8 + 8 * (xs.length + d)) (xs.map (·.2.1))) (by omega) (by rw [hlen]; omega)
    simp only [hlen, List.append_assoc] at hR
    rw [hR]
    simp only [Option.bind_some, finishObject]
    rw [← List.nil_append (zeros 4 ++ _), writeBytes_mid [] (zeros 4) _ _ 0 rfl (by simp)]
    simp only [List.nil_append, ← zeros_add, sizeVal, hlen]
    congr 6
    omega

/-- What the merging and projecting constructors leave in memory. -/
theorem objectFromCopies_ok (xs : List (SrcField × Bytes × Val)) (hx : ∀ x ∈ xs, SrcOf z x.1 x.2)
    (guess total : Nat) (hg : xs.length ≤ guess) (hend : fieldsEnd (8 + 8 * guess) (xs.map (·.2)) ≤ total)
    (h8 : 8 ∣ total) (ht : total < 2 ^ 32) :
    (∃ bs, Image z (.obj (xs.map (·.2))) bs ∧ objectFromCopies guess (xs.map (·.1)) (zeros total) =
      some (bs ++ zeros (total - sizeVal (.obj (xs.map (·.2)))))) ∧
    sizeVal (.obj (xs.map (·.2))) ≤ total := by
  obtain ⟨ys, rfl, hy⟩ := choose_images xs (fun x h => (hx x h).writes)
  have e1 : (ys.map (·.1)).map (·.1) = (ys.map fun y => (y.1.1, y.1.2, y.2)).map (·.1) := by simp
  have e2 : (ys.map (·.1)).map (·.2) = (ys.map fun y => (y.1.1, y.1.2, y.2)).map (·.2.1) := by simp
  rw [e2] at hend
  obtain ⟨h1, h2⟩ := objectFromCopies_images (ys.map fun y => (y.1.1, y.1.2, y.2))
    (by
      intro x hx'
      obtain ⟨y, hy', rfl⟩ := List.mem_map.1 hx'
      exact (hy y hy').2) guess total (by simpa using hg) hend h8 ht
  rw [e1, e2]
  refine ⟨⟨_, ?_, h1⟩, h2⟩
  have := Image.obj (z := z) (is := (ys.map fun y => (y.1.1, y.1.2, y.2)).map (·.2)) (by
    intro i hi
    obtain ⟨x, hx', rfl⟩ := List.mem_map.1 hi
    obtain ⟨y, hy', rfl⟩ := List.mem_map.1 hx'
    exact (hy y hy').1)
  have e3 : ((ys.map fun y => (y.1.1, y.1.2, y.2)).map (·.2)).map (·.1) = (ys.map fun y => (y.1.1, y.1.2, y.2)).map (·.2.1) := by
    simp
  rw [e3] at this
  unfold encObjW
  rw [e3]
  exact this

/-! ### The constructors succeed only if everything fits -/

theorem writeFields_fits (xs : List (SrcField × Bytes × Val)) : (∀ x ∈ xs, SrcOf z x.1 x.2) →
    ∀ (idx off : Nat) (m m' : Bytes) (e : Nat),
    writeFields ((xs.map (·.1)).map copyWriter) idx off m = some (m', e) →
    e = fieldsEnd off (xs.map (·.2)) ∧ m'.length = m.length ∧ (xs = [] ∨ e ≤ m.length) := by
  induction xs with
  | nil =>
    intro _ idx off m m' e h
    simp only [List.map_nil, writeFields, Option.some.injEq, Prod.mk.injEq] at h
    obtain ⟨rfl, rfl⟩ := h
    exact ⟨rfl, rfl, .inl rfl⟩
  | cons x xs ih =>
    intro hx idx off m m' e h
    obtain ⟨s, k, v⟩ := x
    have hs : SrcOf z s (k, v) := hx (s, k, v) (by simp)
    have ih := ih (fun x hx' => hx x (by simp [hx']))
    have hal : (copyWriter s).type.align = v.rawType.align := (by obtain ⟨_, _, h⟩ := hs.writes; exact h.align)
    obtain ⟨_, hk, hv⟩ := hs
    have hst : RawType.string.align = 2 := rfl
    simp only [List.map_cons, writeFields, hst, hal, Option.bind_eq_bind, Option.bind_eq_some_iff] at h
    obtain ⟨m1, hw1, ⟨m2, n2⟩, hw2, ⟨m3, n3⟩, hw3, h⟩ := h
    obtain ⟨ks, hk⟩ := hk.copies
    obtain ⟨bs, hv⟩ := hv.copies
    simp only [copyWriter, hk.2, Option.map_eq_some_iff, Prod.mk.injEq] at hw2
    obtain ⟨m2', hw2, rfl, rfl⟩ := hw2
    simp only [copyWriter, hv.2, Option.map_eq_some_iff, Prod.mk.injEq] at hw3
    obtain ⟨m3', hw3, rfl, rfl⟩ := hw3
    have l1 := writeBytes_some_length hw1
    have l2 := writeBytes_some_length hw2
    have l3 := writeBytes_some_length hw3
    simp only at l3 h
    obtain ⟨i1, i2, i3⟩ := ih _ _ _ _ _ h
    have hsz : sizeVal (.str k) = strSize k := by simp [sizeVal]
    simp only [List.map_cons, fieldsEnd]
    rw [hsz] at i1
    refine ⟨i1, by omega, .inr ?_⟩
    rcases i3 with rfl | i3
    · simp only [List.map_nil, fieldsEnd] at i1
      have hb : ∀ {m m' bs : Bytes} {p : Nat}, writeBytes m p bs = some m' → p + bs.length ≤ m.length := by
        intro m m' bs p hw
        unfold writeBytes at hw
        split at hw
        · assumption
        · cases hw
      have := hb hw3
      rw [hsz, hv.1.1] at this; simp only at this
      omega
    · omega

theorem writeBytes_bound {m m' bs : Bytes} {p : Nat} (hw : writeBytes m p bs = some m') : p + bs.length ≤ m.length := by
  unfold writeBytes at hw
  split at hw
  · assumption
  · cases hw

theorem adjustOffsets_length (diff : Nat) : ∀ (n : Nat) {m m' : Bytes}, adjustOffsets diff n m = some m' → m'.length = m.length := by
  intro n
  induction n with
  | zero => intro m m' h; simp only [adjustOffsets, Option.some.injEq] at h; rw [h]
  | succ n ih =>
    intro m m' h
    simp only [adjustOffsets, Option.bind_eq_bind, Option.bind_eq_some_iff] at h
    obtain ⟨m1, h1, o, _, h2⟩ := h
    rw [writeBytes_some_length h2, ih h1]

theorem realign_fits {elems guess off off' : Nat} {m m' : Bytes} (h : realign elems guess off m = some (m', off')) :
    m'.length = m.length ∧ (elems < guess → 8 + 8 * guess ≤ off → off ≤ m.length) := by
  simp only [realign, Option.bind_eq_bind, Option.bind_eq_some_iff] at h
  obtain ⟨_, _, t, _, data, _, m1, h1, m2, h2, m3, h3, h4⟩ := h
  simp only [Option.some.injEq, Prod.mk.injEq] at h4
  obtain ⟨rfl, rfl⟩ := h4
  have l1 := writeBytes_some_length h1
  have l2 := adjustOffsets_length _ _ h2
  have l3 := writeBytes_some_length h3
  have hb := writeBytes_bound h3
  simp only [zeros_length] at hb
  refine ⟨by omega, fun hlt hoff => ?_⟩
  have : alignUp (8 + 8 * elems) t.align = 8 + 8 * elems := by
    apply alignUp_of_dvd (align_pos _)
    exact Nat.dvd_trans (align_dvd_eight _) (by omega)
  rw [this] at hb
  omega

theorem objectFromCopies_fits (xs : List (SrcField × Bytes × Val)) (hx : ∀ x ∈ xs, SrcOf z x.1 x.2)
    (guess : Nat) (hg : xs.length ≤ guess) (m m' : Bytes)
    (h : objectFromCopies guess (xs.map (·.1)) m = some m') :
    m'.length = m.length ∧ fieldsEnd (8 + 8 * guess) (xs.map (·.2)) ≤ m.length := by
  simp only [objectFromCopies, Option.bind_eq_bind, Option.bind_eq_some_iff, finishObject, List.length_map] at h
  obtain ⟨m1, h1, ⟨m2, e⟩, h2, m3, h3, ⟨m4, e'⟩, h4, h5⟩ := h
  have l1 := writeBytes_some_length h1
  have l3 := writeBytes_some_length h3
  have l5 := writeBytes_some_length h5
  have b1 := writeBytes_bound h1
  simp only at l3 l5
  obtain ⟨e1, l2, hf⟩ := writeFields_fits xs hx _ _ _ _ _ h2
  have hge := le_fieldsEnd (8 + 8 * guess) (xs.map (·.2))
  by_cases hne : xs.length = guess
  · simp only [hne, ne_eq, not_true_eq_false, if_false, Option.some.injEq, Prod.mk.injEq] at h4
    obtain ⟨rfl, rfl⟩ := h4
    refine ⟨by omega, ?_⟩
    rcases hf with rfl | hf
    · simp only [List.length_nil] at hne
      simp only [List.map_nil, fieldsEnd, leBytes_length] at b1 ⊢
      omega
    · omega
  · simp only [ne_eq, hne, not_false_eq_true, if_true] at h4
    obtain ⟨l4, hf⟩ := realign_fits h4
    have := hf (by omega) (by omega)
    exact ⟨by omega, by omega⟩

/-- The fields of an object in a buffer. -/
theorem srcFields_ok {b : Buf} {fs : List (Bytes × Val)} {p : Nat} (h : At z b.mem p (.obj fs)) :
    ∃ xs : List (SrcField × Bytes × Val), srcFields b.mem p = some (xs.map (·.1)) ∧ xs.map (·.2) = fs ∧
      ∀ x ∈ xs, SrcOf z x.1 x.2 := by
  obtain ⟨hn, h8, _⟩ := h.obj_parts
  have hone : ∀ i (hi : i < fs.length), ∃ s, srcField b.mem p i = some s ∧ SrcOf z s fs[i] := by
    intro i hi
    obtain ⟨kp, vp, r1, r2, r3, r4, r5, r6, r7, r8⟩ := h.obj_field i hi
    obtain ⟨kp', q1, q2, q3⟩ := h.obj_key i hi
    rw [r1] at q1; cases q1
    refine ⟨⟨fs[i].1, ⟨b.mem, .string, some kp⟩, ⟨b.mem, fs[i].2.rawType.forTable, some vp⟩⟩, ?_, rfl, ?_, ?_⟩
    · simp [srcField, r1, r4, r7]
    · exact .inr ⟨kp, q3.symm, rfl, q2⟩
    · exact .inr ⟨vp, rfl, rfl, r8⟩
  have hall : ∀ n, n ≤ fs.length → ∃ xs : List (SrcField × Bytes × Val),
      (List.range n).mapM (srcField b.mem p) = some (xs.map (·.1)) ∧ xs.map (·.2) = fs.take n ∧
      ∀ x ∈ xs, SrcOf z x.1 x.2 := by
    intro n
    induction n with
    | zero => intro _; exact ⟨[], by simp, by simp, by simp⟩
    | succ n ih =>
      intro hle
      obtain ⟨xs, h1, h2, h3⟩ := ih (by omega)
      obtain ⟨s, hs1, hs2⟩ := hone n (by omega)
      refine ⟨xs ++ [(s, fs[n])], ?_, ?_, ?_⟩
      · rw [List.range_succ, List.mapM_append]
        simp [h1, hs1]
      · rw [List.map_append, h2, List.map_singleton, List.take_add_one]
        simp [show n < fs.length by omega]
      · intro x hx
        rcases List.mem_append.1 hx with hx | hx
        · exact h3 x hx
        · rw [List.mem_singleton] at hx; subst hx; exact hs2
  obtain ⟨xs, h1, h2, h3⟩ := hall fs.length (Nat.le_refl _)
  refine ⟨xs, ?_, by rw [h2, List.take_length], h3⟩
  simp only [srcFields, hn, Option.bind_eq_bind, Option.bind_some]
  exact h1

theorem sizeVal_obj_dvd (fs : List (Bytes × Val)) : 8 ∣ sizeVal (.obj fs) := by
  simp only [sizeVal]; exact dvd_alignUp _ _

theorem mem_passBase {α : Type} (key : α → Bytes) (ik : Bytes) (bs : List α) (z : α) :
    (z ∈ (passBase key ik bs).1 → z ∈ bs) ∧ (z ∈ (passBase key ik bs).2 → z ∈ bs) := by
  induction bs with
  | nil => simp [passBase]
  | cons b bs ih =>
    simp only [passBase]
    split
    · simp only [List.mem_cons]
      exact ⟨fun h => h.elim .inl (fun h => .inr (ih.1 h)), fun h => .inr (ih.2 h)⟩
    · split <;> simp +contextual

theorem mem_passIncoming {α : Type} (key : α → Bytes) (is : List α) : ∀ (bs : List α) (z : α),
    (z ∈ (passIncoming key is bs).1 → z ∈ is) ∧ (z ∈ (passIncoming key is bs).2.1 → z ∈ is) ∧
    (z ∈ (passIncoming key is bs).2.2 → z ∈ bs) := by
  induction is with
  | nil => intro bs z; simp [passIncoming]
  | cons i is ih =>
    intro bs z
    cases bs with
    | nil =>
      obtain ⟨h1, h2, h3⟩ := ih [] z
      simp only [passIncoming, List.mem_cons]
      exact ⟨fun h => h.elim .inl (fun h => .inr (h1 h)), fun h => .inr (h2 h), h3⟩
    | cons b bs =>
      simp only [passIncoming]
      split
      · simp only [List.mem_cons]
        split
        · obtain ⟨h1, h2, h3⟩ := ih bs z
          exact ⟨fun h => h.elim .inl (fun h => .inr (h1 h)), fun h => .inr (h2 h), fun h => .inr (h3 h)⟩
        · obtain ⟨h1, h2, h3⟩ := ih (b :: bs) z
          exact ⟨fun h => h.elim .inl (fun h => .inr (h1 h)), fun h => .inr (h2 h), fun h => List.mem_cons.1 (h3 h)⟩
      · simp

theorem mem_eachUniquePair {α : Type} (key : α → Bytes) : ∀ (n : Nat) (bs is : List α),
    ∀ z ∈ eachUniquePair key n bs is, z ∈ bs ∨ z ∈ is := by
  intro n
  induction n with
  | zero => intro bs is z hz; cases is <;> simp_all [eachUniquePair]
  | succ n ih =>
    intro bs is z hz
    cases is with
    | nil => simp_all [eachUniquePair]
    | cons i is =>
      simp only [eachUniquePair, List.mem_append] at hz
      rcases hz with hz | hz | hz
      · exact .inl ((mem_passBase _ _ _ _).1 hz)
      · exact .inr ((mem_passIncoming _ _ _ _).1 hz)
      · rcases ih _ _ _ hz with hz | hz
        · exact .inl ((mem_passBase _ _ _ _).2 ((mem_passIncoming _ _ _ _).2.2 hz))
        · exact .inr ((mem_passIncoming _ _ _ _).2.1 hz)

theorem mem_projectOne {α : Type} (key : α → Bytes) (k : Bytes) (bs : List α) (z : α) :
    (z ∈ (projectOne key k bs).1 → z ∈ bs) ∧ (z ∈ (projectOne key k bs).2 → z ∈ bs) := by
  induction bs with
  | nil => simp [projectOne]
  | cons b bs ih =>
    simp only [projectOne]
    split
    · simp only [List.mem_cons]
      exact ⟨fun h => .inr (ih.1 h), fun h => .inr (ih.2 h)⟩
    · split
      · simp only [List.mem_cons]
        exact ⟨fun h => h.elim .inl (fun h => .inr (ih.1 h)), fun h => .inr (ih.2 h)⟩
      · simp

theorem mem_projectEachPair {α : Type} (key : α → Bytes) (ks : List Bytes) : ∀ (bs : List α),
    ∀ z ∈ projectEachPair key ks bs, z ∈ bs := by
  induction ks with
  | nil => intro bs z hz; simp [projectEachPair] at hz
  | cons k ks ih =>
    intro bs z hz
    simp only [projectEachPair, List.mem_append] at hz
    rcases hz with hz | hz
    · exact (mem_projectOne _ _ _ _).1 hz
    · exact (mem_projectOne _ _ _ _).2 (ih _ _ hz)

/-- A source field with its key string replaced by the one of the model. -/
def reKey (x : SrcField × Bytes × Val) : SrcField × Bytes × Val := (⟨x.2.1, x.1.key, x.1.val⟩, x.2)

theorem map_reKey (l : List (SrcField × Bytes × Val)) (hl : ∀ x ∈ l, SrcOf z x.1 x.2) : l.map reKey = l := by
  conv => rhs; rw [← List.map_id l]
  apply List.map_congr_left
  intro x hx
  obtain ⟨⟨s, k, v⟩, f⟩ := x
  have := (hl _ hx).1
  simp only at this
  simp [reKey, this]

theorem merge_selection {xs ys : List (SrcField × Bytes × Val)} {fs gs : List (Bytes × Val)}
    (hx : ∀ x ∈ xs, SrcOf z x.1 x.2) (hy : ∀ x ∈ ys, SrcOf z x.1 x.2)
    (ex : xs.map (·.2) = fs) (ey : ys.map (·.2) = gs) (hs : Sorted fs) (n : Nat) (hn : gs.length ≤ n) :
    ∃ zs : List (SrcField × Bytes × Val),
      eachUniquePair SrcField.str n (xs.map (·.1)) (ys.map (·.1)) = zs.map (·.1) ∧
      zs.map (·.2) = mergeFields fs gs ∧ ∀ y ∈ zs, SrcOf z y.1 y.2 := by
  refine ⟨eachUniquePair (fun z : SrcField × Bytes × Val => z.1.str) n xs ys, ?_, ?_, ?_⟩
  · rw [eachUniquePair_map]; rfl
  · rw [← map_reKey xs hx, ← map_reKey ys hy, eachUniquePair_map, List.map_map]
    have : ((fun z : SrcField × Bytes × Val => z.1.str) ∘ reKey) = Prod.fst ∘ (fun x : SrcField × Bytes × Val => x.2) := rfl
    rw [this]
    have h2 := eachUniquePair_map Prod.fst (fun x : SrcField × Bytes × Val => x.2) n xs ys
    rw [ex, ey, eachUniquePair_eq _ hs hn] at h2
    rw [h2]; rfl
  · intro z hz
    rcases mem_eachUniquePair _ _ _ _ z hz with hz | hz
    · exact hx z hz
    · exact hy z hz

theorem project_selection {xs : List (SrcField × Bytes × Val)} {fs : List (Bytes × Val)}
    (hx : ∀ x ∈ xs, SrcOf z x.1 x.2) (ex : xs.map (·.2) = fs) (hs : Sorted fs) (ks : List Bytes) :
    ∃ zs : List (SrcField × Bytes × Val),
      projectEachPair SrcField.str (sortByKey id ks) (xs.map (·.1)) = zs.map (·.1) ∧
      zs.map (·.2) = fs.filter (fun f => f.1 ∈ ks) ∧ ∀ y ∈ zs, SrcOf z y.1 y.2 := by
  refine ⟨projectEachPair (fun z : SrcField × Bytes × Val => z.1.str) (sortByKey id ks) xs, ?_, ?_, ?_⟩
  · rw [projectEachPair_map]; rfl
  · rw [← map_reKey xs hx, projectEachPair_map, List.map_map]
    have : ((fun z : SrcField × Bytes × Val => z.1.str) ∘ reKey) = Prod.fst ∘ (fun x : SrcField × Bytes × Val => x.2) := rfl
    rw [this]
    have h2 := projectEachPair_map Prod.fst (fun x : SrcField × Bytes × Val => x.2) (sortByKey id ks) xs
    rw [ex, projectEachPair_eq _ hs (sortByKey_sorted id ks)] at h2
    have h3 : (fs.filter fun f => f.1 ∈ sortByKey id ks) = fs.filter fun f => f.1 ∈ ks := by
      apply List.filter_congr
      intro f _
      simp [(sortByKey_perm id ks).mem_iff]
    rw [h3] at h2
    rw [h2]; rfl
  · intro z hz
    exact hx z (mem_projectEachPair _ _ _ z hz)

theorem At.sorted {m : Bytes} {p : Nat} {fs : List (Bytes × Val)} (h : At z m p (.obj fs)) : Sorted fs := by
  exact (wf_obj.1 h.wf).1

/-- Merging two objects in buffers, in terms of the constructor. -/
theorem merge_eq {b c : Buf} {fs gs : List (Bytes × Val)} (hb : Shows z b (.obj fs)) (hc : Shows z c (.obj gs)) :
    ∃ zs : List (SrcField × Bytes × Val), zs.map (·.2) = mergeFields fs gs ∧ (∀ y ∈ zs, SrcOf z y.1 y.2) ∧
      b.merge c = (Res.ofRead (objectFromCopies (fs.length + gs.length) (zs.map (·.1))
        (zeros (sizeVal (.obj fs) + sizeVal (.obj gs))))).bind fun m => .ok (Buf.ofBytes m) := by
  obtain ⟨p, b1, b2, b3⟩ := hb.obj
  obtain ⟨q, c1, c2, c3⟩ := hc.obj
  obtain ⟨xs, x1, x2, x3⟩ := srcFields_ok b3
  obtain ⟨ys, y1, y2, y3⟩ := srcFields_ok c3
  have sb := findSizeof_at b3
  have sc := findSizeof_at c3
  simp only [Val.rawType, RawType.forTable] at sb sc
  have hm1 : (xs.map (·.1)).length = fs.length := by rw [← x2]; simp
  have hm2 : (ys.map (·.1)).length = gs.length := by rw [← y2]; simp
  obtain ⟨zs, z1, z2, z3⟩ := merge_selection x3 y3 x2 y2 b3.sorted (fs.length + gs.length) (by omega)
  refine ⟨zs, z2, z3, ?_⟩
  simp only [Buf.merge, Buf.object, b1, b2, c1, c2, Res.ofRead, Res.bind, sb, sc, x1, y1, hm1, hm2, z1]

/-- Merging succeeds exactly if the fields laid out behind a table for all of them fit. -/
theorem merge_image {b c : Buf} {fs gs : List (Bytes × Val)} (hb : Shows z b (.obj fs)) (hc : Shows z c (.obj gs))
    (ht : sizeVal (.obj fs) + sizeVal (.obj gs) < 2 ^ 32) :
    if fieldsEnd (8 + 8 * (fs.length + gs.length)) (mergeFields fs gs) ≤ sizeVal (.obj fs) + sizeVal (.obj gs) then
      (∃ bs, Image z (.obj (mergeFields fs gs)) bs ∧ b.merge c = .ok (Buf.ofBytes (bs ++
        zeros (sizeVal (.obj fs) + sizeVal (.obj gs) - sizeVal (.obj (mergeFields fs gs)))))) ∧
      sizeVal (.obj (mergeFields fs gs)) ≤ sizeVal (.obj fs) + sizeVal (.obj gs)
    else b.merge c = .ub := by
  obtain ⟨zs, z2, z3, he⟩ := merge_eq hb hc
  have hlz : zs.length = (mergeFields fs gs).length := by rw [← z2]; simp
  have hle := mergeFields_length fs gs
  split
  · rename_i hfit
    obtain ⟨⟨bs, r0, r1⟩, r2⟩ := objectFromCopies_ok zs z3 (fs.length + gs.length) (sizeVal (.obj fs) + sizeVal (.obj gs))
      (by omega) (by rw [z2]; exact hfit) (Nat.dvd_add (sizeVal_obj_dvd _) (sizeVal_obj_dvd _)) ht
    rw [z2] at r0 r1 r2
    exact ⟨⟨bs, r0, by rw [he, r1]; rfl⟩, r2⟩
  · rename_i hfit
    rw [he]
    cases hr : objectFromCopies (fs.length + gs.length) (zs.map (·.1))
        (zeros (sizeVal (.obj fs) + sizeVal (.obj gs))) with
    | none => rfl
    | some m' =>
      have := (objectFromCopies_fits zs z3 _ (by omega) _ _ hr).2
      rw [z2, zeros_length] at this
      exact absurd this hfit

theorem merge_length {b c d : Buf} {fs gs : List (Bytes × Val)} (hb : Shows z b (.obj fs)) (hc : Shows z c (.obj gs))
    (h : b.merge c = .ok d) : d.mem.length = sizeVal (.obj fs) + sizeVal (.obj gs) := by
  obtain ⟨zs, z2, z3, he⟩ := merge_eq hb hc
  have hlz : zs.length = (mergeFields fs gs).length := by rw [← z2]; simp
  have hle := mergeFields_length fs gs
  rw [he] at h
  cases hr : objectFromCopies (fs.length + gs.length) (zs.map (·.1))
      (zeros (sizeVal (.obj fs) + sizeVal (.obj gs))) with
  | none => rw [hr] at h; cases h
  | some m' =>
    rw [hr] at h
    cases h
    have := (objectFromCopies_fits zs z3 _ (by omega) _ _ hr).1
    simpa [Buf.ofBytes] using this

theorem project_eq {b : Buf} {fs : List (Bytes × Val)} (hb : Shows z b (.obj fs)) (ks : List Bytes) :
    ∃ zs : List (SrcField × Bytes × Val), zs.map (·.2) = fs.filter (fun f => f.1 ∈ ks) ∧ (∀ y ∈ zs, SrcOf z y.1 y.2) ∧
      b.project ks = (Res.ofRead (objectFromCopies ks.length (zs.map (·.1))
        (zeros (sizeVal (.obj fs))))).bind fun m => .ok (Buf.ofBytes m) := by
  obtain ⟨p, b1, b2, b3⟩ := hb.obj
  obtain ⟨xs, x1, x2, x3⟩ := srcFields_ok b3
  have sb := findSizeof_at b3
  simp only [Val.rawType, RawType.forTable] at sb
  obtain ⟨zs, z1, z2, z3⟩ := project_selection x3 x2 b3.sorted ks
  refine ⟨zs, z2, z3, ?_⟩
  simp only [Buf.project, Buf.object, b1, b2, Res.ofRead, Res.bind, sb, x1, z1]

theorem nodup_length_le {l ks : List Bytes} (hn : l.Nodup) (hs : ∀ k ∈ l, k ∈ ks) : l.length ≤ ks.length := by
  induction l generalizing ks with
  | nil => simp
  | cons a l ih =>
    obtain ⟨h1, h2⟩ := List.nodup_cons.1 hn
    have ha : a ∈ ks := hs a (by simp)
    have := ih (ks := ks.erase a) h2 (fun k hk => by
      have hne : k ≠ a := fun e => h1 (e ▸ hk)
      exact (List.mem_erase_of_ne hne).2 (hs k (by simp [hk])))
    have hpos := List.length_pos_of_mem ha
    rw [List.length_erase_of_mem ha] at this
    simp only [List.length_cons]; omega

/-- No more fields are selected than keys are requested. -/
theorem filter_length_le {fs : List (Bytes × Val)} (hs : Sorted fs) (ks : List Bytes) :
    (fs.filter fun f => f.1 ∈ ks).length ≤ ks.length := by
  have hn : ((fs.filter fun f => f.1 ∈ ks).map (·.1)).Nodup := by
    refine List.Pairwise.map _ ?_ (filter_sorted hs _)
    intro a b h e
    exact keyLt_ne h e
  have hsub : ∀ k ∈ (fs.filter fun f => f.1 ∈ ks).map (·.1), k ∈ ks := by
    intro k hk
    obtain ⟨f, hf, rfl⟩ := List.mem_map.1 hk
    simpa using (List.mem_filter.1 hf).2
  have := nodup_length_le hn hsub
  simpa using this

theorem project_image {b : Buf} {fs : List (Bytes × Val)} (hb : Shows z b (.obj fs)) (ks : List Bytes) :
    if fieldsEnd (8 + 8 * ks.length) (fs.filter (fun f => f.1 ∈ ks)) ≤ sizeVal (.obj fs) then
      (∃ bs, Image z (.obj (fs.filter (fun f => f.1 ∈ ks))) bs ∧ b.project ks = .ok (Buf.ofBytes (bs ++
        zeros (sizeVal (.obj fs) - sizeVal (.obj (fs.filter (fun f => f.1 ∈ ks))))))) ∧
      sizeVal (.obj (fs.filter (fun f => f.1 ∈ ks))) ≤ sizeVal (.obj fs)
    else b.project ks = .ub := by
  obtain ⟨zs, z2, z3, he⟩ := project_eq hb ks
  obtain ⟨p, b1, b2, b3⟩ := hb.obj
  have hlz : zs.length = (fs.filter fun f => f.1 ∈ ks).length := by rw [← z2]; simp
  have hle := filter_length_le b3.sorted ks
  have ht : sizeVal (.obj fs) < 2 ^ 32 := by
    have hf := b3.fits
    simp only [Fits] at hf; exact hf.1
  split
  · rename_i hfit
    obtain ⟨⟨bs, r0, r1⟩, r2⟩ := objectFromCopies_ok zs z3 ks.length (sizeVal (.obj fs))
      (by omega) (by rw [z2]; exact hfit) (sizeVal_obj_dvd _) ht
    rw [z2] at r0 r1 r2
    exact ⟨⟨bs, r0, by rw [he, r1]; rfl⟩, r2⟩
  · rename_i hfit
    rw [he]
    cases hr : objectFromCopies ks.length (zs.map (·.1)) (zeros (sizeVal (.obj fs))) with
    | none => rfl
    | some m' =>
      have := (objectFromCopies_fits zs z3 _ (by omega) _ _ hr).2
      rw [z2, zeros_length] at this
      exact absurd this hfit

theorem merge_exact {b c : Buf} {fs gs : List (Bytes × Val)} (hb : Shows true b (.obj fs)) (hc : Shows true c (.obj gs))
    (ht : sizeVal (.obj fs) + sizeVal (.obj gs) < 2 ^ 32) :
    if fieldsEnd (8 + 8 * (fs.length + gs.length)) (mergeFields fs gs) ≤ sizeVal (.obj fs) + sizeVal (.obj gs) then
      b.merge c = .ok (Buf.ofBytes (enc (.obj (mergeFields fs gs)) ++
        zeros (sizeVal (.obj fs) + sizeVal (.obj gs) - sizeVal (.obj (mergeFields fs gs))))) ∧
      sizeVal (.obj (mergeFields fs gs)) ≤ sizeVal (.obj fs) + sizeVal (.obj gs)
    else b.merge c = .ub := by
  have h := merge_image hb hc ht
  split at h
  · obtain ⟨⟨bs, h1, h2⟩, h3⟩ := h
    cases h1.2.2 rfl
    rename_i hc
    rw [if_pos hc]
    exact ⟨h2, h3⟩
  · rename_i hc
    rw [if_neg hc]
    exact h

theorem project_exact {b : Buf} {fs : List (Bytes × Val)} (hb : Shows true b (.obj fs)) (ks : List Bytes) :
    if fieldsEnd (8 + 8 * ks.length) (fs.filter (fun f => f.1 ∈ ks)) ≤ sizeVal (.obj fs) then
      b.project ks = .ok (Buf.ofBytes (enc (.obj (fs.filter (fun f => f.1 ∈ ks))) ++
        zeros (sizeVal (.obj fs) - sizeVal (.obj (fs.filter (fun f => f.1 ∈ ks)))))) ∧
      sizeVal (.obj (fs.filter (fun f => f.1 ∈ ks))) ≤ sizeVal (.obj fs)
    else b.project ks = .ub := by
  have h := project_image hb ks
  split at h
  · obtain ⟨⟨bs, h1, h2⟩, h3⟩ := h
    cases h1.2.2 rfl
    rename_i hc
    rw [if_pos hc]
    exact ⟨h2, h3⟩
  · rename_i hc
    rw [if_neg hc]
    exact h

end Dart
