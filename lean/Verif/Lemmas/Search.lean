import Verif.Lemmas.Reach

/-
The binary search over the key table.
-/
namespace Dart

variable {z : Bool}

/-- The comparison made in one round of the search, on the stored key instead of on memory. -/
def cmpEntry (signed : Bool) (k key : Bytes) : Int :=
  let c := - prefixCompare signed (entryLen (cstr k)) (entryP0 (cstr k)) (entryP1 (cstr k)) key
  if c = 0 then (if k.length = key.length then bytesCmp key k else (key.length : Int) - k.length) else c

/-- A zero comparison means the keys are equal, whatever the keys are. -/
theorem cmpEntry_zero {signed : Bool} {k key : Bytes} (h : cmpEntry signed k key = 0) : k = key := by
  unfold cmpEntry at h
  simp only at h
  split at h
  · split at h
    · exact (bytesCmp_eq_zero.1 h).symm
    · omega
  · contradiction

theorem cstr_of_noNul {k : Bytes} (h : (0 : UInt8) ∉ k) : cstr k = k := by
  unfold cstr
  induction k with
  | nil => rfl
  | cons a k ih =>
    simp only [List.mem_cons, not_or] at h
    have : (a != 0) = true := by simpa using fun e => h.1 e.symm
    rw [List.takeWhile_cons, this, ih h.2]; rfl

theorem entryLen_eq (k : Bytes) : entryLen k = min k.length 255 := by
  unfold entryLen; split <;> omega

/-- First two bytes are below 0x80, or `char` is unsigned. -/
def LowPrefix (signed : Bool) (k : Bytes) : Prop := signed = true → ∀ b ∈ k.take 2, b.toNat < 128

theorem charVal_low {signed : Bool} {b : UInt8} (h : signed = true → b.toNat < 128) :
    charVal signed b = b.toNat := by
  unfold charVal
  cases signed with
  | false => simp
  | true => have := h rfl; simp; omega

theorem cmpEntry_sign {signed : Bool} {k key : Bytes} (hn : (0 : UInt8) ∉ k)
    (hl : k.length = key.length → LowPrefix signed k ∧ LowPrefix signed key)
    (h255 : key.length = 255 → k.length ≤ 255) :
    (k = key → cmpEntry signed k key = 0) ∧ (keyLt k key = true → 0 < cmpEntry signed k key) ∧
      (keyLt key k = true → cmpEntry signed k key < 0) := by
  unfold cmpEntry
  rw [cstr_of_noNul hn]
  -- the real comparison
  have hreal : ∀ c : Int, c = (if k.length = key.length then bytesCmp key k else (key.length : Int) - k.length) →
      (k = key → c = 0) ∧ (keyLt k key = true → 0 < c) ∧ (keyLt key k = true → c < 0) := by
    intro c hc
    subst hc
    refine ⟨?_, ?_, ?_⟩
    · rintro rfl; simp [bytesCmp_self]
    · intro h
      rw [keyLt_iff] at h
      rcases h with h | ⟨h, h'⟩
      · rw [if_neg (by omega)]; omega
      · rw [if_pos h, bytesCmp_neg]; omega
    · intro h
      rw [keyLt_iff] at h
      rcases h with h | ⟨h, h'⟩
      · rw [if_neg (by omega)]; omega
      · rw [if_pos h.symm]; omega
  simp only
  have hel := entryLen_eq k
  by_cases hlt : entryLen k < key.length
  · by_cases h5 : entryLen k = 255
    · have : prefixCompare signed (entryLen k) (entryP0 k) (entryP1 k) key = 0 := by
        unfold prefixCompare; rw [if_pos hlt, if_pos h5]
      rw [this]
      simpa using hreal _ rfl
    · have : prefixCompare signed (entryLen k) (entryP0 k) (entryP1 k) key = -1 := by
        unfold prefixCompare; rw [if_pos hlt, if_neg h5]
      rw [this]
      have hkl : k.length < key.length := by omega
      have hk : keyLt k key = true := keyLt_iff.2 (Or.inl hkl)
      have hnk := keyLt_asymm hk
      refine ⟨fun h => by rw [h] at hkl; omega, fun _ => by simp, fun h => absurd h (by simp [hnk])⟩
  · by_cases heq : entryLen k = key.length
    · have hkl : k.length = key.length := by omega
      obtain ⟨lk, lkey⟩ := hl hkl
      have hp : prefixCompare signed (entryLen k) (entryP0 k) (entryP1 k) key =
          entryCmpImpl signed (entryP0 k) (entryP1 k) key := by
        unfold prefixCompare; rw [if_neg hlt, if_pos heq]
      rw [hp]
      by_cases hz : entryCmpImpl signed (entryP0 k) (entryP1 k) key = 0
      · rw [hz]; simpa using hreal _ rfl
      · have hne : ¬ - entryCmpImpl signed (entryP0 k) (entryP1 k) key = 0 := by omega
        rw [if_neg hne]
        -- compare the first two bytes
        have key_fact : (k = key → entryCmpImpl signed (entryP0 k) (entryP1 k) key = 0) ∧
            (bytesCmp k key < 0 → entryCmpImpl signed (entryP0 k) (entryP1 k) key ≤ 0) ∧
            (bytesCmp key k < 0 → entryCmpImpl signed (entryP0 k) (entryP1 k) key ≥ 0) := by
          match k, key, hkl with
          | [], [], _ => simp [entryCmpImpl, prefixCmpImpl, entryP0, entryP1, bytesCmp, charVal]
          | [a], [b], _ =>
            have ha : charVal signed a = a.toNat := charVal_low (fun h => lk h a (by simp))
            have hb : charVal signed b = b.toNat := charVal_low (fun h => lkey h b (by simp))
            have h0 : charVal signed 0 = 0 := by unfold charVal; simp
            simp only [entryCmpImpl, prefixCmpImpl, entryP0, entryP1, bytesCmp, List.length_cons, List.length_nil,
              List.getD_cons_zero, List.getD_cons_succ, List.getD_nil, ha, hb, h0]
            by_cases hab : a = b
            · subst hab; simp
            · have := mt (u8_eq_iff a b).2 hab
              simp only [u8_lt_iff] at *
              refine ⟨fun h => by simp at h; contradiction, ?_, ?_⟩ <;>
              · intro h
                rw [if_neg (by simp), if_pos hab]
                repeat' split at h
                all_goals omega
          | a :: a2 :: as, b :: b2 :: bs, hkl =>
            have ha : charVal signed a = a.toNat := charVal_low (fun h => lk h a (by simp))
            have ha2 : charVal signed a2 = a2.toNat := charVal_low (fun h => lk h a2 (by simp))
            have hb : charVal signed b = b.toNat := charVal_low (fun h => lkey h b (by simp))
            have hb2 : charVal signed b2 = b2.toNat := charVal_low (fun h => lkey h b2 (by simp))
            simp only [entryCmpImpl, prefixCmpImpl, entryP0, entryP1, bytesCmp, List.length_cons,
              List.getD_cons_zero, List.getD_cons_succ, List.take_succ_cons, List.take_zero, ha, hb, ha2, hb2]
            by_cases hab : a = b
            · subst hab
              have hnl : ¬ a < a := by rw [u8_lt_iff]; omega
              by_cases hab2 : a2 = b2
              · subst hab2
                simp
              · have := mt (u8_eq_iff a2 b2).2 hab2
                have hc : ¬ (2 ≤ bs.length + 1 + 1 ∧ [a, b2] = [a, a2]) := by
                  simp; exact fun h => hab2 h.symm
                simp only [hnl, if_false, hc, ne_eq, not_true_eq_false, hab2, not_false_eq_true, if_true]
                simp only [u8_lt_iff]
                refine ⟨fun h => by simp at h; exact absurd h.1 hab2, ?_, ?_⟩ <;>
                · intro h
                  repeat' split at h
                  all_goals omega
            · have := mt (u8_eq_iff a b).2 hab
              have hc : ¬ (2 ≤ bs.length + 1 + 1 ∧ [b, b2] = [a, a2]) := by
                simp; exact fun h => absurd h.symm hab
              simp only [hc, if_false, ne_eq, hab, not_false_eq_true, if_true]
              simp only [u8_lt_iff]
              refine ⟨fun h => by simp at h; exact absurd h.1 hab, ?_, ?_⟩ <;>
              · intro h
                repeat' split at h
                all_goals omega
        obtain ⟨f1, f2, f3⟩ := key_fact
        refine ⟨fun h => by have := f1 h; omega, fun h => ?_, fun h => ?_⟩
        · rw [keyLt_iff] at h
          have := f2 (by rcases h with h | h <;> omega)
          omega
        · rw [keyLt_iff] at h
          have := f3 (by rcases h with h | h <;> omega)
          omega
    · have : prefixCompare signed (entryLen k) (entryP0 k) (entryP1 k) key = 1 := by
        unfold prefixCompare; rw [if_neg hlt, if_neg heq]
      rw [this]
      have hkl : key.length < k.length := by omega
      have hk : keyLt key k = true := keyLt_iff.2 (Or.inl hkl)
      have hnk := keyLt_asymm hk
      refine ⟨fun h => by rw [h] at hkl; omega, fun h => absurd h (by simp [hnk]), fun _ => by simp⟩

/-! ### The search on memory -/

theorem tdiv2 {a b : Int} (ha : 0 ≤ a) (hab : a ≤ b) :
    a ≤ (a + b).tdiv 2 ∧ (a + b).tdiv 2 ≤ b := by
  rw [Int.tdiv_eq_ediv_of_nonneg (by omega)]
  omega

/-- Whatever the memory, a hit is an index in the searched range whose entry is returned and whose
key equals the key looked for. -/
theorem searchKey_sound {signed : Bool} {m : Bytes} {base : Nat} {key : Bytes} :
    ∀ (fuel : Nat) (lo hi : Int) {i : Nat} {t : RawType} {kp : Nat}, 0 ≤ lo →
    searchKey signed m base key fuel lo hi = some (some (i, t, kp)) →
    lo ≤ i ∧ (i : Int) ≤ hi ∧ loadKey m base i = some kp ∧ entType m base i = some t ∧
      strv m .string kp = some key := by
  intro fuel
  induction fuel with
  | zero => intro lo hi i t kp h0 h; simp [searchKey] at h
  | succ fuel ih =>
    intro lo hi i t kp h0 h
    unfold searchKey at h
    split at h
    · simp at h
    · rename_i hlh
      obtain ⟨hm1, hm2⟩ := tdiv2 h0 (show lo ≤ hi by omega)
      generalize hmid : (lo + hi).tdiv 2 = mid at h hm1 hm2
      simp only [Option.bind_eq_bind, Option.bind_eq_some_iff] at h
      obtain ⟨c, h5, h⟩ := h
      split at h
      · rename_i hc
        subst hc
        simp only [Option.bind_eq_some_iff] at h
        obtain ⟨t', ht, off, h1, he⟩ := h
        simp only [Option.some.injEq, Prod.mk.injEq] at he
        obtain ⟨rfl, rfl, rfl⟩ := he
        simp only [searchCompare, Option.bind_eq_bind, Option.bind_eq_some_iff] at h5
        obtain ⟨len, h2, p0, h3, p1, h4, h5⟩ := h5
        split at h5
        · rename_i hne
          simp only [Option.some.injEq] at h5
          exact absurd h5 hne
        · simp only [Option.bind_eq_some_iff] at h5
          obtain ⟨off', h1', curr, hcur, he⟩ := h5
          rw [h1] at h1'; cases h1'
          have hcc : curr = key := by
            simp only [Option.some.injEq] at he
            split at he
            · exact (bytesCmp_eq_zero.1 he).symm
            · omega
          refine ⟨by omega, by omega, by simp [loadKey, h1], ht, by rw [hcur, hcc]⟩
      · split at h
        · obtain ⟨a, b, c⟩ := ih _ _ (by omega) h
          exact ⟨by omega, by omega, c⟩
        · obtain ⟨a, b, c⟩ := ih _ _ (by omega) h
          exact ⟨by omega, by omega, c⟩

/-- One round of the search on an encoded object. -/
theorem searchKey_step {signed : Bool} {m : Bytes} {p : Nat} {fs : List (Bytes × Val)} (hat : At z m p (.obj fs))
    (key : Bytes) (fuel : Nat) (lo hi : Int) (mid : Nat) (hlh : lo ≤ hi) (hmid : (lo + hi).tdiv 2 = (mid : Int))
    (hr : mid < fs.length) :
    ∃ kp, loadKey m p mid = some kp ∧
    searchKey signed m p key (fuel + 1) lo hi =
      (if cmpEntry signed fs[mid].1 key = 0 then some (some (mid, fs[mid].2.rawType.forTable, kp))
      else if cmpEntry signed fs[mid].1 key > 0 then searchKey signed m p key fuel ((mid : Int) + 1) hi
      else searchKey signed m p key fuel lo ((mid : Int) - 1)) := by
  obtain ⟨h1, h8, hlen⟩ := hat.obj_parts
  obtain ⟨hm, hz, ha, hw, hf⟩ := hat
  obtain ⟨e1, e2⟩ := take_split fs mid hr
  generalize hkv : fs[mid] = kv at e1 ⊢
  obtain ⟨k, v⟩ := kv
  rw [e1] at hm hf
  obtain ⟨r1, r2, r3, r4, r5, r6, r7, r8, r9⟩ := obj_field_reads _ _ k v m p hm h8 hf
  rw [e2] at r1 r4 r5 r6 r7 r8 r9
  refine ⟨_, r1, ?_⟩
  have hcmp : searchCompare signed m p key mid = some (cmpEntry signed k key) := by
    simp only [searchCompare, r7, r8, r9, r5, r2, Option.bind_eq_bind, Option.bind_some, UInt8.ofNat_toNat]
    unfold cmpEntry
    simp only
    generalize -prefixCompare signed (entryLen (cstr k)) (entryP0 (cstr k)) (entryP1 (cstr k)) key = c
    by_cases hc : c = 0 <;> simp [hc]
  conv => lhs; unfold searchKey
  rw [if_neg (by omega)]
  simp only [hmid, Int.toNat_natCast, hcmp, r5, Option.bind_eq_bind, Option.bind_some, r6]

/-- On an encoded object the search always gives an answer. -/
theorem searchKey_total {signed : Bool} {m : Bytes} {p : Nat} {fs : List (Bytes × Val)} (hat : At z m p (.obj fs))
    (key : Bytes) : ∀ (fuel : Nat) (lo hi : Int), 0 ≤ lo → hi < fs.length → hi - lo + 1 < fuel →
    0 < fuel → ∃ r, searchKey signed m p key fuel lo hi = some r := by
  intro fuel
  induction fuel with
  | zero => intro lo hi h0 hh hf; omega
  | succ fuel ih =>
    intro lo hi h0 hh hf _
    by_cases hlh : lo ≤ hi
    · obtain ⟨hm1, hm2⟩ := tdiv2 h0 hlh
      obtain ⟨mid, hmid⟩ : ∃ mid : Nat, (lo + hi).tdiv 2 = mid := ⟨((lo + hi).tdiv 2).toNat, by omega⟩
      obtain ⟨kp, _, hs⟩ := searchKey_step (signed := signed) hat key fuel lo hi mid hlh hmid (by omega)
      rw [hs]
      split
      · exact ⟨_, rfl⟩
      · split
        · exact ih _ _ (by omega) (by omega) (by omega) (by omega)
        · exact ih _ _ (by omega) (by omega) (by omega) (by omega)
    · exact ⟨none, by unfold searchKey; rw [if_pos (by omega)]⟩

/-- A key that is present is found if all comparisons have the right sign. -/
theorem searchKey_complete {signed : Bool} {m : Bytes} {p : Nat} {fs : List (Bytes × Val)} (hat : At z m p (.obj fs))
    (i : Nat) (hi : i < fs.length)
    (hlt : ∀ j (hj : j < fs.length), j < i → 0 < cmpEntry signed fs[j].1 fs[i].1)
    (hgt : ∀ j (hj : j < fs.length), i < j → cmpEntry signed fs[j].1 fs[i].1 < 0)
    (heq : cmpEntry signed fs[i].1 fs[i].1 = 0) :
    ∀ (fuel : Nat) (lo hi' : Int), 0 ≤ lo → hi' < fs.length → hi' - lo + 1 < fuel → lo ≤ i → i ≤ hi' →
    ∃ kp, loadKey m p i = some kp ∧
      searchKey signed m p fs[i].1 fuel lo hi' = some (some (i, fs[i].2.rawType.forTable, kp)) := by
  intro fuel
  induction fuel with
  | zero => intro lo hi' h0 hh hf hl hu; omega
  | succ fuel ih =>
    intro lo hi' h0 hh hf hl hu
    obtain ⟨hm1, hm2⟩ := tdiv2 h0 (show lo ≤ hi' by omega)
    obtain ⟨mid, hmid⟩ : ∃ mid : Nat, (lo + hi').tdiv 2 = mid := ⟨((lo + hi').tdiv 2).toNat, by omega⟩
    have hr : mid < fs.length := by omega
    obtain ⟨kp, hk, hs⟩ := searchKey_step (signed := signed) hat fs[i].1 fuel lo hi' mid (by omega) hmid hr
    rw [hs]
    rcases Nat.lt_trichotomy mid i with h | h | h
    · have := hlt mid hr h
      rw [if_neg (by omega), if_pos (by omega)]
      exact ih _ _ (by omega) (by omega) (by omega) (by omega) (by omega)
    · subst h
      rw [if_pos heq]
      exact ⟨kp, hk, rfl⟩
    · have := hgt mid hr h
      rw [if_neg (by omega), if_neg (by omega)]
      exact ih _ _ (by omega) (by omega) (by omega) (by omega) (by omega)

theorem toInt32_small {n : Nat} (h : n < 2 ^ 29) : toInt32 n = n := by
  unfold toInt32
  rw [BitVec.toInt_ofNat']
  simp only [Int.bmod]
  omega

theorem getKey_total {signed : Bool} {m : Bytes} {p : Nat} {fs : List (Bytes × Val)} (hat : At z m p (.obj fs))
    (key : Bytes) : ∃ r, getKey signed m p key = some r := by
  obtain ⟨h1, h8, hlen⟩ := hat.obj_parts
  simp only [getKey, h1, Option.bind_eq_bind, Option.bind_some, toInt32_small hlen]
  exact searchKey_total hat key _ _ _ (by omega) (by omega) (by omega) (by omega)

/-- Every hit of the search is for a stored field with this key. -/
theorem getKey_sound {signed : Bool} {m : Bytes} {p : Nat} {fs : List (Bytes × Val)} (hat : At z m p (.obj fs))
    {key : Bytes} {i : Nat} {t : RawType} {kp : Nat} (h : getKey signed m p key = some (some (i, t, kp))) :
    ∃ (hi : i < fs.length), fs[i].1 = key ∧ t = fs[i].2.rawType.forTable ∧ loadKey m p i = some kp := by
  obtain ⟨h1, h8, hlen⟩ := hat.obj_parts
  simp only [getKey, h1, Option.bind_eq_bind, Option.bind_some, toInt32_small hlen] at h
  obtain ⟨a, b, c, d, e⟩ := searchKey_sound _ _ _ (by omega) h
  have hi : i < fs.length := by omega
  obtain ⟨kp', vp, r1, r2, r2', r3, r4, r5, r6, r7⟩ := hat.obj_field i hi
  rw [c] at r1; cases r1
  rw [e] at r3
  refine ⟨hi, (Option.some.inj r3).symm, ?_, c⟩
  simp only [loadValue, d, Option.bind_eq_bind, Option.bind_some, Option.bind_eq_some_iff] at r6
  obtain ⟨off, _, p', _, e⟩ := r6
  simp only [Option.some.injEq, Prod.mk.injEq] at e
  exact e.1

theorem getValueImpl_hit {signed : Bool} {m : Bytes} {p : Nat} {fs : List (Bytes × Val)} (hat : At z m p (.obj fs))
    {key : Bytes} {i : Nat} {t : RawType} {kp : Nat} (h : getKey signed m p key = some (some (i, t, kp))) :
    ∃ (hi : i < fs.length) (vp : Nat), fs[i].1 = key ∧ At z m vp fs[i].2 ∧
      loadValue m p i = some (fs[i].2.rawType.forTable, vp) ∧
      getValueImpl signed m p key =
        some (some (fs[i].2.rawType.forTable, if fs[i].2.rawType.forTable = .null then none else some vp)) := by
  obtain ⟨hi, h1, h2, h3⟩ := getKey_sound hat h
  obtain ⟨kp', vp, r1, r2, r2', r3, r4, r5, r6, r7⟩ := hat.obj_field i hi
  rw [h3] at r1; cases r1
  refine ⟨hi, vp, h1, r7, r6, ?_⟩
  simp only [getValueImpl, h, Option.bind_eq_bind, Option.bind_some]
  subst h2
  split
  · rename_i hn; rw [hn]
  · rename_i hn
    have hl := r6
    simp only [loadKey, Option.bind_eq_bind, Option.bind_eq_some_iff, Option.some.injEq] at h3
    obtain ⟨off, ho, rfl⟩ := h3
    simp only [loadValue, Option.bind_eq_bind, Option.bind_eq_some_iff, Option.some.injEq, Prod.mk.injEq] at hl
    obtain ⟨off', ho', t', ht', p', hp', e1, e2⟩ := hl
    rw [ho] at ho'; cases ho'
    subst e1 e2
    simp [hp']

/-- Conditions under which the search for `key` cannot go astray. -/
structure Searchable (signed : Bool) (fs : List (Bytes × Val)) (key : Bytes) : Prop where
  noNul : ∀ f ∈ fs, (0 : UInt8) ∉ f.1
  low : signed = true → ∀ f ∈ fs, f.1.length = key.length → ∀ b ∈ f.1.take 2, b.toNat < 128
  cap : key.length = 255 → ∀ f ∈ fs, f.1.length ≤ 255

theorem getKey_complete {signed : Bool} {m : Bytes} {p : Nat} {fs : List (Bytes × Val)} (hat : At z m p (.obj fs))
    (i : Nat) (hi : i < fs.length) (hs : Searchable signed fs fs[i].1) :
    ∃ kp, getKey signed m p fs[i].1 = some (some (i, fs[i].2.rawType.forTable, kp)) := by
  obtain ⟨h1, h8, hlen⟩ := hat.obj_parts
  have hw : (Val.obj fs).WF := by exact hat.wf
  simp only [Val.WF, List.pairwise_iff_getElem] at hw
  have hsg : ∀ j (hj : j < fs.length), (fs[j].1 = fs[i].1 → cmpEntry signed fs[j].1 fs[i].1 = 0) ∧
      (keyLt fs[j].1 fs[i].1 = true → 0 < cmpEntry signed fs[j].1 fs[i].1) ∧
      (keyLt fs[i].1 fs[j].1 = true → cmpEntry signed fs[j].1 fs[i].1 < 0) := by
    intro j hj
    refine cmpEntry_sign (hs.noNul _ (List.getElem_mem hj)) ?_ (fun h => hs.cap h _ (List.getElem_mem hj))
    intro hl
    exact ⟨fun sg => hs.low sg _ (List.getElem_mem hj) hl, fun sg => hs.low sg _ (List.getElem_mem hi) rfl⟩
  obtain ⟨kp, _, hk⟩ := searchKey_complete (signed := signed) hat i hi
    (fun j hj hji => (hsg j hj).2.1 (keyLt_iff_spec.2 (hw.1 j i hj hi hji)))
    (fun j hj hij => (hsg j hj).2.2 (keyLt_iff_spec.2 (hw.1 i j hi hj hij)))
    ((hsg i hi).1 rfl) (fs.length + 1) 0 (fs.length - 1) (by omega) (by omega) (by omega) (by omega) (by omega)
  exact ⟨kp, by simp only [getKey, h1, Option.bind_eq_bind, Option.bind_some, toInt32_small hlen]; exact hk⟩

end Dart
