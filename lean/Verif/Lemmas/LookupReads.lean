import Verif.Spec.Lookup
import Verif.Lemmas.Search

/-
A lookup reads names that may match only.
-/
namespace Dart
open Spec

variable {z : Bool}

theorem readBytes_same {m m' : Bytes} (hl : m'.length = m.length) {p n : Nat} (h : ∀ i, p ≤ i → i < p + n → m'[i]? = m[i]?) :
    readBytes m' p n = readBytes m p n := by
  unfold readBytes
  rw [hl]
  split
  · congr 1
    apply List.ext_getElem?
    intro i
    rw [List.getElem?_take, List.getElem?_take]
    split
    · rw [List.getElem?_drop, List.getElem?_drop]
      exact h _ (by omega) (by omega)
    · rfl
  · rfl

theorem readU_same {m m' : Bytes} (hl : m'.length = m.length) {p w : Nat} (h : ∀ i, p ≤ i → i < p + w → m'[i]? = m[i]?) :
    readU m' w p = readU m w p := by
  unfold readU
  rw [readBytes_same hl h]

theorem charVal_inj {signed : Bool} {a b : UInt8} (h : charVal signed a = charVal signed b) : a = b := by
  have h1 := a.toNat_lt
  have h2 := b.toNat_lt
  apply UInt8.toNat_inj.1
  unfold charVal at h
  simp only [Bool.and_eq_true, decide_eq_true_eq] at h
  split at h <;> split at h <;> omega

theorem charVal_zero {signed : Bool} {a : UInt8} (h : charVal signed a = 0) : a = 0 :=
  charVal_inj (signed := signed) (by rw [h]; cases signed <;> rfl)

/-- If the table cannot tell, the name may match. -/
theorem mayMatch_of_undecided {signed : Bool} {k key : Bytes}
    (h : prefixCompare signed (entryLen (cstr k)) (entryP0 (cstr k)) (entryP1 (cstr k)) key = 0) : MayMatch key k := by
  have hc : cstr k = k.takeWhile (· ≠ 0) := by
    unfold cstr
    congr 1
    funext x
    simp [bne, BEq.beq]
  unfold MayMatch
  rw [← hc]
  generalize cstr k = c at h ⊢
  simp only
  rw [entryLen_eq] at h
  unfold prefixCompare at h
  split at h
  · split at h
    · exact .inl ⟨by omega, by omega⟩
    · omega
  · split at h
    · rename_i he
      refine .inr ⟨by omega, ?_⟩
      unfold entryCmpImpl at h
      match c, key, he, h with
      | [], [], _, _ => rfl
      | [], _ :: _, he, _ => simp at he
      | _ :: _, [], he, _ => simp at he
      | [a], [x], _, h =>
        have h : prefixCmpImpl signed [a, 0] [x] = 0 := by rw [if_neg (by simp)] at h; exact h
        simp only [prefixCmpImpl] at h
        split at h
        · rename_i hne
          exact absurd (charVal_inj (signed := signed) (a := a) (b := x) (by omega)) hne
        · rename_i hne
          simp only [ne_eq, Decidable.not_not] at hne
          rw [hne]
      | [a], x :: y :: l, he, _ => simp at he
      | a :: b :: l, [x], he, _ => simp at he; omega
      | a :: b :: l, x :: y :: l', _, h =>
        split at h
        · rename_i h2
          simp only [List.take_succ_cons, List.take_zero] at h2 ⊢
          exact h2.2.symm
        · simp only [entryP0, entryP1, List.getD_cons_zero, List.getD_cons_succ, prefixCmpImpl] at h
          split at h
          · rename_i hne
            exact absurd (charVal_inj (signed := signed) (a := a) (b := x) (by omega)) hne
          · rename_i hne
            simp only [ne_eq, Decidable.not_not] at hne
            split at h
            · rename_i hne'
              exact absurd (charVal_inj (signed := signed) (a := b) (b := y) (by omega)) hne'
            · rename_i hne'
              simp only [ne_eq, Decidable.not_not] at hne'
              simp [hne, hne']
    · omega

/-- The memory has other contents, but not in the table and in names that may match. -/
structure SameForLookup (m m' : Bytes) (p : Nat) (fs : List (Bytes × Val)) (key : Bytes) : Prop where
  len : m'.length = m.length
  same : ∀ i, InTable p fs.length i ∨ InCandidate m p fs key i → m'[i]? = m[i]?

section
variable {m m' : Bytes} {p : Nat} {fs : List (Bytes × Val)} {key : Bytes}

theorem SameForLookup.table (h : SameForLookup m m' p fs key) {q w : Nat} (h1 : p ≤ q) (h2 : q + w ≤ p + 8 + 8 * fs.length) :
    readU m' w q = readU m w q :=
  readU_same h.len fun i hi1 hi2 => h.same i (.inl ⟨by omega, by omega⟩)

theorem SameForLookup.entOff (h : SameForLookup m m' p fs key) {i : Nat} (hi : i < fs.length) : entOff m' p i = entOff m p i :=
  h.table (by omega) (by omega)

theorem SameForLookup.entType (h : SameForLookup m m' p fs key) {i : Nat} (hi : i < fs.length) : entType m' p i = entType m p i := by
  unfold Dart.entType
  rw [h.table (by omega) (by omega)]

theorem strv_len_lookup {q : Nat} {s : Bytes} (h : strv m .string q = some s) : readU m 2 q = some s.length := by
  unfold strv at h
  simp only [strWidth, Option.bind_eq_bind, Option.bind_eq_some_iff] at h
  obtain ⟨n, h1, h2⟩ := h
  unfold readBytes at h2
  split at h2
  · cases h2
    rw [h1]
    simp only [List.length_take, List.length_drop]
    congr 1
    omega
  · cases h2

/-- One comparison gives the same. -/
theorem searchCompare_same {signed : Bool} (hat : At z m p (.obj fs)) (h : SameForLookup m m' p fs key) {i : Nat} (hi : i < fs.length) :
    searchCompare signed m' p key i = searchCompare signed m p key i := by
  obtain ⟨_, h8, _⟩ := hat.obj_parts
  obtain ⟨hm, hz, ha, hw, hf⟩ := hat
  obtain ⟨e1, e2⟩ := take_split fs i hi
  have hkv : fs[i] = (fs[i].1, fs[i].2) := rfl
  rw [hkv] at e1
  rw [e1] at hm hf
  obtain ⟨r1, r2, r3, r4, r5, r6, r7, r8, r9⟩ := obj_field_reads _ _ _ _ m p hm h8 hf
  rw [e2] at r1 r4 r5 r6 r7 r8 r9
  unfold searchCompare
  rw [h.table (by omega) (by omega), h.table (by omega) (by omega), h.table (by omega) (by omega), h.entOff hi]
  simp only [r7, r8, r9, r5, Option.bind_eq_bind, Option.bind_some, UInt8.ofNat_toNat]
  split
  · rfl
  · rename_i hc
    have hmay := mayMatch_of_undecided (signed := signed) (k := fs[i].1) (key := key) (by omega)
    have hs : strv m' .string (p + keyOff (objStart (fs.take i) (fs.drop (i + 1)))) =
        strv m .string (p + keyOff (objStart (fs.take i) (fs.drop (i + 1)))) := by
      have hlen := strv_len_lookup r2
      unfold strv
      simp only [strWidth, Option.bind_eq_bind]
      rw [readU_same h.len fun j hj1 hj2 => h.same j (.inr ⟨i, _, hi, r1, hmay, hj1, by omega⟩), hlen]
      simp only [Option.bind_some]
      exact readBytes_same h.len fun j hj1 hj2 => h.same j (.inr ⟨i, _, hi, r1, hmay, by omega, by omega⟩)
    rw [hs]

theorem searchKey_same {signed : Bool} (hat : At z m p (.obj fs)) (h : SameForLookup m m' p fs key) :
    ∀ (fuel : Nat) (lo hi : Int), 0 ≤ lo → hi < fs.length → searchKey signed m' p key fuel lo hi = searchKey signed m p key fuel lo hi := by
  intro fuel
  induction fuel with
  | zero => intro lo hi _ _; rfl
  | succ fuel ih =>
    intro lo hi h0 hh
    unfold searchKey
    split
    · rfl
    · rename_i hlh
      obtain ⟨hm1, hm2⟩ := tdiv2 h0 (show lo ≤ hi by omega)
      have hi' : ((lo + hi).tdiv 2).toNat < fs.length := by omega
      simp only [searchCompare_same hat h hi', h.entType hi', h.entOff hi']
      rw [ih _ _ (by omega) (by omega), ih _ _ (by omega) (by omega)]

theorem getKey_same {signed : Bool} (hat : At z m p (.obj fs)) (h : SameForLookup m m' p fs key) :
    getKey signed m' p key = getKey signed m p key := by
  obtain ⟨h1, _, hlen⟩ := hat.obj_parts
  have h1' : numElems m' p = some fs.length := by
    rw [← h1]
    exact h.table (by omega) (by omega)
  unfold getKey
  simp only [h1, h1', Option.bind_eq_bind, Option.bind_some]
  rw [toInt32_small hlen]
  exact searchKey_same hat h _ _ _ (by omega) (by omega)

end

end Dart
