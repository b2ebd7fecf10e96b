import Verif.Model.StringView
import Verif.Spec.StringView

namespace Dart
open Dart.Spec

namespace SView

theorem traitsCompare_eq_zero : ∀ (s t : Bytes) (n : Nat), n ≤ s.length → n ≤ t.length →
    (traitsCompare s t n = 0 ↔ s.take n = t.take n)
  | [], _, n, h, _ => by simp at h; subst h; simp [traitsCompare]
  | _ :: _, [], n, _, h => by simp at h; subst h; simp [traitsCompare]
  | a :: s, b :: t, 0, _, _ => by simp [traitsCompare]
  | a :: s, b :: t, n + 1, h, h' => by
    simp only [traitsCompare, List.take_succ_cons, List.cons.injEq]
    have ih := traitsCompare_eq_zero s t n (by simpa using h) (by simpa using h')
    by_cases h1 : a < b
    · simp only [h1, if_true]
      have : a ≠ b := fun e => UInt8.lt_irrefl b (e ▸ h1)
      simp [this]
    · by_cases h2 : b < a
      · simp only [h1, h2, if_true, if_false]
        have : a ≠ b := fun e => UInt8.lt_irrefl b (e ▸ h2)
        simp [this]
      · have : a = b := UInt8.le_antisymm (UInt8.not_lt.1 h2) (UInt8.not_lt.1 h1)
        subst this
        simp only [h1, if_false, ih, true_and]

theorem traitsCompare_neg : ∀ (s t : Bytes) (n : Nat), n ≤ s.length → n ≤ t.length →
    (traitsCompare s t n < 0 ↔ ∃ i, (∃ (h : i < s.length) (h' : i < t.length), i < n ∧ s[i].toNat < t[i].toNat) ∧
      ∀ j < i, s[j]? = t[j]?)
  | [], _, n, h, _ => by simp at h; subst h; simp [traitsCompare]
  | _ :: _, [], n, _, h => by simp at h; subst h; simp [traitsCompare]
  | a :: s, b :: t, 0, _, _ => by simp [traitsCompare]
  | a :: s, b :: t, n + 1, h, h' => by
    simp only [traitsCompare]
    have ih := traitsCompare_neg s t n (by simpa using h) (by simpa using h')
    by_cases h1 : a < b
    · simp only [h1, if_true]
      exact ⟨fun _ => ⟨0, ⟨by simp, by simp, by omega, UInt8.lt_iff_toNat_lt.1 h1⟩, by simp⟩, fun _ => by decide⟩
    · simp only [h1, if_false]
      by_cases h2 : b < a
      · simp only [h2, if_true]
        refine ⟨fun hc => by simp at hc, fun ⟨i, ⟨h3, h4, h5, h6⟩, h7⟩ => ?_⟩
        exfalso
        cases i with
        | zero => exact h1 (UInt8.lt_iff_toNat_lt.2 h6)
        | succ i =>
          have := h7 0 (by omega)
          simp at this
          exact UInt8.lt_irrefl b (this ▸ h2)
      · have e : a = b := UInt8.le_antisymm (UInt8.not_lt.1 h2) (UInt8.not_lt.1 h1)
        subst e
        simp only [h2, if_false, ih]
        constructor
        · rintro ⟨i, ⟨h3, h4, h5, h6⟩, h7⟩
          refine ⟨i + 1, ⟨by simpa using h3, by simpa using h4, by omega, by simpa using h6⟩, fun j hj => ?_⟩
          cases j with
          | zero => rfl
          | succ j => simpa using h7 j (by omega)
        · rintro ⟨i, ⟨h3, h4, h5, h6⟩, h7⟩
          cases i with
          | zero => simp at h6
          | succ i =>
            refine ⟨i, ⟨by simpa using h3, by simpa using h4, by omega, by simpa using h6⟩, fun j hj => ?_⟩
            simpa using h7 (j + 1) (by omega)

theorem traitsCompare_swap : ∀ (s t : Bytes) (n : Nat), traitsCompare t s n = - traitsCompare s t n
  | [], _, n => by cases n <;> simp [traitsCompare]
  | _ :: _, [], n => by cases n <;> simp [traitsCompare]
  | a :: s, b :: t, 0 => by simp [traitsCompare]
  | a :: s, b :: t, n + 1 => by
    simp only [traitsCompare]
    by_cases h1 : a < b
    · have : ¬ b < a := UInt8.lt_asymm h1
      simp [h1, this]
    · by_cases h2 : b < a <;> simp [h1, h2, traitsCompare_swap s t n]

theorem compare_swap (s t : Bytes) : compare t s = - compare s t := by
  unfold compare
  simp only [Nat.min_comm t.length s.length, traitsCompare_swap s t]
  repeat' split <;> omega

theorem compare_eq_zero (s t : Bytes) : compare s t = 0 ↔ s = t := by
  unfold compare
  simp only
  constructor
  · intro h
    split at h
    · next hc => exact absurd h hc
    · next hc =>
      have hl : s.length = t.length := by split at h <;> (try split at h) <;> omega
      have hz := (traitsCompare_eq_zero s t _ (Nat.min_le_left _ _) (Nat.min_le_right _ _)).1 (by omega)
      rw [hl, Nat.min_self, List.take_of_length_le (by omega), List.take_of_length_le (by omega)] at hz
      exact hz
  · rintro rfl
    have := (traitsCompare_eq_zero s s (min s.length s.length) (Nat.min_le_left _ _) (Nat.min_le_right _ _)).2 rfl
    simp only [this, ne_eq, not_true, if_false, Nat.lt_irrefl, gt_iff_lt]

theorem compare_neg (s t : Bytes) : compare s t < 0 ↔ LexBefore s t := by
  unfold compare
  simp only
  have hn := traitsCompare_neg s t (min s.length t.length) (Nat.min_le_left _ _) (Nat.min_le_right _ _)
  have hz := traitsCompare_eq_zero s t (min s.length t.length) (Nat.min_le_left _ _) (Nat.min_le_right _ _)
  by_cases h0 : traitsCompare s t (min s.length t.length) = 0
  · simp only [h0, ne_eq, not_true, if_false]
    have he := hz.1 h0
    have hnn : ¬ ∃ i, (∃ (h : i < s.length) (h' : i < t.length), s[i].toNat < t[i].toNat) ∧ ∀ j < i, s[j]? = t[j]? := by
      rintro ⟨i, ⟨h1, h2, h3⟩, h4⟩
      have := hn.2 ⟨i, ⟨h1, h2, by omega, h3⟩, h4⟩
      omega
    unfold LexBefore
    simp only [hnn, false_or]
    by_cases hl : s.length < t.length
    · simp only [hl, if_true]
      refine ⟨fun _ => ?_, fun _ => by decide⟩
      rw [Nat.min_eq_left (by omega), List.take_length] at he
      refine ⟨t.drop s.length, ?_, ?_⟩
      · intro hc
        have := congrArg List.length hc
        simp at this; omega
      · conv => lhs; rw [← List.take_append_drop s.length t]
        rw [← he]
    · have : ¬ ∃ r, r ≠ [] ∧ t = s ++ r := by
        rintro ⟨r, h1, rfl⟩
        simp at hl
        exact h1 hl
      simp only [hl, if_false, this, iff_false]
      split <;> simp
  · simp only [h0, ne_eq, not_false_eq_true, if_true, hn]
    unfold LexBefore
    constructor
    · rintro ⟨i, ⟨h1, h2, _, h3⟩, h4⟩; exact .inl ⟨i, ⟨h1, h2, h3⟩, h4⟩
    · rintro (⟨i, ⟨h1, h2, h3⟩, h4⟩ | ⟨r, h1, rfl⟩)
      · exact ⟨i, ⟨h1, h2, by omega, h3⟩, h4⟩
      · exfalso
        apply h0
        apply hz.2
        simp

theorem compareAt_ok {s : Bytes} {off n : Nat} (h : off ≤ s.length) (t : Bytes) :
    compareAt s off n t = .ok (compare ((s.drop off).take n) t) := by
  have hm : (s.drop off).take (min n (s.length - off)) = (s.drop off).take n := by
    rw [List.take_eq_take_iff]; simp
  simp only [compareAt, substr, if_neg (show ¬ off > s.length by omega), Res.bind, hm]

theorem compareAt_throw {s : Bytes} {off n : Nat} (h : s.length < off) (t : Bytes) :
    compareAt s off n t = .throw .outOfRange := by
  simp only [compareAt, substr, if_pos (show off > s.length from h), Res.bind]

theorem occursAt_iff (s t : Bytes) (i : Nat) (hi : i ≤ s.length) : OccursAt s t i ↔ (s.drop i).take t.length = t := by
  constructor
  · rintro ⟨h1, h2⟩
    apply List.ext_getElem?
    intro j
    rw [List.getElem?_take]
    split
    · next hj => rw [List.getElem?_drop, h2 j hj]
    · next hj => rw [List.getElem?_eq_none (by omega)]
  · intro h
    have hl := congrArg List.length h
    simp at hl
    refine ⟨by omega, fun j hj => ?_⟩
    have := congrArg (·[j]?) h
    simpa [List.getElem?_take, hj, List.getElem?_drop] using this

theorem compareAt_occurs {s t : Bytes} {i : Nat} (hi : i ≤ s.length) :
    ∃ c, compareAt s i t.length t = .ok c ∧ (c = 0 ↔ OccursAt s t i) :=
  ⟨_, compareAt_ok hi t, by rw [compare_eq_zero, occursAt_iff s t i hi]⟩

theorem findLoop_ok (s t : Bytes) (hs : s.length < 2 ^ 63) : ∀ (fuel off : Nat),
    off + t.length < 2 ^ 64 → s.length + 2 ≤ fuel + off + t.length → 0 < fuel →
    ∃ r, findLoop s t fuel off = .ok r ∧ SmallestFrom (OccursAt s t) off r
  | 0, _, _, _, h => by omega
  | fuel + 1, off, h1, h2, _ => by
    simp only [findLoop]
    rw [Nat.mod_eq_of_lt h1]
    by_cases hc : off + t.length ≤ s.length
    · simp only [hc, if_true]
      obtain ⟨c, e, hz⟩ := compareAt_occurs (s := s) (t := t) (i := off) (by omega)
      simp only [e, Res.bind]
      by_cases h0 : c = 0
      · exact ⟨off, by simp [h0], .inr ⟨by simp only [noPos]; omega, Nat.le_refl _, hz.1 h0, fun i a b => by omega⟩⟩
      · simp only [h0, if_false]
        rw [Nat.mod_eq_of_lt (by omega)]
        obtain ⟨r, hr, hsm⟩ := findLoop_ok s t hs fuel (off + 1) (by omega) (by omega) (by omega)
        refine ⟨r, hr, ?_⟩
        have hno : ¬ OccursAt s t off := fun hc => h0 (hz.2 hc)
        rcases hsm with ⟨g1, g2⟩ | ⟨g1, g2, g3, g4⟩
        · refine .inl ⟨g1, fun i hi => ?_⟩
          rcases Nat.eq_or_lt_of_le hi with rfl | hlt
          · exact hno
          · exact g2 i hlt
        · refine .inr ⟨g1, by omega, g3, fun i hi hr => ?_⟩
          rcases Nat.eq_or_lt_of_le hi with rfl | hlt
          · exact hno
          · exact g4 i hlt hr
    · refine ⟨_, by simp only [hc, if_false]; rfl, .inl ⟨rfl, fun i hi hoc => ?_⟩⟩
      have := hoc.1
      omega

theorem find_ok (s t : Bytes) (off : Nat) (hs : s.length < 2 ^ 63) (h : off + t.length < 2 ^ 64) :
    ∃ r, find s t off = .ok r ∧ SmallestFrom (OccursAt s t) off r := by
  unfold find
  rw [Nat.mod_eq_of_lt (by omega)]
  by_cases hc : t.length + off > s.length
  · refine ⟨npos, by simp only [hc, if_true], .inl ⟨rfl, fun i hi hoc => ?_⟩⟩
    have := hoc.1
    omega
  · simp only [hc, if_false]
    obtain ⟨r, h1, h2⟩ := findLoop_ok s t hs (s.length + 2) off h (by omega) (by omega)
    exact ⟨r, by rw [h1]; rfl, h2⟩

theorem occursAt_char {s : Bytes} {c : UInt8} {i : Nat} : OccursAt s [c] i ↔ s[i]? = some c := by
  constructor
  · rintro ⟨_, h⟩
    simpa using h 0 (by simp)
  · intro h
    have hi : i < s.length := by
      rcases Nat.lt_or_ge i s.length with h' | h'
      · exact h'
      · rw [List.getElem?_eq_none h'] at h; cases h
    refine ⟨by simp only [List.length_singleton]; omega, fun j hj => ?_⟩
    simp only [List.length_singleton] at hj
    obtain rfl : j = 0 := by omega
    simpa using h

theorem has_iff {t : Bytes} (ht : t.length < 2 ^ 63) (c : UInt8) : has t c = true ↔ c ∈ t := by
  unfold has findChar
  obtain ⟨r, h1, h2⟩ := find_ok t [c] 0 ht (by simp)
  rw [h1]
  simp only [bne_iff_ne, ne_eq, Res.ok.injEq]
  rcases h2 with ⟨g1, g2⟩ | ⟨g1, g2, g3, g4⟩
  · constructor
    · intro hc; exact absurd g1 hc
    · intro hc
      obtain ⟨i, hi, e⟩ := List.mem_iff_getElem.1 hc
      exact absurd (occursAt_char.2 (by rw [List.getElem?_eq_getElem hi, e])) (g2 i (by omega))
  · constructor
    · intro _
      exact List.mem_of_getElem? (occursAt_char.1 g3)
    · intro _; exact g1

theorem findIdx_drop {p : UInt8 → Bool} {s : Bytes} {off j : Nat} (h : (s.drop off).findIdx? p = some j) :
    ∃ hj : off + j < s.length, p s[off + j] = true ∧ ∀ i (hi : i < s.length), off ≤ i → i < off + j → p s[i] = false := by
  obtain ⟨h1, h2, h3⟩ := List.findIdx?_eq_some_iff_getElem.1 h
  simp at h1
  refine ⟨by omega, by simpa using h2, fun i hi a b => ?_⟩
  have := h3 (i - off) (by omega)
  simpa [show off + (i - off) = i by omega] using this

theorem findIdx_drop_none {p : UInt8 → Bool} {s : Bytes} {off : Nat} (h : (s.drop off).findIdx? p = none)
    (i : Nat) (hi : i < s.length) (ho : off ≤ i) : p s[i] = false := by
  have := List.findIdx?_eq_none_iff.1 h s[i] ?_
  · simpa using this
  · rw [List.mem_iff_getElem]
    exact ⟨i - off, by simp; omega, by simp [show off + (i - off) = i by omega]⟩

theorem findLoop_wrap {s t : Bytes} {off : Nat} (ho : s.length < off) (hw : (off + t.length) % 2 ^ 64 ≤ s.length) (n : Nat) :
    findLoop s t (n + 1) off = .throw .outOfRange := by
  simp only [findLoop, hw, if_true, compareAt_throw ho, Res.bind]

theorem rfindLoop_found (s t : Bytes) : ∀ (off : Nat), off ≤ s.length → (∃ i ≤ off, OccursAt s t i) →
    ∃ r, rfindLoop s t off = .ok r ∧ r ≤ off ∧ OccursAt s t r ∧ ∀ i, r < i → i ≤ off → ¬ OccursAt s t i
  | 0, h, ⟨i, hi, ho⟩ => by
    obtain rfl : i = 0 := by omega
    obtain ⟨c, e, hz⟩ := compareAt_occurs (s := s) (t := t) (i := 0) h
    exact ⟨0, by simp [rfindLoop, e, Res.bind, hz.2 ho], Nat.le_refl _, ho, fun i a b => by omega⟩
  | off + 1, h, ⟨i, hi, ho⟩ => by
    obtain ⟨c, e, hz⟩ := compareAt_occurs (s := s) (t := t) (i := off + 1) h
    by_cases hc : c = 0
    · exact ⟨off + 1, by simp [rfindLoop, e, Res.bind, hc], Nat.le_refl _, hz.1 hc, fun i a b => by omega⟩
    · have hno : ¬ OccursAt s t (off + 1) := fun h => hc (hz.2 h)
      have : i ≤ off := by
        rcases Nat.eq_or_lt_of_le hi with rfl | hlt
        · exact absurd ho hno
        · omega
      obtain ⟨r, h1, h2, h3, h4⟩ := rfindLoop_found s t off (by omega) ⟨i, this, ho⟩
      refine ⟨r, by simp [rfindLoop, e, Res.bind, hc, h1], by omega, h3, fun j a b => ?_⟩
      rcases Nat.eq_or_lt_of_le b with rfl | hlt
      · exact hno
      · exact h4 j a (by omega)

theorem rfindLoop_missing (s t : Bytes) (hs : s.length < npos) : ∀ (off : Nat), off ≤ s.length →
    (∀ i ≤ off, ¬ OccursAt s t i) → rfindLoop s t off = .throw .outOfRange
  | 0, h, hno => by
    obtain ⟨c, e, hz⟩ := compareAt_occurs (s := s) (t := t) (i := 0) h
    simp [rfindLoop, e, Res.bind, show c ≠ 0 from fun hc => hno 0 (by omega) (hz.1 hc), compareAt_throw hs]
  | off + 1, h, hno => by
    obtain ⟨c, e, hz⟩ := compareAt_occurs (s := s) (t := t) (i := off + 1) h
    simp [rfindLoop, e, Res.bind, show c ≠ 0 from fun hc => hno _ (by omega) (hz.1 hc),
      rfindLoop_missing s t hs off (by omega) (fun i hi => hno i (by omega))]

theorem rfindLoop_beyond (s t : Bytes) (off : Nat) (h : s.length < off) : rfindLoop s t off = .throw .outOfRange := by
  cases off with
  | zero => omega
  | succ off => simp [rfindLoop, compareAt_throw h, Res.bind]

end SView
end Dart
