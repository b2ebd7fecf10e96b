import Verif.Lemmas.StringView

/-
C27: the library's own `string_view` against the standard's definitions. The length of a view is below
2^63 (`ptrdiff_t`), a position is any 64-bit number. `.ub` stands for a call that does not return
(`std::terminate`).
-/
namespace Dart.Props
open Dart.Spec
open Dart.SView hiding compare

/-- `compare` is the lexicographic comparison of unsigned characters. -/
theorem C27_compare (s t : Bytes) :
    (SView.compare s t < 0 ↔ LexBefore s t) ∧ (SView.compare s t = 0 ↔ s = t) ∧ (SView.compare s t > 0 ↔ LexBefore t s) := by
  refine ⟨compare_neg s t, compare_eq_zero s t, ?_⟩
  rw [← compare_neg t s, compare_swap s t]
  omega

/-- The relational operators follow the same order. -/
theorem C27_operators (s t : Bytes) :
    (eq s t = true ↔ s = t) ∧ (ne s t = true ↔ s ≠ t) ∧ (lt s t = true ↔ LexBefore s t) ∧
    (gt s t = true ↔ LexBefore t s) ∧ (le s t = true ↔ ¬ LexBefore t s) ∧ (ge s t = true ↔ ¬ LexBefore s t) := by
  obtain ⟨h1, h2, h3⟩ := C27_compare s t
  simp only [eq, ne, lt, gt, le, ge, beq_iff_eq, bne_iff_ne, decide_eq_true_eq, ne_eq]
  rw [← h1, ← h2, ← h3]
  refine ⟨Iff.rfl, Iff.rfl, Iff.rfl, Iff.rfl, ?_, ?_⟩ <;> omega

/-- `at` returns the character or throws `out_of_range`. -/
theorem C27_at (s : Bytes) (i : Nat) :
    (∀ h : i < s.length, atIdx s i = .ok s[i]) ∧ (s.length ≤ i → atIdx s i = .throw .outOfRange) := by
  constructor
  · intro h; simp [atIdx, Nat.not_le.2 h, h, Res.ofRead]
  · intro h; simp [atIdx, h]

/-- `substr` and `copy` return the characters from `offset` on, as many as there are up to `count`, and
throw `out_of_range` exactly for offsets beyond the end. -/
theorem C27_substr (s : Bytes) (offset count : Nat) :
    (∀ p q, s = p ++ q → p.length = offset → ∃ r, substr s offset count = .ok r ∧ copy s count offset = .ok r ∧
      (∃ e, q = r ++ e ∧ (r.length = count ∨ (e = [] ∧ r.length ≤ count)))) ∧
    (s.length < offset → substr s offset count = .throw .outOfRange ∧ copy s count offset = .throw .outOfRange) := by
  constructor
  · rintro p q rfl rfl
    refine ⟨q.take (min count q.length), by simp [substr], by simp [copy], q.drop (min count q.length),
      (List.take_append_drop _ _).symm, ?_⟩
    rcases Nat.le_total count q.length with hc | hc
    · left; simp [Nat.min_eq_left hc]
    · right
      simp only [Nat.min_eq_right hc, List.drop_length, List.take_length, true_and]
      exact hc
  · intro h
    simp [substr, copy, h]

/-- The forms of `compare` that take positions compare the parts `substr` gives, in that order, and throw where it does. -/
theorem C27_compare_parts (s t : Bytes) (o c o' c' : Nat) :
    (∀ x y, substr s o c = .ok x → substr t o' c' = .ok y → ∃ r, compareRanges s o c t o' c' = .ok r ∧
      (r < 0 ↔ LexBefore x y) ∧ (r = 0 ↔ x = y) ∧ (r > 0 ↔ LexBefore y x)) ∧
    (∀ x, substr s o c = .ok x → ∃ r, compareAt s o c t = .ok r ∧
      (r < 0 ↔ LexBefore x t) ∧ (r = 0 ↔ x = t) ∧ (r > 0 ↔ LexBefore t x)) ∧
    (s.length < o → compareRanges s o c t o' c' = .throw .outOfRange ∧ compareAt s o c t = .throw .outOfRange) ∧
    (o ≤ s.length → t.length < o' → compareRanges s o c t o' c' = .throw .outOfRange) := by
  refine ⟨fun x y h1 h2 => ⟨_, by simp only [compareRanges, h1, h2, Res.bind], C27_compare x y⟩,
    fun x h1 => ⟨_, by simp only [compareAt, h1, Res.bind], C27_compare x t⟩, fun h => ?_, fun h h' => ?_⟩
  · have := ((C27_substr s o c).2 h).1
    simp only [compareRanges, compareAt, this, Res.bind, and_self]
  · obtain ⟨r, hr, _⟩ := (C27_substr s o c).1 (s.take o) (s.drop o) (List.take_append_drop _ _).symm (by simp; omega)
    have := ((C27_substr t o' c').2 h').1
    simp only [compareRanges, hr, this, Res.bind]

/-- `starts_with` and `ends_with`, for strings and characters. -/
theorem C27_starts_ends_with (s t : Bytes) (c : UInt8) (hs : s.length < 2 ^ 63) :
    (∃ b, startsWith s t = .ok b ∧ (b = true ↔ ∃ r, s = t ++ r)) ∧
    (∃ b, endsWith s t = .ok b ∧ (b = true ↔ ∃ r, s = r ++ t)) ∧
    (∃ b, startsWithChar s c = .ok b ∧ (b = true ↔ ∃ r, s = c :: r)) ∧
    (∃ b, endsWithChar s c = .ok b ∧ (b = true ↔ ∃ r, s = r ++ [c])) := by
  refine ⟨?_, ?_, ?_, ?_⟩
  · unfold startsWith
    by_cases h : s.length ≥ t.length
    · refine ⟨_, by simp only [h, if_true, compareAt_ok (Nat.zero_le _), Res.bind, noexcept]; rfl, ?_⟩
      simp only [List.drop_zero, beq_iff_eq, compare_eq_zero]
      constructor
      · intro e; exact ⟨s.drop t.length, by conv => lhs; rw [← List.take_append_drop t.length s, e]⟩
      · rintro ⟨r, rfl⟩; simp
    · refine ⟨false, by simp only [h, if_false], ?_⟩
      simp only [Bool.false_eq_true, false_iff]
      rintro ⟨r, rfl⟩; simp at h
  · unfold endsWith
    by_cases h : s.length ≥ t.length
    · refine ⟨_, by simp only [h, if_true, compareAt_ok (Nat.sub_le _ _), Res.bind, noexcept]; rfl, ?_⟩
      rw [List.take_of_length_le (by simp only [List.length_drop, npos]; omega)]
      simp only [beq_iff_eq, compare_eq_zero]
      constructor
      · intro e; exact ⟨s.take (s.length - t.length), by conv => lhs; rw [← List.take_append_drop (s.length - t.length) s, e]⟩
      · rintro ⟨r, rfl⟩; simp
    · refine ⟨false, by simp only [h, if_false], ?_⟩
      simp only [Bool.false_eq_true, false_iff]
      rintro ⟨r, rfl⟩; simp at h
  · cases s with
    | nil => exact ⟨false, rfl, by simp⟩
    | cons a s => exact ⟨a == c, by simp [startsWithChar, front, Res.ofRead, Res.bind], by simp⟩
  · rcases List.eq_nil_or_concat s with rfl | ⟨r, a, rfl⟩
    · exact ⟨false, rfl, by simp⟩
    · refine ⟨a == c, ?_, by simp⟩
      have : (r.length + 1 + 18446744073709551615) % 18446744073709551616 = r.length := by
        simp only [List.concat_eq_append, List.length_append, List.length_singleton] at hs
        omega
      simp [endsWithChar, back, Res.ofRead, Res.bind, this]

/-- `find` returns the smallest position where the target occurs. Partial: the position and the length
of the target must not add up to 2^64 (see the next theorem). -/
theorem C27_find_partial (s t : Bytes) (offset : Nat) (hs : s.length < 2 ^ 63) (h : offset + t.length < 2 ^ 64) :
    ∃ r, find s t offset = .ok r ∧ SmallestFrom (OccursAt s t) offset r :=
  find_ok s t offset hs h

/-- In particular the default position 0 is always right. -/
theorem C27_find_default (s t : Bytes) (hs : s.length < 2 ^ 63) (ht : t.length < 2 ^ 63) :
    ∃ r, find s t 0 = .ok r ∧ SmallestFrom (OccursAt s t) 0 r :=
  find_ok s t 0 hs (by omega)

/-- `find` from a position so large that adding the length of the target wraps around does not return
(the standard says "not found"): for every view and every character, `find(c, npos)` terminates the
program. -/
theorem C27_find_at_npos_false (s : Bytes) (c : UInt8) (hs : s.length < 2 ^ 63) : findChar s c npos = .ub := by
  have hw : (npos + [c].length) % 2 ^ 64 ≤ s.length := by simp [npos]
  have hw' : ¬ ([c].length + npos) % 2 ^ 64 > s.length := by simp [npos]
  unfold findChar find
  rw [if_neg hw', findLoop_wrap (by simp only [npos]; omega) hw]
  rfl

/-- `find_first_of` returns the smallest position from `offset` on with one of the characters. -/
theorem C27_find_first_of (s t : Bytes) (offset : Nat) (hs : s.length < 2 ^ 63) (ht : t.length < 2 ^ 63) :
    SmallestFrom (OneOfAt s t) offset (findFirstOf s t offset) := by
  unfold findFirstOf
  by_cases ho : offset ≥ s.length
  · rw [if_pos ho]
    exact .inl ⟨rfl, fun i hi ⟨h, _⟩ => by omega⟩
  · rw [if_neg ho]
    cases hf : (s.drop offset).findIdx? (has t) with
    | none =>
      refine .inl ⟨rfl, fun i hi ⟨h, hm⟩ => ?_⟩
      have := findIdx_drop_none hf i h hi
      rw [(has_iff ht _).2 hm] at this
      cases this
    | some j =>
      obtain ⟨hj, h1, h2⟩ := findIdx_drop hf
      refine .inr ⟨by simp only [noPos]; omega, by simp, ⟨hj, (has_iff ht _).1 h1⟩, fun i a b ⟨h, hm⟩ => ?_⟩
      have := h2 i h a b
      rw [(has_iff ht _).2 hm] at this
      cases this

/-- `find_last_of` skips `offset` characters at the end: it returns the largest position with one of
the characters among those before. -/
theorem C27_find_last_of_from_end (s t : Bytes) (offset : Nat) (hs : s.length < 2 ^ 63) (ht : t.length < 2 ^ 63) :
    (s.length ≤ offset → findLastOf s t offset = npos) ∧
    (offset < s.length → LargestUpTo (OneOfAt s t) (s.length - 1 - offset) (findLastOf s t offset)) := by
  unfold findLastOf
  refine ⟨fun ho => by rw [if_pos ho], fun ho => ?_⟩
  rw [if_neg (by omega)]
  cases hf : (s.reverse.drop offset).findIdx? (has t) with
  | none =>
    refine .inl ⟨rfl, fun i hi ⟨h, hm⟩ => ?_⟩
    have := findIdx_drop_none hf (s.length - 1 - i) (by simp; omega) (by omega)
    simp only [List.getElem_reverse, show s.length - 1 - (s.length - 1 - i) = i by omega, (has_iff ht _).2 hm] at this
    cases this
  | some j =>
    obtain ⟨hj, h1, h2⟩ := findIdx_drop hf
    simp only [List.length_reverse] at hj
    simp only [List.getElem_reverse, show s.length - 1 - (offset + j) = s.length - (offset + j) - 1 by omega] at h1
    refine .inr ⟨by simp only [noPos]; omega, by simp only []; omega, ⟨by simp only []; omega, (has_iff ht _).1 h1⟩,
      fun i a b ⟨h, hm⟩ => ?_⟩
    simp only [] at a
    have := h2 (s.length - 1 - i) (by simp; omega) (by omega) (by omega)
    simp only [List.getElem_reverse, show s.length - 1 - (s.length - 1 - i) = i by omega, (has_iff ht _).2 hm] at this
    cases this

/-- Without a position, `find_last_of` agrees with the standard (where the default is `npos`). Partial:
with a position it does not (next theorem). -/
theorem C27_find_last_of_partial (s t : Bytes) (hs : s.length < 2 ^ 63) (ht : t.length < 2 ^ 63) :
    LargestUpTo (OneOfAt s t) npos (findLastOf s t 0) := by
  rcases Nat.eq_zero_or_pos s.length with h0 | h0
  · rw [(C27_find_last_of_from_end s t 0 hs ht).1 (by omega)]
    exact .inl ⟨rfl, fun i _ ⟨h, _⟩ => by omega⟩
  · rcases (C27_find_last_of_from_end s t 0 hs ht).2 h0 with ⟨h1, h2⟩ | ⟨h1, h2, h3, h4⟩
    · exact .inl ⟨h1, fun i _ ⟨h, hm⟩ => h2 i (by omega) ⟨h, hm⟩⟩
    · exact .inr ⟨h1, by simp only [npos]; omega, h3, fun i a _ ⟨h, hm⟩ => h4 i a (by omega) ⟨h, hm⟩⟩

/-- With a position it does not: in "ab" the last of "b" up to position 1 is at 1, and the code says "not
found", because it skips that many characters at the end. -/
theorem C27_find_last_of_position_false :
    LargestUpTo (OneOfAt [97, 98] [98]) 1 1 ∧ findLastOf [97, 98] [98] 1 = npos := by
  refine ⟨.inr ⟨by decide, by omega, ⟨by decide, by decide⟩, fun i a b => by omega⟩, by decide +kernel⟩

/-- `rfind` is right where the target is longer than the view, and where the target occurs and the
position lies between its length and the end. Partial: everywhere else it is not (next theorems). -/
theorem C27_rfind_partial (s t : Bytes) (offset : Nat) (hs : s.length < 2 ^ 63) :
    (s.length < t.length → rfind s t offset = .ok npos ∧ LargestUpTo (OccursAt s t) offset npos) ∧
    (t.length ≤ offset → offset ≤ s.length → (∃ i ≤ offset, OccursAt s t i) →
      ∃ r, rfind s t offset = .ok r ∧ LargestUpTo (OccursAt s t) offset r) := by
  constructor
  · intro h
    refine ⟨?_, .inl ⟨rfl, fun i _ ho => by have := ho.1; omega⟩⟩
    simp only [rfind]
    rw [if_neg (by omega)]
  · intro h1 h2 h3
    obtain ⟨r, g1, g2, g3, g4⟩ := rfindLoop_found s t offset h2 h3
    refine ⟨r, ?_, .inr ⟨by simp only [noPos]; omega, g2, g3, g4⟩⟩
    simp only [rfind]
    rw [if_pos (by omega), g1]
    rfl

/-- `rfind` without a position never returns, unless the target is longer than the view. -/
theorem C27_rfind_default_false (s t : Bytes) (hs : s.length < 2 ^ 63) (h : t.length ≤ s.length) :
    rfind s t rfindDefault = .ub := by
  unfold rfindDefault rfind
  rw [if_pos (by simp only [npos]; omega), rfindLoop_beyond s t npos (by simp only [npos]; omega)]
  rfl

/-- `rfind` for a target that does not occur does not return (the standard says "not found"). -/
theorem C27_rfind_missing_false (s t : Bytes) (offset : Nat) (hs : s.length < 2 ^ 63) (h : t.length ≤ offset)
    (h' : offset ≤ s.length) (hno : ∀ i ≤ offset, ¬ OccursAt s t i) : rfind s t offset = .ub := by
  simp only [rfind]
  rw [if_pos (by omega), rfindLoop_missing s t (by simp only [npos]; omega) offset h' hno]
  rfl

/-- `rfind` for a character without a position finds nothing, whatever the view. -/
theorem C27_rfind_char_default_false (s : Bytes) (c : UInt8) : rfindChar s c rfindCharDefault = .ok npos := by
  unfold rfindCharDefault rfindChar rfind
  rw [if_neg (by simp)]

/-- `find_first_not_of` is right if there is no such character or it is the very first. Partial:
everywhere else it is not (next theorem). -/
theorem C27_find_first_not_of_partial (s t : Bytes) (offset : Nat) (ht : t.length < 2 ^ 63)
    (h : (∀ i, offset ≤ i → ¬ NoneOfAt s t i) ∨ (offset = 0 ∧ NoneOfAt s t 0)) :
    SmallestFrom (NoneOfAt s t) offset (findFirstNotOf s t offset) := by
  unfold findFirstNotOf
  by_cases ho : offset ≥ s.length
  · rw [if_pos ho]
    exact .inl ⟨rfl, fun i hi ⟨h, _⟩ => by omega⟩
  · rw [if_neg ho]
    cases hf : (s.drop offset).findIdx? (fun c => !has t c) with
    | none =>
      refine .inl ⟨rfl, fun i hi ⟨h, hm⟩ => ?_⟩
      have := findIdx_drop_none hf i h hi
      simp only [Bool.not_eq_false', has_iff ht] at this
      exact hm this
    | some j =>
      obtain ⟨hj, h1, h2⟩ := findIdx_drop hf
      simp only [Bool.not_eq_true', ← Bool.not_eq_true, has_iff ht] at h1
      rcases h with h | ⟨rfl, h3, h4⟩
      · exact absurd ⟨hj, h1⟩ (h _ (by omega))
      · have : j = 0 := by
          rcases Nat.eq_zero_or_pos j with h | h
          · exact h
          · have := h2 0 h3 (by omega) (by omega)
            simp only [Bool.not_eq_false', has_iff ht] at this
            exact absurd this h4
        subst this
        exact .inr ⟨by decide, by simp, ⟨h3, h4⟩, fun i a b => by simp at b⟩

/-- Whenever the standard's answer is a position other than 0, `find_first_not_of` gives a different
number, beyond the end of the view. -/
theorem C27_find_first_not_of_false (s t : Bytes) (offset r : Nat) (hs : s.length < 2 ^ 63) (ht : t.length < 2 ^ 63)
    (h : SmallestFrom (NoneOfAt s t) offset r) (h0 : r ≠ 0) (hn : r ≠ noPos) :
    findFirstNotOf s t offset = 2 ^ 64 - r ∧ findFirstNotOf s t offset ≥ s.length := by
  rcases h with ⟨h, _⟩ | ⟨_, h1, ⟨h2, h3⟩, h4⟩
  · exact absurd h hn
  · have : findFirstNotOf s t offset = 2 ^ 64 - r := by
      unfold findFirstNotOf
      rw [if_neg (by omega)]
      cases hf : (s.drop offset).findIdx? (fun c => !has t c) with
      | none =>
        have := findIdx_drop_none hf r h2 h1
        simp only [Bool.not_eq_false', has_iff ht] at this
        exact absurd this h3
      | some j =>
        obtain ⟨hj, g1, g2⟩ := findIdx_drop hf
        simp only [Bool.not_eq_true', ← Bool.not_eq_true, has_iff ht] at g1
        have : offset + j = r := by
          rcases Nat.lt_trichotomy (offset + j) r with h | h | h
          · exact absurd ⟨hj, g1⟩ (h4 _ (by omega) h)
          · exact h
          · have := g2 r h2 h1 h
            simp only [Bool.not_eq_false', has_iff ht] at this
            exact absurd this h3
        simp only [this]
        exact Nat.mod_eq_of_lt (by omega)
    rw [this]
    exact ⟨rfl, by omega⟩

/-- `find_last_not_of` without a position: in a view of at least two characters, whenever the standard's
answer is a position `r`, the code answers the number of characters after it, negated. -/
theorem C27_find_last_not_of_false (s t : Bytes) (r : Nat) (hs : s.length < 2 ^ 63) (ht : t.length < 2 ^ 63)
    (h : LargestUpTo (NoneOfAt s t) npos r) (hn : r ≠ noPos) :
    findLastNotOf s t 0 = (2 ^ 64 - (s.length - 1 - r)) % 2 ^ 64 ∧ (2 ≤ s.length → findLastNotOf s t 0 ≠ r) := by
  rcases h with ⟨h, _⟩ | ⟨_, h1, ⟨h2, h3⟩, h4⟩
  · exact absurd h hn
  · have : findLastNotOf s t 0 = (2 ^ 64 - (s.length - 1 - r)) % 2 ^ 64 := by
      unfold findLastNotOf
      rw [if_neg (by omega)]
      cases hf : (s.reverse.drop 0).findIdx? (fun c => !has t c) with
      | none =>
        have := findIdx_drop_none hf (s.length - 1 - r) (by simp; omega) (by omega)
        simp only [List.getElem_reverse, show s.length - 1 - (s.length - 1 - r) = r by omega, Bool.not_eq_false', has_iff ht] at this
        exact absurd this h3
      | some j =>
        obtain ⟨hj, g1, g2⟩ := findIdx_drop hf
        simp only [Nat.zero_add, List.length_reverse] at hj
        simp only [Nat.zero_add, List.getElem_reverse, Bool.not_eq_true', ← Bool.not_eq_true, has_iff ht] at g1
        have : j = s.length - 1 - r := by
          rcases Nat.lt_trichotomy j (s.length - 1 - r) with h | h | h
          · exact absurd ⟨by omega, g1⟩ (h4 (s.length - 1 - j) (by omega) (by simp only [npos]; omega))
          · exact h
          · have := g2 (s.length - 1 - r) (by simp; omega) (by omega) (by omega)
            simp only [List.getElem_reverse, show s.length - 1 - (s.length - 1 - r) = r by omega, Bool.not_eq_false', has_iff ht] at this
            exact absurd this h3
        simp only [this, Nat.zero_add]
    refine ⟨this, fun h5 => ?_⟩
    rw [this]
    rcases Nat.eq_zero_or_pos (s.length - 1 - r) with h | h
    · rw [h]; simp; omega
    · rw [Nat.mod_eq_of_lt (by omega)]; omega

/-! Concrete cases: searches in "abcabc". -/

example : find [97, 98, 99, 97, 98, 99] [98, 99] 2 = .ok 4 ∧ find [97, 98] [98] 2 = .ok npos ∧
    findFirstOf [97, 98, 99] [99, 98] 0 = 1 ∧ findLastOf [97, 98, 99, 97] [99, 98] 0 = 2 ∧
    rfind [97, 98, 97, 98] [97, 98] 3 = .ok 2 ∧ findFirstNotOf [97, 97, 98] [97] 0 = 2 ^ 64 - 2 ∧
    findLastNotOf [98, 97] [97] 0 = 2 ^ 64 - 1 ∧ SView.compare [97, 200] [97, 100] = 1 := by decide +kernel

end Dart.Props
