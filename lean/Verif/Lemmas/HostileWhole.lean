import Verif.Lemmas.HostileCopy
import Verif.Lemmas.HostileEmbed

/-
Validated parts cut out of their surroundings, and put into others.
-/
namespace Dart
open Spec

/-! ### What is valid by itself is valid wherever it is put -/

theorem LiesIn.of_read {c m : Bytes} {p : Nat} (h : readBytes m p c.length = some c) : LiesIn c m p := fun q n x hx => by
  unfold readBytes at h hx ⊢
  split at h
  · rename_i hb
    split at hx
    · rename_i hq
      rw [if_pos (by omega)]
      simp only [Option.some.injEq] at h hx ⊢
      rw [← hx, ← List.drop_drop]
      conv => rhs; rw [← h]
      rw [List.drop_take, List.take_take, Nat.min_eq_left (by omega)]
    · cases hx
  · cases h

section
variable {c m : Bytes} {p : Nat} (h : LiesIn c m p)
include h

theorem LiesIn.validString {t : RawType} {r b b' : Nat} (hv : validString c t r b = .ok true) (hb : b ≤ b') :
    Dart.validString m t (p + r) b' = .ok true := by
  unfold Dart.validString at hv ⊢
  simp only [Verdict.and_true, check_true, rd_bind_true] at hv ⊢
  obtain ⟨h1, len, h2, h3, z, h4, h5⟩ := hv
  exact ⟨by omega, len, h.readU h2, by omega, z, h.readU' (by omega) h4, h5⟩

theorem LiesIn.typesValid {q : Nat} : ∀ n, typesValid c q n = .ok true → Dart.typesValid m (p + q) n = .ok true
  | 0, _ => rfl
  | n + 1, hv => by
    unfold Dart.typesValid at hv ⊢
    simp only [Verdict.and_true, check_true, rd_bind_true] at hv ⊢
    obtain ⟨h1, x, h2, h3⟩ := hv
    exact ⟨LiesIn.typesValid n h1, x, h.readU' (by omega) h2, h3⟩

theorem LiesIn.validFields (h8 : 8 ∣ p) {f q total : Nat}
    (ih : ∀ t r b, validBuffer c f t r b = .ok true → validBuffer m f t (p + r) b = .ok true) :
    ∀ k idx prev, q ≤ prev → validFields (validBuffer c f) c q total k idx prev = .ok true →
      Dart.validFields (validBuffer m f) m (p + q) total k idx (p + prev) = .ok true
  | 0, _, _, _, _ => rfl
  | k + 1, idx, prev, hp, hv => by
    unfold Dart.validFields at hv ⊢
    simp only [rd_bind_true, Verdict.and_true, childAddr_true] at hv ⊢
    obtain ⟨kp, hk, ⟨a1, a2, a3⟩, hs, ⟨vt, vp⟩, hl, ⟨b1, b2, b3⟩, hvv, hrest⟩ := hv
    have e1 : p + kp - (p + q) = kp - q := by omega
    have e2 : p + vp - (p + q) = vp - q := by omega
    refine ⟨p + kp, h.loadKey hk, ⟨by omega, by omega, ?_⟩, by rw [e1]; exact ih _ _ _ hs, (vt, p + vp), h.loadValue h8 hl,
      ⟨by omega, by omega, ?_⟩, by rw [e2]; exact ih _ _ _ hvv, LiesIn.validFields h8 ih k (idx + 1) vp (by omega) hrest⟩
    · exact Nat.dvd_add (Nat.dvd_trans (align_dvd_eight _) h8) a3
    · exact Nat.dvd_add (Nat.dvd_trans (align_dvd_eight _) h8) b3

theorem LiesIn.validElems (h8 : 8 ∣ p) {f q total : Nat}
    (ih : ∀ t r b, validBuffer c f t r b = .ok true → validBuffer m f t (p + r) b = .ok true) :
    ∀ k idx prev, q ≤ prev → validElems (validBuffer c f) c q total k idx prev = .ok true →
      Dart.validElems (validBuffer m f) m (p + q) total k idx (p + prev) = .ok true
  | 0, _, _, _, _ => rfl
  | k + 1, idx, prev, hp, hv => by
    unfold Dart.validElems at hv ⊢
    simp only [rd_bind_true, Verdict.and_true, childAddr_true] at hv ⊢
    obtain ⟨⟨vt, vp⟩, hl, ⟨b1, b2, b3⟩, hvv, hrest⟩ := hv
    have e2 : p + vp - (p + q) = vp - q := by omega
    refine ⟨(vt, p + vp), h.loadElem hl,
      ⟨by omega, by omega, ?_⟩, by rw [e2]; exact ih _ _ _ hvv, LiesIn.validElems h8 ih k (idx + 1) vp (by omega) hrest⟩
    exact Nat.dvd_add (Nat.dvd_trans (align_dvd_eight _) h8) b3
end

theorem LiesIn.valid {c m : Bytes} {p : Nat} (h : LiesIn c m p) (h8 : 8 ∣ p) : ∀ f t r b,
    validBuffer c f t r b = .ok true → validBuffer m f t (p + r) b = .ok true
  | 0, _, _, _, hv => by simp [validBuffer] at hv
  | f + 1, t, r, b, hv => by
    cases t <;> unfold validBuffer at hv ⊢
    case object =>
      obtain ⟨h1, total, ht, hb, n, hn, hnt, hty, hl⟩ := validTable_true.1 hv
      exact validTable_true.2 ⟨h1, total, h.readU ht, hb, n, h.numElems hn, hnt, h.typesValid n hty,
        h.validFields h8 (fun t r b => h.valid h8 f t r b) n 0 r (Nat.le_refl r) hl⟩
    case array =>
      obtain ⟨h1, total, ht, hb, n, hn, hnt, hty, hl⟩ := validTable_true.1 hv
      exact validTable_true.2 ⟨h1, total, h.readU ht, hb, n, h.numElems hn, hnt, h.typesValid n hty,
        h.validElems h8 (fun t r b => h.valid h8 f t r b) n 0 r (Nat.le_refl r) hl⟩
    case string => exact h.validString hv (Nat.le_refl _)
    case smallString => exact h.validString hv (Nat.le_refl _)
    case bigString => exact h.validString hv (Nat.le_refl _)
    all_goals exact hv

/-- Validity does not mind more room. -/
theorem valid_room {m : Bytes} {f : Nat} {t : RawType} {p b b' : Nat} (hb : b ≤ b') (h : validBuffer m f t p b = .ok true) :
    validBuffer m f t p b' = .ok true := by
  cases f with
  | zero => simp [validBuffer] at h
  | succ f =>
    cases t <;> unfold validBuffer at h ⊢
    case object =>
      obtain ⟨h1, total, ht, hb, n, hn, hnt, hty, hl⟩ := validTable_true.1 h
      exact validTable_true.2 ⟨by omega, total, ht, by omega, n, hn, hnt, hty, hl⟩
    case array =>
      obtain ⟨h1, total, ht, hb, n, hn, hnt, hty, hl⟩ := validTable_true.1 h
      exact validTable_true.2 ⟨by omega, total, ht, by omega, n, hn, hnt, hty, hl⟩
    case null => rfl
    case string | smallString | bigString =>
      unfold validString at h ⊢
      simp only [Verdict.and_true, check_true, rd_bind_true] at h ⊢
      obtain ⟨h1, len, h2, h3, z, h4, h5⟩ := h
      exact ⟨by omega, len, h2, by omega, z, h4, h5⟩
    all_goals
      rw [check_true] at h ⊢
      omega

/-- Valid bytes, put anywhere their type may be. -/
theorem LiesIn.valid_any {c m : Bytes} {p : Nat} (h : LiesIn c m p) {t : RawType} (ha : t.align ∣ p) {f b b' : Nat} (hb : b ≤ b')
    (hv : validBuffer c f t 0 b = .ok true) : validBuffer m f t p b' = .ok true := by
  refine valid_room hb ?_
  cases f with
  | zero => simp [validBuffer] at hv
  | succ f =>
    cases t
    case object => exact h.valid ha _ _ 0 _ hv
    case array => exact h.valid ha _ _ 0 _ hv
    case string | smallString | bigString => unfold validBuffer at hv ⊢; exact h.validString hv (Nat.le_refl _)
    all_goals exact hv

/-- The same about what they hold. -/
theorem LiesIn.decode_any {c m : Bytes} {p : Nat} (h : LiesIn c m p) {t : RawType} (ha : t.align ∣ p) {f : Nat} {v : Val}
    (hv : Dart.decode f c t 0 = some v) : Dart.decode f m t p = some v := by
  cases f with
  | zero => simp [Dart.decode] at hv
  | succ f =>
    cases t
    case object => exact h.decode ha hv
    case array => exact h.decode ha hv
    case null => exact hv
    all_goals
      unfold Dart.decode at hv ⊢
      rw [Option.map_eq_some_iff] at hv ⊢
      obtain ⟨x, hx, rfl⟩ := hv
      first | exact ⟨x, h.strv hx, rfl⟩ | exact ⟨x, h.readInt hx, rfl⟩ | exact ⟨x, h.readDec hx, rfl⟩ | exact ⟨x, h.readBool hx, rfl⟩

/-! ### Cutting out -/

/-- The recursion need not be deeper than there are bytes. -/
theorem valid_shallow {c : Bytes} {t : RawType} {f : Nat} (h : validBuffer c f t 0 c.length = .ok true) :
    validBuffer c (c.length + 1) t 0 c.length = .ok true := by
  have key : ∃ r, validBuffer c (c.length + 1) t 0 c.length = .ok r := by
    rcases enough_root c t with he | ⟨hl, ht⟩
    · exact validBuffer_total c _ _ _ _ (by omega) he
    · exact ⟨_, validBuffer_short hl ht⟩
  obtain ⟨r, hr⟩ := key
  have e1 := validBuffer_fuel c (Nat.le_max_left f (c.length + 1)) t 0 c.length _ h
  have e2 := validBuffer_fuel c (Nat.le_max_right f (c.length + 1)) t 0 c.length _ hr
  rw [e1] at e2
  cases e2
  exact hr

theorem cutOut_length {m : Bytes} {p n : Nat} (h : p + n ≤ m.length) : (cutOut m p n).length = n := by simp [cutOut]; omega

/-- A validated part is valid by itself. -/
theorem part_valid {m : Bytes} {f : Nat} {t : RawType} {q b : Nat} (h : validBuffer m f t q b = .ok true) (hb : q + b ≤ m.length)
    (ha : t.align ∣ q) : ∃ n, findSizeof m t q = some n ∧ n ≤ b ∧
      validBuffer (cutOut m q n) (n + 1) t 0 n = .ok true := by
  have fin : ∀ n, n ≤ b → ∀ g, validBuffer (cutOut m q n) g t 0 n = .ok true → validBuffer (cutOut m q n) (n + 1) t 0 n = .ok true :=
    fun n hn g hg => by
      have hl := cutOut_length (m := m) (p := q) (n := n) (by omega)
      have := valid_shallow (c := cutOut m q n) (t := t) (f := g) (by rw [hl]; exact hg)
      rwa [hl] at this
  have tab : ∀ n, n ≤ b → 8 ∣ q → ∀ g, validBuffer m g t q n = .ok true → validBuffer (cutOut m q n) (n + 1) t 0 n = .ok true :=
    fun n hn h8 g hg => fin n hn g (validBuffer_cut (by omega) h8 g t 0 n (by omega) hg)
  cases f with
  | zero => simp [validBuffer] at h
  | succ f =>
    cases t
    case object =>
      obtain ⟨h1, total, ht, htb, n, hn, hnt, hty, hl⟩ := validTable_true.1 h
      exact ⟨total, ht, htb, tab total htb ha (f + 1) (validTable_true.2 ⟨by omega, total, ht, Nat.le_refl _, n, hn, hnt, hty, hl⟩)⟩
    case array =>
      obtain ⟨h1, total, ht, htb, n, hn, hnt, hty, hl⟩ := validTable_true.1 h
      exact ⟨total, ht, htb, tab total htb ha (f + 1) (validTable_true.2 ⟨by omega, total, ht, Nat.le_refl _, n, hn, hnt, hty, hl⟩)⟩
    case null => exact ⟨0, rfl, by omega, rfl⟩
    case string | smallString | bigString =>
      unfold validBuffer validString at h
      simp only [Verdict.and_true, check_true, rd_bind_true] at h
      obtain ⟨h1, len, h2, h3, z, h4, h5⟩ := h
      refine ⟨_, by simp only [findSizeof, Option.map_eq_some_iff]; exact ⟨len, h2, rfl⟩, h3, fin _ h3 1 ?_⟩
      unfold validBuffer
      refine validString_cut (q := 0) (by omega) (by omega) ?_
      unfold validString
      simp only [Verdict.and_true, check_true, rd_bind_true, Nat.add_zero]
      exact ⟨by simp only [strWidth] at *; omega, len, h2, by simp only [strWidth] at *; omega, z, h4, h5⟩
    all_goals
      unfold validBuffer at h
      rw [check_true] at h
      exact ⟨_, rfl, h, by unfold validBuffer; exact check_true.2 (Nat.le_refl _)⟩

/-- What a validated part holds, it holds by itself. -/
theorem part_value {m : Bytes} {t : RawType} {q n : Nat} (hn : q + n ≤ m.length) (ha : t.align ∣ q)
    (hv : validBuffer (cutOut m q n) (n + 1) t 0 n = .ok true) : ∃ v, decode (n + 1) (cutOut m q n) t 0 = some v ∧
      decode (n + 1) m t q = some v := by
  have hl := cutOut_length hn
  obtain ⟨v, h⟩ := (validBuffer_safe (cutOut m q n) (n + 1) t 0 n (by omega) (Nat.dvd_zero _) hv).decode
  exact ⟨v, h, (LiesIn.cut hn).decode_any ha h⟩

end Dart
