import Verif.Lemmas.Safe
import Verif.Lemmas.Builder

/-
A part of validated bytes is valid by itself.
-/
namespace Dart

/-- `N` bytes of memory from `p` on. -/
def cutOut (m : Bytes) (p N : Nat) : Bytes := (m.drop p).take N

theorem readBytes_cut {m : Bytes} {p N q n : Nat} (hN : p + N ≤ m.length) (h : q + n ≤ N) :
    readBytes (cutOut m p N) q n = readBytes m (p + q) n := by
  unfold readBytes cutOut
  rw [if_pos (by simp; omega), if_pos (by omega), List.drop_take, List.drop_drop, List.take_take, Nat.min_eq_left (by omega)]

theorem readU_cut {m : Bytes} {p N q w : Nat} (hN : p + N ≤ m.length) (h : q + w ≤ N) :
    readU (cutOut m p N) w q = readU m w (p + q) := by
  unfold readU; rw [readBytes_cut hN h]

section
variable {m : Bytes} {p N : Nat} (hN : p + N ≤ m.length)
include hN

theorem validString_cut {t : RawType} {q n : Nat} (hq : q + n ≤ N) (h : validString m t (p + q) n = .ok true) :
    validString (cutOut m p N) t q n = .ok true := by
  unfold validString at h ⊢
  simp only [Verdict.and_true, check_true, rd_bind_true] at h ⊢
  obtain ⟨h1, len, h2, h3, z, h4, h5⟩ := h
  refine ⟨h1, len, by rw [readU_cut hN (by omega)]; exact h2, h3, z, ?_, h5⟩
  rw [readU_cut hN (by omega)]
  rw [← h4]; congr 1; omega

theorem typesValid_cut {q : Nat} : ∀ n, q + 8 + 8 * n ≤ N → typesValid m (p + q) n = .ok true →
    typesValid (cutOut m p N) q n = .ok true
  | 0, _, _ => rfl
  | n + 1, hq, h => by
    unfold typesValid at h ⊢
    simp only [Verdict.and_true, check_true, rd_bind_true] at h ⊢
    obtain ⟨h1, c, h2, h3⟩ := h
    refine ⟨typesValid_cut n (by omega) h1, c, ?_, h3⟩
    rw [readU_cut hN (by omega), ← h2]; congr 1; omega

theorem entOff_cut {q i : Nat} (hi : q + 8 + 8 * (i + 1) ≤ N) : entOff (cutOut m p N) q i = entOff m (p + q) i := by
  unfold entOff
  rw [readU_cut hN (by omega)]; congr 1; omega

theorem entType_cut {q i : Nat} (hi : q + 8 + 8 * (i + 1) ≤ N) : entType (cutOut m p N) q i = entType m (p + q) i := by
  unfold entType
  rw [readU_cut hN (by omega), show p + (q + 8 + 8 * i + 4) = p + q + 8 + 8 * i + 4 by omega]

theorem loadKey_cut {q i kp : Nat} (hi : q + 8 + 8 * (i + 1) ≤ N) (h : loadKey m (p + q) i = some kp) :
    ∃ kp', kp = p + kp' ∧ loadKey (cutOut m p N) q i = some kp' := by
  obtain ⟨off, ho, rfl⟩ := loadKey_inv h
  refine ⟨q + off, by omega, ?_⟩
  unfold loadKey
  rw [entOff_cut hN hi, ho]; rfl

theorem afterKey_cut (h8 : 8 ∣ p) {t : RawType} {kp vp : Nat} (hk : kp + 2 ≤ N) (h : afterKey m t (p + kp) = some vp) :
    ∃ vp', vp = p + vp' ∧ afterKey (cutOut m p N) t kp = some vp' := by
  unfold afterKey at h ⊢
  simp only [Option.bind_eq_bind, Option.bind_eq_some_iff, findSizeof, Option.map_eq_some_iff] at h
  obtain ⟨sz, ⟨len, hl, rfl⟩, h⟩ := h
  cases h
  refine ⟨alignUp (kp + (2 + len + 1)) t.align, ?_, ?_⟩
  · rw [show p + kp + (2 + len + 1) = kp + (2 + len + 1) + p by omega,
      alignUp_add_right (align_pos t) (Nat.dvd_trans (align_dvd_eight t) h8)]; omega
  · simp only [findSizeof, readU_cut hN hk, hl]; rfl

theorem loadValue_cut (h8 : 8 ∣ p) {q i kp vp : Nat} {t : RawType} (hi : q + 8 + 8 * (i + 1) ≤ N)
    (hkp : loadKey m (p + q) i = some (p + kp)) (hk : kp + 2 ≤ N) (h : loadValue m (p + q) i = some (t, vp)) :
    ∃ vp', vp = p + vp' ∧ loadValue (cutOut m p N) q i = some (t, vp') := by
  obtain ⟨off, ho, ht, ha⟩ := loadValue_inv h
  obtain ⟨off', ho', e⟩ := loadKey_inv hkp
  rw [ho] at ho'; cases ho'
  have e2 : p + q + off = p + (q + off) := by omega
  rw [e2] at ha
  obtain ⟨vp', h1, h2⟩ := afterKey_cut hN h8 (by omega) ha
  refine ⟨vp', h1, ?_⟩
  unfold loadValue
  rw [entOff_cut hN hi, ho, entType_cut hN hi, ht]
  simp only [Option.bind_eq_bind, Option.bind_some]
  rw [h2]; rfl

theorem loadElem_cut {q i vp : Nat} {t : RawType} (hi : q + 8 + 8 * (i + 1) ≤ N)
    (h : loadElem m (p + q) i = some (t, vp)) : ∃ vp', vp = p + vp' ∧ loadElem (cutOut m p N) q i = some (t, vp') := by
  unfold loadElem at h ⊢
  rw [entOff_cut hN hi, entType_cut hN hi]
  simp only [Option.bind_eq_bind, Option.bind_eq_some_iff] at h ⊢
  obtain ⟨t', ht, off, ho, h⟩ := h
  rw [ht, ho]
  simp only [Option.some.injEq, Prod.mk.injEq] at h ⊢
  obtain ⟨rfl, rfl⟩ := h
  exact ⟨q + off, by omega, _, rfl, _, rfl, rfl, rfl⟩

theorem validFields_cut (h8 : 8 ∣ p) {f q total n : Nat} (hq : q + total ≤ N) (hn : 8 + 8 * n ≤ total)
    (ih : ∀ t r b, r + b ≤ N → validBuffer m f t (p + r) b = .ok true → validBuffer (cutOut m p N) f t r b = .ok true) :
    ∀ k idx prev, idx + k ≤ n → q ≤ prev → validFields (validBuffer m f) m (p + q) total k idx (p + prev) = .ok true →
      validFields (validBuffer (cutOut m p N) f) (cutOut m p N) q total k idx prev = .ok true
  | 0, _, _, _, _, _ => rfl
  | k + 1, idx, prev, hi, hp, h => by
    unfold validFields at h ⊢
    simp only [rd_bind_true, Verdict.and_true, childAddr_true] at h ⊢
    obtain ⟨kp, hk, ⟨a1, a2, a3⟩, hs, ⟨vt, vp⟩, hv, ⟨b1, b2, b3⟩, hvv, hrest⟩ := h
    obtain ⟨kp', rfl, hk'⟩ := loadKey_cut hN (by omega) hk
    rw [show p + kp' - (p + q) = kp' - q by omega] at a1 hs
    have h2 : kp' + 2 ≤ N := by
      cases f with
      | zero => simp [validBuffer] at hs
      | succ f =>
        unfold validBuffer validString at hs
        have h2 := check_true.1 (Verdict.and_true.1 hs).1
        have h3 : strWidth .string = 2 := rfl
        omega
    obtain ⟨vp', rfl, hv'⟩ := loadValue_cut hN h8 (by omega) hk h2 hv
    rw [show p + vp' - (p + q) = vp' - q by omega] at b1 hvv
    refine ⟨kp', hk', ⟨a1, by omega, ?_⟩, ih _ _ _ (by omega) hs, (vt, vp'), hv', ⟨b1, by omega, ?_⟩,
      ih _ _ _ (by omega) hvv, validFields_cut h8 hq hn ih k (idx + 1) vp' (by omega) (by omega) hrest⟩
    · exact (Nat.dvd_add_right (Nat.dvd_trans (align_dvd_eight _) h8)).1 a3
    · exact (Nat.dvd_add_right (Nat.dvd_trans (align_dvd_eight _) h8)).1 b3

theorem validElems_cut (h8 : 8 ∣ p) {f q total n : Nat} (hq : q + total ≤ N) (hn : 8 + 8 * n ≤ total)
    (ih : ∀ t r b, r + b ≤ N → validBuffer m f t (p + r) b = .ok true → validBuffer (cutOut m p N) f t r b = .ok true) :
    ∀ k idx prev, idx + k ≤ n → q ≤ prev → validElems (validBuffer m f) m (p + q) total k idx (p + prev) = .ok true →
      validElems (validBuffer (cutOut m p N) f) (cutOut m p N) q total k idx prev = .ok true
  | 0, _, _, _, _, _ => rfl
  | k + 1, idx, prev, hi, hp, h => by
    unfold validElems at h ⊢
    simp only [rd_bind_true, Verdict.and_true, childAddr_true] at h ⊢
    obtain ⟨⟨vt, vp⟩, hv, ⟨b1, b2, b3⟩, hvv, hrest⟩ := h
    obtain ⟨vp', rfl, hv'⟩ := loadElem_cut hN (by omega) hv
    rw [show p + vp' - (p + q) = vp' - q by omega] at b1 hvv
    refine ⟨(vt, vp'), hv', ⟨b1, by omega, ?_⟩,
      ih _ _ _ (by omega) hvv, validElems_cut h8 hq hn ih k (idx + 1) vp' (by omega) (by omega) hrest⟩
    exact (Nat.dvd_add_right (Nat.dvd_trans (align_dvd_eight _) h8)).1 b3

theorem validBuffer_cut (h8 : 8 ∣ p) : ∀ f t r b, r + b ≤ N → validBuffer m f t (p + r) b = .ok true →
    validBuffer (cutOut m p N) f t r b = .ok true
  | 0, _, _, _, _, h => by simp [validBuffer] at h
  | f + 1, t, r, b, hr, h => by
    cases t <;> unfold validBuffer at h ⊢
    case object =>
      obtain ⟨h1, total, ht, hb, n, hn, hnt, hty, hl⟩ := validTable_true.1 h
      refine validTable_true.2 ⟨h1, total, ?_, hb, n, ?_, hnt, typesValid_cut hN n (by omega) hty,
        validFields_cut hN h8 (by omega) hnt (fun t r b => validBuffer_cut h8 f t r b) n 0 r (by omega) (by omega) hl⟩
      · rw [readU_cut hN (by omega)]; exact ht
      · unfold numElems at hn ⊢
        rw [readU_cut hN (by omega)]; rw [← hn]; congr 1
    case array =>
      obtain ⟨h1, total, ht, hb, n, hn, hnt, hty, hl⟩ := validTable_true.1 h
      refine validTable_true.2 ⟨h1, total, ?_, hb, n, ?_, hnt, typesValid_cut hN n (by omega) hty,
        validElems_cut hN h8 (by omega) hnt (fun t r b => validBuffer_cut h8 f t r b) n 0 r (by omega) (by omega) hl⟩
      · rw [readU_cut hN (by omega)]; exact ht
      · unfold numElems at hn ⊢
        rw [readU_cut hN (by omega)]; rw [← hn]; congr 1
    case string => exact validString_cut hN hr h
    case smallString => exact validString_cut hN hr h
    case bigString => exact validString_cut hN hr h
    all_goals exact h
end

/-- A validated object in memory is accepted by itself. -/
theorem Safe.accepted {m : Bytes} {f p : Nat} (h : Safe m f .object p) : ∃ n, findSizeof m .object p = some n ∧
    p + n ≤ m.length ∧ readBytes m p n = some (cutOut m p n) ∧ accepts (cutOut m p n) := by
  have ha : 8 ∣ p := h.align
  cases f with
  | zero => exact h.elim
  | succ f =>
    obtain ⟨_, _, _, _, ⟨_, total, h1, _, h2, g, hv⟩, _⟩ := h
    refine ⟨total, h1, h2, if_pos h2, ?_⟩
    have hl : (cutOut m p total).length = total := by simp [cutOut]; omega
    have hc := validBuffer_cut h2 ha g .object 0 total (by omega) hv
    obtain ⟨r, hr⟩ := isValid_total (cutOut m p total)
    unfold accepts
    have hr' := hr
    unfold isValid at hr'
    rw [hl] at hr'
    have e1 := validBuffer_fuel (cutOut m p total) (Nat.le_max_left g (total + 1)) .object 0 total _ hc
    have e2 := validBuffer_fuel (cutOut m p total) (Nat.le_max_right g (total + 1)) .object 0 total _ hr'
    rw [e1] at e2
    cases e2
    exact hr

end Dart
