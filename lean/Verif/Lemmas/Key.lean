import Verif.Model.Key
import Verif.Spec.KeyOrder

namespace Dart

theorem bytesCmp_self (a : Bytes) : bytesCmp a a = 0 := by
  induction a with
  | nil => rfl
  | cons x xs ih => simp [bytesCmp, ih]

theorem u8_lt_iff (a b : UInt8) : a < b ↔ a.toNat < b.toNat := UInt8.lt_iff_toNat_lt
theorem u8_eq_iff (a b : UInt8) : a = b ↔ a.toNat = b.toNat := UInt8.toNat_inj.symm

theorem u8_eq_of_not_lt {a b : UInt8} (h1 : ¬ a < b) (h2 : ¬ b < a) : a = b := by
  rw [u8_lt_iff] at h1 h2
  rw [u8_eq_iff]; omega

theorem bytesCmp_eq_zero {a b : Bytes} : bytesCmp a b = 0 ↔ a = b := by
  constructor
  · intro h
    induction a generalizing b with
    | nil => cases b with
      | nil => rfl
      | cons y ys => simp [bytesCmp] at h
    | cons x xs ih => cases b with
      | nil => simp [bytesCmp] at h
      | cons y ys =>
        unfold bytesCmp at h
        split at h
        · omega
        · split at h
          · omega
          · rename_i h1 h2
            rw [u8_eq_of_not_lt h1 h2, ih h]
  · rintro rfl; exact bytesCmp_self a

theorem bytesCmp_neg (a b : Bytes) : bytesCmp a b = - bytesCmp b a := by
  induction a generalizing b with
  | nil => cases b <;> simp [bytesCmp]
  | cons x xs ih => cases b with
    | nil => simp [bytesCmp]
    | cons y ys =>
      simp only [bytesCmp, u8_lt_iff]
      by_cases h1 : x.toNat < y.toNat
      · have : ¬ y.toNat < x.toNat := by omega
        simp [h1, this]
      · by_cases h2 : y.toNat < x.toNat
        · simp [h1, h2]
        · simp [h1, h2, ih]

theorem bytesCmp_lt_trans {a b c : Bytes} (h1 : bytesCmp a b < 0) (h2 : bytesCmp b c < 0) :
    bytesCmp a c < 0 := by
  induction a generalizing b c with
  | nil => cases c with
    | nil => cases b <;> simp [bytesCmp] at *
    | cons z zs => simp [bytesCmp]
  | cons x xs ih => cases b with
    | nil => simp [bytesCmp] at h1
    | cons y ys => cases c with
      | nil => simp [bytesCmp] at h2
      | cons z zs =>
        simp only [bytesCmp, u8_lt_iff] at *
        by_cases hxy : x.toNat < y.toNat
        · by_cases hyz : y.toNat < z.toNat
          · have : x.toNat < z.toNat := by omega
            simp [this]
          · by_cases hzy : z.toNat < y.toNat
            · simp [hyz, hzy] at h2
            · have : x.toNat < z.toNat := by omega
              simp [this]
        · by_cases hyx : y.toNat < x.toNat
          · simp [hxy, hyx] at h1
          · by_cases hyz : y.toNat < z.toNat
            · have : x.toNat < z.toNat := by omega
              simp [this]
            · by_cases hzy : z.toNat < y.toNat
              · simp [hyz, hzy] at h2
              · have e1 : ¬ x.toNat < z.toNat := by omega
                have e2 : ¬ z.toNat < x.toNat := by omega
                simp only [hxy, hyx, hyz, hzy, e1, e2, if_false] at *
                exact ih h1 h2

theorem keyLt_irrefl (a : Bytes) : keyLt a a = false := by
  simp [keyLt, bytesCmp_self]

theorem keyLt_iff {a b : Bytes} : keyLt a b = true ↔
    a.length < b.length ∨ (a.length = b.length ∧ bytesCmp a b < 0) := by
  unfold keyLt
  by_cases h : a.length = b.length
  · simp [h]
  · simp [h]

theorem keyLt_trans {a b c : Bytes} (h1 : keyLt a b = true) (h2 : keyLt b c = true) :
    keyLt a c = true := by
  rw [keyLt_iff] at *
  rcases h1 with h1 | ⟨h1, h1'⟩ <;> rcases h2 with h2 | ⟨h2, h2'⟩
  · left; omega
  · left; omega
  · left; omega
  · right; exact ⟨by omega, bytesCmp_lt_trans h1' h2'⟩

theorem keyLt_asymm {a b : Bytes} (h : keyLt a b = true) : keyLt b a = false := by
  cases hb : keyLt b a with
  | false => rfl
  | true =>
    have := keyLt_trans h hb
    rw [keyLt_irrefl] at this
    cases this

theorem keyLt_total {a b : Bytes} (h1 : keyLt a b = false) (h2 : keyLt b a = false) : a = b := by
  have e1 : ¬ keyLt a b = true := by simp [h1]
  have e2 : ¬ keyLt b a = true := by simp [h2]
  rw [keyLt_iff] at e1 e2
  have hn := bytesCmp_neg a b
  have : bytesCmp a b = 0 := by
    have hl : a.length = b.length := by omega
    have h3 : ¬ bytesCmp a b < 0 := fun h => e1 (Or.inr ⟨hl, h⟩)
    have h4 : ¬ bytesCmp b a < 0 := fun h => e2 (Or.inr ⟨hl.symm, h⟩)
    omega
  exact bytesCmp_eq_zero.mp this

theorem keyLt_ne {a b : Bytes} (h : keyLt a b = true) : a ≠ b := by
  rintro rfl; rw [keyLt_irrefl] at h; cases h

/-- Lexicographic comparison on equal lengths in terms of the first difference. -/
theorem bytesCmp_lt_iff_first_diff {a b : Bytes} (hl : a.length = b.length) :
    bytesCmp a b < 0 ↔ ∃ (i : Nat) (ha : i < a.length) (hb : i < b.length),
      a[i].toNat < b[i].toNat ∧ ∀ (j : Nat) (_ : j < i), a[j]? = b[j]? := by
  induction a generalizing b with
  | nil => cases b with
    | nil => simp [bytesCmp]
    | cons y ys => simp at hl
  | cons x xs ih => cases b with
    | nil => simp at hl
    | cons y ys =>
      have hl' : xs.length = ys.length := by simpa using hl
      simp only [bytesCmp, u8_lt_iff]
      by_cases h1 : x.toNat < y.toNat
      · simp only [h1, if_true]
        refine ⟨fun _ => ⟨0, by simp, by simp, by simpa using h1, by intro j hj; omega⟩, fun _ => by omega⟩
      · by_cases h2 : y.toNat < x.toNat
        · simp only [h1, h2, if_false, if_true]
          constructor
          · intro h; omega
          · rintro ⟨i, ha, hb, hlt, hj⟩
            cases i with
            | zero => simp at hlt; omega
            | succ i =>
              have := hj 0 (by omega)
              simp at this
              subst this; omega
        · have hxy : x = y := (u8_eq_iff x y).mpr (by omega)
          simp only [h1, h2, if_false]
          rw [ih hl']
          constructor
          · rintro ⟨i, ha, hb, hlt, hj⟩
            refine ⟨i + 1, by simpa using ha, by simpa using hb, by simpa using hlt, ?_⟩
            intro j hji
            cases j with
            | zero => simp [hxy]
            | succ j => simpa using hj j (by omega)
          · rintro ⟨i, ha, hb, hlt, hj⟩
            cases i with
            | zero => simp at hlt; omega
            | succ i =>
              refine ⟨i, by simpa using ha, by simpa using hb, by simpa using hlt, ?_⟩
              intro j hji
              simpa using hj (j + 1) (by omega)

theorem keyLt_iff_spec {a b : Bytes} : keyLt a b = true ↔ Spec.KeyBefore a b := by
  rw [keyLt_iff]
  unfold Spec.KeyBefore
  constructor
  · rintro (h | ⟨h, h'⟩)
    · exact Or.inl h
    · exact Or.inr ⟨h, (bytesCmp_lt_iff_first_diff h).mp h'⟩
  · rintro (h | ⟨h, h'⟩)
    · exact Or.inl h
    · exact Or.inr ⟨h, (bytesCmp_lt_iff_first_diff h).mpr h'⟩

end Dart
