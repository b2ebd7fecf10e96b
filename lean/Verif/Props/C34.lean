import Verif.Lemmas.Align

/-
C34: the bit mask formula rounds up to the alignment.
-/
namespace Dart.Props

/-- C34: for every 64-bit address or size and every alignment in use, unless the sum overflows 64
bits, the bit mask formula yields the least multiple of the alignment that is at least the input. -/
theorem C34_alignment_formula (x : BitVec 64) (t : RawType) (h : x.toNat + (t.align - 1) < 2 ^ 64) :
    let r := (alignMask x t.align).toNat
    t.align ∣ r ∧ x.toNat ≤ r ∧ ∀ y, t.align ∣ y → x.toNat ≤ y → r ≤ y := by
  have hk : ∃ k, k < 64 ∧ t.align = 2 ^ k := by
    cases t <;> first
      | exact ⟨0, by omega, rfl⟩
      | exact ⟨1, by omega, rfl⟩
      | exact ⟨2, by omega, rfl⟩
      | exact ⟨3, by omega, rfl⟩
  obtain ⟨k, hk, e⟩ := hk
  rw [e] at h ⊢
  have hp0 : 0 < 2 ^ k := Nat.pow_pos (by omega)
  simp only
  rw [alignMask_toNat x k hk h]
  refine ⟨dvd_alignUp _ _, le_alignUp _ hp0, ?_⟩
  rintro y ⟨c, rfl⟩ hy
  unfold alignUp
  rw [Nat.mul_comm (2 ^ k) c] at hy ⊢
  apply Nat.mul_le_mul_right
  rw [← Nat.lt_succ_iff, Nat.div_lt_iff_lt_mul hp0]
  rw [Nat.succ_mul]
  omega

/-- C34: the arithmetic rounding used throughout the model is what the code computes. -/
theorem C34_model_agrees (x : BitVec 64) (t : RawType) (h : x.toNat + (t.align - 1) < 2 ^ 64) :
    (alignMask x t.align).toNat = alignUp x.toNat t.align := by
  have hk : ∃ k, k < 64 ∧ t.align = 2 ^ k := by
    cases t <;> first
      | exact ⟨0, by omega, rfl⟩
      | exact ⟨1, by omega, rfl⟩
      | exact ⟨2, by omega, rfl⟩
      | exact ⟨3, by omega, rfl⟩
  obtain ⟨k, hk, e⟩ := hk
  rw [e] at h ⊢
  exact alignMask_toNat x k hk h

/-- Non-vacuity: 13 aligned for an object is 16, 16 stays, 5 aligned for a string is 6. -/
example : alignMask 13 RawType.object.align = 16 ∧ alignMask 16 RawType.object.align = 16 ∧
    alignMask 5 RawType.string.align = 6 := by decide

end Dart.Props
