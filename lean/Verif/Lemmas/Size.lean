import Verif.Lemmas.Bound
import Verif.Lemmas.Builder
import Verif.Spec.Size

/-
Sizes of finalized values against the number of values and characters in them.
-/
namespace Dart

open Spec

theorem keyUB {k : Bytes} (h : k.length ≤ 65535) : stringUB k = k.length + 3 := by
  unfold stringUB identifyString
  have h1 : ¬ k.length > 65535 := by omega
  simp only [h1, if_false]
  split <;> rename_i h2
  · split at h2 <;> cases h2
  · omega

theorem strUB_le {s : Bytes} (h : s.length < 2 ^ 32) :
    stringUB s + ((Val.str s).rawType.align - 1) ≤ s.length + 8 := by
  simp only [Val.rawType]
  unfold stringUB identifyString
  by_cases h1 : s.length > 65535
  · simp only [h1, if_true]; simp only [RawType.align]; omega
  · by_cases h2 : s.length > ssoBytes
    · simp only [h1, h2, if_true, if_false]; simp only [RawType.align]; omega
    · simp only [h1, h2, if_false]; simp only [RawType.align]; omega

theorem le_strSize (s : Bytes) : s.length + 3 ≤ strSize s := by
  unfold strSize strLw
  split <;> omega

theorem weight_pos (v : Val) : 1 ≤ weight v := by
  cases v <;> simp only [weight] <;> omega

theorem align_le (t : RawType) : t.align ≤ 8 := by cases t <;> decide

mutual
/-- A small value has a size bound. -/
theorem small_upperBound : ∀ (v : Val), v.WF → 42 * weight v + textLength v ≤ 2 ^ 32 + 11 →
    ∃ n, upperBound v = some n ∧ n + (v.rawType.align - 1) + 12 ≤ 42 * weight v + textLength v
  | .obj fs, hw, hl => by
    simp only [Val.WF] at hw
    simp only [weight, textLength] at hl ⊢
    obtain ⟨s, h1, h2⟩ := small_fieldsUB fs hw.2 (by omega)
    have ha := alignUp_lt (8 + 8 * (fs.length + 1) + s) (a := 8) (by decide)
    have hr : (Val.obj fs).rawType.align = 8 := rfl
    refine ⟨alignUp (8 + 8 * (fs.length + 1) + s) 8, ?_, by omega⟩
    simp only [upperBound, Option.bind_eq_bind, h1, Option.bind_some]
    rw [if_neg (by omega)]
  | .arr es, hw, hl => by
    simp only [Val.WF] at hw
    simp only [weight, textLength] at hl ⊢
    obtain ⟨s, h1, h2⟩ := small_elemsUB es hw (by omega)
    have hr : (Val.arr es).rawType.align = 8 := rfl
    refine ⟨8 + 8 * (es.length + 1) + s, ?_, by omega⟩
    simp only [upperBound, Option.bind_eq_bind, h1, Option.bind_some]
    rw [if_neg (by omega)]
  | .str s, hw, _ => by
    simp only [Val.WF] at hw
    have := strUB_le hw
    exact ⟨_, rfl, by simp only [weight, textLength]; omega⟩
  | .int i, _, _ => by
    have := align_le (Val.int i).rawType
    refine ⟨_, rfl, ?_⟩
    simp only [weight, textLength]
    split <;> omega
  | .dec d, _, _ => by
    have := align_le (Val.dec d).rawType
    refine ⟨_, rfl, ?_⟩
    simp only [weight, textLength]
    split <;> omega
  | .bool b, _, _ => ⟨_, rfl, by have := align_le (Val.bool b).rawType; simp only [weight, textLength]; omega⟩
  | .null, _, _ => ⟨_, rfl, by have := align_le Val.null.rawType; simp only [weight, textLength]; omega⟩
theorem small_fieldsUB : ∀ (fs : List (Bytes × Val)), WFFields fs → 42 * weightFields fs + textFields fs ≤ 2 ^ 32 + 11 →
    ∃ n, fieldsUB fs = some n ∧ n + 8 * fs.length ≤ 42 * weightFields fs + textFields fs
  | [], _, _ => ⟨0, rfl, by simp⟩
  | (k, v) :: fs, hw, hl => by
    simp only [WFFields] at hw
    simp only [weightFields, textFields] at hl ⊢
    obtain ⟨n, h1, h2⟩ := small_upperBound v hw.2.1 (by omega)
    obtain ⟨r, h3, h4⟩ := small_fieldsUB fs hw.2.2 (by omega)
    refine ⟨stringUB k + (v.rawType.align - 1) + (n + (RawType.string.align - 1)) + r, ?_, ?_⟩
    · simp only [fieldsUB, Option.bind_eq_bind, h1, h3, Option.bind_some]
    · have hk := keyUB hw.1
      have hsa : RawType.string.align = 2 := rfl
      simp only [List.length_cons]
      omega
theorem small_elemsUB : ∀ (es : List Val), WFElems es → 42 * weightElems es + textElems es ≤ 2 ^ 32 + 11 →
    ∃ n, elemsUB es = some n ∧ n + 8 * es.length ≤ 42 * weightElems es + textElems es
  | [], _, _ => ⟨0, rfl, by simp⟩
  | v :: es, hw, hl => by
    simp only [WFElems] at hw
    simp only [weightElems, textElems] at hl ⊢
    obtain ⟨n, h1, h2⟩ := small_upperBound v hw.1 (by omega)
    obtain ⟨r, h3, h4⟩ := small_elemsUB es hw.2 (by omega)
    refine ⟨n + (v.rawType.align - 1) + r, ?_, ?_⟩
    · simp only [elemsUB, Option.bind_eq_bind, h1, h3, Option.bind_some]
    · simp only [List.length_cons]
      omega
end

mutual
/-- What every value takes at least. -/
theorem le_sizeVal : ∀ (v : Val), 8 * weight v + textLength v ≤ sizeVal v + 8
  | .obj fs => by
    have h := weight_le_fieldsEnd fs (8 + 8 * fs.length)
    have ha := le_alignUp (fieldsEnd (8 + 8 * fs.length) fs) (a := 8) (by decide)
    simp only [weight, textLength, sizeVal]
    omega
  | .arr es => by
    have h := weight_le_elemsEnd es (8 + 8 * es.length)
    simp only [weight, textLength, sizeVal]
    omega
  | .str s => by
    have := le_strSize s
    simp only [weight, textLength, sizeVal]; omega
  | .int _ => by simp only [weight, textLength]; omega
  | .dec _ => by simp only [weight, textLength]; omega
  | .bool _ => by simp only [weight, textLength]; omega
  | .null => by simp only [weight, textLength]; omega
theorem weight_le_fieldsEnd : ∀ (fs : List (Bytes × Val)) (off : Nat),
    off + 8 * weightFields fs + textFields fs ≤ fieldsEnd off fs + 8 * fs.length
  | [], off => by simp [weightFields, textFields, fieldsEnd]
  | (k, v) :: fs, off => by
    have h1 := le_sizeVal v
    have h2 := weight_le_fieldsEnd fs (alignUp (alignUp off 2 + strSize k) v.rawType.align + sizeVal v)
    have h3 := le_alignUp off (a := 2) (by decide)
    have h4 := le_alignUp (alignUp off 2 + strSize k) (align_pos v.rawType)
    have h5 := le_strSize k
    simp only [weightFields, textFields, fieldsEnd, List.length_cons]
    omega
theorem weight_le_elemsEnd : ∀ (es : List Val) (off : Nat),
    off + 8 * weightElems es + textElems es ≤ elemsEnd off es + 8 * es.length
  | [], off => by simp [weightElems, textElems, elemsEnd]
  | v :: es, off => by
    have h1 := le_sizeVal v
    have h2 := weight_le_elemsEnd es (alignUp off v.rawType.align + sizeVal v)
    have h4 := le_alignUp off (align_pos v.rawType)
    simp only [weightElems, textElems, elemsEnd, List.length_cons]
    omega
end

/-- An object has a header of 8 bytes besides. -/
theorem le_sizeVal_obj (fs : List (Bytes × Val)) : 8 * weight (.obj fs) + textLength (.obj fs) ≤ sizeVal (.obj fs) := by
  have h := weight_le_fieldsEnd fs (8 + 8 * fs.length)
  have ha := le_alignUp (fieldsEnd (8 + 8 * fs.length) fs) (a := 8) (by decide)
  simp only [weight, textLength, sizeVal]
  omega

mutual
/-- How far the bound is from the size. -/
theorem ub_le_sizeVal : ∀ (v : Val) (n : Nat), v.WF → upperBound v = some n →
    n + (v.rawType.align - 1) + 1 ≤ sizeVal v + 23 * weight v
  | .obj fs, n, hw, hu => by
    simp only [upperBound, Option.bind_eq_bind] at hu
    simp only [Val.WF] at hw
    cases hs : fieldsUB fs with
    | none => simp [hs] at hu
    | some s =>
      have h1 := ub_le_fieldsEnd fs s (8 + 8 * fs.length) hw.2 hs
      simp only [hs, Option.bind_some] at hu
      split at hu
      · cases hu
      · cases hu
        have ha := alignUp_lt (8 + 8 * (fs.length + 1) + s) (a := 8) (by decide)
        have hb := le_alignUp (fieldsEnd (8 + 8 * fs.length) fs) (a := 8) (by decide)
        have hr : (Val.obj fs).rawType.align = 8 := rfl
        simp only [weight, sizeVal]
        omega
  | .arr es, n, hw, hu => by
    simp only [upperBound, Option.bind_eq_bind] at hu
    simp only [Val.WF] at hw
    cases hs : elemsUB es with
    | none => simp [hs] at hu
    | some s =>
      have h1 := ub_le_elemsEnd es s (8 + 8 * es.length) hw hs
      simp only [hs, Option.bind_some] at hu
      split at hu
      · cases hu
      · cases hu
        have hr : (Val.arr es).rawType.align = 8 := rfl
        simp only [weight, sizeVal]
        omega
  | .str s, n, hw, hu => by
    simp only [upperBound, Option.some.injEq, Val.WF] at *
    have := align_le (Val.str s).rawType
    have := strSize_eq_ub hw
    simp only [weight, sizeVal]; omega
  | .int i, n, _, hu => by
    simp only [upperBound, Option.some.injEq] at hu
    have := align_le (Val.int i).rawType
    simp only [weight, sizeVal]
    split at hu <;> omega
  | .dec d, n, _, hu => by
    simp only [upperBound, Option.some.injEq] at hu
    have := align_le (Val.dec d).rawType
    simp only [weight, sizeVal]
    split at hu <;> omega
  | .bool b, n, _, hu => by
    simp only [upperBound, Option.some.injEq] at hu
    have := align_le (Val.bool b).rawType
    simp only [weight, sizeVal]; omega
  | .null, n, _, hu => by
    simp only [upperBound, Option.some.injEq] at hu
    have := align_le Val.null.rawType
    simp only [weight, sizeVal]; omega
theorem ub_le_fieldsEnd : ∀ (fs : List (Bytes × Val)) (s off : Nat), WFFields fs → fieldsUB fs = some s →
    off + s ≤ fieldsEnd off fs + 23 * weightFields fs
  | [], s, off, _, hu => by
    simp only [fieldsUB, Option.some.injEq] at hu
    simp only [weightFields, fieldsEnd]; omega
  | (k, v) :: fs, s, off, hw, hu => by
    simp only [WFFields] at hw
    simp only [fieldsUB, Option.bind_eq_bind] at hu
    cases h1 : upperBound v with
    | none => simp [h1] at hu
    | some vu =>
      cases h2 : fieldsUB fs with
      | none => simp [h1, h2] at hu
      | some r =>
        simp only [h1, h2, Option.bind_some, Option.some.injEq] at hu
        have ha := ub_le_sizeVal v vu hw.2.1 h1
        have hc := ub_le_fieldsEnd fs r (alignUp (alignUp off 2 + strSize k) v.rawType.align + sizeVal v) hw.2.2 h2
        have hk := le_alignUp off (a := 2) (by decide)
        have hv := le_alignUp (alignUp off 2 + strSize k) (align_pos v.rawType)
        have hks : strSize k = stringUB k := strSize_eq_ub (by omega)
        have hsa : RawType.string.align = 2 := rfl
        simp only [fieldsEnd, weightFields]
        rw [hsa] at hu
        omega
theorem ub_le_elemsEnd : ∀ (es : List Val) (s off : Nat), WFElems es → elemsUB es = some s →
    off + s ≤ elemsEnd off es + 23 * weightElems es
  | [], s, off, _, hu => by
    simp only [elemsUB, Option.some.injEq] at hu
    simp only [weightElems, elemsEnd]; omega
  | v :: es, s, off, hw, hu => by
    simp only [WFElems] at hw
    simp only [elemsUB, Option.bind_eq_bind] at hu
    cases h1 : upperBound v with
    | none => simp [h1] at hu
    | some vu =>
      cases h2 : elemsUB es with
      | none => simp [h1, h2] at hu
      | some r =>
        simp only [h1, h2, Option.bind_some, Option.some.injEq] at hu
        have ha := ub_le_sizeVal v vu hw.1 h1
        have hc := ub_le_elemsEnd es r (alignUp off v.rawType.align + sizeVal v) hw.2 h2
        have hv := le_alignUp off (align_pos v.rawType)
        simp only [elemsEnd, weightElems]
        omega
end

theorem fieldsEnd_filter (p : Bytes × Val → Bool) : ∀ (fs : List (Bytes × Val)) {a b : Nat}, a ≤ b →
    fieldsEnd a (fs.filter p) ≤ fieldsEnd b fs
  | [], _, _, h => h
  | (k, v) :: fs, a, b, h => by
    have h1 := alignUp_mono 2 h
    have h2 := alignUp_mono v.rawType.align (Nat.add_le_add_right h1 (strSize k))
    simp only [List.filter_cons]
    split
    · simp only [fieldsEnd]
      exact fieldsEnd_filter p fs (Nat.add_le_add_right h2 _)
    · simp only [fieldsEnd]
      refine fieldsEnd_filter p fs ?_
      have := le_alignUp b (a := 2) (by decide)
      have := le_alignUp (alignUp b 2 + strSize k) (align_pos v.rawType)
      omega

/-- Every field left out saves its entry in the table. -/
theorem sizeVal_filter (p : Bytes × Val → Bool) (fs : List (Bytes × Val)) :
    sizeVal (.obj (fs.filter p)) + 8 * (fs.length - (fs.filter p).length) ≤ sizeVal (.obj fs) := by
  simp only [sizeVal]
  have hl : (fs.filter p).length ≤ fs.length := List.length_filter_le _ _
  rw [← alignUp_add_right (by decide) (Nat.dvd_mul_right 8 _), ← fieldsEnd_shift _ _ (Nat.dvd_mul_right 8 _)]
  exact alignUp_mono 8 (fieldsEnd_filter p fs (by omega))

end Dart
