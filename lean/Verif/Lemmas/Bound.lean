import Verif.Lemmas.Encode
import Verif.Lemmas.Key
import Verif.Spec.Value

/-
The size bound: if no length_error is thrown the encoding fits the allocation and all fields.
-/
namespace Dart

theorem strSize_eq_ub {s : Bytes} (h : s.length < 2 ^ 32) : strSize s = stringUB s := by
  unfold strSize strLw stringUB identifyString
  by_cases h1 : s.length > 65535
  · simp only [h1, if_true]; omega
  · by_cases h2 : s.length > ssoBytes
    · simp only [h1, h2, if_true, if_false]; omega
    · simp only [h1, h2, if_false]; omega

mutual
theorem sizeVal_le_ub : ∀ (v : Val) (n : Nat), v.WF → upperBound v = some n →
    sizeVal v ≤ n ∧ Fits v
  | .obj fs, n, hw, hu => by
    simp only [upperBound, Option.bind_eq_bind] at hu
    simp only [Val.WF] at hw
    cases hs : fieldsUB fs with
    | none => simp [hs] at hu
    | some s =>
      obtain ⟨h1, h2⟩ := fieldsEnd_le_ub fs s (8 + 8 * fs.length) hw.2 hs
      simp only [hs, Option.bind_some] at hu
      split at hu
      · cases hu
      · cases hu
        have := alignUp_mono 8 (show fieldsEnd (8 + 8 * fs.length) fs ≤ 8 + 8 * (fs.length + 1) + s by omega)
        simp only [sizeVal, Fits]
        exact ⟨by omega, by omega, h2⟩
  | .arr es, n, hw, hu => by
    simp only [upperBound, Option.bind_eq_bind] at hu
    simp only [Val.WF] at hw
    cases hs : elemsUB es with
    | none => simp [hs] at hu
    | some s =>
      obtain ⟨h1, h2⟩ := elemsEnd_le_ub es s (8 + 8 * es.length) hw hs
      simp only [hs, Option.bind_some] at hu
      split at hu
      · cases hu
      · cases hu
        simp only [sizeVal, Fits]
        exact ⟨by omega, by omega, h2⟩
  | .str s, n, hw, hu => by
    simp only [upperBound, Option.some.injEq, Val.WF, sizeVal, Fits] at *
    rw [strSize_eq_ub hw]; omega
  | .int i, n, hw, hu => by
    simp only [upperBound, Option.some.injEq, sizeVal, Fits] at *
    subst hu
    cases identifyInteger i <;> simp [intBytes]
  | .dec d, n, hw, hu => by
    simp only [upperBound, Option.some.injEq, sizeVal, Fits, identifyDecimal, decBytes] at *
    subst hu
    cases narrowBits d.toNat <;> simp
  | .bool b, n, hw, hu => by
    simp only [upperBound, Option.some.injEq, sizeVal, Fits, and_true] at *; omega
  | .null, n, hw, hu => by
    simp only [upperBound, Option.some.injEq, sizeVal, Fits, and_true] at *; omega
theorem fieldsEnd_le_ub : ∀ (fs : List (Bytes × Val)) (s off : Nat), WFFields fs →
    fieldsUB fs = some s → fieldsEnd off fs ≤ off + s ∧ FitsFields fs
  | [], s, off, hw, hu => by simp [fieldsEnd, FitsFields]
  | (k, v) :: fs, s, off, hw, hu => by
    simp only [WFFields] at hw
    simp only [fieldsUB, Option.bind_eq_bind] at hu
    cases h1 : upperBound v with
    | none => simp [h1] at hu
    | some vu =>
      cases h2 : fieldsUB fs with
      | none => simp [h1, h2] at hu
      | some r =>
        simp only [h1, h2, Option.bind_some, Option.some.injEq] at hu
        obtain ⟨ha, hb⟩ := sizeVal_le_ub v vu hw.2.1 h1
        obtain ⟨hc, hd⟩ := fieldsEnd_le_ub fs r
          (alignUp (alignUp off 2 + strSize k) v.rawType.align + sizeVal v) hw.2.2 h2
        have hk := alignUp_lt off (a := 2) (by decide)
        have hv := alignUp_lt (alignUp off 2 + strSize k) (align_pos v.rawType)
        have hp := align_pos v.rawType
        have hks : strSize k = stringUB k := strSize_eq_ub (by omega)
        have hsa : RawType.string.align = 2 := rfl
        simp only [fieldsEnd, FitsFields]
        refine ⟨?_, hw.1, hb, hd⟩
        rw [hsa] at hu
        omega
theorem elemsEnd_le_ub : ∀ (es : List Val) (s off : Nat), WFElems es →
    elemsUB es = some s → elemsEnd off es ≤ off + s ∧ FitsElems es
  | [], s, off, hw, hu => by simp [elemsEnd, FitsElems]
  | v :: es, s, off, hw, hu => by
    simp only [WFElems] at hw
    simp only [elemsUB, Option.bind_eq_bind] at hu
    cases h1 : upperBound v with
    | none => simp [h1] at hu
    | some vu =>
      cases h2 : elemsUB es with
      | none => simp [h1, h2] at hu
      | some r =>
        simp only [h1, h2, Option.bind_some, Option.some.injEq] at hu
        obtain ⟨ha, hb⟩ := sizeVal_le_ub v vu hw.1 h1
        obtain ⟨hc, hd⟩ := elemsEnd_le_ub es r (alignUp off v.rawType.align + sizeVal v) hw.2 h2
        have hv := alignUp_lt off (align_pos v.rawType)
        have hp := align_pos v.rawType
        simp only [elemsEnd, FitsElems]
        refine ⟨?_, hb, hd⟩
        omega
end

/-- The three outcomes of finalizing: type error, length error, or the encoding followed by zeros. -/
theorem finalize_ok {fs : List (Bytes × Val)} {n : Nat} (hw : (Val.obj fs).WF)
    (hu : upperBound (.obj fs) = some n) :
    finalize (.obj fs) = .ok (enc (.obj fs) ++ zeros (n - sizeVal (.obj fs))) ∧
      sizeVal (.obj fs) ≤ n ∧ Fits (.obj fs) := by
  obtain ⟨h1, h2⟩ := sizeVal_le_ub _ n hw hu
  refine ⟨?_, h1, h2⟩
  have h := layoutVal_ok (.obj fs) [] [] 0 n rfl (Nat.dvd_zero _) h2 h1
  simp only [List.nil_append, List.append_nil] at h
  unfold finalize
  simp only [hu, h]

theorem finalize_eq_ok {v : Val} {m : Bytes} (hw : v.WF) (h : finalize v = .ok m) :
    ∃ fs n, v = .obj fs ∧ upperBound v = some n ∧ m = enc v ++ zeros (n - sizeVal v) ∧
      sizeVal v ≤ n ∧ Fits v := by
  cases v with
  | obj fs =>
    cases hu : upperBound (.obj fs) with
    | none => simp [finalize, hu] at h
    | some n =>
      obtain ⟨h1, h2, h3⟩ := finalize_ok hw hu
      rw [h1] at h
      cases h
      exact ⟨fs, n, rfl, rfl, rfl, h2, h3⟩
  | _ => simp [finalize] at h

theorem obj_size_header (fs : List (Bytes × Val)) (h : sizeVal (.obj fs) < 2 ^ 32) (pre post : Bytes)
    (p : Nat) (hp : p = pre.length) :
    findSizeof (pre ++ (enc (.obj fs) ++ post)) .object p = some (sizeVal (.obj fs)) := by
  simp only [findSizeof, enc, List.append_assoc]
  exact readU_mid pre _ 4 _ p hp (by omega)

theorem getBytes_enc (fs : List (Bytes × Val)) (h : sizeVal (.obj fs) < 2 ^ 32) (post : Bytes) :
    getBytes (enc (.obj fs) ++ post) = some (enc (.obj fs)) := by
  have h1 := obj_size_header fs h [] post 0 rfl
  simp only [List.nil_append] at h1
  simp only [getBytes, h1, Option.bind_eq_bind, Option.bind_some]
  exact readBytes_mid [] (enc (.obj fs)) post 0 _ rfl (enc_length _).symm

end Dart
