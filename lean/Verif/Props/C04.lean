import Verif.Lemmas.Reach
import Verif.Model.Sample

/-
C04: finalizing never writes outside its allocation.
-/
namespace Dart.Props

/-- C04: for every dynamic value (strings below 4 GiB) finalizing has one of three outcomes:
a type error for non-objects, a length error, or success; never an out-of-bounds write. -/
theorem C04_never_out_of_bounds (v : Val) (hw : v.WF) :
    (finalize v = .throw .typeError ∧ ∀ fs, v ≠ .obj fs) ∨
    (finalize v = .throw .lengthError ∧ upperBound v = none) ∨
    (∃ m n, finalize v = .ok m ∧ upperBound v = some n ∧ m.length = n ∧ n < 2 ^ 32) := by
  cases v with
  | obj fs =>
    right
    cases hu : upperBound (.obj fs) with
    | none => left; simp [finalize, hu]
    | some n =>
      right
      obtain ⟨h1, h2, _⟩ := finalize_ok hw hu
      refine ⟨_, n, h1, rfl, by simp [enc_length]; omega, ?_⟩
      simp only [upperBound, Option.bind_eq_bind] at hu
      cases hs : fieldsUB fs with
      | none => simp [hs] at hu
      | some s =>
        simp only [hs, Option.bind_some] at hu
        split at hu
        · cases hu
        · cases hu; omega
  | _ => left; simp [finalize]

/-- C04: the bytes are the recorded size of the object followed by untouched zero bytes, and the
recorded size is the true one (a multiple of 8 that fits 32 bits). -/
theorem C04_recorded_size_exact (v : Val) (m : Bytes) (hw : v.WF) (h : finalize v = .ok m) :
    ∃ bs sz, getBytes m = some bs ∧ findSizeof m .object 0 = some sz ∧ bs.length = sz ∧
      sz < 2 ^ 32 ∧ 8 ∣ sz ∧ m = bs ++ zeros (m.length - sz) := by
  obtain ⟨fs, n, rfl, _, hm, h1, h2⟩ := finalize_eq_ok hw h
  simp only [Fits] at h2
  refine ⟨enc (.obj fs), sizeVal (.obj fs), ?_, ?_, enc_length _, h2.1, ?_, ?_⟩
  · rw [hm]; exact getBytes_enc fs h2.1 _
  · rw [hm]; exact obj_size_header fs h2.1 [] _ 0 rfl
  · simp only [sizeVal]; exact dvd_alignUp _ _
  · have : m.length = n := by rw [hm]; simp [enc_length]; omega
    rw [this]; exact hm

/-- C04, negation beyond the size the length field can express: for a string of exactly 4 GiB the
size bound is computed from the truncated length, no exception is thrown, and the writer leaves
the (40-byte) allocation. -/
theorem C04_negation_huge_string (s : Bytes) (hs : s.length = 2 ^ 32) :
    upperBound (.obj [([97], .str s)]) = some 40 ∧ finalize (.obj [([97], .str s)]) = .ub := by
  have hid : identifyString s = .bigString := by simp [identifyString, hs]
  have hub : upperBound (.obj [([97], .str s)]) = some 40 := by
    simp [upperBound, fieldsUB, stringUB, hs, Val.rawType, identifyString, ssoBytes, RawType.align, alignUp]
  refine ⟨hub, ?_⟩
  have hw : ∀ m p, m.length ≤ 40 → writeBytes m p s = none := by
    intro m p hm
    unfold writeBytes
    rw [if_neg (by rw [hs]; omega)]
  have hstr : ∀ p m, m.length ≤ 40 → layoutStr s p m = none := by
    intro p m hm
    simp only [layoutStr, layoutString, hid, Option.bind_eq_bind, Option.bind_assoc]
    cases h : writeBytes m p (leBytes 4 s.length) with
    | none => rfl
    | some m' =>
      have hl := writeBytes_some_length h
      simp [hw m' _ (by omega)]
  have hlf : ∀ m off, m.length ≤ 40 → layoutFields [([97], .str s)] 0 0 off m = none := by
    intro m off hm
    simp only [layoutFields, layoutVal, Option.bind_eq_bind]
    rw [Option.bind_eq_none_iff]
    intro m2 h2
    have hl2 := writeBytes_some_length h2
    rw [Option.bind_eq_none_iff]
    intro r h3
    obtain ⟨m3, sz⟩ := r
    have hl3 := layoutStr_length h3
    simp [hstr _ m3 (by omega)]
  have hl : layoutVal (.obj [([97], .str s)]) 0 (zeros 40) = none := by
    simp only [layoutVal, Option.bind_eq_bind]
    rw [Option.bind_eq_none_iff]
    intro m1 h1
    have hl1 := writeBytes_some_length h1
    simp only [zeros_length] at hl1
    rw [hlf m1 _ (by omega)]
    rfl
  simp only [finalize, hub, hl]

/-- Non-vacuity: the sample finalizes into 232 allocated bytes of which 192 are used, and there
are strings of 4 GiB. -/
example : (finalize sample).toOption.map List.length = some 232 ∧
    (((finalize sample).toOption.bind getBytes).map List.length) = some 192 := by decide +kernel
example : ∃ s : Bytes, s.length = 2 ^ 32 := ⟨List.replicate (2 ^ 32) 65, List.length_replicate⟩

end Dart.Props
