import Verif.Lemmas.Key
import Verif.Spec.JsonText
import Verif.Lemmas.Lower

/-
The encoding of a document has at most eight bytes for every byte of its text.
-/
namespace Dart
open Spec

variable {x : Extensions}

mutual
/-- A lower bound for the length of a text. -/
def Json.span : Json → Nat
  | .obj fs => 1 + fieldsSpan fs
  | .arr es => 1 + elemsSpan es
  | .str s => s.length + 2
  | _ => 1
def fieldsSpan : List (Bytes × Json) → Nat
  | [] => 0
  | (k, v) :: fs => (k.length + 2) + 1 + v.span + 1 + fieldsSpan fs
def elemsSpan : List Json → Nat
  | [] => 0
  | v :: es => v.span + 1 + elemsSpan es
end

theorem utf8_length (n : Nat) : (utf8 n).length ≤ 4 ∧ (n < 65536 → (utf8 n).length ≤ 3) := by
  unfold utf8
  repeat' split
  all_goals simp
  omega

theorem charsText_length {t s : Bytes} (h : CharsText t s) : s.length ≤ t.length := by
  induction h with
  | nil => simp
  | plain _ _ _ _ ih => simp; exact ih
  | short _ _ ih => simp; omega
  | @unicode u n t s hu _ _ ih =>
    obtain ⟨a, b, c, d, x, y, z, w, rfl, _, _, _, _, _⟩ := hu
    have := (utf8_length n).1
    simp; omega
  | @pair u u' n n' t s hu hu' _ _ _ _ _ ih =>
    obtain ⟨a, b, c, d, x, y, z, w, rfl, _, _, _, _, _⟩ := hu
    have := (utf8_length (0x10000 + (n - 0xd800) * 1024 + (n' - 0xdc00))).1
    simp; omega

theorem stringText_length {t s : Bytes} (h : StringText t s) : s.length + 2 ≤ t.length := by
  obtain ⟨c, hc, rfl⟩ := h
  have := charsText_length hc
  simp; omega

theorem intText_length {t : Bytes} {n : Int} (h : IntText t n) : 1 ≤ t.length := by
  obtain ⟨ds, ⟨hd, _⟩, _, ⟨rfl, _⟩ | ⟨rfl, _⟩⟩ := h
  · exact List.length_pos_iff.2 hd
  · simp

mutual
theorem valueText_length : ∀ {t : Bytes} {j : Json}, ValueText x t j → j.span ≤ t.length
  | _, _, .null => by simp [Json.span]
  | _, _, .true => by simp [Json.span]
  | _, _, .false => by simp [Json.span]
  | _, _, .num h _ _ => by simp only [Json.span]; exact intText_length h
  | _, _, .big _ h _ => by simp only [Json.span]; exact intText_length h
  | _, _, .dbl _ h _ _ _ => by have := intText_length h; simp [Json.span]; omega
  | _, _, .nan _ _ h => by
    obtain ⟨u, h | h, h' | h' | h'⟩ := h <;> simp [h, h', Json.span]
  | _, _, .str h => by simp only [Json.span]; exact stringText_length h
  | _, _, .arr0 _ => by simp [Json.span, elemsSpan]
  | _, _, .arr h => by have := elemsText_length h; simp [Json.span]; omega
  | _, _, .obj0 _ => by simp [Json.span, fieldsSpan]
  | _, _, .obj h => by have := membersText_length h; simp [Json.span]; omega
theorem elemsText_length : ∀ {t : Bytes} {es : List Json}, ElemsText x t es → elemsSpan es ≤ t.length + 1
  | _, _, .one _ _ h _ => by have := valueText_length h; simp [elemsSpan]; omega
  | _, _, .cons _ _ h h' => by
    have := valueText_length h
    have := elemsText_length h'
    simp [elemsSpan]; omega
theorem membersText_length : ∀ {t : Bytes} {fs : List (Bytes × Json)}, MembersText x t fs → fieldsSpan fs ≤ t.length + 1
  | _, _, .one _ _ _ _ hs h _ => by
    have := stringText_length hs
    have := valueText_length h; simp [fieldsSpan]; omega
  | _, _, .cons _ _ _ _ hs h h' => by
    have := stringText_length hs
    have := valueText_length h
    have := membersText_length h'
    simp [fieldsSpan]; omega
end

theorem isText_length {t : Bytes} {j : Json} (h : IsText x t j) : j.span ≤ t.length := by
  obtain ⟨w, u, r, _, h, _, rfl⟩ := h
  have := valueText_length h
  simp; omega

theorem fieldsSpan_perm {fs gs : List (Bytes × Json)} (h : fs.Perm gs) : fieldsSpan fs = fieldsSpan gs := by
  induction h with
  | nil => rfl
  | cons x _ ih => obtain ⟨k, v⟩ := x; simp [fieldsSpan, ih]
  | swap x y l => obtain ⟨k, v⟩ := x; obtain ⟨k', v'⟩ := y; simp [fieldsSpan]; omega
  | trans _ _ h1 h2 => exact h1.trans h2

mutual
theorem arrange_span {sort : List (Bytes × Json) → List (Bytes × Json)} (hs : ∀ fs, (sort fs).Perm fs) :
    ∀ j : Json, (j.arrange sort).span = j.span
  | .obj fs => by
    simp only [Json.arrange, Json.span, fieldsSpan_perm (hs _), arrangeFields_span hs fs]
  | .arr es => by
    simp only [Json.arrange, Json.span, arrangeElems_span hs es]
  | .str s => by simp [Json.arrange]
  | .num s => by simp [Json.arrange]
  | .dbl s => by simp [Json.arrange]
  | .bool s => by simp [Json.arrange]
  | .null => by simp [Json.arrange]
theorem arrangeFields_span {sort : List (Bytes × Json) → List (Bytes × Json)} (hs : ∀ fs, (sort fs).Perm fs) :
    ∀ fs, fieldsSpan (arrangeFields sort fs) = fieldsSpan fs
  | [] => by simp [arrangeFields]
  | (k, v) :: fs => by simp [arrangeFields, fieldsSpan, arrange_span hs v, arrangeFields_span hs fs]
theorem arrangeElems_span {sort : List (Bytes × Json) → List (Bytes × Json)} (hs : ∀ fs, (sort fs).Perm fs) :
    ∀ es, elemsSpan (arrangeElems sort es) = elemsSpan es
  | [] => by simp [arrangeElems]
  | v :: es => by simp [arrangeElems, elemsSpan, arrange_span hs v, arrangeElems_span hs es]
end

theorem strSize_le (s : Bytes) : strSize s ≤ s.length + 5 := by
  unfold strSize strLw; split <;> omega

theorem intBytes_le (t : RawType) (i : BitVec 64) : (intBytes t i).length ≤ 8 := by
  unfold intBytes; split <;> simp
theorem decBytes_le (d : BitVec 64) : (decBytes d).length ≤ 8 := by
  unfold decBytes; split <;> simp

mutual
theorem size_span : ∀ j : Json, sizeVal j.image ≤ 8 * j.span
  | .obj fs => by
    have := fieldsEnd_span fs (B := 8 + 8 * fs.length) (by omega)
    simp only [Json.image, sizeVal, Json.span, imageFields_length]
    exact alignUp_le_of_dvd (by decide) (by omega) (by omega)
  | .arr es => by
    have := elemsEnd_span es (B := 8 + 8 * es.length) (by omega)
    simp only [Json.image, sizeVal, Json.span, imageElems_length]
    omega
  | .str s => by
    have := strSize_le s
    simp only [Json.image, sizeVal, Json.span]; omega
  | .num n => by
    simp only [Json.image, Json.span]
    split <;> simp only [sizeVal]
    · exact intBytes_le _ _
    · exact decBytes_le _
  | .dbl d => by simp only [Json.image, Json.span, sizeVal]; exact decBytes_le _
  | .bool b => by simp [Json.image, Json.span, sizeVal]
  | .null => by simp [Json.image, Json.span, sizeVal]
theorem fieldsEnd_span : ∀ (fs : List (Bytes × Json)) {B : Nat}, 8 ∣ B →
    fieldsEnd B (imageFields fs) + 8 * fs.length ≤ B + 8 * fieldsSpan fs
  | [], B, h => by simp [imageFields, fieldsEnd, fieldsSpan]
  | (k, v) :: fs, B, h => by
    have h1 := size_span v
    have h2 := strSize_le k
    have hd : 8 ∣ B + 8 * (k.length + 2) := by omega
    have ih := fieldsEnd_span fs (B := B + 8 * (k.length + 2) + 8 * v.span) (by omega)
    have h3 : fieldsEnd (alignUp (alignUp B 2 + strSize k) v.image.rawType.align + sizeVal v.image) (imageFields fs) ≤
        fieldsEnd (B + 8 * (k.length + 2) + 8 * v.span) (imageFields fs) := by
      apply fieldsEnd_le_of
      have : alignUp (alignUp B 2 + strSize k) v.image.rawType.align ≤ B + 8 * (k.length + 2) := by
        apply alignUp_le_of_dvd (align_pos _) (Nat.dvd_trans (align_dvd_eight _) hd)
        rw [alignUp_of_dvd (by decide) (by omega)]
        omega
      omega
    simp only [imageFields, fieldsEnd, fieldsSpan, List.length_cons]
    omega
theorem elemsEnd_span : ∀ (es : List Json) {B : Nat}, 8 ∣ B →
    elemsEnd B (imageElems es) + 8 * es.length ≤ B + 8 * elemsSpan es
  | [], B, h => by simp [imageElems, elemsEnd, elemsSpan]
  | v :: es, B, h => by
    have h1 := size_span v
    have ih := elemsEnd_span es (B := B + 8 * v.span) (by omega)
    have h3 : elemsEnd (alignUp B v.image.rawType.align + sizeVal v.image) (imageElems es) ≤
        elemsEnd (B + 8 * v.span) (imageElems es) := by
      apply elemsEnd_le_of
      rw [alignUp_of_dvd (align_pos _) (Nat.dvd_trans (align_dvd_eight _) h)]
      omega
    simp only [imageElems, elemsEnd, elemsSpan, List.length_cons]
    omega
end

theorem lower_inb {sort : List (Bytes × Json) → List (Bytes × Json)} (hs : ∀ fs, (sort fs).Perm fs) {t m : Bytes} {j : Json}
    (h : IsText x t j) (hm : m.length = t.length * 8) :
    ∃ m' sz, (j.arrange sort).lower 0 m = some (m', sz) ∧ m'.length = m.length ∧ sz ≤ m.length := by
  have h1 := isText_length h
  have h2 := size_span (j.arrange sort)
  rw [arrange_span hs] at h2
  rw [lower_image]
  obtain ⟨m', sz, e, l, hsz⟩ := layoutVal_inb (j.arrange sort).image (p := 0) (m := m) (Nat.dvd_zero _) (by omega)
  exact ⟨m', sz, e, l, by omega⟩

/-- Insert a member behind those with smaller names. -/
def insertMember (f : Bytes × Json) : List (Bytes × Json) → List (Bytes × Json)
  | [] => [f]
  | g :: gs => if keyLt g.1 f.1 then g :: insertMember f gs else f :: g :: gs

/-- A way to sort members by name. -/
def sortMembers : List (Bytes × Json) → List (Bytes × Json)
  | [] => []
  | f :: fs => insertMember f (sortMembers fs)

theorem insertMember_perm (f : Bytes × Json) (gs : List (Bytes × Json)) : (insertMember f gs).Perm (f :: gs) := by
  induction gs with
  | nil => exact .refl _
  | cons g gs ih =>
    simp only [insertMember]
    split
    · exact (ih.cons g).trans (.swap f g gs)
    · exact .refl _

theorem sortMembers_sorts : Spec.Sorts sortMembers := by
  have key : ∀ fs, (sortMembers fs).Perm fs ∧ (sortMembers fs).Pairwise fun a b => keyLt b.1 a.1 = false := by
    intro fs
    induction fs with
    | nil => exact ⟨.refl _, .nil⟩
    | cons f fs ih =>
      obtain ⟨h1, h2⟩ := ih
      refine ⟨(insertMember_perm _ _).trans (h1.cons f), ?_⟩
      simp only [sortMembers]
      generalize sortMembers fs = gs at h2
      clear h1
      induction gs with
      | nil => exact List.pairwise_singleton _ _
      | cons g gs ih =>
        rw [List.pairwise_cons] at h2
        simp only [insertMember]
        split
        · rename_i hlt
          refine List.pairwise_cons.2 ⟨fun a ha => ?_, ih h2.2⟩
          rcases List.mem_cons.1 ((insertMember_perm f gs).mem_iff.1 ha) with rfl | ha
          · exact keyLt_asymm hlt
          · exact h2.1 a ha
        · rename_i hlt
          have hlt : keyLt g.1 f.1 = false := by simpa using hlt
          refine List.pairwise_cons.2 ⟨fun a ha => ?_, List.pairwise_cons.2 h2⟩
          rcases List.mem_cons.1 ha with rfl | ha
          · exact hlt
          · cases h : keyLt a.1 f.1 with
            | false => rfl
            | true =>
              have h3 := h2.1 a ha
              cases h4 : keyLt g.1 a.1 with
              | true => rw [keyLt_trans h4 h] at hlt; cases hlt
              | false => rw [← keyLt_total h3 h4] at hlt; rw [hlt] at h; cases h
  intro fs
  refine ⟨(key fs).1, (key fs).2.imp ?_⟩
  intro a b h hk
  rw [← keyLt_iff_spec, h] at hk
  cases hk

end Dart
