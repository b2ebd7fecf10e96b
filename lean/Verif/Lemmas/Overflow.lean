import Verif.Lemmas.Laws

/-
When the merged fields fit the sum of the two sizes.
-/
namespace Dart
open Dart.Spec

theorem fieldsEnd_le_shift {fs : List (Bytes × Val)} {a b s : Nat} (hs : 8 ∣ s) (h : a ≤ b + s) :
    fieldsEnd a fs ≤ fieldsEnd b fs + s := by
  rw [← fieldsEnd_shift fs s hs]
  exact fieldsEnd_mono fs h

/-- Three runs fit: fields of the first object before and after one run of fields of the second. -/
theorem three_runs {fs gs A M B : List (Bytes × Val)} (h1 : (A ++ B).Sublist fs) (h2 : M.Sublist gs) :
    fieldsEnd (8 + 8 * (fs.length + gs.length)) (A ++ (M ++ B)) ≤ sizeVal (.obj fs) + sizeVal (.obj gs) := by
  simp only [sizeVal, fieldsEnd_append]
  have hP := fieldsEnd_sublist h1 (Nat.le_refl (8 + 8 * fs.length))
  rw [fieldsEnd_append] at hP
  have hQ := fieldsEnd_sublist h2 (Nat.le_refl (8 + 8 * gs.length))
  generalize hp : fieldsEnd (8 + 8 * fs.length) A = P1 at hP
  have hP1 : 8 ≤ P1 := by have := le_fieldsEnd (8 + 8 * fs.length) A; omega
  generalize fieldsEnd (8 + 8 * fs.length) fs = PF at *
  generalize fieldsEnd (8 + 8 * gs.length) gs = QF at *
  have e1 : fieldsEnd (8 + 8 * (fs.length + gs.length)) A ≤ P1 + 8 * gs.length := by
    rw [← hp]; exact fieldsEnd_le_shift (Nat.dvd_mul_right _ _) (by omega)
  have u1 := le_alignUp P1 (a := 8) (by decide)
  have u2 := alignUp_lt P1 (a := 8) (by decide)
  have u3 := le_alignUp QF (a := 8) (by decide)
  have u4 := le_alignUp PF (a := 8) (by decide)
  have d1 := dvd_alignUp P1 8
  have e2 : fieldsEnd (fieldsEnd (8 + 8 * (fs.length + gs.length)) A) M ≤
      fieldsEnd (8 + 8 * gs.length) M + (alignUp P1 8 - 8) :=
    fieldsEnd_le_shift (Nat.dvd_sub d1 (Nat.dvd_refl 8)) (by omega)
  have e3 : fieldsEnd (fieldsEnd (fieldsEnd (8 + 8 * (fs.length + gs.length)) A) M) B ≤
      fieldsEnd P1 B + alignUp QF 8 :=
    fieldsEnd_le_shift (dvd_alignUp _ _) (by omega)
  omega

theorem lookup_append' (as bs : List (Bytes × Val)) (k : Bytes) :
    lookup (as ++ bs) k = (lookup as k).or (lookup bs k) := by
  induction as with
  | nil => simp [lookup_nil]
  | cons f as ih =>
    obtain ⟨a, v⟩ := f
    rw [List.cons_append, lookup_cons, lookup_cons, ih]
    by_cases h : k = a <;> simp [h]

theorem lookup_filter_key (fs : List (Bytes × Val)) (p : Bytes → Bool) (k : Bytes) :
    lookup (fs.filter fun f => p f.1) k = if p k then lookup fs k else none := by
  induction fs with
  | nil => simp [lookup_nil]
  | cons f fs ih =>
    obtain ⟨a, v⟩ := f
    rw [List.filter_cons]
    by_cases h : k = a
    · subst h
      by_cases hp : p k = true
      · simp [hp, lookup_cons]
      · simp only [hp]; rw [if_neg (by simp), ih]; simp [hp]
    · by_cases hp : p a = true
      · simp only [hp, if_true]; rw [lookup_cons, lookup_cons, ih]; simp [h]
      · simp only [hp]; rw [if_neg (by simp), ih, lookup_cons]; simp [h]

theorem mem_keys_iff {fs : List (Bytes × Val)} {k : Bytes} : k ∈ fs.map (·.1) ↔ ∃ v, (k, v) ∈ fs := by
  simp

theorem lookup_none_iff {fs : List (Bytes × Val)} {k : Bytes} : lookup fs k = none ↔ k ∉ fs.map (·.1) := by
  induction fs with
  | nil => simp [lookup_nil]
  | cons f fs ih =>
    obtain ⟨a, v⟩ := f
    rw [lookup_cons]
    by_cases h : k = a
    · simp [h]
    · simp only [h, if_false, ih, List.map_cons, List.mem_cons, not_or]
      simp

/-- The fields of `fs` that come before (after) all of `gs`. -/
def before (fs gs : List (Bytes × Val)) : List (Bytes × Val) := fs.filter fun f => gs.all fun g => keyLt f.1 g.1
def after (fs gs : List (Bytes × Val)) : List (Bytes × Val) := fs.filter fun f => gs.all fun g => keyLt g.1 f.1

theorem before_append_after (fs gs : List (Bytes × Val)) (hs : Sorted fs) (hg : gs ≠ []) :
    (before fs gs ++ after fs gs).Sublist fs := by
  obtain ⟨g, hgm⟩ := List.exists_mem_of_ne_nil _ hg
  unfold Sorted at hs
  induction fs with
  | nil => exact .slnil
  | cons f fs ih =>
    obtain ⟨h1, h2⟩ := List.pairwise_cons.1 hs
    have ih := ih h2
    unfold before after at ih ⊢
    rw [List.filter_cons, List.filter_cons]
    by_cases ha : (gs.all fun g => keyLt f.1 g.1) = true
    · have hb : ¬ (gs.all fun g => keyLt g.1 f.1) = true := by
        intro hb
        have x := List.all_eq_true.1 ha g hgm
        have y := List.all_eq_true.1 hb g hgm
        rw [keyLt_asymm x] at y; cases y
      rw [if_pos ha, if_neg hb]
      exact ih.cons_cons f
    · rw [if_neg ha]
      by_cases hb : (gs.all fun g => keyLt g.1 f.1) = true
      · rw [if_pos hb]
        have : fs.filter (fun f => gs.all fun g => keyLt f.1 g.1) = [] := by
          rw [List.filter_eq_nil_iff]
          intro x hx hc
          have y := List.all_eq_true.1 hb g hgm
          have z := List.all_eq_true.1 hc g hgm
          have := keyLt_trans y (h1 x hx)
          rw [keyLt_asymm this] at z; cases z
        rw [this] at ih ⊢
        exact ih.cons_cons f
      · rw [if_neg hb]
        exact ih.cons f

theorem sorted_three {fs gs : List (Bytes × Val)} (hf : Sorted fs) (hg : Sorted gs) (hne : gs ≠ []) :
    Sorted (before fs gs ++ (gs ++ after fs gs)) := by
  obtain ⟨g, hgm⟩ := List.exists_mem_of_ne_nil _ hne
  unfold Sorted before after
  rw [List.pairwise_append, List.pairwise_append]
  refine ⟨List.Pairwise.filter _ hf, ⟨hg, List.Pairwise.filter _ hf, fun a ha b hb => ?_⟩, fun a ha b hb => ?_⟩
  · exact List.all_eq_true.1 (List.mem_filter.1 hb).2 a ha
  · have h1 := List.all_eq_true.1 (List.mem_filter.1 ha).2
    rcases List.mem_append.1 hb with hb | hb
    · exact h1 b hb
    · exact keyLt_trans (h1 g hgm) (List.all_eq_true.1 (List.mem_filter.1 hb).2 g hgm)

/-- If no remaining base field lies between incoming fields, the incoming fields form one run. -/
theorem merge_one_run {fs gs : List (Bytes × Val)} (hf : Sorted fs) (hg : Sorted gs) (hne : gs ≠ [])
    (h : ∀ f ∈ fs, ∀ g ∈ gs, ∀ g' ∈ gs, keyLt g.1 f.1 = true → keyLt f.1 g'.1 = true → f.1 ∈ gs.map (·.1)) :
    mergeFields fs gs = before fs gs ++ (gs ++ after fs gs) := by
  refine sorted_ext (mergeFields_sorted hf hg) (sorted_three hf hg hne) ?_
  funext k
  rw [lookup_mergeFields hf hg, lookup_append', lookup_append']
  unfold before after
  rw [lookup_filter_key fs (fun x => gs.all fun g => keyLt x g.1),
    lookup_filter_key fs (fun x => gs.all fun g => keyLt g.1 x)]
  cases hl : lookup gs k with
  | some v =>
    have hm := lookup_some_mem hl
    have : (gs.all fun g => keyLt k g.1) = false := by
      rw [List.all_eq_false]
      exact ⟨_, hm, by simp [keyLt_irrefl]⟩
    simp [this]
  | none =>
    have hn := lookup_none_iff.1 hl
    cases hlf : lookup fs k with
    | none => simp
    | some v =>
      have hm := lookup_some_mem hlf
      simp only [Option.none_or]
      by_cases ha : (gs.all fun g => keyLt k g.1) = true
      · simp [ha]
      · have : (gs.all fun g => keyLt g.1 k) = true := by
          rw [List.all_eq_true]
          intro g' hg'
          have ha' : (gs.all fun g => keyLt k g.1) = false := by simpa using ha
          obtain ⟨g, hgm, hlt⟩ := List.all_eq_false.1 ha'
          have hlt : keyLt k g.1 = false := by simpa using hlt
          have hgk : keyLt g.1 k = true := by
            cases hc : keyLt g.1 k with
            | true => rfl
            | false =>
              exact absurd (mem_keys_iff.2 ⟨g.2, by rw [keyLt_total hlt hc]; exact hgm⟩) hn
          cases hc : keyLt g'.1 k with
          | true => rfl
          | false =>
            cases hc2 : keyLt k g'.1 with
            | true => exact absurd (h (k, v) hm g hgm g' hg' hgk hc2) hn
            | false => exact absurd (mem_keys_iff.2 ⟨g'.2, by rw [keyLt_total hc2 hc]; exact hg'⟩) hn
        simp [ha, this]

/-- If every incoming field lies outside the base fields, the base fields form one run. -/
theorem merge_base_run {fs gs : List (Bytes × Val)} (hf : Sorted fs) (hg : Sorted gs) (hne : fs ≠ [])
    (h : ∀ g ∈ gs, (∀ f ∈ fs, keyLt g.1 f.1 = true) ∨ (∀ f ∈ fs, keyLt f.1 g.1 = true)) :
    mergeFields fs gs = before gs fs ++ (fs ++ after gs fs) := by
  refine sorted_ext (mergeFields_sorted hf hg) (sorted_three hg hf hne) ?_
  funext k
  rw [lookup_mergeFields hf hg, lookup_append', lookup_append']
  unfold before after
  rw [lookup_filter_key gs (fun x => fs.all fun g => keyLt x g.1),
    lookup_filter_key gs (fun x => fs.all fun g => keyLt g.1 x)]
  cases hl : lookup gs k with
  | none => simp
  | some v =>
    have hm := lookup_some_mem hl
    have hnone : lookup fs k = none := by
      cases hlf : lookup fs k with
      | none => rfl
      | some w =>
        have hm' := lookup_some_mem hlf
        rcases h _ hm with h | h
        · have := h _ hm'; rw [keyLt_irrefl] at this; cases this
        · have := h _ hm'; rw [keyLt_irrefl] at this; cases this
    rcases h _ hm with h | h
    · have : (fs.all fun g => keyLt k g.1) = true := List.all_eq_true.2 h
      simp [this]
    · have : (fs.all fun g => keyLt g.1 k) = true := List.all_eq_true.2 h
      simp only [this, hnone, if_true]
      split <;> rfl

/-! ### Values with alignment at most two -/

theorem fieldsEnd_shift_two (fs : List (Bytes × Val)) (h2 : ∀ f ∈ fs, f.2.rawType.align ∣ 2) (s : Nat) (hs : 2 ∣ s) :
    ∀ off : Nat, fieldsEnd (off + s) fs = fieldsEnd off fs + s := by
  induction fs with
  | nil => intro off; simp [fieldsEnd]
  | cons f fs ih =>
    intro off
    obtain ⟨k, v⟩ := f
    have ha : v.rawType.align ∣ s := Nat.dvd_trans (h2 (k, v) (by simp)) hs
    simp only [fieldsEnd]
    rw [← ih (fun f hf => h2 f (by simp [hf]))]
    rw [alignUp_add_right (by decide) hs]
    rw [Nat.add_right_comm, alignUp_add_right (align_pos _) ha]
    congr 1; omega

/-- The room one field takes, rounded up to a multiple of two. -/
def cost2 (f : Bytes × Val) : Nat := alignUp (alignUp (strSize f.1) f.2.rawType.align + sizeVal f.2) 2

def costs2 : List (Bytes × Val) → Nat
  | [] => 0
  | f :: fs => cost2 f + costs2 fs

theorem alignUp_two_idem (n : Nat) : alignUp (alignUp n 2) 2 = alignUp n 2 :=
  alignUp_of_dvd (by decide) (dvd_alignUp _ _)

theorem fieldsEnd_two (fs : List (Bytes × Val)) (h2 : ∀ f ∈ fs, f.2.rawType.align ∣ 2) : ∀ off : Nat,
    alignUp (fieldsEnd off fs) 2 = alignUp off 2 + costs2 fs := by
  induction fs with
  | nil => intro off; simp [fieldsEnd, costs2]
  | cons f fs ih =>
    intro off
    obtain ⟨k, v⟩ := f
    have ha := h2 (k, v) (by simp)
    simp only [fieldsEnd, costs2]
    rw [ih (fun f hf => h2 f (by simp [hf]))]
    have d2 : 2 ∣ alignUp off 2 := dvd_alignUp _ _
    rw [alignUp_add_left (align_pos _) (Nat.dvd_trans ha d2), Nat.add_assoc, alignUp_add_left (by decide) d2]
    simp only [cost2]; omega

theorem costs2_merge (fs gs : List (Bytes × Val)) : costs2 (mergeFields fs gs) ≤ costs2 fs + costs2 gs := by
  fun_induction mergeFields fs gs <;> simp only [costs2] at * <;> omega

theorem two_aligned_fits {fs gs : List (Bytes × Val)} (hf : ∀ f ∈ fs, f.2.rawType.align ∣ 2)
    (hg : ∀ f ∈ gs, f.2.rawType.align ∣ 2) :
    fieldsEnd (8 + 8 * (fs.length + gs.length)) (mergeFields fs gs) ≤ sizeVal (.obj fs) + sizeVal (.obj gs) := by
  have hm : ∀ f ∈ mergeFields fs gs, f.2.rawType.align ∣ 2 := by
    intro f h
    rcases mem_mergeFields _ h with h | h
    · exact hf f h
    · exact hg f h
  have e0 := fieldsEnd_two _ hm (8 + 8 * (fs.length + gs.length))
  have e1 := fieldsEnd_two _ hf (8 + 8 * fs.length)
  have e2 := fieldsEnd_two _ hg (8 + 8 * gs.length)
  have a0 := alignUp_of_dvd (a := 2) (by decide) (show 2 ∣ 8 + 8 * (fs.length + gs.length) by omega)
  have a1 := alignUp_of_dvd (a := 2) (by decide) (show 2 ∣ 8 + 8 * fs.length by omega)
  have a2 := alignUp_of_dvd (a := 2) (by decide) (show 2 ∣ 8 + 8 * gs.length by omega)
  rw [a0] at e0; rw [a1] at e1; rw [a2] at e2
  have hc := costs2_merge fs gs
  have l0 := le_alignUp (fieldsEnd (8 + 8 * (fs.length + gs.length)) (mergeFields fs gs)) (a := 2) (by decide)
  have b1 : alignUp (fieldsEnd (8 + 8 * fs.length) fs) 2 ≤ alignUp (fieldsEnd (8 + 8 * fs.length) fs) 8 :=
    alignUp_le_of_dvd (by decide) (Nat.dvd_trans (by decide) (dvd_alignUp _ 8)) (le_alignUp _ (by decide))
  have b2 : alignUp (fieldsEnd (8 + 8 * gs.length) gs) 2 ≤ alignUp (fieldsEnd (8 + 8 * gs.length) gs) 8 :=
    alignUp_le_of_dvd (by decide) (Nat.dvd_trans (by decide) (dvd_alignUp _ 8)) (le_alignUp _ (by decide))
  simp only [sizeVal]
  omega

end Dart
