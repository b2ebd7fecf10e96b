import Verif.Lemmas.ValidEnc
import Verif.Lemmas.Room

/-
The verdict on finalized values is exactly that no null lies at the place of what follows it.
-/
namespace Dart

theorem alignUp_eq_iff {n u : Nat} (hu : 0 < u) : alignUp n u = n ↔ n % u = 0 := by
  rw [← upTo_eq n hu]
  unfold upTo
  have := Nat.mod_lt n hu
  split <;> omega

mutual
theorem okVal_iff : ∀ v : Val, v.WF → (okVal v = true ↔ v.NullsApart)
  | .obj fs, hw => by
    simp only [Val.WF] at hw
    simp only [okVal, Val.NullsApart]
    have h1 := le_alignUp (8 + 8 * fs.length) (a := 2) (by decide)
    exact okFields_iff fs 0 _ (by show _ < alignUp _ _; omega) hw.2
  | .arr es, hw => by
    simp only [Val.WF] at hw
    simp only [okVal, Val.NullsApart]
    refine okElems_iff es 0 _ (fun w _ => ?_) hw
    have h1 := le_alignUp (8 + 8 * es.length) (align_pos w.rawType)
    omega
  | .null, _ => by simp [okVal, Val.NullsApart]
  | .bool _, _ => by simp [okVal, Val.NullsApart]
  | .int _, _ => by simp [okVal, Val.NullsApart]
  | .dec _, _ => by simp [okVal, Val.NullsApart]
  | .str _, _ => by simp [okVal, Val.NullsApart]
theorem okFields_iff : ∀ (fs : List (Bytes × Val)) (prev off : Nat), prev < keyOff off →
    WFFields fs → (okFields prev off fs = true ↔ NullsApartFields fs)
  | [], _, _, _, _ => by simp [okFields, NullsApartFields]
  | (k, v) :: fs, prev, off, hp, hw => by
    simp only [WFFields] at hw
    simp only [okFields, NullsApartFields, Bool.and_eq_true, decide_eq_true_eq, hp, true_and]
    rw [okVal_iff v hw.2.1]
    cases fs with
    | nil => simp [okFields, NullsApartFields]
    | cons f fs =>
      by_cases hb : v = .null → k.length % 2 = 0
      · rw [okFields_iff (f :: fs) _ _ (next_key hw.1 hb) hw.2.2]
        constructor
        · exact fun h => ⟨fun hv _ => hb hv, h⟩
        · exact fun h => h.2
      · have hv : v = .null := by
          apply Classical.byContradiction
          intro hv; exact hb fun h => absurd h hv
        have ho : k.length % 2 = 1 := by
          apply Classical.byContradiction
          intro ho; exact hb fun _ => by omega
        subst hv
        have := okFields_null_before [] k f fs hw.1 ho prev off
        simp only [List.nil_append, okFields, hp, decide_true, Bool.true_and, okVal] at this
        constructor
        · intro h
          have h2 := h.2
          simp only [okFields] at h2
          rw [this] at h2
          exact absurd h2 (by simp)
        · intro h
          have := h.1 rfl (by simp)
          omega
theorem okElems_iff : ∀ (es : List Val) (prev off : Nat), (∀ w ∈ es.head?, prev < alignUp off w.rawType.align) →
    WFElems es → (okElems prev off es = true ↔ NullsApartElems off es)
  | [], _, _, _, _ => by simp [okElems, NullsApartElems]
  | v :: es, prev, off, hp, hw => by
    simp only [WFElems] at hw
    have hp := hp v rfl
    simp only [okElems, NullsApartElems, Bool.and_eq_true, decide_eq_true_eq, hp, true_and]
    rw [okVal_iff v hw.1, upTo_unit, room_eq v hw.1]
    by_cases hb : v = .null → ∀ w ∈ es.head?, off % w.unit ≠ 0
    · rw [okElems_iff es _ _ ?_ hw.2]
      · exact ⟨fun h => ⟨hb, h⟩, fun h => h.2⟩
      · intro w hwm
        have h1 := le_alignUp (alignUp off v.rawType.align + sizeVal v) (align_pos w.rawType)
        by_cases hv : v = .null
        · subst hv
          have h2 : alignUp off Val.null.rawType.align = off := alignUp_one _
          have h3 : sizeVal Val.null = 0 := rfl
          rw [h2, h3] at h1 ⊢
          have h4 := hb rfl w hwm
          rw [unit_eq] at h4
          have h5 : alignUp off w.rawType.align ≠ off := fun h => h4 ((alignUp_eq_iff (align_pos w.rawType)).1 h)
          simp only [Nat.add_zero] at h1 ⊢
          omega
        · have := sizeVal_pos hv
          omega
    · constructor
      · intro h
        exfalso
        apply hb
        intro hv w hwm h0
        subst hv
        cases es with
        | nil => simp at hwm
        | cons x es =>
          simp only [List.head?_cons, Option.mem_def, Option.some.injEq] at hwm
          subst hwm
          have h2 : alignUp off Val.null.rawType.align = off := alignUp_one _
          have h3 : sizeVal Val.null = 0 := rfl
          rw [unit_eq] at h0
          have h5 := (alignUp_eq_iff (n := off) (align_pos x.rawType)).2 h0
          have h6 := h.2
          rw [h2, h3] at h6
          simp only [okElems, Nat.add_zero, h5, Nat.lt_irrefl, decide_false, Bool.false_and] at h6
          exact absurd h6 (by simp)
      · intro h
        exact absurd h.1 hb
end

end Dart
