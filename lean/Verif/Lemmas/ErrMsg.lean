import Verif.Model.ErrMsg

namespace Dart.Note

open Abi (Err)

theorem put_same (w : World) (t : Nat) (x : Text) : (w.put t x).texts t = x := by simp [World.put]

theorem put_other (w : World) {t u : Nat} (x : Text) (h : u ≠ t) : (w.put t x).texts u = w.texts u := by simp [World.put, h]

/-- What `assign` does, whatever happens. -/
theorem assign_cases (grow : Nat → Nat → Nat) (w : World) (t : Nat) (s : Bytes) :
    (∃ w' : World, assign grow w t s = (w', false) ∧ (w'.texts t).chars = s ∧ (∀ u, u ≠ t → w'.texts u = w.texts u) ∧
        (∀ a ∈ w'.allocs, a ∈ w.allocs) ∧
        (s.length ≤ (w.texts t).cap → (w'.texts t).cap = (w.texts t).cap ∧ (w'.texts t).mem = (w.texts t).mem) ∧
        ((w.texts t).cap < s.length → (w'.texts t).cap = grow (w.texts t).cap s.length ∧
          (w'.texts t).mem = (w.texts t).mem + 1)) ∨
    (∃ rest : List Bool, assign grow w t s = ({ w with allocs := rest }, true) ∧ w.allocs = false :: rest ∧
        (w.texts t).cap < s.length) := by
  unfold assign
  by_cases h : s.length ≤ (w.texts t).cap
  · rw [if_pos h]
    refine .inl ⟨_, rfl, ?_, fun u hu => put_other _ _ hu, fun a ha => ha, fun _ => ?_, fun hc => absurd hc (by omega)⟩
    · rw [put_same]
    · rw [put_same]; exact ⟨rfl, rfl⟩
  · rw [if_neg h]
    split
    · next rest e => exact .inr ⟨rest, rfl, e, by omega⟩
    · refine .inl ⟨_, rfl, ?_, fun u hu => put_other _ _ hu, fun a ha => ?_, fun hc => absurd hc h, fun _ => ?_⟩
      · rw [put_same]
      · exact List.mem_of_mem_drop ha
      · rw [put_same]; exact ⟨rfl, rfl⟩

/-- Every thread's message fits its memory. -/
def Fits (w : World) : Prop := ∀ t, (w.texts t).chars.length ≤ (w.texts t).cap

theorem start_fits (cap : Nat) (allocs : List Bool) : Fits (World.start cap allocs) := fun _ => Nat.zero_le _

/-- A handler that comes back: what it recorded, and what it left alone. -/
theorem handler_some {grow : Nat → Nat → Nat} {w w' : World} {t : Nat} {e : Ends} {code : Err}
    (h : handler grow w t e = some (w', code)) :
    (∀ u, u ≠ t → w'.texts u = w.texts u) ∧ (∀ a ∈ w'.allocs, a ∈ w.allocs) ∧
    ((e = .done ∧ code = .noError ∧ w' = w) ∨
     (∃ (x : Exc) (s : Bytes), e = .threw x s ∧ code = Abi.errCode x ∧ (w'.texts t).chars = cstr s) ∨
     (∃ s : Bytes, e = .runtime s ∧ code = .runtimeError ∧ (w'.texts t).chars = cstr s) ∨
     (e = .other ∧ code = .unknownError ∧ (w'.texts t).chars = unexpectedText) ∨
     (∃ s : Bytes, e = .client s ∧ code = .clientError ∧ (w'.texts t).chars = cstr s) ∨
     (∃ s : Bytes, e = .client s ∧ code = .unknownError ∧ (w'.texts t).chars = unexpectedText ∧ false ∈ w.allocs)) := by
  cases e with
  | done =>
    simp only [handler, Option.some.injEq, Prod.mk.injEq] at h
    obtain ⟨rfl, rfl⟩ := h
    exact ⟨fun _ _ => rfl, fun _ ha => ha, .inl ⟨rfl, rfl, rfl⟩⟩
  | threw x s =>
    simp only [handler, caught] at h
    rcases assign_cases grow w t (cstr s) with ⟨v, e, hc, ho, ha, -, -⟩ | ⟨rest, e, -, -⟩
    · rw [e] at h
      simp only [Option.some.injEq, Prod.mk.injEq] at h
      obtain ⟨rfl, rfl⟩ := h
      exact ⟨ho, ha, .inr (.inl ⟨x, s, rfl, rfl, hc⟩)⟩
    · rw [e] at h; cases h
  | runtime s =>
    simp only [handler, caught] at h
    rcases assign_cases grow w t (cstr s) with ⟨v, e, hc, ho, ha, -, -⟩ | ⟨rest, e, -, -⟩
    · rw [e] at h
      simp only [Option.some.injEq, Prod.mk.injEq] at h
      obtain ⟨rfl, rfl⟩ := h
      exact ⟨ho, ha, .inr (.inr (.inl ⟨s, rfl, rfl, hc⟩))⟩
    · rw [e] at h; cases h
  | other =>
    simp only [handler, unexpected] at h
    rcases assign_cases grow w t unexpectedText with ⟨v, e, hc, ho, ha, -, -⟩ | ⟨rest, e, -, -⟩
    · rw [e] at h
      simp only [Option.some.injEq, Prod.mk.injEq] at h
      obtain ⟨rfl, rfl⟩ := h
      exact ⟨ho, ha, .inr (.inr (.inr (.inl ⟨rfl, rfl, hc⟩)))⟩
    · rw [e] at h; cases h
  | client s =>
    simp only [handler] at h
    rcases assign_cases grow w t (cstr s) with ⟨v, e, hc, ho, ha, -, -⟩ | ⟨rest, e, hr, -⟩
    · rw [e] at h
      simp only [Option.some.injEq, Prod.mk.injEq] at h
      obtain ⟨rfl, rfl⟩ := h
      exact ⟨ho, ha, .inr (.inr (.inr (.inr (.inl ⟨s, rfl, rfl, hc⟩))))⟩
    · rw [e] at h
      simp only [unexpected] at h
      rcases assign_cases grow { w with allocs := rest } t unexpectedText with ⟨v, e, hc, ho, ha, -, -⟩ | ⟨rest, e, -, -⟩
      · rw [e] at h
        simp only [Option.some.injEq, Prod.mk.injEq] at h
        obtain ⟨rfl, rfl⟩ := h
        exact ⟨ho, fun a h => hr ▸ List.mem_cons_of_mem _ (ha a h),
          .inr (.inr (.inr (.inr (.inr ⟨s, rfl, rfl, hc, hr ▸ List.mem_cons_self⟩))))⟩
      · rw [e] at h; cases h

/-- A handler that does not come back has seen an allocation fail. -/
theorem handler_none {grow : Nat → Nat → Nat} {w : World} {t : Nat} {e : Ends} (h : handler grow w t e = none) :
    false ∈ w.allocs := by
  cases e with
  | done => cases h
  | threw x s =>
    simp only [handler, caught] at h
    rcases assign_cases grow w t (cstr s) with ⟨v, e, -⟩ | ⟨rest, e, hr, -⟩
    · rw [e] at h; cases h
    · exact hr ▸ List.mem_cons_self
  | runtime s =>
    simp only [handler, caught] at h
    rcases assign_cases grow w t (cstr s) with ⟨v, e, -⟩ | ⟨rest, e, hr, -⟩
    · rw [e] at h; cases h
    · exact hr ▸ List.mem_cons_self
  | other =>
    simp only [handler, unexpected] at h
    rcases assign_cases grow w t unexpectedText with ⟨v, e, -⟩ | ⟨rest, e, hr, -⟩
    · rw [e] at h; cases h
    · exact hr ▸ List.mem_cons_self
  | client s =>
    simp only [handler] at h
    rcases assign_cases grow w t (cstr s) with ⟨v, e, -⟩ | ⟨rest, e, hr, -⟩
    · rw [e] at h; cases h
    · exact hr ▸ List.mem_cons_self

/-- Messages that fit need no memory: the handler comes back, and the string stays where it is. -/
theorem assign_fitting {grow : Nat → Nat → Nat} {w : World} {t : Nat} {s : Bytes} (h : s.length ≤ (w.texts t).cap) :
    assign grow w t s = (w.put t { w.texts t with chars := s }, false) := by rw [assign, if_pos h]

theorem handler_fitting {grow : Nat → Nat → Nat} {w : World} {t : Nat} {e : Ends}
    (h : ∀ s : Bytes, (∃ x : Exc, e = .threw x s) ∨ e = .runtime s ∨ e = .client s → (cstr s).length ≤ (w.texts t).cap)
    (ho : e = .other → unexpectedText.length ≤ (w.texts t).cap) :
    ∃ (w' : World) (code : Err), handler grow w t e = some (w', code) ∧ (∀ u, (w'.texts u).cap = (w.texts u).cap) ∧
      (w'.texts t).mem = (w.texts t).mem := by
  have key : ∀ s : Bytes, (∀ u, ((w.put t { w.texts t with chars := s }).texts u).cap = (w.texts u).cap) ∧
      ((w.put t { w.texts t with chars := s }).texts t).mem = (w.texts t).mem := by
    intro s
    refine ⟨fun u => ?_, by rw [put_same]⟩
    by_cases hu : u = t
    · rw [hu, put_same]
    · rw [put_other _ _ hu]
  cases e with
  | done => exact ⟨w, _, rfl, fun _ => rfl, rfl⟩
  | threw x s => exact ⟨_, _, by rw [handler, caught, assign_fitting (h s (.inl ⟨x, rfl⟩))], key _⟩
  | runtime s => exact ⟨_, _, by rw [handler, caught, assign_fitting (h s (.inr (.inl rfl)))], key _⟩
  | other => exact ⟨_, _, by rw [handler, unexpected, assign_fitting (ho rfl)], key _⟩
  | client s => exact ⟨_, _, by rw [handler, assign_fitting (h s (.inr (.inr rfl)))], key _⟩

theorem assign_fits {grow : Nat → Nat → Nat} (hg : ∀ c n, n ≤ grow c n) {w : World} (hw : Fits w) (t : Nat) (s : Bytes) :
    Fits (assign grow w t s).1 := by
  intro u
  rcases assign_cases grow w t s with ⟨v, e, hc, ho, -, h1, h2⟩ | ⟨rest, e, -, -⟩
  · rw [e]
    dsimp only
    by_cases hu : u = t
    · subst hu
      rw [hc]
      by_cases hl : s.length ≤ (w.texts u).cap
      · rw [(h1 hl).1]; exact hl
      · rw [(h2 (by omega)).1]; exact hg _ _
    · rw [ho u hu]; exact hw u
  · rw [e]; exact hw u

theorem handler_fits {grow : Nat → Nat → Nat} (hg : ∀ c n, n ≤ grow c n) {w w' : World} (hw : Fits w) {t : Nat} {e : Ends}
    {code : Err} (h : handler grow w t e = some (w', code)) : Fits w' := by
  have one : ∀ {w w' : World} {s : Bytes} {code code' : Err}, Fits w →
      (match assign grow w t s with | (w, false) => some (w, code') | (_, true) => none) = some (w', code) → Fits w' := by
    intro w w' s code code' hw h
    have := assign_fits hg hw t s
    split at h
    · next v e => rw [e] at this; cases h; exact this
    · cases h
  cases e with
  | done => cases h; exact hw
  | threw x s => exact one hw h
  | runtime s => exact one hw h
  | other => exact one hw h
  | client s =>
    simp only [handler] at h
    have := assign_fits hg hw t (cstr s)
    split at h
    · next v e => rw [e] at this; cases h; exact this
    · next v e => rw [e] at this; exact one this h

theorem run_fits {grow : Nat → Nat → Nat} (hg : ∀ c n, n ≤ grow c n) : ∀ {h : List (Nat × Ends)} {w w' : World} {codes : List Err},
    Fits w → run grow w h = some (w', codes) → Fits w'
  | [], w, w', codes, hw, e => by cases e; exact hw
  | (t, x) :: rest, w, w', codes, hw, e => by
    simp only [run] at e
    split at e
    · cases e
    · next v c hv =>
      simp only [Option.map_eq_some_iff] at e
      obtain ⟨⟨v', cs⟩, hr, he⟩ := e
      cases he
      exact run_fits hg (handler_fits hg hw hv) hr

theorem run_append {grow : Nat → Nat → Nat} : ∀ (h₁ h₂ : List (Nat × Ends)) (w : World), run grow w (h₁ ++ h₂) =
    (run grow w h₁).bind fun r => (run grow r.1 h₂).map fun q => (q.1, r.2 ++ q.2)
  | [], h₂, w => by simp [run]
  | (t, e) :: rest, h₂, w => by
    simp only [List.cons_append, run]
    split
    · rfl
    · next v c hv =>
      rw [run_append rest h₂ v]
      cases run grow v rest with
      | none => rfl
      | some r => simp [Function.comp_def]

end Dart.Note
