import Verif.Lemmas.ErrMsg

/-
C83: a call of the C interface that fails returns the code of what went wrong, and from then on `dart_get_error` in the same thread
tells so, until the next failure.
-/
namespace Dart.Props

open Note Abi

/-- What is to be said about a call that ended so: the text of the exception or of the client error; something for the rest. -/
def c83Says : Ends → Bytes
  | .done => []
  | .threw _ text => text.takeWhile (· != 0)
  | .runtime text => text.takeWhile (· != 0)
  | .client text => text.takeWhile (· != 0)
  | .other => "Dart caught an unexpected error type. This is a bug, please make a report".toUTF8.data.toList

/-- The code to return. -/
def c83Code : Ends → Err
  | .done => .noError
  | .threw .typeError _ => .typeError
  | .threw .stateError _ => .stateError
  | .threw .parseError _ => .parseError
  | .threw .validationError _ => .runtimeError
  | .threw _ _ => .logicError
  | .runtime _ => .runtimeError
  | .client _ => .clientError
  | .other => .unknownError

/-- The last call of thread `t` that failed. -/
def c83Last (t : Nat) (h : List (Nat × Ends)) : Option Ends := ((h.filter fun c => c.1 = t ∧ c.2 ≠ .done).getLast?).map (·.2)

theorem c83Last_snoc (t u : Nat) (e : Ends) (h : List (Nat × Ends)) :
    c83Last t (h ++ [(u, e)]) = if u = t ∧ e ≠ .done then some e else c83Last t h := by
  unfold c83Last
  rw [List.filter_append]
  by_cases hc : u = t ∧ e ≠ .done
  · rw [if_pos hc, List.filter_cons_of_pos (by simpa using hc)]; simp
  · rw [if_neg hc, List.filter_cons_of_neg (by simpa using hc)]; simp

theorem c83Code_threw (x : Exc) (s : Bytes) : errCode x = c83Code (.threw x s) := by cases x <;> rfl

/-- All of it, whatever memory there is, by induction over the history. -/
theorem c83_run {grow : Nat → Nat → Nat} {cap : Nat} {allocs : List Bool} (h : List (Nat × Ends)) {w : World} {codes : List Err}
    (hr : run grow (World.start cap allocs) h = some (w, codes)) :
    (∀ a ∈ w.allocs, a ∈ allocs) ∧ codes.length = h.length ∧
    (∀ p ∈ h.zip codes, p.2 = c83Code p.1.2 ∨ (false ∈ allocs ∧ (∃ s : Bytes, p.1.2 = .client s) ∧ p.2 = .unknownError)) ∧
    ∀ t, match c83Last t h with
      | none => (w.texts t).chars = []
      | some e => (w.texts t).chars = c83Says e ∨ (false ∈ allocs ∧ (∃ s : Bytes, e = .client s) ∧
          (w.texts t).chars = c83Says .other) := by
  obtain ⟨r, rfl⟩ : ∃ r : List (Nat × Ends), h = r.reverse := ⟨h.reverse, by simp⟩
  induction r generalizing w codes with
  | nil => cases hr; exact ⟨fun _ h => h, rfl, by simp, fun t => rfl⟩
  | cons c r ih =>
    obtain ⟨u, e⟩ := c
    rw [List.reverse_cons]
    rw [List.reverse_cons, run_append] at hr
    generalize r.reverse = h at ih hr ⊢
    cases h1 : run grow (World.start cap allocs) h with
    | none => rw [h1] at hr; cases hr
    | some r =>
      obtain ⟨w1, codes1⟩ := r
      obtain ⟨ia, il, ic, it⟩ := ih h1
      rw [h1] at hr
      simp only [Option.bind_some, run] at hr
      cases h2 : handler grow w1 u e with
      | none => rw [h2] at hr; cases hr
      | some q =>
        obtain ⟨w2, code⟩ := q
        rw [h2] at hr
        simp only [Option.map_some, Option.some.injEq, Prod.mk.injEq] at hr
        obtain ⟨rfl, rfl⟩ := hr
        obtain ⟨ho, ha, hc⟩ := handler_some h2
        have hcode : code = c83Code e ∨ (false ∈ allocs ∧ (∃ s : Bytes, e = .client s) ∧ code = .unknownError) := by
          rcases hc with ⟨rfl, rfl, -⟩ | ⟨x, s, rfl, rfl, -⟩ | ⟨s, rfl, rfl, -⟩ | ⟨rfl, rfl, -⟩ | ⟨s, rfl, rfl, -⟩ | ⟨s, rfl, rfl, -, hf⟩
          · exact .inl rfl
          · exact .inl (c83Code_threw x s)
          · exact .inl rfl
          · exact .inl rfl
          · exact .inl rfl
          · exact .inr ⟨ia _ hf, ⟨s, rfl⟩, rfl⟩
        refine ⟨fun a h => ia a (ha a h), by simp [il], ?_, fun t => ?_⟩
        · rw [List.zip_append il.symm]
          intro p hp
          rcases List.mem_append.1 hp with hp | hp
          · exact ic p hp
          · simp at hp; subst hp; exact hcode
        · rw [c83Last_snoc]
          by_cases ht : u = t ∧ e ≠ .done
          · rw [if_pos ht]
            obtain ⟨rfl, hne⟩ := ht
            rcases hc with ⟨rfl, -, -⟩ | ⟨x, s, rfl, -, hc⟩ | ⟨s, rfl, -, hc⟩ | ⟨rfl, -, hc⟩ | ⟨s, rfl, -, hc⟩ | ⟨s, rfl, -, hc, hf⟩
            · exact absurd rfl hne
            · exact .inl hc
            · exact .inl hc
            · exact .inl hc
            · exact .inl hc
            · exact .inr ⟨ia _ hf, ⟨s, rfl⟩, hc⟩
          · rw [if_neg ht]
            have e' : w2.texts t = w1.texts t := by
              by_cases hu : t = u
              · subst hu
                have : e = .done := Decidable.byContradiction fun hn => ht ⟨rfl, hn⟩
                subst this
                cases h2; rfl
              · exact ho t hu
            rw [e']; exact it t

/-- **C83**: as long as there is memory for the messages, every call of a history over any threads returns the code of what went
wrong, and afterwards `dart_get_error` tells each thread about its own last failure, or nothing if it had none. -/
theorem C83_message (grow : Nat → Nat → Nat) (cap : Nat) (allocs : List Bool) (hall : false ∉ allocs) (h : List (Nat × Ends)) :
    ∃ w : World, run grow (World.start cap allocs) h = some (w, h.map fun c => c83Code c.2) ∧
      ∀ t, deref w (getError w t) = some (match c83Last t h with | none => [] | some e => c83Says e) := by
  have hs : ∀ (h : List (Nat × Ends)) (w : World), false ∉ w.allocs → run grow w h ≠ none := by
    intro h
    induction h with
    | nil => intro w _ hn; cases hn
    | cons c rest ih =>
      intro w hw hn
      obtain ⟨u, e⟩ := c
      simp only [run] at hn
      split at hn
      · next hh => exact hw (handler_none hh)
      · next v code hh =>
        rw [Option.map_eq_none_iff] at hn
        exact ih v (fun hf => hw ((handler_some hh).2.1 _ hf)) hn
  cases hr : run grow (World.start cap allocs) h with
  | none => exact absurd hr (hs h _ hall)
  | some r =>
    obtain ⟨w, codes⟩ := r
    obtain ⟨-, hl, hc, ht⟩ := c83_run h hr
    have : codes = h.map fun c => c83Code c.2 := by
      apply List.ext_getElem (by simp [hl])
      intro i h1 h2
      have hz : (h[i]'(by simpa using h2), codes[i]) ∈ h.zip codes :=
        List.mem_iff_getElem.2 ⟨i, by simp [hl] at *; omega, by simp⟩
      rcases hc _ hz with e | ⟨hf, -⟩
      · simpa using e
      · exact absurd hf hall
    subst this
    refine ⟨w, rfl, fun t => ?_⟩
    have := ht t
    simp only [deref, getError, if_true]
    cases hl : c83Last t h with
    | none => rw [hl] at this; simp [this]
    | some e =>
      rw [hl] at this
      rcases this with e' | ⟨hf, -⟩
      · simp [e']
      · exact absurd hf hall

/-- C83 when memory runs out, partially: unless the program ends, all is as stated, but that client errors may be reported as
unexpected ones. Missing: that the program does not end. -/
theorem C83_memory_partial {grow : Nat → Nat → Nat} {cap : Nat} {allocs : List Bool} {h : List (Nat × Ends)} {w : World}
    {codes : List Err} (hr : run grow (World.start cap allocs) h = some (w, codes)) :
    codes.length = h.length ∧
    (∀ p ∈ h.zip codes, p.2 = c83Code p.1.2 ∨ ((∃ s : Bytes, p.1.2 = .client s) ∧ p.2 = .unknownError)) ∧
    ∀ t, match c83Last t h with
      | none => deref w (getError w t) = some []
      | some e => deref w (getError w t) = some (c83Says e) ∨
          ((∃ s : Bytes, e = .client s) ∧ deref w (getError w t) = some (c83Says .other)) := by
  obtain ⟨-, hl, hc, ht⟩ := c83_run h hr
  refine ⟨hl, fun p hp => (hc p hp).imp id (·.2), fun t => ?_⟩
  have := ht t
  simp only [deref, getError, if_true, Option.some.injEq]
  split
  · next e => rw [e] at this; exact this
  · next x e => rw [e] at this; exact this.imp id (·.2)

/-- **The claim fails when memory runs out.** In a thread that had no long message yet, a call that runs out of memory ends the
program if there is no memory for the message either: the handler of a `noexcept` function throws. -/
theorem C83_negation_ends (grow : Nat → Nat → Nat) (cap t : Nat) (h : cap < 73) (rest : List Bool) :
    run grow (World.start cap (false :: rest)) [(t, .other)] = none := by
  have hl : unexpectedText.length = 73 := by decide +kernel
  have : assign grow (World.start cap (false :: rest)) t unexpectedText = (World.start cap rest, true) := by
    unfold assign
    rw [if_neg (by rw [hl]; simp only [World.start]; omega)]
    rfl
  simp only [run, handler, unexpected, this]

/-- The same for every other failure with a message longer than the string's first capacity. -/
theorem C83_negation_ends_exception (grow : Nat → Nat → Nat) (cap t : Nat) (x : Exc) (text : Bytes)
    (h : cap < (c83Says (.threw x text)).length) (rest : List Bool) :
    run grow (World.start cap (false :: rest)) [(t, .threw x text)] = none := by
  have : assign grow (World.start cap (false :: rest)) t (cstr text) = (World.start cap rest, true) := by
    unfold assign
    rw [if_neg (show ¬ (cstr text).length ≤ ((World.start cap _).texts t).cap from Nat.not_le.2 h)]
    rfl
  simp only [run, handler, caught, this]

/-- When it cannot end: after any history `h₀`, calls whose messages are no longer than the one the thread would tell now come back
whatever memory there is. -/
theorem C83_prepared {grow : Nat → Nat → Nat} (hg : ∀ c n, n ≤ grow c n) {cap : Nat} {allocs : List Bool}
    {h₀ h : List (Nat × Ends)} {w : World} {codes : List Err} (hr : run grow (World.start cap allocs) h₀ = some (w, codes))
    (hs : ∀ c ∈ h, c.2 ≠ .done → ∃ told, deref w (getError w c.1) = some told ∧ (c83Says c.2).length ≤ told.length) :
    (run grow (World.start cap allocs) (h₀ ++ h)).isSome := by
  have hw := run_fits hg (start_fits cap allocs) hr
  have hcap : ∀ c ∈ h, c.2 ≠ .done → (c83Says c.2).length ≤ (w.texts c.1).cap := by
    intro c hc hn
    obtain ⟨told, ht, hl⟩ := hs c hc hn
    simp only [deref, getError, if_true, Option.some.injEq] at ht
    subst ht
    exact Nat.le_trans hl (hw _)
  have go : ∀ (h : List (Nat × Ends)) (w : World), (∀ c ∈ h, c.2 ≠ .done → (c83Says c.2).length ≤ (w.texts c.1).cap) →
      (run grow w h).isSome := by
    intro h
    induction h with
    | nil => intro w _; rfl
    | cons c rest ih =>
      intro w hw
      obtain ⟨u, e⟩ := c
      have h1 := hw (u, e) List.mem_cons_self
      obtain ⟨v, code, hv, hcaps, -⟩ := handler_fitting (grow := grow) (w := w) (t := u) (e := e)
        (by
          intro s hs
          rcases hs with ⟨x, rfl⟩ | rfl | rfl
          · exact h1 (by simp)
          · exact h1 (by simp)
          · exact h1 (by simp))
        (by rintro rfl; exact h1 (by simp))
      simp only [run, hv, Option.isSome_map]
      exact ih v fun c hc hn => by rw [hcaps]; exact hw c (List.mem_cons_of_mem _ hc) hn
  rw [run_append, hr]
  simpa using go h w hcap

/-- The pointer `dart_get_error` returned stays valid, and the text stays, whatever other threads do, while the calls of its thread
succeed. -/
theorem C83_pointer {grow : Nat → Nat → Nat} : ∀ {h : List (Nat × Ends)} {w w' : World} {codes : List Err} {t : Nat},
    run grow w h = some (w', codes) → (∀ c ∈ h, c.1 = t → c.2 = .done) → deref w' (getError w t) = deref w (getError w t)
  | [], w, w', codes, t, hr, _ => by cases hr; rfl
  | (u, e) :: rest, w, w', codes, t, hr, hd => by
    simp only [run] at hr
    split at hr
    · cases hr
    · next v c hv =>
      simp only [Option.map_eq_some_iff] at hr
      obtain ⟨⟨v', cs⟩, hr, he⟩ := hr
      cases he
      have e1 : v.texts t = w.texts t := by
        by_cases hu : u = t
        · have := hd (u, e) List.mem_cons_self hu
          dsimp only at this
          subst this; cases hv; rfl
        · exact (handler_some hv).1 t (Ne.symm hu)
      have := C83_pointer (t := t) hr fun c hc => hd c (List.mem_cons_of_mem _ hc)
      simp only [getError, e1] at this ⊢
      rw [this]
      simp only [deref, e1]

/-- After a failure the pointer shows the new message if that is no longer than the earlier one. -/
theorem C83_pointer_next {grow : Nat → Nat → Nat} (hg : ∀ c n, n ≤ grow c n) {cap : Nat} {allocs : List Bool}
    {h : List (Nat × Ends)} {w w' : World} {codes code : List Err} {t : Nat} {e : Ends} {told : Bytes}
    (hr : run grow (World.start cap allocs) h = some (w, codes)) (hn : run grow w [(t, e)] = some (w', code)) (he : e ≠ .done)
    (ht : deref w (getError w t) = some told) (hl : (c83Says e).length ≤ told.length) :
    deref w' (getError w t) = some (c83Says e) := by
  have hw := run_fits hg (start_fits cap allocs) hr
  simp only [deref, getError, if_true, Option.some.injEq] at ht
  subst ht
  have hc : (c83Says e).length ≤ (w.texts t).cap := Nat.le_trans hl (hw t)
  have key : handler grow w t e = some (w.put t { w.texts t with chars := c83Says e }, c83Code e) := by
    cases e with
    | done => exact absurd rfl he
    | threw x s => rw [handler, caught, assign_fitting (s := cstr s) hc]; rw [c83Code_threw x s]; rfl
    | runtime s => rw [handler, caught, assign_fitting (s := cstr s) hc]; rfl
    | other => rw [handler, unexpected, assign_fitting (s := unexpectedText) hc]; rfl
    | client s => rw [handler, assign_fitting (s := cstr s) hc]; rfl
  simp only [run, key, Option.map_some, Option.some.injEq, Prod.mk.injEq] at hn
  obtain ⟨rfl, -⟩ := hn
  simp [deref, getError, put_same]

/-- After a failure with a message that does not fit, it points to memory that is gone. -/
theorem C83_pointer_gone {grow : Nat → Nat → Nat} {cap t : Nat} {x : Exc} {text : Bytes}
    (h : cap < (c83Says (.threw x text)).length) :
    ∃ (w : World) (codes : List Err), run grow (World.start cap []) [(t, .threw x text)] = some (w, codes) ∧
      deref w (getError (World.start cap []) t) = none := by
  have : assign grow (World.start cap []) t (cstr text) =
      ((World.start cap []).put t ⟨cstr text, grow cap (cstr text).length, 1⟩, false) := by
    unfold assign
    rw [if_neg (show ¬ (cstr text).length ≤ ((World.start cap _).texts t).cap from Nat.not_le.2 h)]
    rfl
  simp only [run, handler, caught, this]
  exact ⟨_, _, rfl, by simp [deref, getError, put_same, World.start]⟩

/-! Concrete cases: two threads with libstdc++'s first capacity of 15; a type error in one, an exhausted iterator in the other, a
client error whose message finds no memory, and a pointer that lives through a call of another thread. -/

def c83Type : Bytes := "dart::packet is not finalized".toUTF8.data.toList
def c83Gone : Bytes := "exhausted".toUTF8.data.toList

example : (match run Nat.max (World.start 15 []) [(1, .threw .typeError c83Type), (2, .runtime c83Gone), (1, .done)] with
    | some (w, codes) => decide (codes = [.typeError, .runtimeError, .noError] ∧ deref w (getError w 1) = some c83Type ∧
        deref w (getError w 2) = some c83Gone ∧ deref w (getError w 3) = some [])
    | none => false) = true := by decide +kernel

example : (match run Nat.max (World.start 15 [false]) [(1, .client c83Type)] with
    | some (w, codes) => decide (codes = [.unknownError] ∧ deref w (getError w 1) = some unexpectedText)
    | none => false) = true := by decide +kernel

example : (run Nat.max (World.start 15 [true, false]) [(1, .other), (1, .other), (1, .threw .stateError c83Type)]).isSome ∧
    (run Nat.max (World.start 15 [true, false]) [(1, .other), (2, .other)]).isNone := by decide +kernel

example : (false ∈ ([] : List Bool)) = False ∧ 15 < (c83Says (.threw .typeError c83Type)).length := by decide +kernel

end Dart.Props
