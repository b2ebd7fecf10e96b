import Verif.Lemmas.OrderEffect

/-
Threads that only read, helpers: counters are never read.
-/
namespace Dart.Conc

/-- A thread that will not check a counter. -/
def Th.reading (th : Th) : Prop := th.stage ≠ .cow ∧ ∀ op ∈ th.prog, op.reads = true

section
variable {m m' : M} {t : Nat} {th th' : Th}

theorem reading_put {ths : List Th} (h : ∀ th ∈ ths, th.reading) (h' : th'.reading) : ∀ th ∈ ths.set t th', th.reading := by
  intro th hm
  rcases List.mem_or_eq_of_mem_set hm with h1 | rfl
  · exact h th h1
  · exact h'

theorem Th.reading.assign {x : Nat} {h : Hd} {rest : List Op} (hr : ∀ op ∈ rest, op.reads = true) : (th.assign x h rest).reading := by
  unfold Th.assign
  split <;> exact ⟨by simp, hr⟩

theorem reading_incr {h : Hd} (ha : ∀ th ∈ m.threads, th.reading) (h' : th'.reading) (hm : incr true m t h th' = some m') :
    ∀ th ∈ m'.threads, th.reading := by
  cases h with
  | leaf n => cases hm; exact reading_put ha h'
  | ref a =>
    obtain ⟨b, hb, rfl⟩ := Option.map_eq_some_iff.1 hm
    exact reading_put ha h'

theorem reading_step (ha : ∀ th ∈ m.threads, th.reading) (hm : step true m t = some m') : ∀ th ∈ m'.threads, th.reading := by
  unfold step at hm
  cases ht : m.threads[t]? with
  | none => simp only [ht] at hm; cases hm; exact ha
  | some th =>
  obtain ⟨hs0, hp0⟩ := ha th (List.mem_of_getElem? ht)
  simp only [ht] at hm
  cases hp : th.pending with
  | some p =>
    simp only [hp] at hm
    obtain ⟨b, hb, rfl⟩ := Option.map_eq_some_iff.1 hm
    exact reading_put ha ⟨hs0, hp0⟩
  | none =>
  simp only [hp] at hm
  cases hd : th.dying with
  | some c =>
    simp only [hd] at hm
    obtain ⟨b, hb, rfl⟩ := Option.map_eq_some_iff.1 hm
    exact reading_put ha ⟨hs0, hp0⟩
  | none =>
  simp only [hd] at hm
  cases hj : th.junk with
  | cons h w =>
    simp only [hj] at hm
    cases h with
    | leaf n => cases hm; exact reading_put ha ⟨hs0, hp0⟩
    | ref a =>
      obtain ⟨b, hb, h1⟩ := Option.bind_eq_some_iff.1 hm
      cases hn : b.count with
      | zero => simp [hn] at h1
      | succ n =>
        simp only [hn, Option.some.injEq] at h1
        subst h1
        refine reading_put ha ?_
        split <;> exact ⟨hs0, hp0⟩
  | nil =>
  simp only [hj] at hm
  cases hop : th.prog with
  | nil => simp only [hop] at hm; cases hm; exact ha
  | cons op rest =>
  simp only [hop] at hm
  rw [hop] at hp0
  have hr : ∀ op ∈ rest, op.reads = true := fun op h => hp0 op (List.mem_cons_of_mem _ h)
  have hop0 := hp0 op List.mem_cons_self
  have keep : ∀ st, st ≠ .cow → Th.reading { th with stage := st } := fun st h => ⟨h, by rw [hop]; exact hp0⟩
  unfold stmtStep at hm
  cases hs : th.stage with
  | start =>
    simp only [hs] at hm
    have done : Th.reading { th with prog := rest } := ⟨hs0, hr⟩
    cases op with
    | leaf x n => cases hm; exact reading_put ha (keep _ (by simp))
    | make x => cases hm; exact reading_put ha (keep _ (by simp))
    | copy x y => cases hm; exact reading_put ha (keep _ (by simp))
    | get x y i =>
      simp only [begin] at hm
      cases hy : th.var y with
      | leaf n => simp only [hy] at hm; cases hm; exact reading_put ha done
      | ref c =>
        simp only [hy] at hm
        obtain ⟨b, hb, rfl⟩ := Option.map_eq_some_iff.1 hm
        cases b.kids[i]? <;> exact reading_put ha (keep _ (by simp))
    | push x y => cases hop0
    | pop x => cases hop0
    | clear x => cases hop0
    | send c x =>
      simp only [begin] at hm
      cases hc : m.chans[c]? with
      | none => simp only [hc] at hm; cases hm; exact reading_put ha done
      | some q => simp only [hc] at hm; cases hm; exact reading_put ha ⟨hs0, hr⟩
    | recv c x =>
      simp only [begin] at hm
      cases hc : m.chans[c]? with
      | none => simp only [hc] at hm; cases hm; exact ha
      | some q =>
        cases q with
        | nil => simp only [hc] at hm; cases hm; exact ha
        | cons h q => simp only [hc] at hm; cases hm; exact reading_put ha (.assign hr)
  | read h => simp only [hs] at hm; exact reading_incr ha (keep _ (by simp)) hm
  | store h => simp only [hs] at hm; cases hm; exact reading_put ha (.assign hr)
  | cow => exact (hs0 hs).elim
  | copying done =>
    simp only [hs] at hm
    cases hv : th.var op.target with
    | leaf n => simp only [hv] at hm; cases hm
    | ref c =>
      simp only [hv] at hm
      obtain ⟨b, hb, rfl⟩ := Option.map_eq_some_iff.1 hm
      cases hk : b.kids[done.length]? with
      | some h => exact reading_put ha (keep _ (by simp))
      | none => exact reading_put ha ⟨by simp, by rw [hop]; exact hp0⟩
  | copyInc done h => simp only [hs] at hm; exact reading_incr ha (keep _ (by simp)) hm
  | ready =>
    simp only [hs] at hm
    have key : ∀ {m'}, (match th.var op.target with
          | .leaf _ => none
          | .ref c => (blkAt m.blocks c).map fun b => (m.setBlk c (some { b with kids := b.kids.dropLast })).put t
            { th with junk := b.kids.getLast?.toList, prog := rest, stage := .start }) = some m' → ∀ th ∈ m'.threads, th.reading := by
      intro m' hm
      cases hv : th.var op.target with
      | leaf n => simp only [hv] at hm; cases hm
      | ref c =>
        simp only [hv] at hm
        obtain ⟨b, hb, rfl⟩ := Option.map_eq_some_iff.1 hm
        exact reading_put ha ⟨by simp, hr⟩
    cases op with
    | push x y => cases hop0
    | _ => exact key hm
  | arg h => simp only [hs] at hm; exact reading_incr ha (keep _ (by simp)) hm
  | mutate h =>
    simp only [hs] at hm
    cases hv : th.var op.target with
    | leaf n => simp only [hv] at hm; cases hm
    | ref c =>
      simp only [hv] at hm
      obtain ⟨b, hb, rfl⟩ := Option.map_eq_some_iff.1 hm
      exact reading_put ha ⟨by simp, hr⟩

theorem reading_event (ha : ∀ th ∈ m.threads, th.reading) (t a : Nat) : (event m t).sync ≠ .load a := by
  have hsync : ∀ (f : Nat → Sync) (h : Hd), (∀ c, f c ≠ .load a) → h.sync f ≠ .load a := by
    intro f h hf
    cases h <;> simp [Hd.sync, hf]
  show (stepEvent m t).1 ≠ .load a
  unfold stepEvent
  cases ht : m.threads[t]? with
  | none => simp
  | some th =>
  have hs0 := (ha th (List.mem_of_getElem? ht)).1
  simp only
  cases th.dying with
  | some c => simp
  | none =>
  simp only
  cases th.junk with
  | cons h w => exact hsync _ _ (by simp)
  | nil =>
  simp only
  cases th.prog with
  | nil => simp
  | cons op rest =>
  simp only [stmtEvent]
  cases hs : th.stage with
  | start =>
    simp only
    cases op <;> simp only [beginEvent] <;> try simp
    · split <;> simp
    · split <;> simp
  | cow => exact (hs0 hs).elim
  | copying done =>
    simp only
    split
    · simp
    · split
      · simp
      · split <;> simp
  | ready => simp only; split <;> simp
  | _ => first | exact hsync _ _ (by simp) | simp

theorem reading_trace (ts : List Nat) : ∀ {m : M}, (∀ th ∈ m.threads, th.reading) → ∀ x ∈ trace m ts, ∀ a, x.sync ≠ .load a := by
  induction ts with
  | nil => intro m _ x hx; cases hx
  | cons t ts ih =>
    intro m ha x hx a
    rw [trace] at hx
    rcases List.mem_cons.1 hx with rfl | hx
    · exact reading_event ha t a
    · cases hm : step true m t with
      | none => rw [hm] at hx; cases hx
      | some m' => rw [hm] at hx; exact ih (reading_step ha hm) x hx a
end

end Dart.Conc
