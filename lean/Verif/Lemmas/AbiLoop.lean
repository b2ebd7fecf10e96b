import Verif.Model.AbiCalls
import Verif.Spec.AbiLoop

/-
Runs of the loop of `dart_for_each`.
-/
namespace Dart

open Spec Abi

theorem andThen_run (signed : Bool) (P Q : Prog) : ∀ (s : CState), (P.andThen Q).run signed s =
    match P.run signed s with
    | none => none
    | some (s', os) => match Q.run signed s' with | none => none | some (s2, os2) => some (s2, os ++ os2) := by
  induction P with
  | stop =>
    intro s
    simp only [Prog.andThen, Prog.run]
    cases Q.run signed s with
    | none => rfl
    | some r => rfl
  | call c next ih =>
    intro s
    simp only [Prog.andThen, Prog.run]
    cases c.run signed s with
    | none => rfl
    | some r =>
      simp only [ih]
      cases (next r.2).run signed r.1 with
      | none => rfl
      | some t =>
        simp only
        cases Q.run signed t.1 with
        | none => rfl
        | some u => rfl

theorem reads_run {signed : Bool} {P : Prog} : OnlyReads P → ∀ {s t s' : CState} {os : List Out}, s.objs = t.objs →
    P.run signed s = some (s', os) → s' = s ∧ P.run signed t = some (t, os) := by
  induction P with
  | stop => intro _ s t s' os _ h; cases h; exact ⟨rfl, rfl⟩
  | call c next ih =>
    intro hr s t s' os hst h
    obtain ⟨⟨y, q, rfl⟩, hn⟩ := hr
    simp only [Prog.run, Call.run, ← hst] at h ⊢
    cases ho : s.objs y with
    | none => rw [ho] at h; cases h
    | some o =>
      rw [ho] at h
      simp only at h ⊢
      cases hq : runQuery signed o.pkt q with
      | none => rw [hq] at h; cases h
      | some out =>
        rw [hq] at h
        simp only [Option.map_some] at h ⊢
        cases hp : (next out).run signed s with
        | none => rw [hp] at h; cases h
        | some r =>
          rw [hp] at h
          cases h
          obtain ⟨h1, h2⟩ := ih out (hn out) hst hp
          exact ⟨h1, by rw [h2]⟩

theorem staleOver_other {x : Nat} {its : Nat → Option It} (h : ∀ j it, its j = some it → it.src ≠ x) : staleOver x its = its := by
  funext j
  unfold staleOver
  cases hj : its j with
  | none => rfl
  | some it => simp [h j it hj]

theorem staleOver_at {x i : Nat} {its : Nat → Option It} {it : It} (h : its i = some it) (hx : it.src ≠ x) :
    staleOver x its i = some it := by
  simp [staleOver, h, hx]

theorem upd_same {α : Type} (f : Nat → α) (x : Nat) (a : α) : upd f x a x = a := by simp [upd]

theorem upd_upd {α : Type} (f : Nat → α) (x : Nat) (a b : α) : upd (upd f x a) x b = upd f x b := by
  funext y; simp only [upd]; split <;> rfl

theorem upd_id {α : Type} {f : Nat → α} {x : Nat} {a : α} (h : f x = a) : upd f x a = f := by
  funext y; simp only [upd]; split
  · next e => rw [e, h]
  · rfl

/-- The macro destroys the loop variable once more than it was initialised. -/
theorem loop_undefined {signed : Bool} {i x y rc : Nat} {body : Prog} (hy : y ≠ x)
    (hb : ∀ s s' os, body.run signed s = some (s', os) → s'.its i = s.its i) :
    ∀ (ps : List Pkt) (n : Nat) (err : Err) (s : CState), ps.length < n → s.its i = some ⟨rc, y, false, ps⟩ →
      (ps = [] → s.objs x = none) → (ps ≠ [] → err = .noError) → (forEachLoop i x (some x) body n err).run signed s = none := by
  intro ps
  induction ps with
  | nil =>
    intro n err s hn hi hx _
    cases n with
    | zero => simp at hn
    | succ n => simp [forEachLoop, Prog.run, Call.run, hi, hx rfl]
  | cons p ps ih =>
    intro n err s hn hi hx he
    cases n with
    | zero => simp at hn
    | succ n =>
      simp only [forEachLoop, Prog.run, Call.run, hi, List.isEmpty_cons, Bool.false_eq_true, if_false, he (by simp), if_true,
        andThen_run]
      cases hbr : body.run signed s with
      | none => rfl
      | some r =>
        obtain ⟨s1, os⟩ := r
        have h1 : s1.its i = some ⟨rc, y, false, p :: ps⟩ := by rw [hb s s1 os hbr, hi]
        simp only [h1, Bool.false_eq_true, if_false, List.tail_cons]
        cases hox : s1.objs x with
        | none => rfl
        | some o =>
          simp only [CState.drop]
          have h2 : staleOver x (upd s1.its i (some ⟨rc, y, false, ps⟩)) i = some ⟨rc, y, false, ps⟩ :=
            staleOver_at (upd_same _ _ _) hy
          simp only [h2, Bool.false_eq_true, if_false]
          cases ps with
          | nil =>
            simp only [CState.spoil, upd_same]
            rw [ih n _ _ (by simpa using hn) h2 (fun _ => upd_same _ _ _) (by simp)]
          | cons q qs =>
            simp only [CState.make, CState.put, Bool.false_eq_true, if_false, Out.err]
            have := ih n .noError ⟨upd (upd s1.objs x none) x (some ⟨.packet, rc, q⟩),
              staleOver x (staleOver x (upd s1.its i (some ⟨rc, y, false, q :: qs⟩))),
              s1.lost + if (upd s1.objs x none x).isSome = true then 1 else 0⟩ (by simpa using hn) (staleOver_at h2 hy) (by simp)
              (fun _ => rfl)
            rw [this]

/-- The same loop that leaves the loop variable alone at the end. -/
theorem loop_right {signed : Bool} {i x y rc : Nat} {body : Prog} {ans : Pkt → List Out} (hy : y ≠ x) (hr : OnlyReads body) {s0 : CState}
    (hs0 : s0.objs x = none) :
    ∀ (ps : List Pkt) (n : Nat) (s : CState), ps.length < n →
      (∀ p ∈ ps, ∃ s', body.run signed (s0.put x ⟨.packet, rc, p⟩) = some (s', ans p)) →
      s.its i = some ⟨rc, y, false, ps⟩ → (∀ j it, s.its j = some it → it.src ≠ x) →
      s.objs = upd s0.objs x (ps.head?.map fun p => ⟨.packet, rc, p⟩) →
      (forEachLoop i x none body n (fetched ps).err).run signed s =
        some (⟨s0.objs, upd s.its i none, s.lost⟩, rounds ans ps) := by
  intro ps
  induction ps with
  | nil =>
    intro n s hn _ hi hj ho
    cases n with
    | zero => simp at hn
    | succ n =>
      simp only [List.head?_nil, Option.map_none, upd_id hs0] at ho
      simp [forEachLoop, Prog.run, Call.run, hi, rounds, ho]
  | cons p ps ih =>
    intro n s hn hans hi hj ho
    cases n with
    | zero => simp at hn
    | succ n =>
      obtain ⟨s', hbody⟩ := hans p (by simp)
      have hobj : (s0.put x ⟨.packet, rc, p⟩).objs = s.objs := by rw [ho]; rfl
      obtain ⟨-, hb⟩ := reads_run hr hobj hbody
      simp only [forEachLoop, Prog.run, Call.run, hi, List.isEmpty_cons, Bool.false_eq_true, if_false, fetched, Out.err, if_true,
        andThen_run, hb, List.tail_cons]
      have hox : s.objs x = some ⟨.packet, rc, p⟩ := by rw [ho]; simp [upd]
      simp only [hox, CState.drop]
      have h1 : ∀ j it, upd s.its i (some ⟨rc, y, false, ps⟩) j = some it → it.src ≠ x := by
        intro j it h
        simp only [upd] at h
        split at h
        · cases h; exact hy
        · exact hj j it h
      rw [staleOver_other h1]
      simp only [upd_same, Bool.false_eq_true, if_false]
      cases ps with
      | nil =>
        have := ih n ⟨upd s.objs x none, upd s.its i (some ⟨rc, y, false, []⟩), s.lost⟩ (by simpa using hn) (by simp)
          (upd_same _ _ _) h1 (by rw [ho, upd_upd]; rfl)
        simp only [CState.spoil, upd_same]
        simp only [fetched, Out.err] at this
        rw [this]
        simp [rounds, upd_upd, fetched]
      | cons q qs =>
        have := ih n ⟨upd s.objs x (some ⟨.packet, rc, q⟩), upd s.its i (some ⟨rc, y, false, q :: qs⟩), s.lost⟩ (by simpa using hn)
          (fun p' hp => hans p' (by simp [hp])) (upd_same _ _ _) h1 (by rw [ho, upd_upd]; rfl)
        simp only [fetched, Out.err] at this
        simp only [CState.make, CState.put, upd_same, upd_upd, staleOver_other h1, Option.isSome_none, Bool.false_eq_true, if_false,
          Nat.add_zero]
        rw [this]
        simp [rounds, upd_upd, fetched]

/-- The macro, cut off after some rounds. -/
theorem loop_cut {signed : Bool} {i x y rc : Nat} {body : Prog} {ans : Pkt → List Out} (hy : y ≠ x) (hr : OnlyReads body) {s0 : CState}
    (fin : Option Nat) :
    ∀ (ps : List Pkt) (n : Nat) (s : CState), n ≤ ps.length →
      (∀ p ∈ ps, ∃ s', body.run signed (s0.put x ⟨.packet, rc, p⟩) = some (s', ans p)) →
      s.its i = some ⟨rc, y, false, ps⟩ → (∀ j it, s.its j = some it → it.src ≠ x) →
      s.objs = upd s0.objs x (ps.head?.map fun p => ⟨.packet, rc, p⟩) →
      ∃ s', (forEachLoop i x fin body n (fetched ps).err).run signed s = some (s', firstRounds ans n ps) := by
  intro ps
  induction ps with
  | nil =>
    intro n s hn _ hi hj ho
    cases n with
    | zero => exact ⟨s, rfl⟩
    | succ n => simp at hn
  | cons p ps ih =>
    intro n s hn hans hi hj ho
    cases n with
    | zero => exact ⟨s, rfl⟩
    | succ n =>
      obtain ⟨s', hbody⟩ := hans p (by simp)
      have hobj : (s0.put x ⟨.packet, rc, p⟩).objs = s.objs := by rw [ho]; rfl
      obtain ⟨-, hb⟩ := reads_run hr hobj hbody
      simp only [forEachLoop, Prog.run, Call.run, hi, List.isEmpty_cons, Bool.false_eq_true, if_false, fetched, Out.err, if_true,
        andThen_run, hb, List.tail_cons]
      have hox : s.objs x = some ⟨.packet, rc, p⟩ := by rw [ho]; simp [upd]
      simp only [hox, CState.drop]
      have h1 : ∀ j it, upd s.its i (some ⟨rc, y, false, ps⟩) j = some it → it.src ≠ x := by
        intro j it h
        simp only [upd] at h
        split at h
        · cases h; exact hy
        · exact hj j it h
      rw [staleOver_other h1]
      simp only [upd_same, Bool.false_eq_true, if_false]
      cases ps with
      | nil =>
        obtain ⟨s2, this⟩ := ih n ⟨upd s.objs x none, upd s.its i (some ⟨rc, y, false, []⟩), s.lost⟩ (by simpa using hn) (by simp)
          (upd_same _ _ _) h1 (by rw [ho, upd_upd]; rfl)
        refine ⟨s2, ?_⟩
        simp only [CState.spoil, upd_same]
        simp only [fetched, Out.err] at this
        rw [this]
        simp [firstRounds, fetched]
      | cons q qs =>
        obtain ⟨s2, this⟩ := ih n ⟨upd s.objs x (some ⟨.packet, rc, q⟩), upd s.its i (some ⟨rc, y, false, q :: qs⟩), s.lost⟩ (by simpa using hn)
          (fun p' hp => hans p' (by simp [hp])) (upd_same _ _ _) h1 (by rw [ho, upd_upd]; rfl)
        refine ⟨s2, ?_⟩
        simp only [fetched, Out.err] at this
        simp only [CState.make, CState.put, upd_same, upd_upd, staleOver_other h1, Option.isSome_none, Bool.false_eq_true, if_false,
          Nat.add_zero]
        rw [this]
        simp [firstRounds, fetched]

end Dart
