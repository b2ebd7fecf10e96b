import Verif.Spec.ApiSwap
import Verif.Lemmas.AbiTyped

/-
Programs that use both interfaces do what they are specified to do; the class of what is in a variable is its type.
-/
namespace Dart

open Spec Abi

structure MHeld (s : MState) (a : BState) : Prop where
  c : XHeld s.c a.c
  cxx : ∀ y, Both (HeldObj true) (s.cxx y) (a.cxx y)
  classes : ∀ y b, a.cxx y = some b → ClassOk b

theorem mHeld_empty : MHeld MState.empty BState.empty := ⟨xHeld_empty, fun _ => trivial, fun _ _ h => by cases h⟩

theorem MHeld.shows {s : MState} {a : BState} (h : MHeld s a) : BothShow s a := by
  refine ⟨h.c.shows, fun y => ?_⟩
  have := h.cxx y
  cases hx : s.cxx y <;> cases ha : a.cxx y <;> rw [hx, ha] at this <;>
    first | trivial | exact this.elim | exact ⟨this.1, this.2.1, this.2.2.inState⟩

theorem MHeld.setCxx {s : MState} {a : BState} (h : MHeld s a) (y : Nat) {o : Option Obj} {b : Option AObj}
    (hb : Both (HeldObj true) o b) (hc : ∀ d, b = some d → ClassOk d) : MHeld { s with cxx := upd s.cxx y o } (a.setCxx y b) := by
  refine ⟨h.c, fun x => ?_, fun x d hd => ?_⟩
  · simp only [upd, BState.setCxx]
    split
    · exact hb
    · exact h.cxx x
  · simp only [BState.setCxx] at hd
    split at hd
    · exact hc d hd
    · exact h.classes x d hd

theorem mstore_ok {s : MState} {a : BState} (h : MHeld s a) {y : Nat} {o : Obj} {b : AObj} (hob : HeldObj true o b)
    {r : Res Pkt} {out : Except Exc PState} (hr : Outcome true r out) (hc : ∀ p, out = .ok p → ClassOk { b with st := p }) :
    ∃ s' a' q, s.store y o r = some (s', q) ∧ CxxStored a y b out a' q ∧ MHeld s' a' ∧ s'.c = s.c := by
  cases r with
  | ok p =>
    cases out with
    | error e => exact hr.elim
    | ok st =>
      exact ⟨_, _, _, rfl, ⟨rfl, rfl⟩, h.setCxx y (o := some { o with pkt := p }) (b := some { b with st := st }) ⟨hob.1, hob.2.1, hr⟩
        (fun d hd => by cases hd; exact hc st rfl), rfl⟩
  | throw e =>
    cases out with
    | ok st => exact hr.elim
    | error e' => cases hr; exact ⟨_, _, _, rfl, ⟨rfl, rfl⟩, h, rfl⟩
  | ub => cases out <;> exact hr.elim

theorem mcall_ok {signed : Bool} {s : MState} {a : BState} (h : MHeld s a) {c : MCall} (hw : MAllowed a c) :
    ∃ s' a' o, c.run signed s = some (s', o) ∧ MCallDoes signed a c a' o ∧ MHeld s' a' ∧ s'.c.core.lost = s.c.core.lost ∧
      s'.c.leaked = s.c.leaked := by
  cases c with
  | c call =>
    obtain ⟨s', a', o, h1, h2, h3, h4, h5⟩ := tcall_ok (signed := signed) h.c hw
    exact ⟨{ s with c := s' }, { a with c := a' }, .c o, by simp [MCall.run, h1], ⟨a', o, h2, rfl, rfl⟩, ⟨h3, h.cxx, h.classes⟩, h4, h5⟩
  | declare y rep rc =>
    obtain ⟨hy, _⟩ := hw
    have hs := (h.cxx y).of_none hy
    simp only [MCall.run, hs]
    refine ⟨_, _, _, rfl, ⟨rfl, rfl⟩, ?_, rfl, rfl⟩
    refine h.setCxx y ?_ ?_
    · have := heldObj_null (z := true) rep
      exact ⟨this.1, rfl, this.2.2⟩
    · intro d hd; cases hd; cases rep
      · exact ⟨fun _ => rfl, nofun⟩
      · exact ⟨nofun, fun _ => rfl⟩
      · exact ⟨nofun, nofun⟩
  | change y m =>
    obtain ⟨⟨b, hb, hrep, hm⟩, _, _⟩ := hw
    obtain ⟨o, ho, hob⟩ := (h.cxx y).of_some hb
    have hargs : m.All fun v => Held true (cxxArg s.cxx v) (cxxArgOf a.cxx v) := by
      refine hm.imp' fun v hv => ?_
      cases v with
      | const v => exact ⟨rfl, hv⟩
      | var z =>
        obtain ⟨_, d, hd, _⟩ := hv
        obtain ⟨p, hp, hpd⟩ := (h.cxx z).of_some hd
        simp only [cxxArg, cxxArgOf, hp, hd]
        exact hpd.2.2
    obtain ⟨out, h1, h2⟩ := mut_ok hob.2.2 m hargs
    obtain ⟨s', a', q, h3, h4, h5, h6⟩ := mstore_ok h hob (y := y) h2 (by
      rintro p rfl
      have := mutOk_dynamic h1
      exact ⟨fun _ => this.2, fun e => absurd e hrep⟩)
    exact ⟨s', a', q, by simp only [MCall.run, ho, h3], ⟨b, out, hb, h1, h4⟩, h5, by rw [h6], by rw [h6]⟩
  | finalize y =>
    obtain ⟨b, hb, hrep⟩ := hw
    obtain ⟨o, ho, hob⟩ := (h.cxx y).of_some hb
    obtain ⟨out, h1, h2⟩ := finalize_held hob.2.2
    obtain ⟨s', a', q, h3, h4, h5, h6⟩ := mstore_ok h hob (y := y) h2 (by
      intro p _
      exact ⟨(fun e => by rw [hrep] at e; cases e), (fun e => by rw [hrep] at e; cases e)⟩)
    exact ⟨s', a', q, by simp only [MCall.run, ho, h3], ⟨b, out, hb, h1, h4⟩, h5, by rw [h6], by rw [h6]⟩
  | definalize y =>
    obtain ⟨b, hb, hrep⟩ := hw
    obtain ⟨o, ho, hob⟩ := (h.cxx y).of_some hb
    obtain ⟨s', a', q, h3, h4, h5, h6⟩ := mstore_ok h hob (y := y) (definalize_held hob.2.2) (by
      intro p _
      exact ⟨(fun e => by rw [hrep] at e; cases e), (fun e => by rw [hrep] at e; cases e)⟩)
    exact ⟨s', a', q, by simp only [MCall.run, ho, h3], ⟨b, hb, h4⟩, h5, by rw [h6], by rw [h6]⟩
  | leave y =>
    obtain ⟨b, hb⟩ := Option.ne_none_iff_exists'.1 hw
    obtain ⟨o, ho, _⟩ := (h.cxx y).of_some hb
    simp only [MCall.run, ho]
    exact ⟨_, _, _, rfl, ⟨rfl, rfl⟩, h.setCxx y (o := none) (b := none) trivial (fun _ e => by cases e), rfl, rfl⟩
  | toC move x y =>
    obtain ⟨hx, hy⟩ := hw
    obtain ⟨b, hb⟩ := Option.ne_none_iff_exists'.1 hy
    obtain ⟨o, ho, hob⟩ := (h.cxx y).of_some hb
    have hk := h.classes y b hb
    have h1 : MHeld { s with c := { s.c with core := s.c.core.put x o } } { a with c := { a.c with core := a.c.core.set x (some b) } } :=
      ⟨⟨h.c.core.put x hob, h.c.classes.put x hk, h.c.blocks⟩, h.cxx, h.classes⟩
    simp only [MCall.run, ho]
    refine ⟨_, _, _, rfl, ⟨b, hb, rfl, rfl⟩, ?_, put_lost ((h.c.core.1 x).of_none hx) _, rfl⟩
    cases move with
    | true =>
      exact h1.setCxx y (o := some { o with pkt := o.pkt.movedFrom }) (b := some { b with st := ⟨b.st.finalized, .null⟩ })
        ⟨hob.1, hob.2.1, hob.2.2.leftover⟩ (fun d hd => by cases hd; exact ⟨hk.1, hk.2⟩)
    | false =>
      have := h1.setCxx y (o := some o) (b := some b) hob (fun d hd => by cases hd; exact hk)
      refine ⟨this.c, fun z => ?_, this.classes⟩
      have hz := this.cxx z
      by_cases e : z = y
      · subst e
        simpa [upd, ho] using hz
      · simpa [upd, e] using hz
  | toCxx y x =>
    obtain ⟨b, d, hb, hd, hrep⟩ := hw
    obtain ⟨o, ho, hob⟩ := (h.cxx y).of_some hb
    obtain ⟨p, hp, hpd⟩ := (h.c.core.1 x).of_some hd
    by_cases hrc : d.rc = b.rc
    · have e1 : p.rc = o.rc := by rw [hpd.2.1, hob.2.1, hrc]
      have e2 : p.rep = o.rep := by rw [hpd.1, hob.1, hrep hrc]
      refine ⟨{ s with cxx := upd s.cxx y (some { o with pkt := p.pkt }) }, a.setCxx y (some d), .done,
        by simp only [MCall.run, ho, hp, ne_eq, e1, e2, not_true_eq_false, if_false],
        ⟨b, d, hb, hd, by rw [if_pos hrc]; exact ⟨rfl, rfl⟩⟩, ?_, rfl, rfl⟩
      refine h.setCxx y (o := some { o with pkt := p.pkt }) (b := some d) ⟨e2 ▸ hpd.1, e1 ▸ hpd.2.1, hpd.2.2⟩ ?_
      intro e he; cases he; exact h.c.classes x d hd
    · have e1 : p.rc ≠ o.rc := by rw [hpd.2.1, hob.2.1]; exact hrc
      exact ⟨s, a, .threw .typeError, by simp only [MCall.run, ho, hp, ne_eq, e1, not_false_eq_true, if_true],
        ⟨b, d, hb, hd, by rw [if_neg hrc]; exact ⟨rfl, rfl⟩⟩, h, rfl, rfl⟩

theorem mprog_ok {signed : Bool} (P : MProg) : ∀ {s : MState} {a : BState}, MHeld s a → MCareful signed P a →
    ∃ s' a' os, P.run signed s = some (s', os) ∧ MProgDoes signed P a a' os ∧ MHeld s' a' ∧ s'.c.core.lost = s.c.core.lost ∧
      s'.c.leaked = s.c.leaked := by
  induction P with
  | stop => intro s a h _; exact ⟨s, a, [], rfl, ⟨rfl, rfl⟩, h, rfl, rfl⟩
  | call c next ih =>
    intro s a h hc
    obtain ⟨s1, a1, o, h1, h2, h3, h4, h4'⟩ := mcall_ok (signed := signed) h hc.1
    obtain ⟨s2, a2, os, h5, h6, h7, h8, h9⟩ := ih o h3 (hc.2 a1 o h2)
    exact ⟨s2, a2, o :: os, by simp [MProg.run, h1, h5], ⟨a1, o, os, h2, h6, rfl⟩, h7, h8.trans h4, h9.trans h4'⟩

/-! ### Types -/

/-- The class of what is in a C variable is its type. -/
def Fitting (ty : Nat → Rep) (s : CState) : Prop := ∀ x o, s.objs x = some o → o.rep = ty x

variable {ty : Nat → Rep}

theorem fitting_upd {s t : CState} (h : Fitting ty s) {x : Nat} {o : Option Obj} (ho : ∀ p, o = some p → p.rep = ty x)
    (ht : t.objs = upd s.objs x o) : Fitting ty t := by
  intro y p hp
  rw [ht] at hp
  unfold upd at hp
  split at hp
  · rename_i e; subst e; exact ho p hp
  · exact h y p hp

theorem Fitting.put {s : CState} (h : Fitting ty s) {x : Nat} {o : Obj} (ho : o.rep = ty x) : Fitting ty (s.put x o) :=
  fitting_upd h (fun _ e => by cases e; exact ho) rfl

theorem Fitting.change {s : CState} (h : Fitting ty s) {x : Nat} {o : Obj} (ho : o.rep = ty x) : Fitting ty (s.change x o) :=
  fitting_upd h (fun _ e => by cases e; exact ho) rfl

theorem Fitting.rewrite {s : CState} (h : Fitting ty s) {x : Nat} {p : Obj} (hp : s.objs x = some p) {q : Pkt} :
    Fitting ty (s.change x { p with pkt := q }) := h.change (h x p hp)

theorem Fitting.drop {s : CState} (h : Fitting ty s) (x : Nat) : Fitting ty (s.drop x) :=
  fitting_upd h (fun _ e => by cases e) rfl

theorem Fitting.spoil {s : CState} (h : Fitting ty s) (x : Nat) (rep : Rep) (rc : Nat) : Fitting ty (s.spoil x rep rc) := by
  unfold CState.spoil
  split
  · exact h
  · split
    · exact h
    · exact fitting_upd h (o := none) (fun _ e => by cases e) rfl

theorem Fitting.its {s t : CState} (h : Fitting ty s) (e : t.objs = s.objs) : Fitting ty t := by
  intro x o ho; rw [e] at ho; exact h x o ho

theorem Fitting.spoilIt {s : CState} (h : Fitting ty s) (i : Nat) : Fitting ty (s.spoilIt i) := by
  unfold CState.spoilIt
  split <;> exact h.its rfl

theorem fitting_make {s s' : CState} (h : Fitting ty s) {byVal : Bool} {x rc : Nat} {rep : Rep} {n : Obj} {r : Res Pkt} {o : Out}
    (hx : rep = ty x) (hn : byVal = true → (∀ p, r ≠ .ok p) → n.rep = ty x) (hr : s.make byVal x rep rc n r = some (s', o)) :
    Fitting ty s' := by
  cases r with
  | ok p => simp only [CState.make] at hr; cases hr; exact h.put hx
  | throw e =>
    simp only [CState.make] at hr
    split at hr
    · rename_i hv; cases hr; exact h.put (hn hv (by simp))
    · cases hr; exact h.spoil _ _ _
  | ub => cases hr

theorem nullObj_rep (r : Rep) : (nullObj r).rep = r := by cases r <;> rfl

theorem fitting_applyMut {s s' : CState} (h : Fitting ty s) {x : Nat} {o : Obj} (ho : s.objs x = some o) {m : CMut} {q : Out}
    (hr : applyMut s x o m = some (s', q)) : Fitting ty s' := by
  unfold applyMut at hr
  split at hr
  · cases hr; exact h.change (o := ⟨o.rep, o.rc, _⟩) (h x o ho)
  · cases hr; exact h
  · cases hr

theorem fitting_call {signed : Bool} {s s' : CState} (h : Fitting ty s) {c : Call} {o : Out} (hc : CTyped ty (.any (.plain c)))
    (hs : SameType ty (.c (.any (.plain c)))) (hr : c.run signed s = some (s', o)) : Fitting ty s' := by
  cases c with
  | init packet x rc v =>
    simp only [Call.run] at hr
    split at hr <;> cases hr
    · exact h.put (o := ⟨_, _, _⟩) hc.symm
    · exact h.spoil _ _ _
  | initBuffer x rc =>
    simp only [Call.run] at hr
    split at hr <;> cases hr
    · exact h.put (o := ⟨_, _, _⟩) hc.symm
    · exact h.spoil _ _ _
  | copy byVal x y =>
    simp only [Call.run] at hr
    split at hr
    · cases hr
    · rename_i p hp
      split at hr
      · cases hr
      · exact fitting_make h ((h y p hp).trans hs.symm) (fun _ e => absurd rfl (e _)) hr
  | change x m =>
    simp only [Call.run, runMut] at hr
    split at hr
    · cases hr
    · rename_i p hp
      repeat' split at hr
      all_goals first | exact fitting_applyMut h hp hr | (cases hr; first | exact h | done)
  | get byVal x y w =>
    simp only [Call.run] at hr
    split at hr
    · cases hr
    · split at hr
      · cases hr
      · exact fitting_make h hc.symm (fun _ _ => (nullObj_rep _).trans hc.symm) hr
  | conv byVal x y c =>
    have hc' : c.rep = ty x := by cases c <;> exact hc.symm
    simp only [Call.run] at hr
    split at hr
    · cases hr
    · split at hr
      · cases hr
      · exact fitting_make h hc' (fun _ _ => (nullObj_rep _).trans hc') hr
  | query y q =>
    simp only [Call.run] at hr
    split at hr
    · cases hr
    · cases hq : runQuery signed _ q with
      | none => rw [hq] at hr; cases hr
      | some r => rw [hq] at hr; cases hr; exact h
  | destroy x =>
    simp only [Call.run] at hr
    split at hr <;> cases hr
    exact h.drop x
  | itGet byVal x i =>
    simp only [Call.run] at hr
    split at hr
    · cases hr
    · split at hr
      · cases hr
      · split at hr
        · exact fitting_make h hc.symm (fun _ _ => (nullObj_rep _).trans hc.symm) hr
        · split at hr <;> cases hr
          · exact h.put ((nullObj_rep _).trans hc.symm)
          · exact h.spoil _ _ _
  | itDoneDestroy i x =>
    simp only [Call.run] at hr
    repeat' split at hr
    all_goals first
      | (cases hr; done)
      | (cases hr; exact h.its rfl)
      | (cases hr; exact Fitting.drop (h.its rfl) _)
  | _ =>
    simp only [Call.run] at hr
    repeat' split at hr
    all_goals first
      | (cases hr; done)
      | (cases hr; exact h.spoilIt _)
      | (cases hr; exact h.its rfl)

theorem fitting_with {s s' : XState} {r : Option (CState × Out)} {o : XOut} (hr : s.with r = some (s', o))
    (h : ∀ t q, r = some (t, q) → Fitting ty t) : Fitting ty s'.core := by
  cases r with
  | none => cases hr
  | some p => cases hr; exact h p.1 p.2 rfl

theorem Fitting.takeFrom {s : CState} (h : Fitting ty s) {y : Nat} {a : Obj} (ha : a.rep = ty y) (e : Bool) : Fitting ty (s.takeFrom y a e) := by
  unfold CState.takeFrom
  split
  · exact h.change (o := ⟨a.rep, a.rc, _⟩) ha
  · exact h

theorem fitting_construct {s s' : CState} (h : Fitting ty s) {byVal : Bool} {x rc : Nat} {r : Res Pkt} {o : Out} (hx : ty x = .packet)
    (hr : s.construct byVal x rc r = some (s', o)) : Fitting ty s' := by
  unfold CState.construct at hr
  repeat' split at hr
  all_goals first
    | (cases hr; done)
    | (cases hr; exact h.put ((nullObj_rep _).trans hx.symm))
    | (cases hr; exact h.put (o := ⟨_, _, _⟩) hx.symm)
    | (cases hr; exact h.spoil _ _ _)

theorem fitting_constructAs {s s' : CState} (h : Fitting ty s) {k : Family} {byVal : Bool} {x rc : Nat} {r : Res Pkt} {o : Out} (hx : ty x = k.rep)
    (hr : s.constructAs k byVal x rc r = some (s', o)) : Fitting ty s' := by
  unfold CState.constructAs at hr
  repeat' split at hr
  all_goals first
    | (cases hr; done)
    | (cases hr; exact h.put ((nullObj_rep _).trans hx.symm))
    | (cases hr; exact h.put (o := ⟨_, _, _⟩) hx.symm)
    | (cases hr; exact h.put (o := ⟨_, _, _⟩) ((nullObj_rep _).trans hx.symm))
    | (cases hr; exact h.spoil _ _ _)

theorem fitting_xcall {signed : Bool} {s s' : XState} (h : Fitting ty s.core) {c : XCall} {o : XOut} (hc : CTyped ty (.any c))
    (hs : SameType ty (.c (.any c))) (hr : c.run signed s = some (s', o)) : Fitting ty s'.core := by
  cases c with
  | plain c => exact fitting_with hr fun t q e => fitting_call h hc hs e
  | move byVal x y =>
    refine fitting_with hr fun t q e => ?_
    simp only [runMove] at e
    split at e
    · cases e
    · rename_i p hp
      split at e
      · cases e
      · cases e
        exact (h.rewrite hp).put ((h y p hp).trans hs.symm)
  | take x w y =>
    refine fitting_with hr fun t q e => ?_
    simp only [runTake] at e
    split at e
    · cases e
    · rename_i p hp
      split at e
      · cases e; exact h
      · split at e
        · cases e
        · rename_i d hd
          repeat' split at e
          all_goals first
            | (cases e; done)
            | (cases e; exact h)
            | (cases e; exact Fitting.takeFrom (h.rewrite hp) (h y d hd) _)
            | (cases e; exact Fitting.takeFrom h (h y d hd) _)
  | fromJson byVal x rc j => exact fitting_with hr fun t q e => fitting_construct h hc e
  | takeBytes byVal x rc p =>
    simp only [XCall.run] at hr
    split at hr
    · cases hr
    · exact fitting_with hr fun t q e => fitting_construct h hc e
  | getBytes y =>
    simp only [XCall.run] at hr
    split at hr
    · cases hr
    · cases hq : runBytes _ with
      | none => rw [hq] at hr; cases hr
      | some r => rw [hq] at hr; cases hr; exact h
  | dupBytes p y =>
    simp only [XCall.run] at hr
    split at hr
    · cases hr
    · cases hq : runBytes _ with
      | none => rw [hq] at hr; cases hr
      | some r => rw [hq] at hr; cases hr; exact h
  | free p =>
    simp only [XCall.run] at hr
    split at hr <;> cases hr
    exact h

theorem fitting_tcall {signed : Bool} {s s' : XState} (h : Fitting ty s.core) {c : TCall} {o : XOut} (hc : CTyped ty c)
    (hs : SameType ty (.c c)) (hr : c.run signed s = some (s', o)) : Fitting ty s'.core := by
  cases c with
  | any c => exact fitting_xcall h hc hs hr
  | copy k byVal x y =>
    simp only [TCall.run] at hr
    split at hr
    · cases hr
    · split at hr
      · cases hr
      · exact fitting_with hr fun t q e => fitting_make h hc.1.symm (fun _ _ => (nullObj_rep _).trans hc.1.symm) e
  | move k byVal x y =>
    simp only [TCall.run] at hr
    split at hr
    · cases hr
    · rename_i p hp
      obtain ⟨hp, hk⟩ := typed_some.1 hp
      split at hr
      · cases hr
      · cases hr
        exact (h.rewrite hp).put (hk.trans hc.1.symm)
  | destroy k x =>
    simp only [TCall.run] at hr
    split at hr <;> cases hr
    exact h.drop x
  | query k y q =>
    simp only [TCall.run] at hr
    split at hr
    · cases hr
    · cases hq : runQuery signed _ q with
      | none => rw [hq] at hr; cases hr
      | some r => rw [hq] at hr; cases hr; exact h
  | get k byVal x y w =>
    simp only [TCall.run] at hr
    split at hr
    · cases hr
    · split at hr
      · cases hr
      · exact fitting_with hr fun t q e => fitting_make h hc.1.symm (fun _ _ => (nullObj_rep _).trans hc.1.symm) e
  | change x m =>
    refine fitting_with hr fun t q e => ?_
    simp only [runHeapMut] at e
    split at e
    · cases e
    · rename_i p hp
      repeat' split at e
      all_goals first | exact fitting_applyMut h (typed_some.1 hp).1 e | (cases e; first | exact h | done)
  | take x w y =>
    refine fitting_with hr fun t q e => ?_
    simp only [runHeapTake] at e
    split at e
    · cases e
    · rename_i p hp
      split at e
      · cases e
      · rename_i d hd
        repeat' split at e
        all_goals first
          | (cases e; done)
          | (cases e; exact h)
          | (cases e; exact Fitting.takeFrom (h.rewrite (typed_some.1 hp).1) (h y d (typed_some.1 hd).1) _)
  | lower byVal x y =>
    simp only [TCall.run] at hr
    split at hr
    · cases hr
    · split at hr
      · cases hr
      · exact fitting_with hr fun t q e => fitting_make h hc.1.symm (fun _ _ => (nullObj_rep _).trans hc.1.symm) e
  | lift byVal x y =>
    simp only [TCall.run] at hr
    split at hr
    · cases hr
    · split at hr
      · cases hr
      · exact fitting_with hr fun t q e => fitting_make h hc.1.symm (fun _ _ => (nullObj_rep _).trans hc.1.symm) e
  | fromJson byVal x rc j => exact fitting_with hr fun t q e => fitting_constructAs h (k := .heap) hc e
  | getBytes y =>
    simp only [TCall.run] at hr
    split at hr
    · cases hr
    · cases hq : runBytes _ with
      | none => rw [hq] at hr; cases hr
      | some r => rw [hq] at hr; cases hr; exact h
  | dupBytes p y =>
    simp only [TCall.run] at hr
    split at hr
    · cases hr
    · cases hq : runBytes _ with
      | none => rw [hq] at hr; cases hr
      | some r => rw [hq] at hr; cases hr; exact h
  | takeBytes byVal x rc p =>
    simp only [TCall.run] at hr
    split at hr
    · cases hr
    · split at hr <;> exact fitting_with hr fun t q e => fitting_constructAs h (k := .buffer) hc e

/-- The same on both sides. -/
def FittingBoth (ty cty : Nat → Rep) (s : MState) : Prop := Fitting ty s.c.core ∧ ∀ y o, s.cxx y = some o → o.rep = cty y

variable {cty : Nat → Rep}

theorem fitting_cxx {f : Nat → Option Obj} (h : ∀ y o, f y = some o → o.rep = cty y) {y : Nat} {o : Option Obj}
    (ho : ∀ p, o = some p → p.rep = cty y) : ∀ z p, upd f y o z = some p → p.rep = cty z := by
  intro z p hp
  unfold upd at hp
  split at hp
  · rename_i e; subst e; exact ho p hp
  · exact h z p hp

theorem fitting_store {s s' : MState} (h : FittingBoth ty cty s) {y : Nat} {o : Obj} (ho : s.cxx y = some o) {r : Res Pkt} {q : MOut}
    (hr : s.store y o r = some (s', q)) : FittingBoth ty cty s' := by
  cases r with
  | ok p => cases hr; exact ⟨h.1, fitting_cxx h.2 (fun _ e => by cases e; exact h.2 y o ho)⟩
  | throw e => cases hr; exact h
  | ub => cases hr

theorem fitting_mcall {signed : Bool} {s s' : MState} (h : FittingBoth ty cty s) {c : MCall} {o : MOut} (hc : CxxTyped ty cty c)
    (hs : SameType ty c) (hr : c.run signed s = some (s', o)) : FittingBoth ty cty s' := by
  cases c with
  | c call =>
    simp only [MCall.run] at hr
    cases hq : call.run signed s.c with
    | none => rw [hq] at hr; cases hr
    | some r => rw [hq] at hr; cases hr; exact ⟨fitting_tcall h.1 hc hs hq, h.2⟩
  | declare y rep rc =>
    simp only [MCall.run] at hr
    split at hr <;> cases hr
    exact ⟨h.1, fitting_cxx h.2 (fun _ e => by cases e; exact (nullObj_rep _).trans hc.symm)⟩
  | change y m =>
    simp only [MCall.run] at hr
    split at hr
    · cases hr
    · rename_i p hp; exact fitting_store h hp hr
  | finalize y =>
    simp only [MCall.run] at hr
    split at hr
    · cases hr
    · rename_i p hp; exact fitting_store h hp hr
  | definalize y =>
    simp only [MCall.run] at hr
    split at hr
    · cases hr
    · rename_i p hp; exact fitting_store h hp hr
  | leave y =>
    simp only [MCall.run] at hr
    split at hr <;> cases hr
    exact ⟨h.1, fitting_cxx h.2 (fun _ e => by cases e)⟩
  | toC move x y =>
    simp only [MCall.run] at hr
    split at hr
    · cases hr
    · rename_i p hp
      cases hr
      have hk := h.2 y p hp
      refine ⟨Fitting.put h.1 (hk.trans hc.symm), ?_⟩
      cases move
      · exact h.2
      · exact fitting_cxx h.2 (fun _ e => by cases e; exact hk)
  | toCxx y x =>
    simp only [MCall.run] at hr
    split at hr
    · cases hr
    · rename_i p hp
      repeat' split at hr
      all_goals first
        | (cases hr; done)
        | (cases hr; exact h)
        | (cases hr; exact ⟨h.1, fitting_cxx h.2 (fun _ e => by cases e; exact h.2 y p hp)⟩)

theorem fitting_run {signed : Bool} (P : MProg) : ∀ {s s' : MState} {os : List MOut}, FittingBoth ty cty s →
    AllSteps (CxxTyped ty cty) P → AllSteps (SameType ty) P → P.run signed s = some (s', os) → FittingBoth ty cty s' := by
  induction P with
  | stop => intro s s' os h _ _ hr; cases hr; exact h
  | call c next ih =>
    intro s s' os h hc hs hr
    simp only [MProg.run] at hr
    split at hr
    · cases hr
    · rename_i s1 o h1
      split at hr
      · cases hr
      · rename_i s2 os2 h2
        cases hr
        exact ih o (fitting_mcall h hc.1 hs.1 h1) (hc.2 o) (hs.2 o) h2

end Dart
