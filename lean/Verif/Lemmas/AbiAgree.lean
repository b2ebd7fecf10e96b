import Verif.Lemmas.AbiRewrite
import Verif.Lemmas.AbiBytes

/-
A typed call and the generic one for it.
-/
namespace Dart

open Spec Abi

theorem sameButClass_refl (x : Option Nat) (s : XState) : SameButClass x s s :=
  ⟨fun _ _ => rfl, fun _ _ => rfl, rfl, rfl, rfl, rfl⟩

/-- Putting objects of different classes into the same variable. -/
theorem sameButClass_put {s : XState} {x : Nat} {o b : Obj} (h : o.rc = b.rc ∧ o.pkt.toHeap = b.pkt.toHeap) :
    SameButClass (some x) { s with core := s.core.put x o } { s with core := s.core.put x b } := by
  refine ⟨fun y hy => ?_, fun y hy => ?_, rfl, rfl, rfl, rfl⟩
  · have : y ≠ x := fun e => hy (by rw [e])
    simp [CState.put, upd, this]
  · cases hy
    simp [CState.put, upd, h.1, h.2]

theorem make_agree {s s' : XState} {byVal : Bool} {x rc : Nat} {rep rep' : Rep} {n n' : Obj} {r : Res Pkt} {o : XOut}
    (hx : s.core.objs x = none) (hn : n.rc = n'.rc ∧ n.pkt.toHeap = n'.pkt.toHeap)
    (h : s.with (s.core.make byVal x rep rc n r) = some (s', o)) :
    ∃ t, s.with (s.core.make byVal x rep' rc n' r) = some (t, o) ∧ SameButClass (some x) s' t := by
  cases r with
  | ok p => cases h; exact ⟨_, rfl, sameButClass_put ⟨rfl, rfl⟩⟩
  | throw e =>
    simp only [CState.make] at h ⊢
    cases byVal with
    | true => cases h; exact ⟨_, rfl, sameButClass_put hn⟩
    | false =>
      simp only [Bool.false_eq_true, if_false, spoil_none hx] at h ⊢
      cases h
      exact ⟨_, rfl, sameButClass_refl _ _⟩
  | ub => cases h

theorem construct_agree {s s' : XState} {c : CState} {k : Family} {byVal : Bool} {x rc : Nat} {r : Res Pkt} {o : XOut} (hx : c.objs x = none)
    (h : s.with (c.constructAs k byVal x rc r) = some (s', o)) :
    ∃ t, s.with (c.construct byVal x rc r) = some (t, o) ∧ SameButClass (some x) s' t := by
  have put : ∀ {o b : Obj}, (o.rc = b.rc ∧ o.pkt.toHeap = b.pkt.toHeap) →
    SameButClass (some x) { s with core := c.put x o } { s with core := c.put x b } :=
    fun h => sameButClass_put (s := { s with core := c }) h
  have hn : (nullObj k.rep).rc = (nullObj .packet).rc ∧ (nullObj k.rep).pkt.toHeap = (nullObj .packet).pkt.toHeap := by
    cases k <;> exact ⟨rfl, rfl⟩
  simp only [CState.constructAs] at h
  simp only [CState.construct]
  split at h
  · cases r with
    | ok p => cases h; rename_i hrc; rw [if_pos hrc]; exact ⟨_, rfl, put ⟨rfl, rfl⟩⟩
    | throw e =>
      rename_i hrc
      rw [if_pos hrc]
      cases byVal <;> cases h
      · exact ⟨_, rfl, put ⟨rfl, hn.2⟩⟩
      · exact ⟨_, rfl, put hn⟩
    | ub => cases h
  · rename_i hrc
    rw [if_neg hrc]
    cases byVal with
    | true => cases h; exact ⟨_, rfl, put hn⟩
    | false =>
      simp only [Bool.false_eq_true, if_false, spoil_none hx] at h ⊢
      cases h
      exact ⟨_, rfl, sameButClass_refl _ _⟩

/-- A call that makes an object changes no other variable. -/
theorem make_frame {s s' : CState} {byVal : Bool} {x rc w : Nat} {rep : Rep} {n : Obj} {r : Res Pkt} {o : Out} (hw : w ≠ x)
    (h : s.make byVal x rep rc n r = some (s', o)) : s'.objs w = s.objs w := by
  have spoil : (s.spoil x rep rc).objs w = s.objs w := by
    simp only [CState.spoil]
    split
    · rfl
    · split
      · rfl
      · simp [upd, hw]
  cases r with
  | ok p => cases h; simp [CState.put, upd, hw]
  | throw e =>
    cases byVal <;> cases h
    · exact spoil
    · simp [CState.put, upd, hw]
  | ub => cases h

theorem typed_make_frame {s s' : XState} {k : Family} {byVal : Bool} {x y w : Nat} {rep : Rep} {n : Obj} {f : Pkt → Res Pkt} {o : XOut}
    (h : (match s.core.typed k y with
      | none => none
      | some o => if x = y ∧ !byVal then none else s.with (s.core.make byVal x rep o.rc n (f o.pkt))) = some (s', o)) :
    s'.blocks = s.blocks ∧ (w ≠ x → s'.core.objs w = s.core.objs w) := by
  split at h
  · cases h
  · split at h
    · cases h
    · obtain ⟨m, q, h1, rfl, rfl⟩ := with_some h
      exact ⟨rfl, fun hw => make_frame hw h1⟩

theorem dynamic_of {s : XState} {a : ZState} (h : XHeld s a) {y : Nat} {o : Obj} (ho : s.core.objs y = some o) (hr : o.rep = .heap) :
    ∃ v, o.pkt = .heap v := by
  obtain ⟨b, _, hb, hc⟩ := h.obj ho
  have : o.pkt.isFinalized = false := by
    rw [hb.2.2.inState.1]
    exact hc.1 (hb.1.symm.trans hr)
  cases hp : o.pkt with
  | heap v => exact ⟨v, rfl⟩
  | buf b => rw [hp] at this; cases this

theorem change_agree {s s' : CState} {x : Nat} {m : CMut} {o : Out} (hf : CountersFit ⟨s, b, l⟩ (.change x m))
    (h : runHeapMut s x m = some (s', o)) : runMut s x m = some (s', o) := by
  simp only [runHeapMut] at h
  split at h
  · cases h
  rename_i d hd
  obtain ⟨hd, hr⟩ := typed_eq hd
  have hnb : d.rep ≠ .buffer := by rw [hr]; exact nofun
  simp only [runMut, hd, if_neg hnb]
  split at h
  · rename_i y hy
    split at h
    · cases h
    rename_i e he
    obtain ⟨he, -⟩ := typed_eq he
    have := hf y d e (stores_iff.2 hy) hd he
    simp only [hy, he]
    simp only [this, ne_eq, not_true, if_false] at h ⊢
    exact h
  · rename_i hno
    split
    · rename_i y hy; exact absurd hy (hno y)
    · exact h

theorem take_agree {s s' : XState} {a : ZState} (hh : XHeld s a) {x y : Nat} {w : Slot} {o : Out} {c : CState} (hf : CountersFit s (.take x w y))
    (h : runHeapTake s.core x w y = some (c, o)) : runTake s.core x w y = some (c, o) := by
  simp only [runHeapTake] at h
  split at h
  · cases h
  rename_i d hd
  obtain ⟨hd, hr⟩ := typed_eq hd
  have hnb : d.rep ≠ .buffer := by rw [hr]; exact nofun
  split at h
  · cases h
  rename_i e he
  obtain ⟨he, hr'⟩ := typed_eq he
  have hce : e.castEmpties = false := by
    have hr' : e.rep = .heap := hr'
    simp [Obj.castEmpties, hr']
  obtain ⟨v, hv⟩ := dynamic_of hh hd hr
  have := hf d e hd he
  simp only [runTake, hd, he, if_neg hnb, this, hv, Pkt.isFinalized, hce, CState.takeFrom, ne_eq, not_true, if_false, Bool.false_eq_true] at h ⊢
  exact h

theorem tcall_agree {signed : Bool} {s s' : XState} {a : ZState} (hh : XHeld s a) {c : TCall} {o : XOut}
    (hx : ∀ x, target c = some x → s.core.objs x = none) (hf : CountersFit s c) (h : c.run signed s = some (s', o)) :
    ∃ t, (untyped c).run signed s = some (t, o) ∧ SameButClass (target c) s' t := by
  have nul : ∀ k : Family, ∀ r : Rep, (nullObj k.rep).rc = (nullObj r).rc ∧ (nullObj k.rep).pkt.toHeap = (nullObj r).pkt.toHeap := by
    intro k r; cases k <;> cases r <;> exact ⟨rfl, rfl⟩
  cases c with
  | any c => exact ⟨s', h, sameButClass_refl _ _⟩
  | copy k byVal x y =>
    simp only [TCall.run] at h
    split at h
    · cases h
    rename_i b hb
    obtain ⟨hb, -⟩ := typed_eq hb
    split at h
    · cases h
    rename_i hxy
    simp only [untyped, XCall.run, Call.run, hb, if_neg hxy]
    exact make_agree (hx x rfl) (nul k .packet) h
  | move k byVal x y =>
    simp only [TCall.run] at h
    split at h
    · cases h
    rename_i b hb
    obtain ⟨hb, -⟩ := typed_eq hb
    split at h
    · cases h
    rename_i hxy
    simp only [untyped, XCall.run, runMove, hb, if_neg hxy]
    exact ⟨s', h, sameButClass_refl _ _⟩
  | destroy k x =>
    simp only [TCall.run] at h
    split at h
    · cases h
    rename_i b hb
    obtain ⟨hb, -⟩ := typed_eq hb
    simp only [untyped, XCall.run, Call.run, hb]
    exact ⟨s', h, sameButClass_refl _ _⟩
  | query k y q =>
    simp only [TCall.run] at h
    split at h
    · cases h
    rename_i b hb
    obtain ⟨hb, -⟩ := typed_eq hb
    simp only [untyped, XCall.run, Call.run, hb]
    cases hq : runQuery signed b.pkt q with
    | none => rw [hq] at h; cases h
    | some r => rw [hq] at h; cases h; exact ⟨s, rfl, sameButClass_refl _ _⟩
  | get k byVal x y w =>
    simp only [TCall.run] at h
    split at h
    · cases h
    rename_i b hb
    obtain ⟨hb, -⟩ := typed_eq hb
    split at h
    · cases h
    rename_i hxy
    simp only [untyped, XCall.run, Call.run, hb, if_neg hxy]
    exact make_agree (hx x rfl) (nul k .packet) h
  | change x m =>
    obtain ⟨t, q, h1, rfl, rfl⟩ := with_some h
    refine ⟨_, ?_, sameButClass_refl _ _⟩
    simp only [untyped, XCall.run, Call.run, change_agree (b := s.blocks) (l := s.leaked) hf h1, XState.with, Option.map_some]
  | take x w y =>
    obtain ⟨t, q, h1, rfl, rfl⟩ := with_some h
    refine ⟨_, ?_, sameButClass_refl _ _⟩
    simp only [untyped, XCall.run, take_agree (s' := s) hh hf h1, XState.with, Option.map_some]
  | lower byVal x y =>
    simp only [TCall.run] at h
    split at h
    · cases h
    rename_i b hb
    obtain ⟨hb, hr⟩ := typed_eq hb
    split at h
    · cases h
    rename_i hxy
    obtain ⟨v, hv⟩ := dynamic_of hh hb hr
    have : Conv.run b.pkt .toBuffer = b.pkt.finalize := by
      simp only [Conv.run, hv, Pkt.definalize, Pkt.toHeap, Res.bind]
    simp only [untyped, XCall.run, Call.run, hb, if_neg hxy, this, Conv.rep]
    exact ⟨s', h, sameButClass_refl _ _⟩
  | fromJson byVal x rc j => exact construct_agree (hx x rfl) h
  | lift byVal x y =>
    simp only [TCall.run] at h
    split at h
    · cases h
    rename_i b hb
    obtain ⟨hb, hr⟩ := typed_eq hb
    split at h
    · cases h
    rename_i hxy
    simp only [untyped, XCall.run, Call.run, hb, if_neg hxy, Conv.rep, Conv.run]
    exact ⟨s', h, sameButClass_refl _ _⟩
  | getBytes y =>
    simp only [TCall.run] at h
    split at h
    · cases h
    rename_i b hb
    obtain ⟨hb, -⟩ := typed_eq hb
    simp only [untyped, XCall.run, hb]
    exact ⟨s', h, sameButClass_refl _ _⟩
  | dupBytes p y =>
    simp only [TCall.run] at h
    split at h
    · cases h
    rename_i b hb
    obtain ⟨hb, -⟩ := typed_eq hb
    simp only [untyped, XCall.run, hb]
    exact ⟨s', h, sameButClass_refl _ _⟩
  | takeBytes byVal x rc p =>
    simp only [TCall.run] at h
    split at h
    · cases h
    rename_i hd
    have hf : rc = 1 ∨ rc = 2 := hf
    rw [if_pos hf] at h
    obtain ⟨t, h1, h2⟩ := construct_agree (hx x rfl) h
    refine ⟨t, ?_, h2⟩
    simp only [untyped, XCall.run]
    exact h1

end Dart
