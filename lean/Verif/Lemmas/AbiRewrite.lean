import Verif.Lemmas.AbiTyped

/-
The same program on heaps and buffers, and on packets only.
-/
namespace Dart

open Spec Abi

/-- The object as a packet. -/
def asPkt (o : Obj) : Obj := { o with rep := .packet }

/-- All objects as packets. -/
def packetsC (s : CState) : CState := { s with objs := fun x => (s.objs x).map asPkt }

/-- All objects as packets. -/
def packetsX (s : XState) : XState := { s with core := packetsC s.core }

/-- All counters are thread-safe. -/
def AllSafe (s : CState) : Prop := ∀ x o, s.objs x = some o → o.rc = 1

theorem same_iff {s t : XState} : SameButPackets s t ↔ t = packetsX s := by
  constructor
  · rintro ⟨h1, h2, h3, h4, h5⟩
    obtain ⟨⟨o, i, l⟩, b, k⟩ := t
    simp only at h1 h2 h3 h4 h5
    subst h2 h3 h4 h5
    have : o = fun x => (s.core.objs x).map asPkt := funext h1
    subst this
    rfl
  · rintro rfl
    exact ⟨fun _ => rfl, rfl, rfl, rfl, rfl⟩

theorem packets_put (s : CState) (x : Nat) (o : Obj) : packetsC (s.put x o) = (packetsC s).put x (asPkt o) := by
  simp only [packetsC, CState.put, CState.mk.injEq, Option.isSome_map, and_true]
  funext y
  simp only [upd]
  split <;> rfl

theorem packets_change (s : CState) (x : Nat) (o : Obj) : packetsC (s.change x o) = (packetsC s).change x (asPkt o) := by
  simp only [packetsC, CState.change, CState.mk.injEq, and_true]
  funext y
  simp only [upd]
  split <;> rfl

theorem packets_drop (s : CState) (x : Nat) : packetsC (s.drop x) = (packetsC s).drop x := by
  simp only [packetsC, CState.drop, CState.mk.injEq, and_true]
  funext y
  simp only [upd]
  split <;> rfl

theorem AllSafe.put {s : CState} (h : AllSafe s) (x : Nat) {o : Obj} (ho : o.rc = 1) : AllSafe (s.put x o) := by
  intro y p hp
  simp only [CState.put, upd] at hp
  split at hp
  · cases hp; exact ho
  · exact h y p hp

theorem AllSafe.change {s : CState} (h : AllSafe s) (x : Nat) {o : Obj} (ho : o.rc = 1) : AllSafe (s.change x o) := by
  intro y p hp
  simp only [CState.change, upd] at hp
  split at hp
  · cases hp; exact ho
  · exact h y p hp

theorem AllSafe.drop {s : CState} (h : AllSafe s) (x : Nat) : AllSafe (s.drop x) := by
  intro y p hp
  simp only [CState.drop, upd] at hp
  split at hp
  · cases hp
  · exact h y p hp

/-- A call that makes an object makes the same packet, if what is made in case of an error is the same. -/
theorem make_packets {s s' : CState} {byVal : Bool} {x : Nat} {rep : Rep} {null : Obj} {r : Res Pkt} {o : Out} (hs : AllSafe s)
    (hx : s.objs x = none) (hn : ∀ e, byVal = true → r = .throw e → asPkt null = nullObj .packet ∧ null.rc = 1) (h : s.make byVal x rep 1 null r = some (s', o)) :
    (packetsC s).make byVal x .packet 1 (nullObj .packet) r = some (packetsC s', o) ∧ AllSafe s' := by
  cases r with
  | ok p =>
    simp only [CState.make, Option.some.injEq, Prod.mk.injEq] at h ⊢
    obtain ⟨rfl, rfl⟩ := h
    exact ⟨⟨(packets_put s x ⟨rep, 1, p⟩).symm, rfl⟩, hs.put x rfl⟩
  | throw e =>
    simp only [CState.make] at h ⊢
    cases byVal with
    | true =>
      obtain ⟨h1, h2⟩ := hn e rfl rfl
      simp only [if_true, Option.some.injEq, Prod.mk.injEq] at h ⊢
      obtain ⟨rfl, rfl⟩ := h
      exact ⟨⟨by rw [packets_put, h1], rfl⟩, hs.put x h2⟩
    | false =>
      simp only [Bool.false_eq_true, if_false, Option.some.injEq, Prod.mk.injEq, spoil_none hx] at h ⊢
      obtain ⟨rfl, rfl⟩ := h
      exact ⟨⟨spoil_none (show (packetsC s).objs x = none by simp [packetsC, hx]) _ _, rfl⟩, hs⟩
  | ub => cases h

theorem with_some {s s' : XState} {r : Option (CState × Out)} {o : XOut} (h : s.with r = some (s', o)) :
    ∃ m q, r = some (m, q) ∧ s' = { s with core := m } ∧ o = .plain q := by
  cases r with
  | none => cases h
  | some r => cases h; exact ⟨_, _, rfl, rfl, rfl⟩

theorem typed_eq {s : CState} {k : Family} {y : Nat} {o : Obj} (h : s.typed k y = some o) : s.objs y = some o ∧ o.rep = k.rep := by
  simp only [CState.typed] at h
  split at h
  · cases h
  · split at h
    · cases h; exact ⟨by assumption, by assumption⟩
    · cases h

theorem make_step {s s' : XState} {byVal : Bool} {x y : Nat} {rep : Rep} {null : Obj} {k : Family} {f : Pkt → Res Pkt} {o : XOut}
    (hs : AllSafe s.core) (hx : s.core.objs x = none) (hn : ∀ p e, byVal = true → f p = .throw e → asPkt null = nullObj .packet ∧ null.rc = 1)
    (h : (match s.core.typed k y with
      | none => none
      | some o => if x = y ∧ !byVal then none else s.with (s.core.make byVal x rep o.rc null (f o.pkt))) = some (s', o)) :
    ∃ b q m, s.core.objs y = some b ∧ b.rc = 1 ∧ b.rep = k.rep ∧ x ≠ y ∧ s' = { s with core := m } ∧ o = .plain q ∧
      (packetsC s.core).make byVal x .packet 1 (nullObj .packet) (f b.pkt) = some (packetsC m, q) ∧ AllSafe m := by
  split at h
  · cases h
  · rename_i b hb
    obtain ⟨hb, hk⟩ := typed_eq hb
    have hxy : x ≠ y := by rintro rfl; rw [hx] at hb; cases hb
    simp only [hxy, false_and, if_false, hs y b hb] at h
    obtain ⟨m, q, h1, h2, h3⟩ := with_some h
    obtain ⟨h4, h5⟩ := make_packets hs hx (hn b.pkt) h1
    exact ⟨b, q, m, hb, hs y b hb, hk, hxy, h2, h3, h4, h5⟩

theorem packets_arg (s : CState) (v : CVal) : v.pkt (packetsC s) = v.pkt s := by
  cases v with
  | dart y => simp only [CVal.pkt, packetsC]; cases s.objs y <;> rfl
  | _ => rfl

theorem applyMut_packets {s s' : CState} {x : Nat} {b : Obj} {m : CMut} {o : Out} (hs : AllSafe s) (hb : b.rc = 1)
    (h : applyMut s x b m = some (s', o)) : applyMut (packetsC s) x (asPkt b) m = some (packetsC s', o) ∧ AllSafe s' := by
  have e : CVal.pkt (packetsC s) = CVal.pkt s := funext (packets_arg s)
  simp only [applyMut, e] at h ⊢
  have : (asPkt b).pkt = b.pkt := rfl
  rw [this]
  split at h
  · rename_i p hp
    simp only [Option.some.injEq, Prod.mk.injEq] at h
    obtain ⟨rfl, rfl⟩ := h
    refine ⟨?_, hs.change x hb⟩
    simp only [hp, packets_change]
    rfl
  · rename_i e' hp
    simp only [Option.some.injEq, Prod.mk.injEq] at h
    obtain ⟨rfl, rfl⟩ := h
    exact ⟨by simp only [hp], hs⟩
  · cases h

theorem change_packets {s s' : CState} {x : Nat} {m : CMut} {o : Out} (hs : AllSafe s) (h : runHeapMut s x m = some (s', o)) :
    runMut (packetsC s) x m = some (packetsC s', o) ∧ AllSafe s' := by
  simp only [runHeapMut] at h
  split at h
  · cases h
  rename_i b hb
  obtain ⟨hb, -⟩ := typed_eq hb
  have e : (packetsC s).objs x = some (asPkt b) := by simp [packetsC, hb]
  have er : (asPkt b).rep ≠ .buffer := nofun
  simp only [runMut, e, if_neg er]
  have hb1 := hs x b hb
  split at h
  · rename_i y hy
    split at h
    · cases h
    rename_i c hc
    obtain ⟨hc, -⟩ := typed_eq hc
    have ec : (packetsC s).objs y = some (asPkt c) := by simp [packetsC, hc]
    have hc1 := hs y c hc
    simp only [hc1, hb1, ne_eq, not_true, if_false] at h
    simp only [hy, ec, asPkt, hc1, hb1, ne_eq, not_true, if_false]
    split at h
    · cases h
    · rename_i hyx
      have := applyMut_packets hs hb1 h
      simp only [hyx, if_false]
      simpa only [asPkt, hb1] using this
  · rename_i hno
    have := applyMut_packets hs hb1 h
    split
    · rename_i y hy; exact absurd hy (hno y)
    · exact this

theorem rewrite_step {signed : Bool} {s s' : XState} {a : ZState} (hh : XHeld s a) {c : TCall} (hw : TAllowed a c) (hc : Rewritable c)
    (hs : AllSafe s.core) {o : XOut} (h : c.run signed s = some (s', o)) :
    (onPackets c).run signed (packetsX s) = some (packetsX s', o) ∧ AllSafe s'.core := by
  have dead : ∀ {x}, a.core.objs x = none → s.core.objs x = none := by
    intro x hx
    have := hh.core.1 x
    rw [hx] at this
    cases hb : s.core.objs x with
    | none => rfl
    | some b => rw [hb] at this; exact this.elim
  have hobj : ∀ {y b}, s.core.objs y = some b → (packetsX s).core.objs y = some (asPkt b) := by
    intro y b hb; simp [packetsX, packetsC, hb]
  cases c with
  | any c =>
    cases c with
    | plain c =>
      cases c with
      | init packet x rc v =>
        cases packet with
        | true => exact hc.elim
        | false =>
          have hc : rc = 1 := hc
          subst hc
          simp only [TCall.run, XCall.run, Call.run, true_or, if_true, Bool.false_eq_true, if_false] at h
          cases h
          refine ⟨?_, hs.put x rfl⟩
          simp only [onPackets, XCall.run, Call.run, true_or, if_true, XState.with, Option.map_some, packetsX, packets_put, asPkt]
      | _ => exact hc.elim
    | free p =>
      simp only [TCall.run, XCall.run] at h
      split at h
      · cases h
      · cases h
        refine ⟨?_, hs⟩
        rename_i hd
        simp only [onPackets, untyped, XCall.run, packetsX]
        rfl
    | _ => exact hc.elim
  | copy k byVal x y =>
    obtain ⟨b, q, m, h1, h2, h3, h4, rfl, rfl, h5, h6⟩ := make_step (f := fun p => .ok p) hs (dead hw.1)
      (fun _ _ _ e => by cases e) h
    refine ⟨?_, h6⟩
    simp only [onPackets, untyped, XCall.run, Call.run, hobj h1, h4, false_and, if_false, asPkt, h2]
    simp only [packetsX, h5, XState.with, Option.map_some]
  | move k byVal x y =>
    simp only [TCall.run] at h
    split at h
    · cases h
    rename_i b hb
    obtain ⟨hb, -⟩ := typed_eq hb
    have hb1 := hs y b hb
    split at h
    · cases h
    rename_i hxy
    cases h
    refine ⟨?_, AllSafe.put (AllSafe.change hs y (o := { b with pkt := b.pkt.movedFrom }) hb1) x hb1⟩
    simp only [onPackets, untyped, XCall.run, runMove, hobj hb, if_neg hxy, XState.with, Option.map_some]
    simp only [packetsX, packets_put, packets_change]
    rfl
  | destroy k x =>
    simp only [TCall.run] at h
    split at h
    · cases h
    rename_i b hb
    obtain ⟨hb, -⟩ := typed_eq hb
    cases h
    refine ⟨?_, hs.drop x⟩
    simp only [onPackets, untyped, XCall.run, Call.run, hobj hb, XState.with, Option.map_some]
    simp only [packetsX, packets_drop]
  | query k y q =>
    simp only [TCall.run] at h
    split at h
    · cases h
    rename_i b hb
    obtain ⟨hb, -⟩ := typed_eq hb
    cases hq : runQuery signed b.pkt q with
    | none => rw [hq] at h; cases h
    | some r =>
      rw [hq] at h
      cases h
      refine ⟨?_, hs⟩
      simp only [onPackets, untyped, XCall.run, Call.run, hobj hb, asPkt, hq, XState.with, Option.map_some]
  | get k byVal x y w =>
    obtain ⟨b, q, m, h1, h2, h3, h4, rfl, rfl, h5, h6⟩ := make_step (f := fun p => w.read.run signed p) hs (dead hw.1)
      (fun _ _ e _ => by cases k with
        | heap => exact ⟨rfl, rfl⟩
        | buffer => exact absurd (hc.symm.trans e) (by decide)) h
    refine ⟨?_, h6⟩
    simp only [onPackets, untyped, XCall.run, Call.run, hobj h1, h4, false_and, if_false, asPkt, h2]
    simp only [packetsX, h5, XState.with, Option.map_some]
  | change x m =>
    obtain ⟨t, q, h1, rfl, rfl⟩ := with_some h
    obtain ⟨h2, h3⟩ := change_packets hs h1
    refine ⟨?_, h3⟩
    simp only [onPackets, untyped, XCall.run, Call.run, packetsX, h2, XState.with, Option.map_some]
  | take x w y => exact hc.elim
  | lower byVal x y =>
    obtain ⟨b, q, m, h1, h2, h3, h4, rfl, rfl, h5, h6⟩ := make_step (f := fun p => p.finalize) hs (dead hw.1)
      (fun _ _ e _ => by cases hc; cases e) h
    refine ⟨?_, h6⟩
    simp only [onPackets, XCall.run, Call.run, hobj h1, h4, false_and, if_false, asPkt, h2, Conv.rep, Conv.run]
    simp only [packetsX, h5, XState.with, Option.map_some]
  | fromJson byVal x rc j =>
    have hc : rc = 1 := hc
    subst hc
    obtain ⟨t, q, h1, rfl, rfl⟩ := with_some h
    have hx := dead hw.1
    suffices hsuf : (packetsC s.core).construct byVal x 1 (parseText j) = some (packetsC t, q) ∧ AllSafe t by
      refine ⟨?_, hsuf.2⟩
      simp only [onPackets, untyped, XCall.run, packetsX, hsuf.1, XState.with, Option.map_some]
    simp only [CState.constructAs, true_or, if_true] at h1
    simp only [CState.construct, true_or, if_true]
    obtain ⟨r, hr⟩ : ∃ r, parseText j = r := ⟨_, rfl⟩
    rw [hr] at h1 ⊢
    cases r with
    | ok p => cases h1; exact ⟨by simp only [packets_put]; rfl, hs.put x rfl⟩
    | throw e => cases byVal <;> cases h1 <;> exact ⟨by simp only [packets_put]; rfl, hs.put x rfl⟩
    | ub => cases h1
  | lift byVal x y =>
    obtain ⟨b, q, m, h1, h2, h3, h4, rfl, rfl, h5, h6⟩ := make_step (f := fun p => p.definalize) hs (dead hw.1)
      (fun _ _ _ _ => ⟨rfl, rfl⟩) h
    refine ⟨?_, h6⟩
    simp only [onPackets, XCall.run, Call.run, hobj h1, h4, false_and, if_false, asPkt, h2, Conv.rep, Conv.run]
    simp only [packetsX, h5, XState.with, Option.map_some]
  | getBytes y =>
    simp only [TCall.run] at h
    split at h
    · cases h
    rename_i b hb
    obtain ⟨hb, hk⟩ := typed_eq hb
    have e : runBytes (asPkt b) = runBytes b := by
      have : b.rep ≠ .heap := by rw [hk]; exact nofun
      simp only [runBytes, asPkt, this]
      rfl
    cases hq : runBytes b with
    | none => rw [hq] at h; cases h
    | some r =>
      rw [hq] at h
      cases h
      refine ⟨?_, hs⟩
      simp only [onPackets, untyped, XCall.run, hobj hb, e, hq, Option.map_some]
  | dupBytes p y =>
    simp only [TCall.run] at h
    split at h
    · cases h
    rename_i b hb
    obtain ⟨hb, hk⟩ := typed_eq hb
    have e : runBytes (asPkt b) = runBytes b := by
      have : b.rep ≠ .heap := by rw [hk]; exact nofun
      simp only [runBytes, asPkt, this]
      rfl
    cases hq : runBytes b with
    | none => rw [hq] at h; cases h
    | some r =>
      rw [hq] at h
      cases h
      refine ⟨?_, hs⟩
      simp only [onPackets, untyped, XCall.run, hobj hb, e, hq, Option.map_some]
      rfl
  | takeBytes byVal x rc p => exact hc.elim

theorem rewrite_run {signed : Bool} (P : TProg) : ∀ {s s' : XState} {a : ZState} {os : List XOut}, XHeld s a → TCareful signed P a →
    AllRewritable P → AllSafe s.core → P.run signed s = some (s', os) → (rewritten P).run signed (packetsX s) = some (packetsX s', os) := by
  induction P with
  | stop => intro s s' a os _ _ _ _ h; cases h; rfl
  | call c next ih =>
    intro s s' a os hh hc hr hs h
    obtain ⟨s1, a1, o, h1, h2, h3, -⟩ := tcall_ok (signed := signed) hh hc.1
    simp only [TProg.run, h1] at h
    split at h
    · cases h
    rename_i s2 os' h4
    cases h
    obtain ⟨h5, h6⟩ := rewrite_step hh hc.1 hr.1 hs h1
    have := ih o h3 (hc.2 a1 o h2) (hr.2 o) h6 h4
    simp only [rewritten, XProg.run, h5, this]

end Dart
