import Verif.Spec.AbiTyped
import Verif.Lemmas.AbiMove

/-
The typed calls of the C interface do what they are specified to do.
-/
namespace Dart

open Spec Abi

variable {z : Bool}

theorem typed_some {s : CState} {k : Family} {x : Nat} {o : Obj} : s.typed k x = some o ↔ s.objs x = some o ∧ o.rep = k.rep := by
  unfold CState.typed
  cases s.objs x with
  | none => simp
  | some p =>
    simp only
    by_cases h : p.rep = k.rep
    · rw [if_pos h]
      exact ⟨fun e => by cases e; exact ⟨rfl, h⟩, fun e => e.1⟩
    · rw [if_neg h]
      exact ⟨nofun, fun e => by cases e.1; exact absurd e.2 h⟩

theorem has_typed {s : CState} {a : AState} (h : MemHeld z s a) {k : Family} {x : Nat} (hx : Has a k x) :
    ∃ b o, a.objs x = some b ∧ b.rep = k.rep ∧ s.typed k x = some o ∧ s.objs x = some o ∧ HeldObj z o b := by
  obtain ⟨b, hb, hr⟩ := hx
  obtain ⟨o, ho, hh⟩ := (h.1 x).of_some hb
  exact ⟨b, o, hb, hr, typed_some.2 ⟨ho, hh.1.trans hr⟩, ho, hh⟩

theorem Has.live {a : AState} {k : Family} {x : Nat} (h : Has a k x) : a.objs x ≠ none := by
  obtain ⟨b, hb, _⟩ := h; rw [hb]; exact nofun

/-- Changing a heap is the generic call, except for the code for mixed counters. -/
theorem runHeapMut_eq {s : CState} {x : Nat} {m : CMut} {o : Obj} (hx : s.typed .heap x = some o)
    (hm : ∀ y, m.stored = some (.dart y) → ∃ a, s.typed .heap y = some a) :
    (∃ y a, m.stored = some (.dart y) ∧ s.objs y = some a ∧ a.rc ≠ o.rc ∧ runHeapMut s x m = some (s, .code .clientError) ∧
      runMut s x m = some (s, .code .typeError)) ∨
    ((∀ y a, m.stored = some (.dart y) → s.objs y = some a → a.rc = o.rc) ∧ runHeapMut s x m = runMut s x m) := by
  obtain ⟨ho, hr⟩ := typed_some.1 hx
  have hnb : ¬ o.rep = .buffer := by rw [hr]; exact nofun
  simp only [runHeapMut, runMut, hx, ho, if_neg hnb]
  cases hst : m.stored with
  | none => exact .inr ⟨(by intro y a h; cases h), rfl⟩
  | some v =>
    cases v with
    | dart y =>
      obtain ⟨a, ha⟩ := hm y hst
      obtain ⟨ha', _⟩ := typed_some.1 ha
      simp only [ha, ha']
      by_cases hrc : a.rc = o.rc
      · refine .inr ⟨?_, ?_⟩
        · intro y' a' h1 h2; cases h1; rw [ha'] at h2; cases h2; exact hrc
        · rw [if_neg (not_not_intro hrc), if_neg (not_not_intro hrc)]
      · exact .inl ⟨y, a, rfl, ha', hrc, by rw [if_pos hrc], by rw [if_pos hrc]⟩
    | _ => exact .inr ⟨(by intro y a h; cases h), rfl⟩

theorem runHeapTake_eq {s : CState} {x y : Nat} {w : Slot} {o a : Obj} (hx : s.typed .heap x = some o) (hy : s.typed .heap y = some a)
    (hd : o.pkt.isFinalized = false) :
    (a.rc ≠ o.rc ∧ runHeapTake s x w y = some (s, .code .clientError) ∧ runTake s x w y = some (s, .code .typeError)) ∨
    (a.rc = o.rc ∧ runHeapTake s x w y = runTake s x w y) := by
  obtain ⟨ho, hr⟩ := typed_some.1 hx
  obtain ⟨ha, hra⟩ := typed_some.1 hy
  have hnb : ¬ o.rep = .buffer := by rw [hr]; exact nofun
  have hc : a.castEmpties = false := by
    simp only [Family.rep] at hra
    simp only [Obj.castEmpties, hra]
  simp only [runHeapTake, runTake, hx, hy, ho, ha, if_neg hnb, hd]
  by_cases hrc : a.rc = o.rc
  · refine .inr ⟨hrc, ?_⟩
    rw [if_neg (not_not_intro hrc), if_neg (not_not_intro hrc)]
    by_cases hxy : y = x
    · rw [if_pos hxy, if_pos hxy]
    · rw [if_neg hxy, if_neg hxy, hc]
      simp only [Bool.false_eq_true, if_false, CState.takeFrom]
      rfl
  · exact .inl ⟨hrc, by rw [if_pos hrc], by rw [if_pos hrc]⟩

theorem nullObj_held (k : Family) (rc : Nat) : HeldObj z { nullObj k.rep with rc := rc } (nullOf k rc) := by
  cases k
  · exact ⟨rfl, rfl, rfl, by simp [Val.WF]⟩
  · exact ⟨rfl, rfl, held_null_buf⟩

theorem nullOf_class (k : Family) (rc : Nat) : ClassOk (nullOf k rc) := by
  cases k
  · exact ⟨fun _ => rfl, nofun⟩
  · exact ⟨nofun, fun _ => rfl⟩

theorem constructAs_ok {s : CState} {a : AState} (h : MemHeld z s a) {x : Nat} (hx : a.objs x = none) (k : Family) (byVal : Bool) (rc : Nat)
    {r : Res Pkt} {out : Except Exc PState} (hr : Outcome z r out) :
    ∃ s' a' o, s.constructAs k byVal x rc r = some (s', o) ∧ ConstructsAs k a byVal x rc out a' o ∧ MemHeld z s' a' ∧ s'.lost = s.lost := by
  have hs := (h.1 x).of_none hx
  have hnull : HeldObj z (nullObj k.rep) (nullOf k 1) := by
    have := nullObj_held (z := z) k 1
    cases k <;> exact this
  simp only [CState.constructAs, ConstructsAs]
  by_cases hrc : rc = 1 ∨ rc = 2
  · simp only [if_pos hrc]
    cases r with
    | ok p =>
      cases out with
      | error e => exact hr.elim
      | ok st => exact ⟨_, _, _, rfl, ⟨rfl, rfl⟩, h.put x ⟨rfl, rfl, hr⟩, put_lost hs _⟩
    | throw e =>
      cases out with
      | ok st => exact hr.elim
      | error e' =>
        cases hr
        cases byVal
        · exact ⟨_, _, _, rfl, ⟨rfl, by rw [codeFor_eq]⟩, h.put x (nullObj_held k rc), put_lost hs _⟩
        · exact ⟨_, _, _, rfl, ⟨rfl, rfl⟩, h.put x hnull, put_lost hs _⟩
    | ub => cases out <;> exact hr.elim
  · simp only [if_neg hrc]
    cases byVal
    · exact ⟨s, a, .code .clientError, by simp [spoil_none hs], ⟨rfl, rfl⟩, h, rfl⟩
    · exact ⟨_, _, _, rfl, ⟨rfl, rfl⟩, h.put x hnull, put_lost hs _⟩

theorem constructsAs_classes {k : Family} {a a' : AState} {byVal : Bool} {x rc : Nat} {r : Except Exc PState} {o : Out}
    (h : ClassesOk a) (hr : ∀ p, r = .ok p → ClassOk ⟨k.rep, rc, p⟩) (hm : ConstructsAs k a byVal x rc r a' o) : ClassesOk a' := by
  unfold ConstructsAs at hm
  split at hm
  · split at hm
    · obtain ⟨rfl, _⟩ := hm; exact h.put x (hr _ rfl)
    · split at hm <;> obtain ⟨rfl, _⟩ := hm <;> exact h.put x (nullOf_class k _)
  · split at hm
    · obtain ⟨rfl, _⟩ := hm; exact h.put x (nullOf_class k _)
    · obtain ⟨rfl, _⟩ := hm; exact h

theorem readOk_finalized {signed : Bool} {st p : PState} {w : Where} (h : ReadOk signed st (elemRead w) (.ok p)) :
    p.finalized = st.finalized := by
  cases w with
  | key k =>
    simp only [elemRead, ReadOk] at h
    split at h
    · obtain ⟨r, _, h⟩ := h; cases h; rfl
    · cases h
  | idx i =>
    simp only [elemRead, ReadOk] at h
    split at h <;> cases h
    rfl

theorem finalizeOk_finalized {st p : PState} (h : FinalizeOk st (.ok p)) : p.finalized = true := by
  unfold FinalizeOk at h
  split at h
  · rename_i hf; cases h; exact hf
  · split at h
    · obtain h | ⟨_, h⟩ := h <;> cases h
      rfl
    · cases h

theorem heapChange_ok {s : CState} {a : AState} (h : MemHeld z s a) {x : Nat} {m : CMut} (hx : Has a .heap x)
    (hw : Allowed a (.change x m)) (hm : ∀ y, Stores y m → Has a .heap y) :
    ∃ s' a' o b, runHeapMut s x m = some (s', o) ∧ a.objs x = some b ∧ HeapChanges a x b m a' o ∧ MemHeld z s' a' ∧ s'.lost = s.lost := by
  obtain ⟨b, o, hb, hr, ht, ho, hh⟩ := has_typed h hx
  have hst : ∀ y, m.stored = some (.dart y) → ∃ a, s.typed .heap y = some a := by
    intro y hy
    obtain ⟨_, o', _, _, h3, _⟩ := has_typed h (hm y (stores_iff.2 hy))
    exact ⟨o', h3⟩
  obtain ⟨s', a', q, b', h1, h2, h3, h4, h5⟩ := change_ok h hw
  rw [hb] at h2
  cases h2
  have hnb : b.rep ≠ .buffer := by rw [hr]; exact nofun
  have mix : ∀ y o', m.stored = some (.dart y) → s.objs y = some o' → (o'.rc = o.rc ↔ ∀ c, a.objs y = some c → c.rc = b.rc) := by
    intro y o' _ hy
    have := h.1 y
    rw [hy] at this
    cases hc : a.objs y with
    | none => rw [hc] at this; exact this.elim
    | some c =>
      rw [hc] at this
      rw [this.2.1, hh.2.1]
      exact ⟨fun e c' hc' => by cases hc'; exact e, fun e => e c rfl⟩
  rcases runHeapMut_eq ht hst with ⟨y, o', e1, e2, e3, e4, e5⟩ | ⟨e1, e2⟩
  · obtain ⟨c, hc⟩ : ∃ c, a.objs y = some c := by
      have := h.1 y
      rw [e2] at this
      cases hc : a.objs y with
      | none => rw [hc] at this; exact this.elim
      | some c => exact ⟨c, rfl⟩
    have hcr : c.rc ≠ b.rc := fun e => e3 ((mix y o' e1 e2).2 fun c' hc' => by rw [hc] at hc'; cases hc'; exact e)
    exact ⟨s, a, _, b, e4, hb, .inl ⟨⟨y, c, stores_iff.2 e1, hc, hcr⟩, rfl, rfl⟩, h, rfl⟩
  · rw [h1] at e2
    refine ⟨s', a', q, b, e2, hb, ?_, h4, h5⟩
    rcases h3 with ⟨g, _⟩ | ⟨_, ⟨y, c, g1, g2, g3⟩, _⟩ | ⟨_, g⟩
    · exact absurd g hnb
    · obtain ⟨o', ho', hc'⟩ := (h.1 y).of_some g2
      have := (mix y o' (stores_iff.1 g1) ho').1 (e1 y o' (stores_iff.1 g1) ho') c g2
      exact absurd this g3
    · exact .inr g

theorem heapChanges_classes {a a' : AState} {x : Nat} {b : AObj} {m : CMut} {o : Out} (h : ClassesOk a) (hb : a.objs x = some b)
    (hc : HeapChanges a x b m a' o) : ClassesOk a' := by
  rcases hc with ⟨_, rfl, _⟩ | ⟨_, r, h1, h2⟩
  · exact h
  · cases r with
    | ok p =>
      obtain ⟨rfl, _⟩ := h2
      obtain ⟨g1, g2⟩ := mutOk_dynamic h1
      refine h.put x ⟨fun _ => g2, fun hh => ?_⟩
      have := (h x b hb).2 hh
      rw [g1] at this; cases this
    | error e => obtain ⟨rfl, _⟩ := h2; exact h

theorem heapTake_ok {s : CState} {a : AState} (h : MemHeld z s a) (hk : ClassesOk a) {x y : Nat} {w : Slot} (hx : Has a .heap x)
    (hy : Has a .heap y) (hxy : y ≠ x) (hkey : ∀ k, w = .objInsert k ∨ w = .objSet k → k.length < 2 ^ 32) :
    ∃ s' a' o b c, runHeapTake s x w y = some (s', o) ∧ a.objs x = some b ∧ a.objs y = some c ∧ HeapTakes a x b w y c a' o ∧
      MemHeld z s' a' ∧ ClassesOk a' ∧ s'.lost = s.lost := by
  obtain ⟨b, o, hb, hr, ht, ho, hh⟩ := has_typed h hx
  obtain ⟨c, d, hc, hrc, htc, hd, hhc⟩ := has_typed h hy
  have hfb : b.st.finalized = false := (hk x b hb).1 hr
  have hfc : c.st.finalized = false := (hk y c hc).1 hrc
  have hf : o.pkt.isFinalized = false := by rw [hh.2.2.inState.1]; exact hfb
  obtain ⟨s', a', q, b', c', h1, h2, h3, h4, h5, h6, h7⟩ := take_ok (w := w) h hk (Has.live hx) (Has.live hy) hxy hkey
  rw [hb] at h2; cases h2
  rw [hc] at h3; cases h3
  have hnb : b.rep ≠ .buffer := by rw [hr]; exact nofun
  rcases runHeapTake_eq (w := w) ht htc hf with ⟨e1, e2, e3⟩ | ⟨e1, e2⟩
  · exact ⟨s, a, _, b, c, e2, hb, hc, .inl ⟨by rw [← hh.2.1, ← hhc.2.1]; exact e1, rfl, rfl⟩, h, hk, rfl⟩
  · rw [h1] at e2
    refine ⟨s', a', q, b, c, e2, hb, hc, ?_, h5, h6, h7⟩
    have emp : ∀ ok, Empties b c ok w ↔ (ok = true ∧ ∀ k, w = .objInsert k → ¬ NewKey b.st.value k) := by
      intro ok
      have : c.rep = .heap := hrc
      simp only [Empties, this, hfb, hfc, true_and]
    rcases h4 with ⟨g, _⟩ | ⟨_, g, _⟩ | ⟨_, g1, r, g2, g3⟩
    · exact absurd g hnb
    · rw [← hh.2.1, ← hhc.2.1] at g; exact absurd e1 g
    · refine .inr ⟨g1, r, g2, ?_⟩
      cases r with
      | ok p =>
        simp only [emp, true_and] at g3
        exact g3
      | error e =>
        simp only [emp, Bool.false_eq_true, false_and, LeftBehind, not_false_iff, true_and, false_or] at g3
        exact g3

theorem typed_make {s : XState} {a : ZState} (h : XHeld s a) {x : Nat} (hx : a.core.objs x = none) (byVal : Bool) (rep : Rep) (rc : Nat)
    {r : Res Pkt} {out : Except Exc PState} (hr : Outcome true r out) (hc : ∀ p, out = .ok p → ClassOk ⟨rep, rc, p⟩) :
    ∃ s' m q, s.with (s.core.make byVal x rep rc (nullObj rep) r) = some (s', .plain q) ∧ Makes a.core byVal x rep rc out m q ∧
      XHeld s' { a with core := m } ∧ s'.core.lost = s.core.lost ∧ s'.leaked = s.leaked := by
  obtain ⟨s', m, q, h1, h2, h3, h4⟩ := make_ok h.core hx byVal rep rc hr
  exact ⟨{ s with core := s' }, m, q, by simp only [XState.with, h1, Option.map_some], h2, ⟨h3, makes_classes h.classes hc h2, h.blocks⟩, h4, rfl⟩

theorem tcall_ok {signed : Bool} {s : XState} {a : ZState} (h : XHeld s a) {c : TCall} (hw : TAllowed a c) :
    ∃ s' a' o, c.run signed s = some (s', o) ∧ TCallDoes signed a c a' o ∧ XHeld s' a' ∧ s'.core.lost = s.core.lost ∧
      s'.leaked = s.leaked := by
  cases c with
  | any c => exact xcall_ok h hw
  | copy k byVal x y =>
    obtain ⟨hx, hy⟩ := hw
    obtain ⟨b, o, hb, hr, ht, ho, hh⟩ := has_typed h.core hy
    have hxy : x ≠ y := by rintro rfl; exact (Has.live hy) hx
    have hk := h.classes y b hb
    obtain ⟨s', m, q, h1, h2, h3⟩ := typed_make h hx byVal k.rep b.rc (r := .ok o.pkt) (out := .ok b.st) hh.2.2
      (fun p hp => by cases hp; exact ⟨fun e => hk.1 (hr.trans e), fun e => hk.2 (hr.trans e)⟩)
    exact ⟨s', _, _, by simp only [TCall.run, ht, hxy, false_and, if_false, hh.2.1, h1], ⟨b, m, q, hb, h2, rfl, rfl⟩, h3⟩
  | move k byVal x y =>
    obtain ⟨hx, hy⟩ := hw
    obtain ⟨b, o, hb, hr, ht, ho, hh⟩ := has_typed h.core hy
    have hxy : x ≠ y := by rintro rfl; exact (Has.live hy) hx
    obtain ⟨s', a', q, h1, h2, h3⟩ := xcall_ok (signed := signed) h (c := .move byVal x y) ⟨hx, (Has.live hy)⟩
    refine ⟨s', a', q, ?_, h2, h3⟩
    rw [← h1]
    simp only [TCall.run, XCall.run, XState.with, runMove, ht, ho, hxy, false_and, if_false, Option.map_some]
  | destroy k x =>
    obtain ⟨b, o, hb, hr, ht, ho, hh⟩ := has_typed h.core hw
    obtain ⟨s', a', q, h1, h2, h3⟩ := xcall_ok (signed := signed) h (c := .plain (.destroy x)) (Has.live hw)
    refine ⟨s', a', q, ?_, ?_, h3⟩
    · rw [← h1]
      simp only [TCall.run, XCall.run, XState.with, Call.run, ht, ho, Option.map_some]
    · obtain ⟨m, r, ⟨rfl, rfl⟩, rfl, rfl⟩ := h2
      exact ⟨rfl, rfl⟩
  | query k y q =>
    obtain ⟨hy, hw⟩ := hw
    obtain ⟨b, o, hb, hr, ht, ho, hh⟩ := has_typed h.core hy
    obtain ⟨s', a', r, h1, h2, h3⟩ := xcall_ok (signed := signed) h (c := .plain (.query y q)) hw
    obtain ⟨m, r', ⟨b', e1, rfl, e2⟩, rfl, rfl⟩ := h2
    refine ⟨s', a, .plain r', ?_, ⟨b', r', e1, e2, rfl, rfl⟩, h3⟩
    rw [← h1]
    simp only [TCall.run, XCall.run, XState.with, Call.run, ht, ho, Option.map_map]
    rfl
  | get k byVal x y w =>
    obtain ⟨hx, hy⟩ := hw
    obtain ⟨b, o, hb, hr, ht, ho, hh⟩ := has_typed h.core hy
    have hxy : x ≠ y := by rintro rfl; exact (Has.live hy) hx
    have hk := h.classes y b hb
    have : ∃ r, ReadOk signed b.st (elemRead w) r ∧ Outcome true (w.read.run signed o.pkt) r := by
      cases w with
      | key k => exact read_ok (α := Empty) (f := fun e => e.elim) (g := fun e => e.elim) hh.2.2 (.get k) trivial
      | idx i => exact read_ok (α := Empty) (f := fun e => e.elim) (g := fun e => e.elim) hh.2.2 (.getIdx i) trivial
    obtain ⟨r, g1, g2⟩ := this
    obtain ⟨s', m, q, h1, h2, h3⟩ := typed_make h hx byVal k.rep b.rc g2
      (fun p hp => by
        subst hp
        have := readOk_finalized g1
        exact ⟨fun e => this.trans (hk.1 (hr.trans e)), fun e => this.trans (hk.2 (hr.trans e))⟩)
    exact ⟨s', _, _, by simp only [TCall.run, ht, hxy, false_and, if_false, hh.2.1, h1], ⟨b, r, m, q, hb, g1, h2, rfl, rfl⟩, h3⟩
  | change x m =>
    obtain ⟨hx, hm, hs⟩ := hw
    obtain ⟨s', a', o, b, h1, h2, h3, h4, h5⟩ := heapChange_ok h.core hx hm hs
    exact ⟨{ s with core := s' }, _, .plain o, by simp only [TCall.run, XState.with, h1, Option.map_some], ⟨b, a', o, h2, h3, rfl, rfl⟩,
      ⟨h4, heapChanges_classes h.classes h2 h3, h.blocks⟩, h5, rfl⟩
  | take x w y =>
    obtain ⟨hx, hy, hxy, hk⟩ := hw
    obtain ⟨s', a', o, b, c, h1, h2, h3, h4, h5, h6, h7⟩ := heapTake_ok h.core h.classes hx hy hxy hk
    exact ⟨{ s with core := s' }, _, .plain o, by simp only [TCall.run, XState.with, h1, Option.map_some], ⟨b, c, a', o, h2, h3, h4, rfl, rfl⟩,
      ⟨h5, h6, h.blocks⟩, h7, rfl⟩
  | lower byVal x y =>
    obtain ⟨hx, hy⟩ := hw
    obtain ⟨b, o, hb, hr, ht, ho, hh⟩ := has_typed h.core hy
    have hxy : x ≠ y := by rintro rfl; exact (Has.live hy) hx
    obtain ⟨r, g1, g2⟩ := conv_ok hh.2.2 .lower
    obtain ⟨s', m, q, h1, h2, h3⟩ := typed_make h hx byVal .buffer b.rc g2
      (fun p hp => by subst hp; exact ⟨nofun, fun _ => finalizeOk_finalized g1⟩)
    exact ⟨s', _, _, by simp only [TCall.run, ht, hxy, false_and, if_false, hh.2.1]; exact h1, ⟨b, r, m, q, hb, g1, h2, rfl, rfl⟩, h3⟩
  | fromJson byVal x rc j =>
    obtain ⟨hx, hj⟩ := hw
    obtain ⟨r, h1, h2⟩ := parseText_held (z := true) hj
    obtain ⟨s', a', o, h3, h4, h5, h6⟩ := constructAs_ok h.core hx .heap byVal rc h2
    refine ⟨{ s with core := s' }, _, .plain o, by simp only [TCall.run, XState.with, h3, Option.map_some], ⟨r, a', o, h1, h4, rfl, rfl⟩,
      ⟨h5, constructsAs_classes h.classes ?_ h4, h.blocks⟩, h6, rfl⟩
    rintro p rfl
    refine ⟨fun _ => ?_, nofun⟩
    cases j with
    | none => cases h1
    | some j => cases j <;> simp only [Parses, ParseOk] at h1 <;> first | (obtain ⟨v, _, h1⟩ := h1; cases h1; rfl) | cases h1
  | lift byVal x y =>
    obtain ⟨hx, hy⟩ := hw
    obtain ⟨b, o, hb, hr, ht, ho, hh⟩ := has_typed h.core hy
    have hxy : x ≠ y := by rintro rfl; exact (Has.live hy) hx
    obtain ⟨r, g1, g2⟩ := conv_ok hh.2.2 .lift
    cases g1
    obtain ⟨s', m, q, h1, h2, h3⟩ := typed_make h hx byVal .heap b.rc g2
      (fun p hp => by cases hp; exact ⟨fun _ => rfl, nofun⟩)
    exact ⟨s', _, _, by simp only [TCall.run, ht, hxy, false_and, if_false, hh.2.1]; exact h1, ⟨b, m, q, hb, h2, rfl, rfl⟩, h3⟩
  | getBytes y =>
    obtain ⟨b, o, hb, hr, ht, ho, hh⟩ := has_typed h.core hw
    obtain ⟨s', a', q, h1, h2, h3⟩ := xcall_ok (signed := signed) h (c := .getBytes y) (Has.live hw)
    exact ⟨s', a', q, by rw [← h1]; simp only [TCall.run, XCall.run, ht, ho], h2, h3⟩
  | dupBytes p y =>
    obtain ⟨hy, hp⟩ := hw
    obtain ⟨b, o, hb, hr, ht, ho, hh⟩ := has_typed h.core hy
    obtain ⟨s', a', q, h1, h2, h3⟩ := xcall_ok (signed := signed) h (c := .dupBytes p y) ⟨(Has.live hy), hp⟩
    exact ⟨s', a', q, by rw [← h1]; simp only [TCall.run, XCall.run, ht, ho], h2, h3⟩
  | takeBytes byVal x rc p =>
    obtain ⟨hx, hp⟩ := hw
    have hblk := h.blocks p
    have hrel := h.release p
    have hr : Outcome true (s.blocks p).packet (Adopted (a.blocks p)) ∧ s.blocks p ≠ .dangling := by
      cases hs : s.blocks p <;> cases ha : a.blocks p <;> rw [hs, ha] at hblk <;>
        first | exact hblk.elim | exact absurd ha hp | exact ⟨rfl, by simp⟩ | exact ⟨adopt_held hblk, by simp⟩
    obtain ⟨s', a', o, h3, h4, h5, h6⟩ := constructAs_ok h.core hx .buffer byVal rc hr.1
    have hcls : ClassesOk a' := constructsAs_classes h.classes (fun q hq => ⟨(fun e => by cases e), fun _ => by
      cases ha : a.blocks p <;> rw [ha] at hq <;> cases hq
      rfl⟩) h4
    obtain ⟨g1, g2⟩ := giveUp_with a a' p
    by_cases hrc : rc = 1 ∨ rc = 2
    · refine ⟨{ s.release p with core := s' }, _, .plain o, ?_, ⟨a', o, h4, rfl, (if_pos hrc).symm⟩, ⟨?_, ?_, ?_⟩, h6, rfl⟩
      · simp only [TCall.run]
        split
        · rename_i hd; exact absurd hd hr.2
        · rw [if_pos hrc]; simp only [XState.with, h3, Option.map_some]
      · rw [g2]; exact h5
      · rw [g2]; exact hcls
      · rw [g1]; exact hrel
    · refine ⟨{ s with core := s' }, _, .plain o, ?_, ⟨a', o, h4, rfl, (if_neg hrc).symm⟩, ⟨h5, hcls, h.blocks⟩, h6, rfl⟩
      simp only [TCall.run]
      split
      · rename_i hd; exact absurd hd hr.2
      · rw [if_neg hrc]; simp only [XState.with, h3, Option.map_some]

theorem tprog_ok {signed : Bool} (P : TProg) : ∀ {s : XState} {a : ZState}, XHeld s a → TCareful signed P a →
    ∃ s' a' os, P.run signed s = some (s', os) ∧ TProgDoes signed P a a' os ∧ XHeld s' a' ∧ s'.core.lost = s.core.lost ∧
      s'.leaked = s.leaked := by
  induction P with
  | stop => intro s a h _; exact ⟨s, a, [], rfl, ⟨rfl, rfl⟩, h, rfl, rfl⟩
  | call c next ih =>
    intro s a h hc
    obtain ⟨s1, a1, o, h1, h2, h3, h4, h4'⟩ := tcall_ok (signed := signed) h hc.1
    obtain ⟨s2, a2, os, h5, h6, h7, h8, h9⟩ := ih o h3 (hc.2 a1 o h2)
    exact ⟨s2, a2, o :: os, by simp [TProg.run, h1, h5], ⟨a1, o, os, h2, h6, rfl⟩, h7, h8.trans h4, h9.trans h4'⟩

end Dart
