import Verif.Lemmas.AbiAgree

/-
C72: the typed calls of the C interface, `dart_heap_*` and `dart_buffer_*`: alone, among the generic calls, and compared
with these.
-/
namespace Dart.Props

open Dart.Spec Dart.Abi

/-- Any program that makes only calls it is allowed to make, typed and generic calls in any order: every call is defined and
does what the specification says, no object is overwritten and no block of bytes forgotten. Partial: the specification says of
`take` and of calls that mix counters what they do, not what is documented (C64 and below); and not all calls are there. -/
theorem C72_programs_partial {signed : Bool} (P : TProg) (h : TCareful signed P ZState.empty) :
    ∃ s a os, P.run signed XState.empty = some (s, os) ∧ TProgDoes signed P ZState.empty a os ∧ XMemoryShows s a ∧
      s.core.lost = 0 ∧ s.leaked = 0 := by
  obtain ⟨s, a, os, h1, h2, h3, h4, h5⟩ := tprog_ok P xHeld_empty h
  exact ⟨s, a, os, h1, h2, h3.shows, h4, h5⟩

theorem tcareful_held {signed : Bool} {P : TProg} (h : TCareful signed P ZState.empty) {s : XState} {os : List XOut}
    (hr : P.run signed XState.empty = some (s, os)) : ∃ a, XHeld s a := by
  obtain ⟨s', a, os', h1, _, h3, _⟩ := tprog_ok P xHeld_empty h
  rw [hr] at h1
  cases h1
  exact ⟨a, h3⟩

/-- In every such program heaps are dynamic and buffers are finalized. -/
theorem C72_classes {signed : Bool} (P : TProg) (h : TCareful signed P ZState.empty) {s : XState} {os : List XOut}
    (hr : P.run signed XState.empty = some (s, os)) {x : Nat} {o : Obj} (ho : s.core.objs x = some o) :
    (o.rep = .heap → o.pkt.isFinalized = false) ∧ (o.rep = .buffer → o.pkt.isFinalized = true) := by
  obtain ⟨a, ha⟩ := tcareful_held h hr
  obtain ⟨b, _, hb, hc⟩ := ha.obj ho
  rw [hb.1, hb.2.2.inState.1]
  exact hc

/-- A typed call and the generic call for it, made in the same situation, return the same and leave the same memory, except that
an object they make may be of another class. This holds after every program that keeps the rules, for every call that is
defined, makes its result in a variable that is free and does not mix counters. -/
theorem C72_agree_partial {signed : Bool} (P : TProg) (h : TCareful signed P ZState.empty) {s : XState} {os : List XOut}
    (hr : P.run signed XState.empty = some (s, os)) {c : TCall} {s₁ : XState} {o : XOut} (hc : c.run signed s = some (s₁, o))
    (hx : ∀ x, target c = some x → s.core.objs x = none) (hf : CountersFit s c) :
    ∃ s₂, (untyped c).run signed s = some (s₂, o) ∧ SameButClass (target c) s₁ s₂ := by
  obtain ⟨a, ha⟩ := tcareful_held h hr
  exact tcall_agree ha hx hf hc

/-- If counters are mixed **they do not agree**: the typed calls that store an object call it a client error, the generic calls
a type error. Nothing is changed by either. -/
theorem C72_mixed_counters {signed : Bool} {s : XState} {x y : Nat} {o a : Obj} (hx : s.core.objs x = some o) (hy : s.core.objs y = some a)
    (ho : o.rep = .heap) (ha : a.rep = .heap) (hrc : a.rc ≠ o.rc) :
    (∀ m, Stores y m → (TCall.change x m).run signed s = some (s, .plain (.code .clientError)) ∧
      (untyped (.change x m)).run signed s = some (s, .plain (.code .typeError))) ∧
    (∀ w, (TCall.take x w y).run signed s = some (s, .plain (.code .clientError)) ∧
      (untyped (.take x w y)).run signed s = some (s, .plain (.code .typeError))) := by
  have tx : s.core.typed .heap x = some o := by simp [CState.typed, hx, ho, Family.rep]
  have ty : s.core.typed .heap y = some a := by simp [CState.typed, hy, ha, Family.rep]
  have hb : o.rep ≠ .buffer := by rw [ho]; exact nofun
  refine ⟨fun m hm => ?_, fun w => ?_⟩
  · have := stores_iff.1 hm
    exact ⟨by simp only [TCall.run, runHeapMut, tx, this, ty, if_pos hrc]; rfl,
      by simp only [untyped, XCall.run, Call.run, runMut, hx, if_neg hb, this, hy, if_pos hrc]; rfl⟩
  · exact ⟨by simp only [TCall.run, runHeapTake, tx, ty, if_pos hrc]; rfl,
      by simp only [untyped, XCall.run, runTake, hx, if_neg hb, hy, if_pos hrc]; rfl⟩

/-- **Nor** if bytes are taken with a kind of counter there is not. Both report it, or return a null object in the version that
returns an object. The generic call has freed the bytes then; the typed call has not, and they are still the program's. So a
program that frees the bytes after the error is right with one and frees them twice with the other. -/
theorem C72_bytes_kept_wrong {signed : Bool} {s : XState} {x rc p : Nat} {bs : Bytes} (byVal : Bool) (hx : s.core.objs x = none)
    (hp : s.blocks p = .owned bs) (h1 : rc ≠ 1) (h2 : rc ≠ 2) :
    ∃ s₁ s₂ o, (TCall.takeBytes byVal x rc p).run signed s = some (s₁, o) ∧ (untyped (.takeBytes byVal x rc p)).run signed s = some (s₂, o) ∧
      s₁.blocks p = .owned bs ∧ s₂.blocks p = .dangling ∧
      (∃ s₃, (XCall.free p).run signed s₁ = some (s₃, .plain .object)) ∧ (XCall.free p).run signed s₂ = none := by
  have hrc : ¬(rc = 1 ∨ rc = 2) := fun h => h.elim h1 h2
  have e1 : (TCall.takeBytes byVal x rc p).run signed s = s.with (s.core.constructAs .buffer byVal x rc (.ok (.buf (Buf.ofBytes bs)))) := by
    simp only [TCall.run, hp, if_neg hrc]; rfl
  have e2 : (untyped (.takeBytes byVal x rc p)).run signed s = (s.release p).with (s.core.construct byVal x rc (.ok (.buf (Buf.ofBytes bs)))) := by
    simp only [untyped, XCall.run, hp]; rfl
  have e3 : (s.release p).blocks p = .dangling := by simp [XState.release, hp, upd]
  rw [e1, e2]
  cases byVal with
  | true =>
    refine ⟨{ s with core := s.core.put x (nullObj .buffer) }, { s.release p with core := s.core.put x (nullObj .packet) }, .plain .object,
      ?_, ?_, hp, e3, ?_, ?_⟩
    · simp only [CState.constructAs, if_neg hrc]; rfl
    · simp only [CState.construct, if_neg hrc]; rfl
    · simp only [XCall.run, hp]; exact ⟨_, rfl⟩
    · simp only [XCall.run, e3]
  | false =>
    refine ⟨s, { s.release p with core := s.core }, .plain (.code .clientError), ?_, ?_, hp, e3, ?_, ?_⟩
    · simp only [CState.constructAs, if_neg hrc, Bool.false_eq_true, if_false, spoil_none hx]; rfl
    · simp only [CState.construct, if_neg hrc, Bool.false_eq_true, if_false, spoil_none hx]; rfl
    · simp only [XCall.run, hp]; exact ⟨_, rfl⟩
    · simp only [XCall.run, e3]

/-- Whole programs. Take a program on heaps and buffers that keeps the rules, with thread-safe counters, and write the generic call
for every typed one and initialise packets instead of heaps. All calls return the same as before, and the memory is the same in
the end, except that everything is a packet. (The calls this holds for are those of `Rewritable`.) -/
theorem C72_rewritten_partial {signed : Bool} (P : TProg) (h : TCareful signed P ZState.empty) (hP : AllRewritable P) :
    ∃ s t os, P.run signed XState.empty = some (s, os) ∧ (rewritten P).run signed XState.empty = some (t, os) ∧ SameButPackets s t := by
  obtain ⟨s, a, os, h1, _, h3, _⟩ := tprog_ok P xHeld_empty h
  have hs : AllSafe XState.empty.core := nofun
  exact ⟨s, packetsX s, os, h1, rewrite_run P xHeld_empty h hP hs h1, same_iff.2 rfl⟩

/-- There and back: after any program that keeps the rules, finalize a heap that is an object (`dart_heap_lower_err`) and lift the
buffer (`dart_buffer_lift_err`). Unless it is too large for the format, the heap made has the value and the kind of counter of
the first one, and nothing else has changed. -/
theorem C72_there_and_back {signed : Bool} (P : TProg) (h : TCareful signed P ZState.empty) {s : XState} {os : List XOut}
    (hr : P.run signed XState.empty = some (s, os)) {x y z : Nat} {o : Obj} {fs : List (Bytes × Val)} (ho : s.core.objs x = some o)
    (hh : o.rep = .heap) (hv : o.pkt.toHeap = .ok (.obj fs)) (hu : upperBound (.obj fs) ≠ none) (hy : s.core.objs y = none)
    (hz : s.core.objs z = none) (hzy : z ≠ y) :
    ∃ s₁ s₂ b c, (TCall.lower false y x).run signed s = some (s₁, .plain (.code .noError)) ∧
      (TCall.lift false z y).run signed s₁ = some (s₂, .plain (.code .noError)) ∧
      s₂.core.objs y = some b ∧ b.rep = .buffer ∧ b.rc = o.rc ∧ b.pkt.isFinalized = true ∧ b.pkt.toHeap = .ok (.obj fs) ∧
      s₂.core.objs z = some c ∧ c.rep = .heap ∧ c.rc = o.rc ∧ c.pkt.isFinalized = false ∧ c.pkt.toHeap = .ok (.obj fs) ∧
      (∀ w, w ≠ y → w ≠ z → s₂.core.objs w = s.core.objs w) ∧ s₂.core.lost = s.core.lost ∧ s₂.blocks = s.blocks := by
  obtain ⟨a, ha⟩ := tcareful_held h hr
  obtain ⟨b, hb, hob, hcb⟩ := ha.obj ho
  have dead : ∀ {w}, s.core.objs w = none → a.core.objs w = none := by
    intro w hw
    have := ha.core.1 w
    rw [hw] at this
    cases hb : a.core.objs w with
    | none => rfl
    | some b => rw [hb] at this; exact this.elim
  have hbr : b.rep = .heap := hob.1.symm.trans hh
  have hbs : b.st = ⟨false, .obj fs⟩ := by
    have e1 := hob.2.2.inState.2
    rw [hv] at e1
    have e2 := hcb.1 hbr
    cases hs : b.st with
    | mk f v =>
      rw [hs] at e1 e2
      cases e1
      cases e2
      rfl
  have hxy : y ≠ x := by rintro rfl; rw [hy] at ho; cases ho
  obtain ⟨s₁, a₁, o₁, r1, d1, k1, l1, m1⟩ := tcall_ok (signed := signed) ha (c := .lower false y x) ⟨dead hy, b, hb, hbr⟩
  obtain ⟨b', r, m, q, e1, e2, e3, rfl, rfl⟩ := d1
  rw [hb] at e1
  cases e1
  have hr' : r = .ok ⟨true, .obj fs⟩ := by
    simp only [FinalizeOk, hbs, Bool.false_eq_true, if_false] at e2
    rcases e2 with e2 | ⟨e2, _⟩
    · exact e2
    · exact absurd e2 hu
  subst hr'
  simp only [Makes, Bool.false_eq_true, if_false] at e3
  obtain ⟨rfl, rfl⟩ := e3
  obtain ⟨s₂, a₂, o₂, r2, d2, k2, l2, m2⟩ := tcall_ok (signed := signed) k1 (c := .lift false z y)
    ⟨by simp [AState.set, hzy, dead hz], ⟨.buffer, b.rc, ⟨true, .obj fs⟩⟩, by simp [AState.set], rfl⟩
  obtain ⟨b', m, q, e1, e3, rfl, rfl⟩ := d2
  simp only [AState.set, if_true] at e1
  cases e1
  simp only [Makes, Bool.false_eq_true, if_false] at e3
  obtain ⟨rfl, rfl⟩ := e3
  obtain ⟨c1, g1, g2⟩ := (k2.core.1 y).of_some (b := ⟨.buffer, b.rc, ⟨true, .obj fs⟩⟩) (by simp [AState.set, Ne.symm hzy])
  obtain ⟨c2, g3, g4⟩ := (k2.core.1 z).of_some (b := ⟨.heap, b.rc, ⟨false, .obj fs⟩⟩) (by simp [AState.set])
  refine ⟨s₁, s₂, c1, c2, r1, r2, g1, g2.1, g2.2.1.trans hob.2.1.symm, g2.2.2.inState.1, g2.2.2.inState.2, g3, g4.1,
    g4.2.1.trans hob.2.1.symm, g4.2.2.inState.1, g4.2.2.inState.2, fun w h1 h2 => ?_, l2.trans l1, ?_⟩
  · exact ((typed_make_frame (f := fun p => p.definalize) r2).2 h2).trans ((typed_make_frame (f := fun p => p.finalize) r1).2 h1)
  · exact (typed_make_frame (w := 0) (f := fun p => p.definalize) r2).1.trans (typed_make_frame (w := 0) (f := fun p => p.finalize) r1).1

/-! ### Programs -/

/-- Make a heap that is an object, put 5 in under "k", finalize it, read the element from the buffer, destroy all. -/
def c72Prog : TProg :=
  .call (.any (.plain (.init false 0 1 .obj))) fun _ =>
  .call (.change 0 (.objInsert [0x6b] (.int 5))) fun _ =>
  .call (.lower false 1 0) fun _ =>
  .call (.get .buffer false 2 1 (.key [0x6b])) fun _ =>
  .call (.destroy .buffer 2) fun _ =>
  .call (.destroy .buffer 1) fun _ =>
  .call (.destroy .heap 0) fun _ => .stop

/-- It keeps the rules. -/
theorem c72_careful : TCareful true c72Prog ZState.empty := by
  refine ⟨⟨rfl, by intro t h; cases h⟩, fun a1 o1 h1 => ?_⟩
  obtain ⟨_, _, ⟨rfl, rfl⟩, rfl, rfl⟩ := h1
  refine ⟨⟨⟨⟨.heap, 1, ⟨false, .obj []⟩⟩, rfl, rfl⟩, ?_, ?_⟩, fun a2 o2 h2 => ?_⟩
  · simp [Allowed, AState.set, cxxCall, PMut.All]
  · intro y hy; simp [Stores] at hy
  obtain ⟨b, m, q, hb, hc, rfl, rfl⟩ := h2
  obtain rfl : b = ⟨.heap, 1, ⟨false, .obj []⟩⟩ := by simp [AState.set] at hb; exact hb.symm
  obtain rfl : m = AState.set (AState.set ZState.empty.core 0 (some ⟨.heap, 1, ⟨false, .obj []⟩⟩)) 0
      (some ⟨.heap, 1, ⟨false, .obj [([0x6b], .int 5)]⟩⟩) := by
    rcases hc with ⟨⟨y, c, hy, _⟩, _⟩ | ⟨_, r, hm, h⟩
    · simp [Stores] at hy
    · have hr : r = .ok ⟨false, .obj [([0x6b], .int 5)]⟩ := hm
      subst hr
      exact h.1
  refine ⟨⟨rfl, ⟨.heap, 1, ⟨false, .obj [([0x6b], .int 5)]⟩⟩, rfl, rfl⟩, fun a3 o3 h3 => ?_⟩
  obtain ⟨b, r, m, q, hb, hr, hm, rfl, rfl⟩ := h3
  obtain rfl : b = ⟨.heap, 1, ⟨false, .obj [([0x6b], .int 5)]⟩⟩ := by simp [AState.set] at hb; exact hb.symm
  obtain rfl : r = .ok ⟨true, .obj [([0x6b], .int 5)]⟩ := by
    rcases hr with hr | ⟨hr, _⟩
    · exact hr
    · exact absurd hr (by decide)
  obtain ⟨rfl, rfl⟩ := hm
  refine ⟨⟨rfl, ⟨.buffer, 1, ⟨true, .obj [([0x6b], .int 5)]⟩⟩, rfl, rfl⟩, fun a4 o4 h4 => ?_⟩
  obtain ⟨b, r, m, q, hb, hr, hm, rfl, rfl⟩ := h4
  obtain rfl : b = ⟨.buffer, 1, ⟨true, .obj [([0x6b], .int 5)]⟩⟩ := by simp [AState.set] at hb; exact hb.symm
  obtain ⟨v, rfl⟩ : ∃ v, r = .ok v := by
    obtain ⟨u, _, hr⟩ := hr
    exact ⟨_, hr⟩
  obtain ⟨rfl, rfl⟩ := hm
  refine ⟨⟨⟨.buffer, 1, v⟩, rfl, rfl⟩, fun a5 o5 h5 => ?_⟩
  obtain ⟨rfl, rfl⟩ := h5
  refine ⟨⟨⟨.buffer, 1, ⟨true, .obj [([0x6b], .int 5)]⟩⟩, rfl, rfl⟩, fun a6 o6 h6 => ?_⟩
  obtain ⟨rfl, rfl⟩ := h6
  exact ⟨⟨⟨.heap, 1, ⟨false, .obj [([0x6b], .int 5)]⟩⟩, rfl, rfl⟩, fun _ _ _ => trivial⟩

/-- It can be rewritten. -/
example : AllRewritable c72Prog := ⟨rfl, fun _ => ⟨trivial, fun _ => ⟨rfl, fun _ => ⟨rfl, fun _ => ⟨trivial, fun _ => ⟨trivial, fun _ =>
  ⟨trivial, fun _ => trivial⟩⟩⟩⟩⟩⟩⟩

/-- What is rewritten is what one would write. -/
example : rewritten c72Prog =
  .call (.plain (.init true 0 1 .obj)) fun _ =>
  .call (.plain (.change 0 (.objInsert [0x6b] (.int 5)))) fun _ =>
  .call (.plain (.conv false 1 0 .lower)) fun _ =>
  .call (.plain (.get false 2 1 (.key [0x6b]))) fun _ =>
  .call (.plain (.destroy 2)) fun _ =>
  .call (.plain (.destroy 1)) fun _ =>
  .call (.plain (.destroy 0)) fun _ => .stop := rfl

/-- Memory in which counters are mixed, and bytes are owned. -/
def c72State : XState :=
  ⟨(CState.empty.put 0 ⟨.heap, 1, .heap (.obj [])⟩).put 1 ⟨.heap, 2, .heap (.int 5)⟩, fun _ => .owned [1, 2, 3], 0⟩

/-- Storing the one heap in the other. -/
example : (TCall.change 0 (.objInsert [0x6b] (.dart 1))).run true c72State = some (c72State, .plain (.code .clientError)) ∧
    (XCall.plain (.change 0 (.objInsert [0x6b] (.dart 1)))).run true c72State = some (c72State, .plain (.code .typeError)) :=
  (C72_mixed_counters (o := ⟨.heap, 1, .heap (.obj [])⟩) (a := ⟨.heap, 2, .heap (.int 5)⟩) rfl rfl rfl rfl (by decide)).1 _ rfl

/-- Taking the bytes with a kind of counter there is not. -/
example : ∃ s₁ s₂ o, (TCall.takeBytes false 2 7 0).run true c72State = some (s₁, o) ∧
    (XCall.takeBytes false 2 7 0).run true c72State = some (s₂, o) ∧ s₁.blocks 0 = .owned [1, 2, 3] ∧ s₂.blocks 0 = .dangling := by
  obtain ⟨s₁, s₂, o, h1, h2, h3, h4, _⟩ := C72_bytes_kept_wrong (signed := true) (s := c72State) (x := 2) (rc := 7) (p := 0) false rfl rfl
    (by decide) (by decide)
  exact ⟨s₁, s₂, o, h1, h2, h3, h4⟩

end Dart.Props
