import Verif.Lemmas.ApiSwap

/-
C73: programs that use the C++ and the C interface, and take objects from one to the other with `unsafe_api_swap`.
-/
namespace Dart.Props

open Dart.Spec Dart.Abi

/-- Any program that does only what it is allowed to do, in both interfaces and with swaps in any order: every step is defined and
does what the specification says, no object is overwritten and no block of bytes forgotten. Partial: that the class is the same
when an object comes back to C++ is for the program to see to, and the C types do not (below); what is said in C72 of calls of
the C interface holds here too. -/
theorem C73_programs_partial {signed : Bool} (P : MProg) (h : MCareful signed P BState.empty) :
    ∃ s a os, P.run signed MState.empty = some (s, os) ∧ MProgDoes signed P BState.empty a os ∧ BothShow s a ∧
      s.c.core.lost = 0 ∧ s.c.leaked = 0 := by
  obtain ⟨s, a, os, h1, h2, h3, h4, h5⟩ := mprog_ok P mHeld_empty h
  exact ⟨s, a, os, h1, h2, h3.shows, h4, h5⟩

/-- There and back: an object swapped to C, by copying or moving, and from there to another C++ variable of the same type, is there
what it was, and it is still in the C variable. The first variable is as before if it was copied, and null if it was moved.
Nothing else changes. -/
theorem C73_there_and_back {signed : Bool} {s : MState} {x y w : Nat} {o v : Obj} (move : Bool) (hy : s.cxx y = some o)
    (hw : s.cxx w = some v) (hne : w ≠ y) (hrep : v.rep = o.rep) (hrc : v.rc = o.rc) (hx : s.c.core.objs x = none) :
    ∃ s₁ s₂, (MCall.toC move x y).run signed s = some (s₁, .done) ∧ (MCall.toCxx w x).run signed s₁ = some (s₂, .done) ∧
      s₂.cxx w = some o ∧ s₂.c.core.objs x = some o ∧
      (move = false → s₂.cxx y = some o) ∧ (move = true → ∃ q, s₂.cxx y = some ⟨o.rep, o.rc, q⟩ ∧ q.toHeap = .ok .null) ∧
      (∀ u, u ≠ w → u ≠ y → s₂.cxx u = s.cxx u) ∧ (∀ u, u ≠ x → s₂.c.core.objs u = s.c.core.objs u) ∧
      s₂.c.core.lost = s.c.core.lost ∧ s₂.c.blocks = s.c.blocks := by
  obtain ⟨r, c, p⟩ := v
  simp only at hrep hrc
  subst hrep hrc
  cases move with
  | false =>
    refine ⟨⟨{ s.c with core := s.c.core.put x o }, s.cxx⟩, ⟨{ s.c with core := s.c.core.put x o }, upd s.cxx w (some o)⟩, ?_, ?_, ?_⟩
    · simp only [MCall.run, hy]; rfl
    · simp [MCall.run, hw, CState.put, upd]
    · refine ⟨by simp [upd], by simp [CState.put, upd], (fun _ => by simp [upd, hne.symm, hy]), nofun, fun u h1 _ => by simp [upd, h1],
        fun u h1 => by simp [CState.put, upd, h1], put_lost hx _, rfl⟩
  | true =>
    refine ⟨⟨{ s.c with core := s.c.core.put x o }, upd s.cxx y (some { o with pkt := o.pkt.movedFrom })⟩,
      ⟨{ s.c with core := s.c.core.put x o }, upd (upd s.cxx y (some { o with pkt := o.pkt.movedFrom })) w (some o)⟩, ?_, ?_, ?_⟩
    · simp only [MCall.run, hy]; rfl
    · simp [MCall.run, hw, CState.put, upd, hne]
    · refine ⟨by simp [upd], by simp [CState.put, upd], nofun, (fun _ => ⟨o.pkt.movedFrom, by simp [upd, hne.symm], ?_⟩),
        fun u h1 h2 => by simp [upd, h1, h2], fun u h1 => by simp [CState.put, upd, h1], put_lost hx _, rfl⟩
      cases o.pkt <;> rfl

/-- An object with the other kind of counter does not come back: `type_error`, whatever its class, and nothing has changed. -/
theorem C73_wrong_counter {signed : Bool} {s : MState} {x y : Nat} {o a : Obj} (hy : s.cxx y = some o) (hx : s.c.core.objs x = some a)
    (h : a.rc ≠ o.rc) : (MCall.toCxx y x).run signed s = some (s, .threw .typeError) := by
  simp [MCall.run, hy, hx, h]

/-- Swapping to a C variable does not destroy what is there: the object is lost. -/
theorem C73_not_destroyed {signed : Bool} {s : MState} {x y : Nat} {o a : Obj} (move : Bool) (hy : s.cxx y = some o)
    (hx : s.c.core.objs x = some a) :
    ∃ s', (MCall.toC move x y).run signed s = some (s', .done) ∧ s'.c.core.objs x = some o ∧ s'.c.core.lost = s.c.core.lost + 1 := by
  simp only [MCall.run, hy]
  exact ⟨_, rfl, by simp [CState.put, upd], by simp [CState.put, hx]⟩

/-- Declare the C variables with types. If every call puts its result in a variable of the type the function is declared with, every
swap is between a C++ class and the C type named after it, and `dart_copy` and `dart_move` are only used from one variable to
another of the same type, then all through the program every variable contains an object of the class of its type, and a
swap back to C++ from a variable with an object in it is never undefined. -/
theorem C73_types_partial {signed : Bool} {ty cty : Nat → Rep} (P : MProg) (ht : AllSteps (CxxTyped ty cty) P) (hs : AllSteps (SameType ty) P)
    {s : MState} {os : List MOut} (hr : P.run signed MState.empty = some (s, os)) :
    (∀ x o, s.c.core.objs x = some o → o.rep = ty x) ∧
    ∀ x y, CxxTyped ty cty (.toCxx y x) → s.c.core.objs x ≠ none → s.cxx y ≠ none → (MCall.toCxx y x).run signed s ≠ none := by
  have h0 : FittingBoth ty cty MState.empty := ⟨nofun, nofun⟩
  have h := fitting_run P h0 ht hs hr
  refine ⟨h.1, fun x y hxy hx hy => ?_⟩
  obtain ⟨a, ha⟩ := Option.ne_none_iff_exists'.1 hx
  obtain ⟨o, ho⟩ := Option.ne_none_iff_exists'.1 hy
  have e : a.rep = o.rep := by rw [h.1 x a ha, h.2 y o ho]; exact hxy.symm
  simp only [MCall.run, ho, ha, e, ne_eq, not_true_eq_false, if_false]
  split <;> exact nofun

/-- **Without the last condition it is not so**, though the compiler accepts it and the documentation says that `dart_copy` returns
a packet and "will exhibit sensible semantics for any input Dart type" (include/dart/abi.h 4356-4371). What it returns, as a
`dart_packet_t`, is a heap if it was given a heap, and a buffer if given a buffer. Swapping that to a `dart::packet`
takes the memory of one class for another: the class is written down beside the object, but not looked at. This is so for every
heap or buffer there is, with either kind of counter, and with `dart_move` as well. -/
theorem C73_class_unchecked_wrong {signed : Bool} {s : MState} {x y w : Nat} {o a : Obj} (hx : s.c.core.objs x = some a)
    (ha : a.rep ≠ .packet) (hy : s.cxx y = some o) (ho : o.rep = .packet) (hrc : a.rc = o.rc) {ty cty : Nat → Rep} (hw : ty w = .packet)
    (hc : cty y = .packet) {c : MCall} (h : c = .c (.any (.plain (.copy true w x))) ∨ c = .c (.any (.move true w x))) :
    CxxTyped ty cty c ∧ CxxTyped ty cty (.toCxx y w) ∧
    ∃ s', c.run signed s = some (s', .c (.plain .object)) ∧ s'.c.core.objs w ≠ none ∧ s'.cxx y ≠ none ∧
      (MCall.toCxx y w).run signed s' = none := by
  have hr : ¬ a.rep = o.rep := by rw [ho]; exact ha
  refine ⟨?_, hc.trans hw.symm, ?_⟩
  · rcases h with rfl | rfl <;> exact fun _ => hw
  · rcases h with rfl | rfl
    · refine ⟨{ s with c := { s.c with core := s.c.core.put w ⟨a.rep, a.rc, a.pkt⟩ } }, ?_, ?_, ?_, ?_⟩
      · simp [MCall.run, TCall.run, XCall.run, Call.run, hx, CState.make, XState.with]
      · simp [CState.put, upd]
      · simp [hy]
      · simp [MCall.run, hy, CState.put, upd, hrc, hr]
    · refine ⟨{ s with c := { s.c with core := (s.c.core.change x { a with pkt := a.pkt.movedFrom }).put w a } }, ?_, ?_, ?_, ?_⟩
      · simp [MCall.run, TCall.run, XCall.run, runMove, hx, XState.with]
      · simp [CState.put, upd]
      · simp [hy]
      · simp [MCall.run, hy, CState.put, upd, hrc, hr]

/-! ### Examples -/

namespace C73

/-- A program without branches. -/
def steps : List MCall → MProg
  | [] => .stop
  | c :: cs => .call c fun _ => steps cs

/-- The example of ADVANCED.md 391-434: an object is made in C++, swapped to C, changed there, and swapped to another variable. -/
def advanced : List MCall :=
  [.declare 0 .packet 1, .change 0 (.assign (.const (.obj [([104], .int 1)]))), .toC false 0 0,
   .c (.any (.plain (.change 0 (.objInsert [121] (.str [110]))))), .declare 1 .packet 1, .toCxx 1 0,
   .c (.any (.plain (.destroy 0)))]

/-- The object before and after the change. -/
def before : AObj := ⟨.packet, 1, ⟨false, .obj [([104], .int 1)]⟩⟩
def after : AObj := ⟨.packet, 1, ⟨false, .obj [([104], .int 1), ([121], .str [110])]⟩⟩

/-- It keeps the rules. -/
theorem advanced_careful : MCareful true (steps advanced) BState.empty := by
  refine ⟨⟨rfl, .inl rfl⟩, fun a1 o1 h1 => ?_⟩
  obtain ⟨rfl, rfl⟩ := h1
  refine ⟨⟨⟨⟨.packet, 1, ⟨false, .null⟩⟩, rfl, nofun, ?_⟩, nofun, nofun⟩, fun a2 o2 h2 => ?_⟩
  · simp [PMut.All, Val.WF, WFFields, Sorted]
  obtain ⟨b, r, hb, hm, hs⟩ := h2
  obtain rfl : b = ⟨.packet, 1, ⟨false, .null⟩⟩ := by simp [BState.setCxx] at hb; exact hb.symm
  obtain rfl : r = .ok ⟨false, .obj [([104], .int 1)]⟩ := hm
  obtain ⟨rfl, rfl⟩ := hs
  refine ⟨⟨rfl, nofun⟩, fun a3 o3 h3 => ?_⟩
  obtain ⟨b, hb, rfl, rfl⟩ := h3
  obtain rfl : b = before := by simp [BState.setCxx] at hb; exact hb.symm
  refine ⟨?_, fun a4 o4 h4 => ?_⟩
  · simp [MAllowed, TAllowed, XAllowed, Allowed, AState.set, cxxCall, PMut.All, BState.setCxx]
  obtain ⟨z, q, ⟨m, o, ⟨b, hb, hm⟩, rfl, rfl⟩, rfl, rfl⟩ := h4
  obtain rfl : b = before := by simp [BState.setCxx, AState.set] at hb; exact hb.symm
  have hm' : m.objs 0 = some after := by
    rcases hm with ⟨h, _⟩ | ⟨_, ⟨y, c, hy, _⟩, _⟩ | ⟨_, _, r, hm, h⟩
    · cases h
    · simp [Stores] at hy
    · have hr : r = .ok after.st := hm
      subst hr
      rw [h.1]
      simp [AState.set, after, before]
  refine ⟨⟨rfl, .inl rfl⟩, fun a5 o5 h5 => ?_⟩
  obtain ⟨rfl, rfl⟩ := h5
  refine ⟨⟨_, after, rfl, hm', fun _ => rfl⟩, fun a6 o6 h6 => ?_⟩
  obtain ⟨b, d, hb, hd, h⟩ := h6
  obtain rfl : b = ⟨.packet, 1, ⟨false, .null⟩⟩ := by simp [BState.setCxx] at hb; exact hb.symm
  obtain rfl : d = after := by simp only [BState.setCxx] at hd; rw [hm'] at hd; cases hd; rfl
  rw [if_pos (show after.rc = 1 from rfl)] at h
  obtain ⟨rfl, rfl⟩ := h
  refine ⟨?_, fun _ _ _ => trivial⟩
  simp [MAllowed, TAllowed, XAllowed, Allowed, BState.setCxx, hm']

/-- The values of the C++ variables 0 and 1, and whether the C variable 0 is live. -/
def final (cs : List MCall) : Option (Bool × Bool × Bool × Nat) :=
  ((steps cs).run true MState.empty).map fun r =>
    (match r.1.cxx 0 with | some o => (match o.pkt with | .heap (.obj [(k, .int i)]) => k == [104] && i == 1 | _ => false) | none => false,
     match r.1.cxx 1 with | some o => (match o.pkt with | .heap (.obj [(k, .int i), (l, .str t)]) => k == [104] && i == 1 && l == [121] && t == [110] | _ => false) | none => false,
     (r.1.c.core.objs 0).isSome, r.1.c.core.lost)

example : final advanced = some (true, true, false, 0) := by decide +kernel

/-- The types of the variables: everything is a packet, except the C variable 5. -/
def types : Nat → Rep := fun x => if x = 5 then .heap else .packet

example : AllSteps (CxxTyped types (fun _ => .packet)) (steps advanced) ∧ AllSteps (SameType types) (steps advanced) := by
  simp [steps, advanced, AllSteps, CxxTyped, CTyped, SameType, types]

/-- The program that is accepted and undefined: a heap, a copy of it with `dart_copy`, and a swap. -/
def accepted : List MCall :=
  [.c (.any (.plain (.init false 5 1 .obj))), .c (.any (.plain (.copy true 0 5))), .declare 0 .packet 1, .toCxx 0 0]

example : AllSteps (CxxTyped types (fun _ => .packet)) (steps accepted) := by
  simp [steps, accepted, AllSteps, CxxTyped, CTyped, types]

example : ((steps (accepted.take 3)).run true MState.empty).isSome ∧ ((steps accepted).run true MState.empty).isNone := by
  decide +kernel

end C73

end Dart.Props
