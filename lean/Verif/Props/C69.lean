import Verif.Lemmas.PktIter
import Verif.Props.C18

/-
C69: an iterator of a packet is a position in its items, whether the packet is dynamic or finalized.
-/
namespace Dart.Props
open Dart.Spec

/-- The packets of a program, each with the state and the value it shows. -/
def Given (signed exact : Bool) (ps : List Pkt) (ss : List PState) : Prop :=
  Each (fun p s => Reached signed exact p ∧ InState p s) ps ss

theorem given_held {signed exact : Bool} : ∀ {ps : List Pkt} {ss : List PState}, Given signed exact ps ss → Each (Held exact) ps ss
  | [], [], _ => trivial
  | p :: _, s :: _, h => by
    obtain ⟨f, v⟩ := s
    have e : p.isFinalized = f := h.1.2.1
    have := Reached.held_of h.1.1 h.1.2.2
    rw [e] at this
    exact ⟨this, given_held h.2⟩
  | [], _ :: _, h => h.elim
  | _ :: _, [], h => h.elim

/-- Programs over any number of packets and iterators (made by `begin`, `end`, `key_begin`, `key_end`, copied, moved,
assigned, stepped, compared, dereferenced, directly or through a reverse iterator): as long as no iterator leaves the
range of its packet or is used without a position, and only iterators of the same packet or of packets in different states
are compared, everything is defined and every step shows what the positions say. -/
theorem C69_positions {signed exact : Bool} {ps : List Pkt} {ss : List PState} (h : Given signed exact ps ss) {ops : List WOp}
    {as : List APos} {os : List (WOut PState)} (hs : walk ss [] ops = some (as, os)) :
    ∃ its os', runWalk ps [] ops = some (its, os') ∧ Each ShowsOut os' os := by
  obtain ⟨its, os', h1, _, h2⟩ := walk_ok (given_held h) ops (its := []) (as := []) trivial hs
  exact ⟨its, os', h1, h2⟩

/-- The loop of a client over an aggregate, over values or over keys: all items, in order, in the state of the packet. -/
theorem C69_loop {signed exact : Bool} {p : Pkt} {v : Val} (h : Reached signed exact p) (hv : p.toHeap = .ok v) {keys : Bool}
    {l : List Val} (hl : itemsOf v keys = some l) {fuel : Nat} (hf : l.length ≤ fuel) :
    ∃ i j qs, (if keys then p.keyBegin else p.begin) = .ok i ∧ (if keys then p.keyEnd else p.end) = .ok j ∧
      i.loop fuel j = some (.ok qs) ∧ Each InState qs (l.map (PState.mk p.isFinalized)) := by
  have hh := Reached.held_of h hv
  have := start_ok (ps := [p]) (ss := [⟨p.isFinalized, v⟩]) (x := 0) rfl rfl hh keys
  simp only [hl] at this
  obtain ⟨i, j, h1, h2, h3, h4⟩ := this
  obtain ⟨qs, h5, h6⟩ := loop_from (s := ⟨p.isFinalized, v⟩) rfl hl h4 l.length 0 (by omega) h3 fuel hf
  exact ⟨i, j, qs, h1, h2, h5, by simpa using h6⟩

/-- Whatever is no aggregate has no iterators, and only objects have iterators over keys. -/
theorem C69_no_items {signed exact : Bool} {p : Pkt} {v : Val} (h : Reached signed exact p) (hv : p.toHeap = .ok v) {keys : Bool}
    (hl : itemsOf v keys = none) :
    (if keys then p.keyBegin else p.begin) = .throw .typeError ∧ (if keys then p.keyEnd else p.end) = .throw .typeError := by
  have := start_ok (ps := [p]) (ss := [⟨p.isFinalized, v⟩]) (x := 0) rfl rfl (Reached.held_of h hv) keys
  simp only [hl] at this
  exact this

/-- A loop that starts on a dynamic packet and looks for an end taken after the packet was finalized never gets there. -/
theorem C69_states_never_meet {v : Val} {q : Pkt} {keys keys' : Bool} {i j : PIter} (hq : (Pkt.heap v).finalize = .ok q)
    (hi : (if keys then (Pkt.heap v).keyBegin else (Pkt.heap v).begin) = .ok i)
    (hj : (if keys' then q.keyEnd else q.end) = .ok j) (fuel : Nat) (qs : List Pkt) :
    i.eq j = false ∧ i.loop fuel j ≠ some (.ok qs) := by
  obtain ⟨a, rfl⟩ : ∃ a, i = .heap (some a) := by
    cases keys <;> simp only [Bool.false_eq_true, if_false, if_true, Pkt.begin, Pkt.keyBegin, Pkt.visit] at hi <;>
      (obtain ⟨a, _, e⟩ := Res.bind_eq_ok.1 hi; cases e; exact ⟨a, rfl⟩)
  obtain ⟨b, rfl⟩ : ∃ b, q = .buf b := by
    simp only [Pkt.finalize] at hq
    obtain ⟨m, _, e⟩ := Res.bind_eq_ok.1 hq
    cases e
    exact ⟨_, rfl⟩
  obtain ⟨c, rfl⟩ : ∃ c, j = .buf (some c) := by
    cases keys' <;> simp only [Bool.false_eq_true, if_false, if_true, Pkt.end, Pkt.keyEnd, Pkt.visit] at hj <;>
      (obtain ⟨a, _, e⟩ := Res.bind_eq_ok.1 hj; cases e; exact ⟨a, rfl⟩)
  exact ⟨rfl, loop_states fuel a (some c)⟩

/-- `insert`, `set` and `erase` at an iterator, for every iterator a program has: refused unless it is one of a dynamic
packet; otherwise the item at the position of the iterator, and nothing else of the packet, is changed. -/
theorem C69_change_at {signed exact : Bool} {ps : List Pkt} {ss : List PState} (h : Given signed exact ps ss) {ops : List WOp}
    {as : List APos} {os : List (WOut PState)} (hs : walk ss [] ops = some (as, os)) :
    ∃ its os', runWalk ps [] ops = some (its, os') ∧ Each (ChangesAt ss) its as := by
  obtain ⟨its, os', h1, h2, _⟩ := walk_ok (given_held h) ops (its := []) (as := []) trivial hs
  refine ⟨its, os', h1, h2.imp fun i _ a _ hi => hi.changes ?_⟩
  have wf : ∀ {ps : List Pkt} {ss : List PState}, Given signed exact ps ss → ∀ s ∈ ss, s.value.WF := by
    intro ps
    induction ps with
    | nil => intro ss h s hs; cases ss with
      | nil => cases hs
      | cons _ _ => exact h.elim
    | cons p ps ih => intro ss h s hs; cases ss with
      | nil => cases hs
      | cons t ss =>
        rcases List.mem_cons.1 hs with rfl | hs
        · exact (given_held h).1.wf
        · exact ih h.2 s hs
  exact wf h

/-- An iterator of an object or array does not do for a value of another kind, be it a scalar: `type_error`, whatever is tried. -/
theorem C69_change_wrong_kind (v : Val) (it : HeapIter) (x : Val)
    (hkind : (∀ fs, v ≠ .obj fs) ∧ (∀ es, v ≠ .arr es) ∨ (∃ fs es, v = .obj fs ∧ it.aggr = .arr es) ∨ ∃ es fs, v = .arr es ∧ it.aggr = .obj fs) :
    Pkt.changeAt (·.insertAt · x) (.heap v) (.heap (some it)) = .throw .typeError ∧
    Pkt.changeAt (·.setAt · x) (.heap v) (.heap (some it)) = .throw .typeError ∧
    Pkt.changeAt (·.eraseAt ·) (.heap v) (.heap (some it)) = .throw .typeError := by
  have h : v.iterKey it = .throw .typeError := by
    rcases hkind with ⟨h1, h2⟩ | ⟨fs, es, rfl, h⟩ | ⟨es, fs, rfl, h⟩
    · cases v with
      | obj fs => exact absurd rfl (h1 fs)
      | arr es => exact absurd rfl (h2 es)
      | _ => rfl
    · simp [Val.iterKey, h]
    · simp [Val.iterKey, h]
  simp [Pkt.changeAt, PIter.ask, Pkt.getHeap, Res.bind, Val.insertAt, Val.setAt, Val.eraseAt, h]

/-- Without a position iterators are equal if they never had one, or were iterators of packets in the same state; so a
moved from iterator of a finalized packet differs from a new one. -/
theorem C69_blank_differ : PIter.blank.eq PIter.blank.moved = true ∧ (∀ b, PIter.blank.eq (PIter.buf b).moved = false) :=
  ⟨rfl, fun _ => rfl⟩

/-! Concrete cases. -/

/-- The object `{"a": 7, "b": "x"}` and the same finalized. -/
def iterStory : List POp :=
  [.create (.const (.obj [([97], .int 7), ([98], .str [120])])), .create (.var 0), .finalize 1]

/-- Walk over both packets: the second value of each, the last key through a reverse iterator, and comparisons. -/
def iterSteps : List WOp :=
  [.first 0 false, .first 1 false, .next 0, .postNext 1, .read 0, .read 1, .read 2, .last 1 true, .rread 3, .same 0 1,
    .prev 3, .same 1 3, .move 1, .ask 1, .blank, .same 1 5, .first 0 true, .same 0 6]

example : (walk [⟨false, .obj [([97], .int 7), ([98], .str [120])]⟩, ⟨true, .obj [([97], .int 7), ([98], .str [120])]⟩] []
    iterSteps).map (fun r => r.2.map fun o => match o with
      | .flag b => some b | _ => none) =
    some [none, none, none, none, none, none, none, none, none, some false, none, some true, none, some false, none, some false, none,
      some false] := by decide +kernel

example : ((runPackets true [] iterStory).bind fun r => runWalk r.1 [] iterSteps).map (fun r => r.2.map fun o => match o with
      | .flag b => some b | .item p => some (p.strv.toOption == some [120]) | _ => none) =
    some [none, none, none, none, some true, some true, some false, none, some false, some false, none, some true, none,
      some false, none, some false, none, some false] := by decide +kernel

/-- Insertion of `9` before the second element of `[7, 8]` through an iterator, and over the value of `"b"` in an object. -/
example : (runWalk [.heap (.arr [.int 7, .int 8]), .heap (.obj [([97], .int 7), ([98], .int 8)])] []
      [.first 0 false, .next 0, .first 1 true, .next 1]).map (fun r => r.1.map fun i =>
        ((Pkt.changeAt (fun v it => v.insertAt it (.int 9)) (.heap (.arr [.int 7, .int 8])) i).toOption.bind fun p =>
          match p with | .heap (.arr [.int 7, .int 9, .int 8]) => some true | _ => none)) = some [some true, none] := by decide +kernel

example : (runWalk [.heap (.obj [([97], .int 7), ([98], .int 8)])] [] [.first 0 true, .next 0]).map (fun r => r.1.map fun i =>
        ((Pkt.changeAt (fun v it => v.insertAt it (.int 9)) (.heap (.obj [([97], .int 7), ([98], .int 8)])) i).toOption.bind fun p =>
          match p with | .heap (.obj [(_, .int 7), (_, .int 9)]) => some true | _ => none)) = some [some true] := by decide +kernel

end Dart.Props
