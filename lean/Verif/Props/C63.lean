import Verif.Lemmas.Rvalue
import Verif.Model.Sample

/-
C63: calls on temporaries. `std::move(p).get("a").get("b")` takes the packet apart instead of copying: every call changes
the packet itself and returns it. The result has to be what the same calls on variables give, and what is left of `p` a
packet that can be used.
-/
namespace Dart.Props
open Dart.Spec

/-- For every program over any number of packets that mixes the calls of C18 with chains of calls on temporaries, with moves
out of variables and move assignment (also to itself): the program never runs into undefined behaviour, and the variables end
up, and the steps throw, as specified on states. A chain that throws leaves in the variable what the calls before made of
it; a packet that was moved from is null, in the representation it had. Partial: without `at_front` and `at_back` on
temporaries (`ropWF`, see `C63_negation_no_return`), and as C18 for keys that are not plain. -/
theorem C63_programs_partial (signed : Bool) (ops : List ROp) (hw : ∀ op ∈ ops, ropWF false op) :
    ∃ ps es st, runRvalues signed [] ops = some (ps, es) ∧ RSteps signed [] ops st es ∧
      ps.length = st.length ∧ ∀ x, InState (pktVar ps x) (stVar st x) := by
  obtain ⟨ps, st, es, h1, h2, h3⟩ := rvalues_ok (z := false) (signed := signed) ops (ps := []) (st := []) ⟨rfl, by simp⟩ hw
  exact ⟨ps, es, st, h1, h3, h2.1, fun x => (h2.var x).inState⟩

/-- Each call on a temporary has the outcome of the same call on a variable, for packets in any state at all: the same
exception or the same packet; a null that was taken out of a finalized packet does not keep the memory. -/
theorem C63_same_as_named_partial (signed : Bool) (p : Pkt) (c : RCall Pkt) (hc : Returns c) :
    SameOutcome (c.run signed p) (named signed p c) := rcall_same signed p c hc

/-- Taking a value out along a path of keys: `auto q = std::move(p).get(k₁).get(k₂)…` gives the value the path leads to, in
the representation `p` had, leaves `p` null, and every other variable as it was. -/
theorem C63_path (signed exact : Bool) (ps : List Pkt) (x : Nat) (v w : Val) (ks : List Bytes) (hx : x < ps.length)
    (hp : Reached signed exact ps[x]) (hv : ps[x].toHeap = .ok v) (hl : Leads signed v ks w) :
    ∃ p q, (ROp.chain x (ks.map .get)).run signed ps = some (ps.set x p ++ [q], none) ∧
      InState p ⟨ps[x].isFinalized, .null⟩ ∧ InState q ⟨ps[x].isFinalized, w⟩ := by
  have hh := Reached.held_of hp hv
  have key : ∀ (ks : List Bytes) (ps : List Pkt) (fin : Bool) (v : Val) (hx : x < ps.length),
      Held exact ps[x] ⟨fin, v⟩ → Leads signed v ks w →
      ∃ q, runChain signed x ps (ks.map .get) = some (ps.set x q, none) ∧ Held exact q ⟨fin, w⟩ := by
    intro ks
    induction ks with
    | nil =>
      intro ps fin v hx h hl
      have : w = v := by cases v <;> simpa [Leads] using hl
      subst this
      exact ⟨ps[x], by simp [runChain], h⟩
    | cons k ks ih =>
      intro ps fin v hx h hl
      cases v with
      | obj fs =>
        obtain ⟨hp, u, hu, hl⟩ := hl
        obtain ⟨out, h1, h2⟩ := rcall_ok (signed := signed) h (f := PArg.pkt ps) (g := argState []) (.get k) trivial trivial
        have hwf : Val.WF (.obj fs) := h.wf
        have hlk := lookup_of_mem (wf_obj.1 hwf).1 hu
        simp only [RCall.map, CallOk, ReadOk] at h1
        obtain ⟨r, hr, rfl⟩ := h1
        have : r = some u := by
          rcases hr with rfl | ⟨_, ⟨f, hf, hn⟩, _⟩
          · exact hlk
          · exact absurd (hp f hf) hn
        subst this
        cases hc : ((RCall.get k).map (PArg.pkt ps)).run signed ps[x] with
        | ok q =>
          rw [hc] at h2
          obtain ⟨q', h3, h4⟩ := ih (ps.set x q) fin u (by simpa using hx) (by simp only [List.getElem_set_self]; exact h2) hl
          refine ⟨q', ?_, h4⟩
          have hpv : pktVar ps x = ps[x] := by simp [pktVar, hx]
          simp only [List.map_cons, runChain, hpv, hc, storeAt, h3, List.set_set]
        | throw e => rw [hc] at h2; exact h2.elim
        | ub => rw [hc] at h2; exact h2.elim
      | _ => exact hl.elim
  obtain ⟨q, h1, h2⟩ := key ks ps _ v hx hh hl
  have hpv : pktVar (ps.set x q) x = q := by simp [pktVar, hx]
  exact ⟨q.movedFrom, q, by simp [ROp.run, h1, hpv], h2.leftover.inState, h2.inState⟩

/-- What is left after a move: null, in the representation the packet had. So a packet that was finalized stays one that
cannot be changed: every mutator throws. -/
theorem C63_moved_from (signed exact : Bool) (ps : List Pkt) (x : Nat) (hx : x < ps.length) (hp : Reached signed exact ps[x]) :
    ∃ p, (ROp.chain x []).run signed ps = some (ps.set x p ++ [ps[x]], none) ∧ p.toHeap = .ok .null ∧
      p.isFinalized = ps[x].isFinalized ∧
      (ps[x].isFinalized = true → ∀ a : Pkt, (PMut.pushBack a).run p = .throw .stateError ∧
        (PMut.assign a).run p = .throw .stateError) := by
  obtain ⟨s, hs⟩ := Reached.held hp
  have h := hs.leftover.inState
  have hpv : pktVar ps x = ps[x] := by simp [pktVar, hx]
  refine ⟨ps[x].movedFrom, by simp [ROp.run, runChain, hpv], h.2, ?_, fun hf a => ?_⟩
  · rw [h.1, hs.inState.1]; rfl
  · cases hq : ps[x] with
    | heap v => rw [hq] at hf; cases hf
    | buf b => exact ⟨rfl, rfl⟩

/-- A move assignment hands over the packet, whole, and assigning a packet to itself does nothing. -/
theorem C63_move (signed : Bool) (ps : List Pkt) (x y : Nat) (hx : x < ps.length) (hy : y < ps.length) :
    ∃ ps', (ROp.move x y).run signed ps = some (ps', none) ∧ ps'[x]? = some ps[y] ∧
      (x ≠ y → ∃ p, ps'[y]? = some p ∧ p.toHeap = .ok .null ∧ p.isFinalized = ps[y].isFinalized) ∧
      ∀ u, u ≠ x → u ≠ y → ps'[u]? = ps[u]? := by
  have hpv : pktVar ps y = ps[y] := by simp [pktVar, hy]
  by_cases h : x = y
  · subst h
    exact ⟨ps, by simp [ROp.run], by simp [hx], fun h => absurd rfl h, fun _ _ _ => rfl⟩
  · refine ⟨(ps.set x ps[y]).set y ps[y].movedFrom, by simp [ROp.run, h, hpv], ?_, fun _ => ⟨ps[y].movedFrom, ?_, ?_, ?_⟩,
      fun u h1 h2 => ?_⟩
    · rw [List.getElem?_set_ne (Ne.symm h)]; simp [hx]
    · simp [hy]
    · cases ps[y] <;> rfl
    · cases ps[y] <;> rfl
    · rw [List.getElem?_set_ne (Ne.symm h2), List.getElem?_set_ne (Ne.symm h1)]

/-! ### Two calls that never return -/

/-- The claim is false for `at_front` and `at_back`: on a temporary they are undefined behaviour for every array that is
not empty, in either representation (a lambda that promises a packet ends without `return`), while on a variable they return
the first and the last element. -/
theorem C63_negation_no_return (signed exact : Bool) (p : Pkt) (h : Reached signed exact p) (e : Val) (es : List Val)
    (hv : p.toHeap = .ok (.arr (e :: es))) :
    (RCall.atFront (α := Pkt)).run signed p = .ub ∧ (RCall.atBack (α := Pkt)).run signed p = .ub ∧
    (∃ q, (PRead.atFront (α := Pkt)).run signed p = .ok q ∧ InState q ⟨p.isFinalized, e⟩) ∧
    ∃ q, (PRead.atBack (α := Pkt)).run signed p = .ok q ∧ InState q ⟨p.isFinalized, (e :: es).getLast (by simp)⟩ := by
  have hh := Reached.held_of h hv
  obtain ⟨o1, a1, a2⟩ := read_ok (signed := signed) hh (f := id) (g := fun _ => ⟨false, .null⟩) .atFront trivial
  obtain ⟨o2, b1, b2⟩ := read_ok (signed := signed) hh (f := id) (g := fun _ => ⟨false, .null⟩) .atBack trivial
  simp only [PRead.map, ReadOk, List.head?_cons] at a1
  simp only [PRead.map, ReadOk, List.getLast?_eq_some_getLast (List.cons_ne_nil e es)] at b1
  subst a1 b1
  have fr : ∃ q, (PRead.atFront (α := Pkt)).run signed p = .ok q ∧ Held exact q ⟨p.isFinalized, e⟩ := by
    simp only [PRead.map] at a2
    cases hr : (PRead.atFront (α := Pkt)).run signed p with
    | ok q => rw [hr] at a2; exact ⟨q, rfl, a2⟩
    | throw e => rw [hr] at a2; exact a2.elim
    | ub => rw [hr] at a2; exact a2.elim
  have ba : ∃ q, (PRead.atBack (α := Pkt)).run signed p = .ok q ∧
      Held exact q ⟨p.isFinalized, (e :: es).getLast (by simp)⟩ := by
    simp only [PRead.map] at b2
    cases hr : (PRead.atBack (α := Pkt)).run signed p with
    | ok q => rw [hr] at b2; exact ⟨q, rfl, b2⟩
    | throw e => rw [hr] at b2; exact b2.elim
    | ub => rw [hr] at b2; exact b2.elim
  obtain ⟨q, h1, h2⟩ := fr
  obtain ⟨r, h3, h4⟩ := ba
  exact ⟨(noReturn_ub signed p).1 q h1, (noReturn_ub signed p).2 r h3, ⟨q, h1, h2.inState⟩, r, h3, h4.inState⟩

/-! ### Concrete cases -/

/-- `{"a": {"b": [7]}}` -/
def crate : Val := .obj [([97], .obj [([98], .arr [.int 7])])]

/-- Take the array out of the finalized packet, make it dynamic, append to it; move it back over what is left; ask a number
for a key in the middle of a chain. -/
def unpacking : List ROp :=
  [.plain (.create (.const crate)), .plain (.finalize 0),
   .chain 0 [.get [97], .get [98], .definalize, .pushBack (.const (.int 8))],
   .move 0 1, .chain 0 [.popFront, .front, .get [97]]]

theorem unpacking_covered : ∀ op ∈ unpacking, ropWF false op := by
  intro op h
  simp only [unpacking, List.mem_cons, List.not_mem_nil, or_false] at h
  rcases h with rfl | rfl | rfl | rfl | rfl
  · simp [ropWF, opWF, constWF, crate, Val.WF, WFFields, WFElems, Sorted]
  all_goals simp [ropWF, opWF, RCall.All, Returns, constWF, Val.WF]

/-- What the variables contain. -/
def contents (r : Option (List Pkt × List (Option Exc))) : List (Option String) × List (Option Exc) :=
  match r with
  | some (ps, es) => (ps.map fun p => match p.toHeap with
      | .ok (.int i) => some s!"{p.isFinalized} {i.toNat}"
      | .ok .null => some s!"{p.isFinalized} null"
      | .ok (.arr es) => some s!"{p.isFinalized} array of {es.length}"
      | .ok _ => some "other"
      | _ => none, es)
  | none => ([], [])

/-- The chain that throws leaves the number it had got to. -/
example : contents (runRvalues true [] unpacking) =
    ([some "false 8", some "false null"], [none, none, none, none, some .typeError]) := by decide +kernel

/-- Half way: the finalized packet was emptied. -/
example : contents (runRvalues true [] (unpacking.take 2 ++ [.chain 0 [.get [97], .get [98]]])) =
    ([some "true null", some "true array of 1"], [none, none, none]) := by decide +kernel

/-- A path that `C63_path` is about. -/
example : Leads true crate [[97], [98]] (.arr [.int 7]) := by
  simp [Leads, crate, PlainKey]

/-- An array `C63_negation_no_return` is about. -/
example : Reached true false (.heap (.arr [.int 7])) :=
  ⟨[.create (.const (.arr [.int 7]))], _, _, by simp [opWF, constWF, WFElems, Val.WF], rfl, by simp [PArg.pkt]⟩

end Dart.Props
