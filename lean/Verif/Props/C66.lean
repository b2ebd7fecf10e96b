import Verif.Lemmas.Compare
import Verif.Props.C65

/-
C66: comparing objects through the C interface, `dart_equal(&x, &y)`, whatever classes and counters they have. The theorems
are about the objects in two variables after any program that keeps the rules (`XCareful`). `sh` says what memory the two share,
and `Consistent` that it makes sense.
-/
namespace Dart.Props

open Dart.Spec Dart.Abi

/-- The state an object is in. -/
theorem live_state {s : XState} {a : ZState} (h : XHeld s a) {x : Nat} {o : Obj} {v : Val} (ho : s.core.objs x = some o)
    (hv : o.pkt.toHeap = .ok v) : Held true o.pkt ⟨o.pkt.isFinalized, v⟩ := by
  obtain ⟨b, _, hb, _⟩ := h.obj ho
  have h1 := hb.2.2.inState.1
  have h2 := hb.2.2.inState.2
  rw [hv] at h2
  cases hs : b.st with
  | mk f w =>
    rw [hs] at h1 h2
    cases h2
    simp only at h1
    rw [h1, ← hs]
    exact hb.2.2

theorem live_value {s : XState} {a : ZState} (h : XHeld s a) {x : Nat} {o : Obj} (ho : s.core.objs x = some o) :
    ∃ v, o.pkt.toHeap = .ok v := by
  obtain ⟨b, _, hb, _⟩ := h.obj ho
  exact ⟨_, hb.2.2.inState.2⟩

theorem dartEqual_objs {signed : Bool} {sh : Sharing} {s : CState} {x y : Nat} {o o' : Obj} (ho : s.objs x = some o)
    (ho' : s.objs y = some o') (hxy : x ≠ y) : dartEqual signed sh s x y = answer (o.eqOp signed sh o') := by
  simp only [dartEqual, ho, ho', if_neg hxy]

theorem answer_true {r : Res Bool} : answer r = some true ↔ r = .ok true := by
  cases r <;> simp [answer]

/-- Comparing two live objects always has an answer: it reads within the buffers, throws nothing (which would end the program),
and comes to an end. -/
theorem C66_always_answers {signed : Bool} (P : XProg) (h : XCareful signed P ZState.empty) {s : XState} {os : List XOut}
    (hr : P.run signed XState.empty = some (s, os)) {x y : Nat} {o o' : Obj} (ho : s.core.objs x = some o)
    (ho' : s.core.objs y = some o') {sh : Sharing} (hc : Consistent sh o.pkt o'.pkt) :
    ∃ r, dartEqual signed sh s.core x y = some r := by
  obtain ⟨a, ha⟩ := careful_held h hr
  obtain ⟨v, hv⟩ := live_value ha ho
  obtain ⟨w, hw⟩ := live_value ha ho'
  have h1 := live_state ha ho hv
  have h2 := live_state ha ho' hw
  by_cases hxy : x = y
  · subst hxy
    exact ⟨true, by simp [dartEqual, ho]⟩
  · rw [dartEqual_objs ho ho' hxy]
    unfold Obj.eqOp
    split
    · obtain ⟨r, e⟩ := eqTyped_answers (signed := signed) (sameRc := decide (o.rc = o'.rc)) h1 h2 hc
      rw [e]; exact ⟨r, rfl⟩
    · obtain ⟨r, e, _⟩ := eqAcross_ok (signed := signed) h1 h2
      rw [e]; exact ⟨r, rfl⟩

/-- Every live object is equal to itself, also with NaN in it. -/
theorem C66_self {signed : Bool} {sh : Sharing} {s : CState} {x : Nat} {o : Obj} (ho : s.objs x = some o) :
    dartEqual signed sh s x x = some true := by
  simp [dartEqual, ho]

/-- Two objects are equal exactly if they hold the same value, whatever class they are of, whatever kind of counter they have,
and whether they are finalized or not, if
* neither has NULs in strings or keys, NaN, the negative zero, or null fields,
* the keys of finalized objects are plain, and
* they can be compared (`ClassesCompare`): not two dynamic aggregates of the same class with different counters.
Missing for the full property: the cases excluded, in which it is wrong (see below). -/
theorem C66_equal_iff_same_value_partial {signed : Bool} (P : XProg) (h : XCareful signed P ZState.empty) {s : XState} {os : List XOut}
    (hr : P.run signed XState.empty = some (s, os)) {x y : Nat} {o o' : Obj} {v w : Val} (ho : s.core.objs x = some o)
    (ho' : s.core.objs y = some o') (hv : o.pkt.toHeap = .ok v) (hw : o'.pkt.toHeap = .ok w) {sh : Sharing}
    (hc : Consistent sh o.pkt o'.pkt) (ov : Ordinary v) (ow : Ordinary w) (nv : NoNullField v) (nw : NoNullField w)
    (kv : PlainIfFinalized signed o v) (kw : PlainIfFinalized signed o' w) (hq : ClassesCompare o o' v) :
    dartEqual signed sh s.core x y = some true ↔ v = w := by
  obtain ⟨a, ha⟩ := careful_held h hr
  have h1 := live_state ha ho hv
  have h2 := live_state ha ho' hw
  by_cases hxy : x = y
  · subst hxy
    rw [ho] at ho'
    cases ho'
    rw [hv] at hw
    cases hw
    exact ⟨fun _ => rfl, fun _ => C66_self ho⟩
  · rw [dartEqual_objs ho ho' hxy, answer_true]
    unfold Obj.eqOp
    split
    · rename_i hrep
      refine eqTyped_iff h1 h2 hc ov ow nv nw kv kw ?_
      rcases hq with hq | hq | hq | hq | hq
      · exact absurd hrep hq
      · exact .inl (by simp [hq])
      · exact .inr (.inl hq)
      · exact .inr (.inr (.inl hq))
      · exact .inr (.inr (.inr hq))
    · rw [eqAcross_iff h1 h2 nv nw kv kw]
      exact ⟨fun e => eq_of_alikeEq e (plainNums_of_ordinary ov) (plainNums_of_ordinary ow),
        fun e => by subst e; exact alikeEq_refl (plainNums_of_ordinary ov)⟩

/-- Objects of different classes, for all values without null fields: equal exactly if they are the same but for the two zeros, with
no NaN. Strings count in full here, also after a NUL. -/
theorem C66_across_classes {signed : Bool} (P : XProg) (h : XCareful signed P ZState.empty) {s : XState} {os : List XOut}
    (hr : P.run signed XState.empty = some (s, os)) {x y : Nat} {o o' : Obj} {v w : Val} (ho : s.core.objs x = some o)
    (ho' : s.core.objs y = some o') (hv : o.pkt.toHeap = .ok v) (hw : o'.pkt.toHeap = .ok w) (sh : Sharing)
    (hrep : o.rep ≠ o'.rep) (nv : NoNullField v) (nw : NoNullField w)
    (kv : PlainIfFinalized signed o v) (kw : PlainIfFinalized signed o' w) :
    dartEqual signed sh s.core x y = some true ↔ Alike Eq v w := by
  obtain ⟨a, ha⟩ := careful_held h hr
  have hxy : x ≠ y := by
    rintro rfl
    rw [ho] at ho'
    cases ho'
    exact hrep rfl
  rw [dartEqual_objs ho ho' hxy, answer_true]
  unfold Obj.eqOp
  rw [if_neg hrep]
  exact eqAcross_iff (live_state ha ho hv) (live_state ha ho' hw) nv nw kv kw

/-- What equality of objects of different classes means for all values with plain keys where finalized, including null fields: the
one (the first if it is finalized, otherwise the second) is searched for what is in the other, and a missing key counts as null. -/
theorem C66_across_classes_looks {signed : Bool} (P : XProg) (h : XCareful signed P ZState.empty) {s : XState} {os : List XOut}
    (hr : P.run signed XState.empty = some (s, os)) {x y : Nat} {o o' : Obj} {v w : Val} (ho : s.core.objs x = some o)
    (ho' : s.core.objs y = some o') (hv : o.pkt.toHeap = .ok v) (hw : o'.pkt.toHeap = .ok w) (sh : Sharing)
    (hrep : o.rep ≠ o'.rep) :
    (dartEqual signed sh s.core x y = some true → Cross (Found signed) ⟨o.pkt.isFinalized, v⟩ ⟨o'.pkt.isFinalized, w⟩) ∧
    (PlainIfFinalized signed o v → PlainIfFinalized signed o' w →
      Cross (fun _ => Faithful) ⟨o.pkt.isFinalized, v⟩ ⟨o'.pkt.isFinalized, w⟩ → dartEqual signed sh s.core x y = some true) := by
  obtain ⟨a, ha⟩ := careful_held h hr
  have hxy : x ≠ y := by
    rintro rfl
    rw [ho] at ho'
    cases ho'
    exact hrep rfl
  rw [dartEqual_objs ho ho' hxy, answer_true]
  unfold Obj.eqOp
  rw [if_neg hrep]
  obtain ⟨r, h1, h2, h3⟩ := eqAcross_ok (signed := signed) (live_state ha ho hv) (live_state ha ho' hw)
  rw [h1, Res.ok.injEq]
  exact ⟨h2, h3⟩

/-- Which side is named first makes no difference, if
* the objects are of the same class, or
* one is finalized and the other is not, or
* there are no null fields, and the keys of finalized objects are plain.
Missing for the full property: objects of different classes that are both dynamic or both finalized, with null fields or (both
finalized) with keys that are not plain, for which it is wrong (see below). -/
theorem C66_symmetric_partial {signed : Bool} (P : XProg) (h : XCareful signed P ZState.empty) {s : XState} {os : List XOut}
    (hr : P.run signed XState.empty = some (s, os)) {x y : Nat} {o o' : Obj} {v w : Val} (ho : s.core.objs x = some o)
    (ho' : s.core.objs y = some o') (hv : o.pkt.toHeap = .ok v) (hw : o'.pkt.toHeap = .ok w) {sh : Sharing}
    (hc : Consistent sh o.pkt o'.pkt)
    (hq : o.rep = o'.rep ∨ o.pkt.isFinalized ≠ o'.pkt.isFinalized ∨
      (NoNullField v ∧ NoNullField w ∧ PlainIfFinalized signed o v ∧ PlainIfFinalized signed o' w)) :
    dartEqual signed sh s.core x y = dartEqual signed sh.swap s.core y x := by
  obtain ⟨a, ha⟩ := careful_held h hr
  have h1 := live_state ha ho hv
  have h2 := live_state ha ho' hw
  by_cases hxy : x = y
  · subst hxy
    simp [dartEqual, ho]
  · rw [dartEqual_objs ho ho' hxy, dartEqual_objs ho' ho (Ne.symm hxy)]
    unfold Obj.eqOp
    by_cases hrep : o.rep = o'.rep
    · rw [if_pos hrep, if_pos hrep.symm, eqTyped_symm h1 h2 hc]
      congr 2
      simp [eq_comm]
    · rw [if_neg hrep, if_neg (Ne.symm hrep)]
      rcases hq with hq | hq | ⟨n1, n2, k1, k2⟩
      · exact absurd hq hrep
      · rw [eqAcross_symm hq]
      · obtain ⟨r, e1, _⟩ := eqAcross_ok (signed := signed) h1 h2
        obtain ⟨t, e2, _⟩ := eqAcross_ok (signed := signed) h2 h1
        have i1 := eqAcross_iff h1 h2 n1 n2 k1 k2
        have i2 := eqAcross_iff h2 h1 n2 n1 k2 k1
        rw [e1, Res.ok.injEq] at i1
        rw [e2, Res.ok.injEq] at i2
        rw [e1, e2]
        congr 2
        rw [Bool.eq_iff_iff, i1, i2]
        exact ⟨alikeEq_symm, alikeEq_symm⟩

/-- Two finalized objects of the same class are equal exactly if they hold the same value: for all values, and whatever their
counters. -/
theorem C66_finalized_same_class {signed : Bool} (P : XProg) (h : XCareful signed P ZState.empty) {s : XState} {os : List XOut}
    (hr : P.run signed XState.empty = some (s, os)) {x y : Nat} {o o' : Obj} {v w : Val} (ho : s.core.objs x = some o)
    (ho' : s.core.objs y = some o') (hv : o.pkt.toHeap = .ok v) (hw : o'.pkt.toHeap = .ok w) {sh : Sharing}
    (hc : Consistent sh o.pkt o'.pkt) (hrep : o.rep = o'.rep) (hf : o.pkt.isFinalized = true) (hf' : o'.pkt.isFinalized = true) :
    dartEqual signed sh s.core x y = some true ↔ v = w := by
  obtain ⟨a, ha⟩ := careful_held h hr
  by_cases hxy : x = y
  · subst hxy
    rw [ho] at ho'
    cases ho'
    rw [hv] at hw
    cases hw
    exact ⟨fun _ => rfl, fun _ => C66_self ho⟩
  · rw [dartEqual_objs ho ho' hxy, answer_true]
    unfold Obj.eqOp
    rw [if_pos hrep]
    exact eqTyped_bufs (live_state ha ho hv) (live_state ha ho' hw) hc hf hf'

/-- Dynamic objects and arrays of the same class with different counters are never equal. -/
theorem C66_dynamic_counters_unequal {signed : Bool} {s : CState} {x y : Nat} {o o' : Obj} {v w : Val} (ho : s.objs x = some o)
    (ho' : s.objs y = some o') (hv : o.pkt = .heap v) (hw : o'.pkt = .heap w) (sh : Sharing) (hrep : o.rep = o'.rep) (hrc : o.rc ≠ o'.rc)
    (hs : (∃ es, v = .arr es) ∨ ∃ fs, v = .obj fs) : dartEqual signed sh s x y = some false := by
  have hxy : x ≠ y := by
    rintro rfl
    rw [ho] at ho'
    cases ho'
    exact hrc rfl
  rw [dartEqual_objs ho ho' hxy]
  unfold Obj.eqOp
  rw [if_pos hrep, hv, hw]
  rcases hs with ⟨es, rfl⟩ | ⟨fs, rfl⟩ <;> simp [Pkt.eqTyped, hrc, mixedEq, answer]

/-- The calls for two heaps or two buffers, `dart_heap_equal` and `dart_buffer_equal`, agree with `dart_equal` on different objects with
the same counter, and never take objects with different counters for equal. -/
theorem C66_typed_calls {signed : Bool} {sh : Sharing} {s : CState} {x y : Nat} {o o' : Obj} (ho : s.objs x = some o) (ho' : s.objs y = some o')
    (hrep : o.rep = o'.rep) (hp : o.rep ≠ .packet) (hxy : x ≠ y) :
    typedEqual signed sh s x y = if o.rc = o'.rc then dartEqual signed sh s x y else some false := by
  rw [dartEqual_objs ho ho' hxy]
  simp only [typedEqual, ho, ho', Obj.eqOp, hrep, if_true]
  rw [if_neg (by simp [← hrep, hp])]
  by_cases hrc : o.rc = o'.rc <;> simp [hrc]

/-! ### What goes wrong in the excluded cases -/

/-- Compare after a program, with nothing shared. -/
def askAfter (P : XProg) (x y : Nat) : Option Bool :=
  (P.run true XState.empty).bind fun r => dartEqual true ⟨false, fun _ _ _ => false⟩ r.1.core x y

/-- The same with the call for heaps. -/
def askTyped (P : XProg) (x y : Nat) : Option Bool :=
  (P.run true XState.empty).bind fun r => typedEqual true ⟨false, fun _ _ _ => false⟩ r.1.core x y

/-- Make an object in `x` with one field, a packet or a heap, and go on. -/
def makeObj (packet : Bool) (x rc : Nat) (k : Bytes) (v : CVal) (next : XProg) : XProg :=
  .call (.plain (.init packet x rc .obj)) fun _ => .call (.plain (.change x (.objInsert k v))) fun _ => next

/-- Not symmetric: the packet `{"a": null}` is equal to the heap `{"b": 1}`, but not the other way round. -/
theorem C66_not_symmetric :
    askAfter (makeObj true 0 1 [97] .null (makeObj false 1 1 [98] (.int 1) .stop)) 0 1 = some true ∧
    askAfter (makeObj true 0 1 [97] .null (makeObj false 1 1 [98] (.int 1) .stop)) 1 0 = some false := by decide +kernel

/-- It is documented that objects with different counters are always unequal. They are not: two integers, two finalized packets,
and a packet and a heap can be equal. But two packets or two heaps with the same contents are unequal, though each of
them is equal to the same object of the other class. -/
theorem C66_counters_matter_sometimes :
    askAfter (.call (.plain (.init true 0 1 (.int 5))) fun _ => .call (.plain (.init true 1 2 (.int 5))) fun _ => .stop) 0 1 = some true ∧
    askAfter (makeObj true 0 1 [97] (.int 5) (.call (.plain (.conv false 2 0 .lower)) fun _ => makeObj true 1 2 [97] (.int 5)
      (.call (.plain (.conv false 3 1 .lower)) fun _ => .stop))) 2 3 = some true ∧
    askAfter (makeObj true 0 1 [97] (.int 5) (makeObj true 1 2 [97] (.int 5) .stop)) 0 1 = some false ∧
    askAfter (makeObj false 0 1 [97] (.int 5) (makeObj false 1 2 [97] (.int 5) .stop)) 0 1 = some false ∧
    askAfter (makeObj true 0 1 [97] (.int 5) (makeObj false 1 2 [97] (.int 5) .stop)) 0 1 = some true := by decide +kernel

/-- Equality of finalized values depends on the class: `{"zz": 2, "é": 1}` as a finalized packet is not equal to the buffer made from
it, though the packet and a packet made from that buffer are equal. -/
theorem C66_finalized_classes_disagree :
    askAfter (makeObj true 0 1 [122, 122] (.int 2) (.call (.plain (.change 0 (.objInsert [0xc3, 0xa9] (.int 1)))) fun _ =>
      .call (.plain (.conv false 1 0 .lower)) fun _ => .call (.plain (.conv false 2 0 .toBuffer)) fun _ => .stop)) 1 2 = some false ∧
    askAfter (makeObj true 0 1 [122, 122] (.int 2) (.call (.plain (.change 0 (.objInsert [0xc3, 0xa9] (.int 1)))) fun _ =>
      .call (.plain (.conv false 1 0 .lower)) fun _ => .call (.plain (.conv false 2 0 .toBuffer)) fun _ =>
      .call (.plain (.conv false 3 2 .lower)) fun _ => .stop)) 1 3 = some true := by decide +kernel

/-- A heap holding NaN is equal to itself for `dart_equal`, not for `dart_heap_equal`, which compares a copy. -/
theorem C66_typed_self_differs :
    askAfter (.call (.plain (.init false 0 1 (.dcm 0x7ff8000000000000#64))) fun _ => .stop) 0 0 = some true ∧
    askTyped (.call (.plain (.init false 0 1 (.dcm 0x7ff8000000000000#64))) fun _ => .stop) 0 0 = some false := by decide +kernel

/-! ### A concrete case meeting the conditions -/

/-- The packet `{"k": 5}` with a plain counter, and the same as a heap with an atomic one. -/
def c66Prog (n : BitVec 64) : XProg := makeObj true 0 2 [0x6b] (.int 5) (makeObj false 1 1 [0x6b] (.int n) .stop)

example : askAfter (c66Prog 5) 0 1 = some true ∧ askAfter (c66Prog 6) 0 1 = some false := by decide +kernel

/-- It keeps the rules. -/
theorem c66Prog_careful (n : BitVec 64) : XCareful true (c66Prog n) ZState.empty := by
  refine ⟨⟨rfl, by intro t h; cases h⟩, fun a1 o1 h1 => ?_⟩
  obtain ⟨_, _, ⟨rfl, rfl⟩, rfl, rfl⟩ := h1
  refine ⟨by simp [XAllowed, Allowed, AState.set, PMut.All, cxxCall], fun a2 o2 h2 => ?_⟩
  obtain ⟨m, _, ⟨b, hb, hch⟩, rfl, rfl⟩ := h2
  have hm : m.objs 1 = none := by
    rcases hch with ⟨_, rfl, _⟩ | ⟨_, _, rfl, _⟩ | ⟨_, _, r, _, h⟩
    · simp [AState.set, ZState.empty, AState.empty]
    · simp [AState.set, ZState.empty, AState.empty]
    · cases r <;> (obtain ⟨rfl, _⟩ := h; simp [AState.set, ZState.empty, AState.empty])
  refine ⟨⟨hm, by intro t h; cases h⟩, fun a3 o3 h3 => ?_⟩
  obtain ⟨_, _, ⟨rfl, rfl⟩, rfl, rfl⟩ := h3
  exact ⟨by simp [XAllowed, Allowed, AState.set, PMut.All, cxxCall], fun _ _ _ => trivial⟩

/-- The objects it leaves meet the conditions. -/
example : ∃ s os, (c66Prog 5).run true XState.empty = some (s, os) ∧
    s.core.objs 0 = some ⟨.packet, 2, .heap (.obj [([0x6b], .int 5)])⟩ ∧ s.core.objs 1 = some ⟨.heap, 1, .heap (.obj [([0x6b], .int 5)])⟩ ∧
    ClassesCompare ⟨.packet, 2, .heap (.obj [([0x6b], .int 5)])⟩ ⟨.heap, 1, .heap (.obj [([0x6b], .int 5)])⟩ (.obj [([0x6b], .int 5)]) :=
  ⟨_, _, rfl, rfl, rfl, .inl (by simp)⟩
example : Ordinary (.obj [([0x6b], .int 5)]) ∧ NoNullField (.obj [([0x6b], .int 5)]) := by
  refine ⟨.obj (by simp) ?_, .obj (by simp) ?_⟩ <;> intro f hf <;> simp only [List.mem_singleton] at hf <;> subst hf
  · exact .int _
  · exact .scalar (by simp) (by simp)

end Dart.Props
