import Verif.Lemmas.AbiMove
import Verif.Model.Sample

/-
C64: moving objects through the C interface. `dart_move` hands an object over; the `take` calls store an object in another
one and are documented to leave null in the variable it came from.
-/
namespace Dart.Props

open Dart.Spec Dart.Abi

/-- Any program that makes only calls it is allowed to make, with moves, `take` calls, JSON and raw bytes besides the calls of
C52: every call is defined and does what the specification says, no object is overwritten and no block of bytes forgotten.
Partial: the specification of the `take` calls says what they do, which is not what is documented (below); and as C52. -/
theorem C64_programs_partial {signed : Bool} (P : XProg) (h : XCareful signed P ZState.empty) :
    ∃ s a os, P.run signed XState.empty = some (s, os) ∧ XProgDoes signed P ZState.empty a os ∧ XMemoryShows s a ∧
      s.core.lost = 0 ∧ s.leaked = 0 := by
  obtain ⟨s, a, os, h1, h2, h3, h4, h5⟩ := xprog_ok P xHeld_empty h
  exact ⟨s, a, os, h1, h2, h3.shows, h4, h5⟩

/-- In every such program heaps are dynamic and buffers are finalized, whatever was moved where. -/
theorem C64_classes {signed : Bool} (P : XProg) (h : XCareful signed P ZState.empty) {s : XState} {os : List XOut}
    (hr : P.run signed XState.empty = some (s, os)) {x : Nat} {o : Obj} (ho : s.core.objs x = some o) :
    (o.rep = .heap → o.pkt.isFinalized = false) ∧ (o.rep = .buffer → o.pkt.isFinalized = true) := by
  obtain ⟨s', a, os', h1, _, h3, _⟩ := xprog_ok P xHeld_empty h
  rw [hr] at h1
  cases h1
  have hb := h3.core.1 x
  rw [ho] at hb
  cases ha : a.core.objs x with
  | none => rw [ha] at hb; exact hb.elim
  | some b =>
    rw [ha] at hb
    obtain ⟨e1, _, e2⟩ := hb
    have := h3.classes x b ha
    rw [e1, e2.inState.1]
    exact this

/-- The object with null in it. -/
def nulled (o : Obj) : Obj := { o with pkt := .heap .null }

/-- A `take` call does to all variables but the one it takes from what the call that copies does, returns the same, and is
undefined if that is. In the variable it takes from there is the same object or null afterwards. -/
theorem C64_take_like_copy (s : CState) (x : Nat) (w : Slot) (y : Nat) :
    (runTake s x w y = none ∧ runMut s x (w.mut y) = none) ∨
    ∃ s₁ s₂ o, runTake s x w y = some (s₁, o) ∧ runMut s x (w.mut y) = some (s₂, o) ∧ s₁.lost = s₂.lost ∧
      (∀ u, u ≠ y → s₁.objs u = s₂.objs u) ∧ (x ≠ y → s₁.objs y = s.objs y ∨ s₁.objs y = (s.objs y).map nulled) := by
  have hst : (w.mut y).stored = some (.dart y) := by cases w <;> rfl
  simp only [runTake, runMut, hst]
  cases ho : s.objs x with
  | none => exact .inl ⟨rfl, rfl⟩
  | some o =>
    simp only
    by_cases hr : o.rep = .buffer
    · simp only [if_pos hr]
      exact .inr ⟨s, s, _, rfl, rfl, rfl, fun _ _ => rfl, fun _ => .inl rfl⟩
    simp only [if_neg hr]
    cases ha : s.objs y with
    | none => exact .inl ⟨rfl, rfl⟩
    | some a =>
      simp only
      by_cases hrc : a.rc = o.rc
      rotate_left
      · rw [if_pos hrc, if_pos hrc]
        exact .inr ⟨s, s, _, rfl, rfl, rfl, fun _ _ => rfl, fun _ => .inl ha⟩
      rw [if_neg (not_not_intro hrc), if_neg (not_not_intro hrc)]
      by_cases hy : y = x
      · rw [if_pos hy, if_pos hy]; exact .inl ⟨rfl, rfl⟩
      rw [if_neg hy, if_neg hy]
      simp only [applyMut]
      cases hf : o.pkt.isFinalized with
      | true =>
        rw [if_pos rfl]
        have : ((w.mut y).call.map (CVal.pkt s)).run o.pkt = .throw .stateError := by
          cases hp : o.pkt with
          | heap v => rw [hp] at hf; cases hf
          | buf b => cases w <;> simp [Slot.mut, CMut.call, PMut.map, PMut.run, Pkt.getHeap, Res.bind]
        rw [this]
        exact .inr ⟨s, s, _, rfl, rfl, rfl, fun _ _ => rfl, fun _ => .inl ha⟩
      | false =>
        rw [if_neg (by simp)]
        have key : ∀ (t : CState) (b : Bool), t.objs y = some a → (t.takeFrom y a b).lost = t.lost ∧
            (∀ u, u ≠ y → (t.takeFrom y a b).objs u = t.objs u) ∧
            ((t.takeFrom y a b).objs y = some a ∨ (t.takeFrom y a b).objs y = some (nulled a)) := by
          intro t b ht
          cases b with
          | false => exact ⟨rfl, fun _ _ => rfl, .inl ht⟩
          | true => exact ⟨rfl, fun u hu => by simp [CState.takeFrom, CState.change, upd, hu], .inr (by simp [CState.takeFrom, CState.change, upd, nulled])⟩
        cases hres : ((w.mut y).call.map (CVal.pkt s)).run o.pkt with
        | ok p =>
          obtain ⟨k1, k2, k3⟩ := key (s.change x { o with pkt := p }) (w.empties o.pkt a) (by simp [CState.change, upd, hy, ha])
          exact .inr ⟨_, _, _, rfl, rfl, k1, k2, fun _ => k3⟩
        | throw e =>
          obtain ⟨k1, k2, k3⟩ := key s a.castEmpties ha
          exact .inr ⟨_, _, _, rfl, rfl, k1, k2, fun _ => k3⟩
        | ub => exact .inl ⟨rfl, rfl⟩

/-- What every `take` call that gets as far as looking at its argument does: both variables are live, the destination is
dynamic and not a buffer, the counters are of the same kind. -/
structure TakeReady (s : CState) (x y : Nat) (o a : Obj) (v : Val) : Prop where
  dst : s.objs x = some o
  src : s.objs y = some a
  differ : y ≠ x
  notBuffer : o.rep ≠ .buffer
  counters : a.rc = o.rc
  dynamic : o.pkt = .heap v

theorem take_ready {s s' : CState} {x y : Nat} {o a : Obj} {v : Val} (h : TakeReady s x y o a v) {w : Slot} {e : Err}
    (hr : runTake s x w y = some (s', .code e)) :
    (e = .noError → ∃ p, s' = (s.change x { o with pkt := p }).takeFrom y a (w.empties o.pkt a)) ∧
    (e ≠ .noError → s' = s.takeFrom y a a.castEmpties) := by
  obtain ⟨h1, h2, h3, h4, h5, h6⟩ := h
  have hcode : ∀ e : Exc, errCode e ≠ .noError := by intro e; cases e <;> decide
  simp only [runTake, h1, h2, if_neg h4, h3, if_false, h5, h6, Pkt.isFinalized, ne_eq, not_true, Bool.false_eq_true] at hr
  split at hr
  · cases hr
    exact ⟨fun _ => ⟨_, by rw [h6]⟩, fun h => absurd rfl h⟩
  · rename_i e' _
    cases hr
    exact ⟨fun h => absurd h (hcode e'), fun _ => rfl⟩
  · cases hr

/-- What is documented holds for packets that are not finalized: after a `take` call the variable is null. -/
theorem C64_packet_emptied_partial {s s' : CState} {x y : Nat} {o a : Obj} {u v : Val} (h : TakeReady s x y o a v) {w : Slot} {e : Err}
    (hr : runTake s x w y = some (s', .code e)) (hp : a.rep = .packet) (hd : a.pkt = .heap u) : s'.objs y = some (nulled a) := by
  obtain ⟨h1, h2⟩ := take_ready h hr
  have hc : a.castEmpties = true := by simp [Obj.castEmpties, hp, hd]
  have he : w.empties o.pkt a = true := by simp [Slot.empties, hp, hc]
  by_cases hn : e = .noError
  · obtain ⟨p, rfl⟩ := h1 hn
    simp [he, CState.takeFrom, CState.change, upd, nulled]
  · rw [h2 hn]
    simp [hc, CState.takeFrom, CState.change, upd, nulled]

/-- And for heaps, if the call succeeds and did not store under a new key. -/
theorem C64_heap_emptied_partial {s s' : CState} {x y : Nat} {o a : Obj} {v : Val} (h : TakeReady s x y o a v) {w : Slot}
    (hr : runTake s x w y = some (s', .code .noError)) (hp : a.rep = .heap)
    (hw : ∀ k, w = .objInsert k → ∃ fs, v = .obj fs ∧ (lookup fs k).isSome) : s'.objs y = some (nulled a) := by
  obtain ⟨h1, _⟩ := take_ready h hr
  obtain ⟨p, rfl⟩ := h1 rfl
  have he : w.empties o.pkt a = true := by
    simp only [Slot.empties, hp, if_true, h.dynamic]
    cases w with
    | objInsert k =>
      obtain ⟨fs, rfl, hk⟩ := hw k rfl
      simp only [Slot.copies, mapFind_eq]
      cases hl : lookup fs k <;> simp_all
    | _ => rfl
  simp [he, CState.takeFrom, CState.change, upd, nulled]

/-- A heap is left alone by a call that fails. -/
theorem C64_heap_kept {s s' : CState} {x y : Nat} {o a : Obj} {v : Val} (h : TakeReady s x y o a v) {w : Slot} {e : Err}
    (hr : runTake s x w y = some (s', .code e)) (he : e ≠ .noError) (hp : a.rep = .heap) : s' = s := by
  obtain ⟨_, h2⟩ := take_ready h hr
  have hc : a.castEmpties = false := by simp [Obj.castEmpties, hp]
  rw [h2 he, hc]; rfl

/-- It is documented that after a `take` call the variable is null. **Not so** for a heap that is stored under a new key, the
most common use: the heap is copied and the variable keeps it. -/
theorem C64_new_key_wrong {s : CState} {x y : Nat} {o a : Obj} {fs : List (Bytes × Val)} (h : TakeReady s x y o a (.obj fs))
    {u : Val} (hp : a.rep = .heap) (hd : a.pkt = .heap u) {k : Bytes} (hk : lookup fs k = none) (hl : k.length ≤ 65535) :
    ∃ s', runTake s x (.objInsert k) y = some (s', .code .noError) ∧ s'.objs y = some a ∧
      ∃ gs, s'.objs x = some { o with pkt := .heap (.obj gs) } ∧ lookup gs k = some u := by
  obtain ⟨h1, h2, h3, h4, h5, h6⟩ := h
  have hrun : (((Slot.objInsert k).mut y).call.map (CVal.pkt s)).run o.pkt = .ok (.heap (.obj (mapInsert k u fs))) := by
    simp [Slot.mut, CMut.call, PMut.map, PMut.run, CVal.pkt, h2, h6, hd, Pkt.getHeap, Pkt.toHeap, Res.bind, Val.insert,
      Nat.not_lt.2 hl]
  have he : (Slot.objInsert k).empties o.pkt a = false := by
    simp [Slot.empties, hp, h6, Slot.copies, mapFind_eq, hk]
  refine ⟨s.change x { o with pkt := .heap (.obj (mapInsert k u fs)) }, ?_, ?_, mapInsert k u fs, ?_, ?_⟩
  · simp only [runTake, h1, h2, if_neg h4, h3, if_false, h5, hrun, he, CState.takeFrom, ne_eq, not_true, Bool.false_eq_true]
    rw [h6]; rfl
  · simp [CState.change, upd, h3, h2]
  · simp [CState.change, upd]
  · rw [lookup_mapInsert]; simp [put]

/-- **Nor** for a finalized value, whether a packet or a buffer: it is never taken, only copied. -/
theorem C64_finalized_wrong {s s' : CState} {x y : Nat} {o a : Obj} {w : Slot} {out : Out} (ha : s.objs y = some a) (hxy : y ≠ x)
    (hb : a.pkt.isFinalized = true) (hc : a.rep ≠ .heap) (hx : s.objs x = some o) (hr : runTake s x w y = some (s', out)) :
    s'.objs y = some a := by
  have hf : a.castEmpties = false := by
    cases hp : a.pkt with
    | heap v => rw [hp] at hb; cases hb
    | buf b => simp only [Obj.castEmpties, hp]; split <;> first | rfl | (rename_i h; cases h)
  have he : w.empties o.pkt a = false := by simp [Slot.empties, hc, hf]
  simp only [runTake, hx, ha, hxy, if_false, he, hf, CState.takeFrom] at hr
  split at hr
  · cases hr; exact ha
  · split at hr
    · cases hr; exact ha
    · split at hr
      · cases hr; exact ha
      · split at hr
        · cases hr; simp [CState.change, upd, hxy, ha]
        · cases hr; exact ha
        · cases hr

/-- **A `take` call that fails destroys its argument** if that is a packet that is not finalized: no variable has changed but
the argument, which is null. -/
theorem C64_failure_loses {s s' : CState} {x y : Nat} {o a : Obj} {u v : Val} (h : TakeReady s x y o a v) {w : Slot} {e : Err}
    (hr : runTake s x w y = some (s', .code e)) (he : e ≠ .noError) (hp : a.rep = .packet) (hd : a.pkt = .heap u) :
    s'.objs y = some (nulled a) ∧ ∀ z, z ≠ y → s'.objs z = s.objs z := by
  refine ⟨C64_packet_emptied_partial h hr hp hd, fun z hz => ?_⟩
  rw [(take_ready h hr).2 he]
  simp only [CState.takeFrom]
  split
  · simp [CState.change, upd, hz]
  · rfl

/-- Moving an object to a fresh variable, and back: everything is as it was. -/
theorem C64_move_back {signed : Bool} {s : CState} {x y : Nat} {o : Obj} (hy : s.objs y = some o) (hx : s.objs x = none) :
    ∃ s₁ s₂ s₃ s₄, runMove s false x y = some (s₁, .code .noError) ∧
      (Call.destroy y).run signed s₁ = some (s₂, .code .noError) ∧ runMove s₂ false y x = some (s₃, .code .noError) ∧
      (Call.destroy x).run signed s₃ = some (s₄, .code .noError) ∧ s₄.objs = s.objs ∧ s₄.lost = s.lost := by
  have hxy : x ≠ y := by rintro rfl; rw [hx] at hy; cases hy
  have hyx : y ≠ x := Ne.symm hxy
  have move : ∀ {t : CState} {u v : Nat} {o : Obj}, t.objs v = some o → u ≠ v →
      runMove t false u v = some ((t.change v { o with pkt := o.pkt.movedFrom }).put u o, .code .noError) := by
    intro t u v o h1 h2
    simp only [runMove, h1, h2, false_and, if_false]; rfl
  have destroy : ∀ {t : CState} {u : Nat} {o : Obj}, t.objs u = some o →
      (Call.destroy u).run signed t = some (t.drop u, .code .noError) := by
    intro t u o h1
    simp only [Call.run, h1]
  have e1 : ((s.change y { o with pkt := o.pkt.movedFrom }).put x o).objs y = some { o with pkt := o.pkt.movedFrom } := by
    simp [CState.put, CState.change, upd, hyx]
  have e2 : (((s.change y { o with pkt := o.pkt.movedFrom }).put x o).drop y).objs x = some o := by
    simp [CState.drop, CState.put, CState.change, upd, hxy]
  have e3 : (((((s.change y { o with pkt := o.pkt.movedFrom }).put x o).drop y).change x { o with pkt := o.pkt.movedFrom }).put y o).objs x =
      some { o with pkt := o.pkt.movedFrom } := by
    simp [CState.put, CState.change, upd, hxy]
  refine ⟨_, _, _, _, move hy hxy, destroy e1, move e2 hyx, destroy e3, ?_, ?_⟩
  · funext u
    simp only [CState.drop, CState.put, CState.change, upd]
    by_cases h1 : u = x
    · simp [h1, hx]
    · by_cases h2 : u = y
      · simp [h2, hyx, hy]
      · simp [h1, h2]
  · simp [CState.drop, CState.put, CState.change, upd, hxy, hyx, hx]

/-- `x = dart_move(&x)` keeps the object; what is overwritten is the null the move left there. `dart_move_err(&x, &x)` is
undefined behaviour. -/
theorem C64_move_self {s : CState} {x : Nat} {o : Obj} (hx : s.objs x = some o) :
    (∃ s', runMove s true x x = some (s', .object) ∧ s'.objs = s.objs ∧ s'.lost = s.lost + 1) ∧ runMove s false x x = none := by
  refine ⟨⟨_, by simp only [runMove, hx]; rfl, ?_, ?_⟩, ?_⟩
  · funext u
    simp only [CState.put, CState.change, upd]
    split
    · rename_i h; rw [h, hx]
    · rfl
  · simp [CState.put, CState.change, upd]
  · simp [runMove, hx]

/-- It is documented that a packet that was moved from is as if it had been default constructed. **Not so** if it was finalized:
it still is, and refuses to be changed with another error than a fresh packet. -/
theorem C64_moved_finalized_wrong {signed : Bool} {s : CState} {x y : Nat} {o : Obj} (hy : s.objs y = some o) (hx : s.objs x = none)
    (ho : o.pkt.isFinalized = true) :
    ∃ s', runMove s false x y = some (s', .code .noError) ∧
      (Call.query y .isFinalized).run signed s' = some (s', .flag true) ∧
      (Call.query y .isFinalized).run signed (s'.put y (nullObj .packet)) = some (s'.put y (nullObj .packet), .flag false) := by
  have hxy : x ≠ y := by rintro rfl; rw [hx] at hy; cases hy
  refine ⟨_, by simp only [runMove, hy, hxy, false_and, if_false]; rfl, ?_, ?_⟩
  · cases hp : o.pkt with
    | heap v => rw [hp] at ho; cases ho
    | buf b => simp [Call.run, CState.put, CState.change, upd, Ne.symm hxy, Pkt.movedFrom, runQuery, Pkt.isFinalized]
  · simp [Call.run, CState.put, upd, nullObj, runQuery, Pkt.isFinalized]

/-! ### Programs -/

/-- Make an object and a heap holding 5, take the heap into the object under "k", move the object elsewhere, destroy all. -/
def c64Prog : XProg :=
  .call (.plain (.init true 0 1 .obj)) fun _ =>
  .call (.plain (.init false 1 1 (.int 5))) fun _ =>
  .call (.take 0 (.objInsert [0x6b]) 1) fun _ =>
  .call (.move true 2 0) fun _ =>
  .call (.plain (.destroy 0)) fun _ =>
  .call (.plain (.destroy 1)) fun _ =>
  .call (.plain (.destroy 2)) fun _ => .stop

/-- It keeps the rules. -/
example : XCareful true c64Prog ZState.empty := by
  refine ⟨⟨rfl, by intro t h; cases h⟩, fun a1 o1 h1 => ?_⟩
  obtain ⟨_, _, ⟨rfl, rfl⟩, rfl, rfl⟩ := h1
  refine ⟨⟨rfl, by intro t h; cases h⟩, fun a2 o2 h2 => ?_⟩
  obtain ⟨_, _, ⟨rfl, rfl⟩, rfl, rfl⟩ := h2
  refine ⟨⟨by simp [AState.set], by simp [AState.set], by decide, by rintro k (h | h) <;> cases h; decide⟩, fun a3 o3 h3 => ?_⟩
  obtain ⟨b, c, m, q, hb, hc, ht, rfl, rfl⟩ := h3
  have hb' : b = ⟨.packet, 1, ⟨false, .obj []⟩⟩ := by
    simp [AState.set] at hb; exact hb.symm
  have hc' : c = ⟨.heap, 1, ⟨false, .int 5⟩⟩ := by
    simp [AState.set, initial] at hc; exact hc.symm
  subst hb' hc'
  have hm : m.objs 0 ≠ none ∧ m.objs 1 ≠ none ∧ m.objs 2 = none := by
    rcases ht with ⟨h, _⟩ | ⟨_, h, _⟩ | ⟨_, _, r, hm, h⟩
    · cases h
    · exact absurd rfl h
    · have hr : r = .ok ⟨false, .obj [([0x6b], .int 5)]⟩ := hm
      subst hr
      obtain ⟨⟨_, rfl⟩ | ⟨_, rfl⟩, _⟩ := h <;> simp [AState.set, AState.empty, ZState.empty]
  obtain ⟨m0, m1, m2⟩ := hm
  refine ⟨⟨m2, m0⟩, fun a4 o4 h4 => ?_⟩
  obtain ⟨b, hb, rfl, rfl⟩ := h4
  refine ⟨by simp [XAllowed, Allowed, AState.set], fun a5 o5 h5 => ?_⟩
  obtain ⟨_, _, ⟨rfl, rfl⟩, rfl, rfl⟩ := h5
  refine ⟨by simpa [XAllowed, Allowed, AState.set] using m1, fun a6 o6 h6 => ?_⟩
  obtain ⟨_, _, ⟨rfl, rfl⟩, rfl, rfl⟩ := h6
  exact ⟨by simp [XAllowed, Allowed, AState.set], fun _ _ _ => trivial⟩

/-- Taking a heap under a new key leaves it where it was, under the same key again takes it; taking a packet under a key that
is not there fails and loses the packet. -/
example : ((XProg.call (.plain (.init true 0 1 .obj)) fun _ =>
    .call (.plain (.init false 1 1 (.int 5))) fun _ =>
    .call (.take 0 (.objInsert [0x6b]) 1) fun _ =>
    .call (.plain (.query 1 .int)) fun _ =>
    .call (.take 0 (.objInsert [0x6b]) 1) fun _ =>
    .call (.plain (.query 1 .getType)) fun _ =>
    .call (.plain (.init true 2 1 (.str [0x61]))) fun _ =>
    .call (.take 0 (.objSet [0x6c]) 2) fun _ =>
    .call (.plain (.query 2 .getType)) fun _ =>
    .call (.plain (.query 0 .size)) fun _ => .stop).run true XState.empty).map (·.2) = some
    [.plain (.code .noError), .plain (.code .noError), .plain (.code .noError), .plain (.int (.ok 5)), .plain (.code .noError),
      .plain (.type .null), .plain (.code .noError), .plain (.code .logicError), .plain (.type .null),
      .plain (.size (some 1))] := rfl

/-- Variables as the theorems about `take` want them: an empty object, a heap, a packet and a finalized packet. -/
def c64State : CState :=
  (((CState.empty.put 0 ⟨.packet, 1, .heap (.obj [])⟩).put 1 ⟨.heap, 1, .heap (.int 5)⟩).put 2 ⟨.packet, 1, .heap (.str [0x61])⟩).put 3
    ⟨.packet, 1, .buf ⟨[], .null, none⟩⟩

example : TakeReady c64State 0 1 ⟨.packet, 1, .heap (.obj [])⟩ ⟨.heap, 1, .heap (.int 5)⟩ (.obj []) ∧
    TakeReady c64State 0 2 ⟨.packet, 1, .heap (.obj [])⟩ ⟨.packet, 1, .heap (.str [0x61])⟩ (.obj []) :=
  ⟨⟨rfl, rfl, by decide, by decide, rfl, rfl⟩, ⟨rfl, rfl, by decide, by decide, rfl, rfl⟩⟩

example : (∃ s', runTake c64State 0 (.objInsert [0x6b]) 2 = some (s', .code .noError) ∧ s'.objs 2 = some ⟨.packet, 1, .heap .null⟩) ∧
    (∃ s', runTake c64State 0 (.objSet [0x6b]) 2 = some (s', .code .logicError) ∧ s'.objs 2 = some ⟨.packet, 1, .heap .null⟩) ∧
    (∃ s', runTake c64State 0 (.arrSet 7) 1 = some (s', .code .typeError) ∧ s'.objs 1 = some ⟨.heap, 1, .heap (.int 5)⟩) ∧
    ∃ s', runTake c64State 0 (.objInsert [0x6b]) 3 = some (s', .code .noError) ∧ s'.objs 3 = some ⟨.packet, 1, .buf ⟨[], .null, none⟩⟩ :=
  ⟨⟨_, rfl, rfl⟩, ⟨_, rfl, rfl⟩, ⟨_, rfl, rfl⟩, ⟨_, rfl, rfl⟩⟩

/-- The finalized packet moved, and what is left of it. -/
example : ∃ s', runMove c64State false 4 3 = some (s', .code .noError) ∧ s'.objs 3 = some ⟨.packet, 1, .buf ⟨[], .null, none⟩⟩ ∧
    (s'.objs 4).isSome := ⟨_, rfl, rfl, rfl⟩

end Dart.Props
