import Verif.Lemmas.Packet
import Verif.Spec.Rvalue

/-
Calls on temporaries do what calls on variables do.
-/
namespace Dart

variable {z : Bool}
open Spec

theorem SamePkt.refl (p : Pkt) : SamePkt p p := by cases p <;> simp [SamePkt]

theorem SameOutcome.refl (r : Res Pkt) : SameOutcome r r := by
  cases r <;> simp [SameOutcome, SamePkt.refl]

theorem release_same (b : Buf) : SamePkt (.buf b.release) (.buf b) := by
  by_cases h : b.type = .null <;> simp [Buf.release, SamePkt, h]

/-- The outcomes of two reads of buffers, one of which lets go of nulls. -/
def Released (r s : Res Buf) : Prop :=
  match r, s with
  | .ok b, .ok c => b = c.release
  | .throw e, .throw e' => e = e'
  | .ub, .ub => True
  | _, _ => False

theorem Released.bind {α : Type} (x : Res α) {f g : α → Res Buf} (h : ∀ a, Released (f a) (g a)) :
    Released (x.bind f) (x.bind g) := by
  cases x <;> simp only [Res.bind]
  · exact h _
  · simp [Released]
  · simp [Released]

theorem Released.outcome {f : Val → Res Val} {g h : Buf → Res Buf} (hr : ∀ b, Released (g b) (h b)) (p : Pkt) :
    SameOutcome (p.visit f g .heap .buf) (p.visit f h .heap .buf) := by
  cases p with
  | heap v => exact SameOutcome.refl _
  | buf b =>
    have := hr b
    simp only [Pkt.visit]
    cases hg : g b <;> cases hh : h b <;> simp_all [Released, Res.bind, SameOutcome]
    exact release_same _

theorem takeGet_released (signed : Bool) (b : Buf) (k : Bytes) : Released (b.takeGet signed k) (b.get signed k) := by
  unfold Buf.takeGet Buf.get
  refine .bind _ fun p => .bind _ fun r => ?_
  cases r <;> simp [Released]

theorem takeAt_released (signed : Bool) (b : Buf) (k : Bytes) : Released (b.takeAt signed k) (b.at signed k) := by
  unfold Buf.takeAt Buf.at
  refine .bind _ fun p => .bind _ fun r => ?_
  cases r <;> simp [Released]

theorem takeIdx_released (b : Buf) (i : Nat) : Released (b.takeIdx i) (b.getIdx i) := by
  unfold Buf.takeIdx Buf.getIdx
  refine .bind _ fun p => .bind _ fun n => ?_
  split
  · exact .bind _ fun e => by simp [Released]
  · simp [Released]

theorem takeAtIdx_released (b : Buf) (i : Nat) : Released (b.takeAtIdx i) (b.atIdx i) := by
  unfold Buf.takeAtIdx Buf.atIdx
  refine .bind _ fun p => .bind _ fun n => ?_
  split
  · exact .bind _ fun e => by simp [Released]
  · simp [Released]

theorem takeFront_released (b : Buf) : Released b.takeFront b.front := by
  unfold Buf.takeFront Buf.front
  refine .bind _ fun p => .bind _ fun n => ?_
  split
  · simp [Released]
  · exact takeIdx_released b 0

theorem takeBack_released (b : Buf) : Released b.takeBack b.back := by
  unfold Buf.takeBack Buf.back
  refine .bind _ fun p => .bind _ fun n => ?_
  split
  · simp [Released]
  · exact takeIdx_released b _

theorem takeAtFront_released (b : Buf) : Released b.takeAtFront b.atFront := by
  unfold Buf.takeAtFront Buf.atFront
  refine .bind _ fun n => ?_
  split
  · simp [Released]
  · exact takeFront_released b

theorem takeAtBack_released (b : Buf) : Released b.takeAtBack b.atBack := by
  unfold Buf.takeAtBack Buf.atBack
  refine .bind _ fun n => ?_
  split
  · simp [Released]
  · exact takeBack_released b

theorem rcall_same (signed : Bool) (p : Pkt) (c : RCall Pkt) (hc : Returns c) :
    SameOutcome (c.run signed p) (named signed p c) := by
  cases c with
  | get k => exact Released.outcome (fun b => takeGet_released signed b k) p
  | «at» k => exact Released.outcome (fun b => takeAt_released signed b k) p
  | getIdx i => exact Released.outcome (fun b => takeIdx_released b i) p
  | atIdx i => exact Released.outcome (fun b => takeAtIdx_released b i) p
  | getKey key =>
    simp only [RCall.run, named]
    cases key.getType <;> try exact SameOutcome.refl _
    · cases key.strv with
      | ok k => exact Released.outcome (fun b => takeGet_released signed b k) p
      | _ => exact SameOutcome.refl _
    · cases key.integer with
      | ok i => exact Released.outcome (fun b => takeIdx_released b i.toNat) p
      | _ => exact SameOutcome.refl _
  | front => exact Released.outcome takeFront_released p
  | back => exact Released.outcome takeBack_released p
  | atFront => exact hc.elim
  | atBack => exact hc.elim
  | _ => exact SameOutcome.refl _

theorem noReturn_ub (signed : Bool) (p : Pkt) : (∀ q, (PRead.atFront (α := Pkt)).run signed p = .ok q →
      (RCall.atFront (α := Pkt)).run signed p = .ub) ∧
    (∀ q, (PRead.atBack (α := Pkt)).run signed p = .ok q → (RCall.atBack (α := Pkt)).run signed p = .ub) := by
  constructor
  · intro q h
    have := Released.outcome (f := Val.atFront) takeAtFront_released p
    rw [show p.visit Val.atFront Buf.atFront .heap .buf = .ok q from h] at this
    show Res.noReturn (p.visit Val.atFront Buf.takeAtFront Pkt.heap Pkt.buf) = .ub
    revert this
    cases p.visit Val.atFront Buf.takeAtFront Pkt.heap Pkt.buf <;> simp [SameOutcome, Res.noReturn]
  · intro q h
    have := Released.outcome (f := Val.atBack) takeAtBack_released p
    rw [show p.visit Val.atBack Buf.atBack .heap .buf = .ok q from h] at this
    show Res.noReturn (p.visit Val.atBack Buf.takeAtBack Pkt.heap Pkt.buf) = .ub
    revert this
    cases p.visit Val.atBack Buf.takeAtBack Pkt.heap Pkt.buf <;> simp [SameOutcome, Res.noReturn]

theorem samePkt_held {p q : Pkt} {s : PState} (h : SamePkt p q) (hq : Held z q s) : Held z p s := by
  cases p <;> cases q <;> simp only [SamePkt] at h
  · subst h; exact hq
  · rcases h with rfl | ⟨h1, h2⟩
    · exact hq
    · refine ⟨hq.1, .inl ⟨h1, ?_⟩⟩
      have := Shows.getType hq.2
      simp only [Buf.getType, h2, RawType.simplify] at this
      cases hv : s.value <;> simp_all [Val.ty]

theorem sameOutcome_outcome {r r' : Res Pkt} {out : Except Exc PState} (h : SameOutcome r r') (ho : Outcome z r' out) :
    Outcome z r out := by
  cases r <;> cases r' <;> cases out <;> simp_all [SameOutcome, Outcome]
  exact samePkt_held h ho

theorem named_ok {α : Type} {signed : Bool} {p : Pkt} {s : PState} (h : Held z p s) {f : α → Pkt} {g : α → PState}
    (c : RCall α) (hc : c.All fun a => Held z (f a) (g a)) :
    ∃ out, CallOk signed s (c.map g) out ∧ Outcome z (named signed p (c.map f)) out := by
  cases c with
  | get k => exact read_ok (signed := signed) (f := f) (g := g) h (.get k) trivial
  | «at» k => exact read_ok (signed := signed) (f := f) (g := g) h (.at k) trivial
  | getIdx k => exact read_ok (signed := signed) (f := f) (g := g) h (.getIdx k) trivial
  | atIdx k => exact read_ok (signed := signed) (f := f) (g := g) h (.atIdx k) trivial
  | getKey k =>
    have hc : Held z (f k) (g k) := hc
    simp only [RCall.map, CallOk, named, hc.getType, hc.strv, hc.integer]
    cases (g k).value with
    | str t => exact read_ok (signed := signed) (f := f) (g := g) h (.get t) trivial
    | int i => exact read_ok (signed := signed) (f := f) (g := g) h (.getIdx i.toNat) trivial
    | _ => exact ⟨_, rfl, rfl⟩
  | front => exact read_ok (signed := signed) (f := f) (g := g) h .front trivial
  | back => exact read_ok (signed := signed) (f := f) (g := g) h .back trivial
  | atFront => exact read_ok (signed := signed) (f := f) (g := g) h .atFront trivial
  | atBack => exact read_ok (signed := signed) (f := f) (g := g) h .atBack trivial
  | addField k a => exact mut_ok h (.insert k a) hc
  | removeField k => exact mut_ok (f := f) (g := g) h (.eraseKey k) trivial
  | pushFront a => exact mut_ok h (.pushFront a) hc
  | pushBack a => exact mut_ok h (.pushBack a) hc
  | popFront => exact mut_ok (f := f) (g := g) h .popFront trivial
  | popBack => exact mut_ok (f := f) (g := g) h .popBack trivial
  | finalize => exact finalize_held h
  | definalize => exact ⟨_, rfl, definalize_held h⟩

theorem returns_map {α β : Type} (f : α → β) {c : RCall α} (h : Returns c) : Returns (c.map f) := by
  cases c <;> first | exact h | trivial

theorem rcall_ok {α : Type} {signed : Bool} {p : Pkt} {s : PState} (h : Held z p s) {f : α → Pkt} {g : α → PState}
    (c : RCall α) (hc : c.All fun a => Held z (f a) (g a)) (hr : Returns c) :
    ∃ out, CallOk signed s (c.map g) out ∧ Outcome z ((c.map f).run signed p) out := by
  obtain ⟨out, h1, h2⟩ := named_ok (signed := signed) h c hc
  exact ⟨out, h1, sameOutcome_outcome (rcall_same signed p _ (returns_map f hr)) h2⟩

theorem RCall.All.imp {α : Type} {P Q : α → Prop} {r : RCall α} (h : r.All P) (hi : ∀ a, P a → Q a) : r.All Q := by
  cases r <;> first | exact hi _ h | exact ⟨hi _ h.1, hi _ h.2⟩ | trivial

theorem Held.leftover {p : Pkt} {s : PState} (h : Held z p s) : Held z p.movedFrom (Spec.leftover s) := by
  cases p with
  | heap v => obtain ⟨rfl, _⟩ := h; exact ⟨rfl, by simp [Val.WF]⟩
  | buf b => exact ⟨h.1, .inl ⟨rfl, rfl⟩⟩

theorem rchain_ok {signed : Bool} (x : Nat) (cs : List (RCall PArg)) : ∀ {ps : List Pkt} {st : List PState},
    AllHeld z ps st → (∀ c ∈ cs, c.All constWF ∧ Returns c) →
    ∃ ps' st' e, runChain signed x ps cs = some (ps', e) ∧ AllHeld z ps' st' ∧ ChainOk signed x st cs st' e := by
  induction cs with
  | nil => intro ps st h _; exact ⟨_, _, _, rfl, h, rfl, rfl⟩
  | cons c cs ih =>
    intro ps st h hw
    obtain ⟨h1, h2⟩ := hw c (by simp)
    obtain ⟨out, h3, h4⟩ := rcall_ok (signed := signed) (h.var x) (f := PArg.pkt ps) (g := argState st) c
      (h1.imp fun a ha => h.arg ha) h2
    simp only [runChain]
    cases hr : (c.map (PArg.pkt ps)).run signed (pktVar ps x) with
    | ok p =>
      rw [hr] at h4
      cases out with
      | error e => exact h4.elim
      | ok s =>
        obtain ⟨ps', st', e, h5, h6, h7⟩ := ih (h.set (h4 : Held z p s) x) (fun c hc => hw c (by simp [hc]))
        exact ⟨ps', st', e, h5, h6, _, h3, h7⟩
    | throw e =>
      rw [hr] at h4
      cases out with
      | ok s => exact h4.elim
      | error e' => cases h4; exact ⟨_, _, _, rfl, h, _, h3, rfl, rfl⟩
    | ub => rw [hr] at h4; cases out <;> exact h4.elim

theorem rvalue_step_ok {signed : Bool} {ps : List Pkt} {st : List PState} (h : AllHeld z ps st) {op : ROp} (hw : ropWF z op) :
    ∃ ps' st' e, op.run signed ps = some (ps', e) ∧ AllHeld z ps' st' ∧ RStep signed st op st' e := by
  cases op with
  | plain op => exact packet_step_ok h hw
  | chain x cs =>
    obtain ⟨ps', st', e, h1, h2, h3⟩ := rchain_ok (signed := signed) x cs h hw
    simp only [ROp.run, h1]
    cases e with
    | none => exact ⟨_, _, _, rfl, ((h2.set (h2.var x).leftover x).push (h2.var x)), _, h3, rfl⟩
    | some e => exact ⟨_, _, _, rfl, h2, _, h3, rfl⟩
  | move x y =>
    simp only [ROp.run, RStep]
    split
    · exact ⟨_, _, _, rfl, h, rfl, rfl⟩
    · exact ⟨_, _, _, rfl, (h.set (h.var y) x).set (h.var y).leftover y, rfl, rfl⟩

theorem rvalues_ok {signed : Bool} (ops : List ROp) : ∀ {ps : List Pkt} {st : List PState}, AllHeld z ps st →
    (∀ op ∈ ops, ropWF z op) →
    ∃ ps' st' es, runRvalues signed ps ops = some (ps', es) ∧ AllHeld z ps' st' ∧ RSteps signed st ops st' es := by
  induction ops with
  | nil => intro ps st h _; exact ⟨ps, st, [], rfl, h, rfl, rfl⟩
  | cons op ops ih =>
    intro ps st h hw
    obtain ⟨ps', st', e, h1, h2, h3⟩ := rvalue_step_ok (signed := signed) h (hw op (by simp))
    obtain ⟨ps2, st2, es, h4, h5, h6⟩ := ih h2 (fun o ho => hw o (by simp [ho]))
    exact ⟨ps2, st2, e :: es, by simp [runRvalues, h1, h4], h5, st', e, es, h3, h6, rfl⟩

end Dart
