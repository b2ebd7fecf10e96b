import Verif.Lemmas.Typed

/-
Wrappers keep their types; nothing is assumed about the packets.
-/
namespace Dart.Typed
open Dart.Spec

theorem decode_type {n : Nat} {m : Bytes} {t : RawType} {p : Nat} {v : Val} (h : decode n m t p = some v) :
    v.getType = t.simplify := by
  cases n with
  | zero => simp [decode] at h
  | succ n =>
    unfold decode at h
    cases t <;> simp only [Option.bind_eq_bind, Option.bind_eq_some_iff, Option.map_eq_some_iff] at h
    all_goals first
      | (cases h; rfl)
      | (obtain ⟨x, _, h⟩ := h; cases h; rfl)
      | (obtain ⟨x, _, y, _, h⟩ := h; cases h; rfl)

theorem value_type {b : Buf} {v : Val} (h : b.value = some v) : v.getType = b.getType := by
  unfold Buf.value at h
  unfold Buf.getType
  split at h
  · cases h; rename_i e; rw [e]; rfl
  · exact decode_type h
  · cases h

theorem definalize_type {p q : Pkt} (h : p.definalize = .ok q) : q.getType = p.getType := by
  cases p with
  | heap v => cases h; rfl
  | buf b =>
    simp only [Pkt.definalize] at h
    cases hv : b.value with
    | none => rw [hv] at h; cases h
    | some v => rw [hv] at h; cases h; exact value_type hv

theorem finalize_type {p q : Pkt} (h : p.finalize = .ok q) : q.getType = p.getType := by
  cases p with
  | buf b => cases h; rfl
  | heap v =>
    simp only [Pkt.finalize] at h
    cases v with
    | obj fs =>
      cases hf : Dart.finalize (.obj fs) with
      | ok m => rw [hf] at h; cases h; rfl
      | throw e => rw [hf] at h; cases h
      | ub => rw [hf] at h; cases h
    | _ => cases h

theorem bind_heap {r : Res Val} {q : Pkt} (h : (r.bind fun v => Res.ok (Pkt.heap v)) = .ok q) : ∃ v, r = .ok v ∧ q = .heap v := by
  cases r with
  | ok v => cases h; exact ⟨v, rfl, rfl⟩
  | throw e => cases h
  | ub => cases h

theorem bind_any {α β : Type} {r : Res α} {f : α → Res β} {q : β} (h : r.bind f = .ok q) : ∃ v, r = .ok v ∧ f v = .ok q := by
  cases r with
  | ok v => exact ⟨v, rfl, h⟩
  | throw e => cases h
  | ub => cases h

theorem run_type {v w : Val} {op : HOp} (h : op.run v = .ok w) (hp : ∀ ks, op ≠ .project ks) (hi : ∀ ks, op ≠ .inject ks) :
    w.getType = v.getType := by rw [getType_eq, getType_eq]; exact run_keeps h hp hi

theorem getHeap_ok {p : Pkt} {v : Val} (h : p.getHeap = .ok v) : p = .heap v := by
  cases p <;> cases h; rfl

theorem mut_type {p q : Pkt} {m : PMut Pkt} (h : m.run p = .ok q) (ha : ∀ v, m ≠ .assign v) : q.getType = p.getType := by
  have fin : ∀ {v : Val} {op : HOp} (_ : ∀ ks, op ≠ .project ks) (_ : ∀ ks, op ≠ .inject ks),
      p.getHeap = .ok v → ((op.run v).bind fun r => Res.ok (Pkt.heap r)) = .ok q → q.getType = p.getType := by
    intro v op h1 h2 hp hb
    obtain ⟨w, h3, rfl⟩ := bind_heap hb
    rw [getHeap_ok hp]
    exact run_type h3 h1 h2
  cases m with
  | assign v => exact absurd rfl (ha v)
  | insert k a =>
    obtain ⟨v, h1, h⟩ := bind_any h
    obtain ⟨x, _, h⟩ := bind_any h
    obtain ⟨y, _, h⟩ := bind_any h
    exact fin (op := .insert x y) (by simp) (by simp) h1 h
  | set k a =>
    obtain ⟨v, h1, h⟩ := bind_any h
    obtain ⟨x, _, h⟩ := bind_any h
    obtain ⟨y, _, h⟩ := bind_any h
    exact fin (op := .set x y) (by simp) (by simp) h1 h
  | erase k =>
    simp only [PMut.run] at h
    split at h
    · obtain ⟨x, _, h⟩ := bind_any h
      obtain ⟨v, h1, h⟩ := bind_any h
      exact fin (op := .eraseKey x) (by simp) (by simp) h1 h
    · obtain ⟨x, _, h⟩ := bind_any h
      obtain ⟨v, h1, h⟩ := bind_any h
      exact fin (op := .eraseIdx x.toNat) (by simp) (by simp) h1 h
    · cases h
  | eraseKey k =>
    obtain ⟨v, h1, h⟩ := bind_any h
    exact fin (op := .eraseKey k) (by simp) (by simp) h1 h
  | eraseIdx k =>
    obtain ⟨v, h1, h⟩ := bind_any h
    exact fin (op := .eraseIdx k) (by simp) (by simp) h1 h
  | pushFront a =>
    obtain ⟨v, h1, h⟩ := bind_any h
    obtain ⟨x, _, h⟩ := bind_any h
    exact fin (op := .pushFront x) (by simp) (by simp) h1 h
  | pushBack a =>
    obtain ⟨v, h1, h⟩ := bind_any h
    obtain ⟨x, _, h⟩ := bind_any h
    exact fin (op := .pushBack x) (by simp) (by simp) h1 h
  | popFront =>
    obtain ⟨v, h1, h⟩ := bind_any h
    exact fin (op := .popFront) (by simp) (by simp) h1 h
  | popBack =>
    obtain ⟨v, h1, h⟩ := bind_any h
    exact fin (op := .popBack) (by simp) (by simp) h1 h
  | clear =>
    obtain ⟨v, h1, h⟩ := bind_any h
    exact fin (op := .clear) (by simp) (by simp) h1 h
  | resize n a =>
    obtain ⟨v, h1, h⟩ := bind_any h
    obtain ⟨x, _, h⟩ := bind_any h
    exact fin (op := .resize n x) (by simp) (by simp) h1 h

/-- Every wrapper is of its type, or null where that is allowed. -/
def Sound (empty : Prop) (st : State) : Prop :=
  ∀ x ∈ st.wraps, x.1.Typed x.2.getType ∨ (empty ∧ x.2.getType = .null)

theorem Sound.get {e : Prop} {st : State} (h : Sound e st) {w : Nat} {k : Kind} {p : Pkt} (hw : st.wraps[w]? = some (k, p)) :
    k.Typed p.getType ∨ (e ∧ p.getType = .null) := h _ (List.mem_of_getElem? hw)

theorem Sound.setWrap {e : Prop} {st : State} (h : Sound e st) {w : Nat} {k : Kind} {p : Pkt}
    (hp : k.Typed p.getType ∨ (e ∧ p.getType = .null)) : Sound e (st.setWrap w k p) := by
  intro x hx
  rcases List.mem_or_eq_of_mem_set hx with hx | rfl
  · exact h x hx
  · exact hp

theorem Sound.addWrap {e : Prop} {st : State} (h : Sound e st) {k : Kind} {p : Pkt}
    (hp : k.Typed p.getType ∨ (e ∧ p.getType = .null)) : Sound e (st.addWrap k p) := by
  intro x hx
  rcases List.mem_append.1 hx with hx | hx
  · exact h x hx
  · rw [List.mem_singleton.1 hx]; exact hp

theorem movedFrom_type (p : Pkt) : (movedFrom p).getType = .null := by cases p <;> rfl

theorem Sound.store {e : Prop} {st : State} (h : Sound e st) {w : Nat} {k : Kind} {r : Res Pkt}
    (hp : ∀ p, r = .ok p → k.Typed p.getType ∨ (e ∧ p.getType = .null)) :
    match st.store w k r with
    | .next st' _ => Sound e st'
    | .throw st' _ => Sound e st'
    | _ => True := by
  cases r with
  | ok p => exact h.setWrap (hp p rfl)
  | throw _ => exact h
  | ub => trivial

theorem sound_step {signed : Bool} {e : Prop} {st : State} (h : Sound e st) {op : Op} (hr : ¬ op.throughRef)
    (hm : op.movesWrap → e) :
    match op.run signed st with
    | .next st' _ => Sound e st'
    | .throw st' _ => Sound e st'
    | _ => True := by
  cases op with
  | packet op =>
    simp only [Op.run]
    cases op.run signed st.packets with
    | none => trivial
    | some x => obtain ⟨ps, _ | e'⟩ := x <;> exact h
  | make k v =>
    simp only [Op.run]
    by_cases ht : k.test v.getType = true
    · simp only [ht, if_true]
      exact h.addWrap (.inl ((test_iff k _).1 ht))
    · simp only [ht]
      exact h
  | wrap k x move =>
    simp only [Op.run]
    cases st.packets[x]? with
    | none => exact h
    | some p =>
      simp only
      by_cases ht : k.test p.getType = true
      · simp only [ht, if_true]
        cases move <;> exact Sound.addWrap h (.inl ((test_iff k _).1 ht))
      · simp only [ht]
        cases move <;> cases k <;> exact h
  | dup w move =>
    simp only [Op.run, State.wrap]
    cases hw : st.wraps[w]? with
    | none => exact h
    | some x =>
      obtain ⟨k, p⟩ := x
      cases move with
      | false => exact h.addWrap (h.get hw)
      | true => exact (h.setWrap (.inr ⟨hm rfl, movedFrom_type p⟩)).addWrap (h.get hw)
  | assign w v move =>
    simp only [Op.run, State.wrap]
    cases hw : st.wraps[w]? with
    | none => exact h
    | some x =>
      cases hv : st.wraps[v]? with
      | none => exact h
      | some y =>
        obtain ⟨k, p⟩ := x
        obtain ⟨k', p'⟩ := y
        simp only
        by_cases hk : k = k' ∧ w ≠ v
        · simp only [if_pos hk]
          obtain ⟨rfl, _⟩ := hk
          cases move with
          | false => exact h.setWrap (h.get hv)
          | true => exact (h.setWrap (.inr ⟨hm rfl, movedFrom_type p'⟩)).setWrap (h.get hv)
        · simp only [if_neg hk]; exact h
  | assignNative w v =>
    simp only [Op.run, State.wrap]
    cases hw : st.wraps[w]? with
    | none => exact h
    | some x =>
      obtain ⟨k, p⟩ := x
      simp only
      by_cases ht : k.test v.getType = true
      · simp only [ht, if_true]
        exact h.setWrap (.inl ((test_iff k _).1 ht))
      · simp only [ht]
        exact h
  | mutate w m =>
    simp only [Op.run, State.wrap]
    cases hw : st.wraps[w]? with
    | none => exact h
    | some x =>
      obtain ⟨k, p⟩ := x
      simp only
      by_cases ho : k.offersMut m = true
      · simp only [ho, if_true]
        refine h.store fun q hq => ?_
        rw [mut_type hq]
        · exact h.get hw
        · intro b e
          cases m <;> simp only [PMut.map, reduceCtorEq] at e
          cases k <;> simp [Kind.offersMut] at ho
      · simp only [ho]
        exact h
  | concat w t =>
    simp only [Op.run, State.wrap]
    cases hw : st.wraps[w]? with
    | none => exact h
    | some x =>
      obtain ⟨k, p⟩ := x
      cases k with
      | string =>
        simp only
        cases p.strv with
        | ok u => exact h.setWrap (.inl rfl)
        | throw _ => trivial
        | ub => trivial
      | _ => exact h
  | arith w f =>
    simp only [Op.run, State.wrap]
    cases hw : st.wraps[w]? with
    | none => exact h
    | some x =>
      obtain ⟨k, p⟩ := x
      cases k with
      | number =>
        simp only
        cases ha : Typed.arith p f with
        | ok q =>
          obtain ⟨x, _, h1⟩ := bind_any ha
          obtain ⟨y, _, h2⟩ := bind_any h1
          cases h2
          exact h.setWrap (.inl (.inr rfl))
        | throw _ => trivial
        | ub => trivial
      | _ => exact h
  | finalize w =>
    simp only [Op.run, State.wrap]
    cases hw : st.wraps[w]? with
    | none => exact h
    | some x =>
      obtain ⟨k, p⟩ := x
      cases k with
      | object => exact h.store fun q hq => by rw [finalize_type hq]; exact h.get hw
      | _ => exact h
  | definalize w =>
    simp only [Op.run, State.wrap]
    cases hw : st.wraps[w]? with
    | none => exact h
    | some x =>
      obtain ⟨k, p⟩ := x
      cases k with
      | object => exact h.store fun q hq => by rw [definalize_type hq]; exact h.get hw
      | _ => exact h
  | assignThrough w x => exact absurd trivial hr
  | unwrap w move =>
    simp only [Op.run, State.wrap]
    cases hw : st.wraps[w]? with
    | none => exact h
    | some x =>
      obtain ⟨k, p⟩ := x
      cases move with
      | false => exact h
      | true => exact h.setWrap (.inr ⟨hm rfl, movedFrom_type p⟩)
  | read w r =>
    simp only [Op.run, State.wrap]
    cases hw : st.wraps[w]? with
    | none => exact h
    | some x =>
      obtain ⟨k, p⟩ := x
      simp only
      by_cases ho : k.offersRead r = true
      · simp only [ho, if_true]
        cases (r.map (PArg.pkt st.packets)).run signed p <;> first | exact h | trivial
      · simp only [ho]; exact h
  | ask w q =>
    simp only [Op.run, State.wrap]
    cases hw : st.wraps[w]? with
    | none => exact h
    | some x =>
      obtain ⟨k, p⟩ := x
      simp only
      by_cases ho : k.offers q = true
      · simp only [ho, if_true]
        cases Typed.ask signed k p q with
        | ok o => exact h
        | throw e => simp only; cases q.noexcept <;> first | exact h | trivial
        | ub => trivial
      · simp only [ho]; exact h

theorem sound_run {signed : Bool} {e : Prop} (ops : List Op) : ∀ {st : State}, Sound e st →
    (∀ op ∈ ops, ¬ op.throughRef) → (∀ op ∈ ops, op.movesWrap → e) → ∀ {st' : State} {log : List (Obs ⊕ Exc)},
    run signed st ops = .done st' log → Sound e st' := by
  induction ops with
  | nil => intro st h _ _ st' log hr; cases hr; exact h
  | cons op ops ih =>
    intro st h h1 h2 st' log hr
    have hs := sound_step (signed := signed) h (h1 op (by simp)) (h2 op (by simp))
    simp only [run] at hr
    cases ho : op.run signed st with
    | next st₁ o =>
      rw [ho] at hs hr
      simp only at hr
      cases hn : run signed st₁ ops with
      | done st₂ log₂ =>
        rw [hn] at hr
        cases hr
        exact ih hs (fun op' h' => h1 op' (by simp [h'])) (fun op' h' => h2 op' (by simp [h'])) hn
      | terminate => rw [hn] at hr; cases hr
      | ub => rw [hn] at hr; cases hr
    | throw st₁ o =>
      rw [ho] at hs hr
      simp only at hr
      cases hn : run signed st₁ ops with
      | done st₂ log₂ =>
        rw [hn] at hr
        cases hr
        exact ih hs (fun op' h' => h1 op' (by simp [h'])) (fun op' h' => h2 op' (by simp [h'])) hn
      | terminate => rw [hn] at hr; cases hr
      | ub => rw [hn] at hr; cases hr
    | terminate => rw [ho] at hr; cases hr
    | ub => rw [ho] at hr; cases hr

theorem run_ends {signed : Bool} (ops : List Op) : ∀ {st : State}, run signed st ops = .terminate →
    ProgFits signed st ops → ∃ pre op suf st' log, ops = pre ++ op :: suf ∧ run signed st pre = .done st' log ∧
      ProgFits signed st pre ∧ Fits st' op ∧ op.run signed st' = .terminate := by
  induction ops with
  | nil => intro st h; cases h
  | cons op ops ih =>
    intro st h hf
    have hf2 := hf.2
    simp only [run] at h
    cases ho : op.run signed st with
    | next st₁ o =>
      rw [ho] at h hf2
      simp only at h
      cases hn : run signed st₁ ops with
      | done st₂ log₂ => rw [hn] at h; cases h
      | terminate =>
        obtain ⟨pre, op', suf, st', log, h1, h2, h3, h4, h5⟩ := ih hn hf2
        refine ⟨op :: pre, op', suf, st', .inl o :: log, by rw [h1]; rfl, ?_, ⟨hf.1, by rw [ho]; exact h3⟩, h4, h5⟩
        simp only [run, ho, h2]
      | ub => rw [hn] at h; cases h
    | throw st₁ o =>
      rw [ho] at h hf2
      simp only at h
      cases hn : run signed st₁ ops with
      | done st₂ log₂ => rw [hn] at h; cases h
      | terminate =>
        obtain ⟨pre, op', suf, st', log, h1, h2, h3, h4, h5⟩ := ih hn hf2
        refine ⟨op :: pre, op', suf, st', .inr o :: log, by rw [h1]; rfl, ?_, ⟨hf.1, by rw [ho]; exact h3⟩, h4, h5⟩
        simp only [run, ho, h2]
      | ub => rw [hn] at h; cases h
    | terminate => exact ⟨[], op, ops, st, [], rfl, rfl, trivial, hf.1, ho⟩
    | ub => rw [ho] at h; cases h

theorem Reached.rel {signed : Bool} {st : State} (h : Reached signed st) : ∃ a, Rel st a := by
  obtain ⟨ops, log, hw, hf, hr⟩ := h
  obtain ⟨r, _, h2⟩ := steps_ok ops rel_start (fun op ho => (hw op ho).1) hf
  rw [hr] at h2
  cases r with
  | some x => exact ⟨_, h2.1⟩
  | none => exact h2.elim

theorem Reached.sound {signed : Bool} {st : State} (h : Reached signed st) : Sound True st := by
  obtain ⟨ops, log, hw, hf, hr⟩ := h
  exact sound_run ops (fun x hx => by simp [start] at hx) (fun op ho => (hw op ho).2) (fun _ _ _ => trivial) hr

theorem null_iff {v : Val} : v.ty = .null ↔ v = .null := by cases v <;> simp [Val.ty]

theorem terminate_iff {signed : Bool} {st : State} {a : AState} (h : Rel st a) (hs : Sound True st) {op : Op} (hw : OpWF op)
    (hf : Fits st op) : op.run signed st = .terminate ↔ Ends st op := by
  obtain ⟨out, h1, h2⟩ := step_ok (signed := signed) h op hw hf
  have hterm : op.run signed st = .terminate ↔ out = .terminate := by
    constructor
    · intro e; rw [e] at h2; cases out <;> first | rfl | exact h2.elim
    · rintro rfl; cases ho : op.run signed st <;> rw [ho] at h2 <;> first | rfl | exact h2.elim
  rw [hterm]
  have hnone : ∀ {a o}, out = AOut.next a o → ¬ out = .terminate := by rintro _ _ rfl; simp
  have hthrow : ∀ {a o}, out = AOut.throw a o → ¬ out = .terminate := by rintro _ _ rfl; simp
  cases op with
  | packet op =>
    obtain ⟨ps, e, _, rfl⟩ := h1
    cases e <;> simp [Ends]
  | make k v => rcases h1 with ⟨_, rfl⟩ | ⟨_, rfl⟩ <;> simp [Ends]
  | wrap k x move =>
    simp only [StepOk] at h1
    cases hx : a.packets[x]? with
    | none => rw [hx] at h1; simp [Ends, hnone h1]
    | some s => rw [hx] at h1; rcases h1 with ⟨_, rfl⟩ | ⟨_, rfl⟩ <;> simp [Ends]
  | dup w move =>
    simp only [StepOk] at h1
    cases hx : a.wraps[w]? with
    | none => rw [hx] at h1; simp [Ends, hnone h1]
    | some s => rw [hx] at h1; simp [Ends, hnone h1]
  | assign w v move =>
    simp only [StepOk] at h1
    split at h1
    · rcases h1 with ⟨_, _, h1⟩ | ⟨_, h1⟩ <;> simp [Ends, hnone h1]
    · simp [Ends, hnone h1]
  | assignNative w v =>
    simp only [StepOk] at h1
    split at h1
    · simp [Ends, hnone h1]
    · rcases h1 with ⟨_, h1⟩ | ⟨_, h1⟩ <;> simp [Ends, hnone h1]
  | mutate w m =>
    simp only [StepOk] at h1
    split at h1
    · simp [Ends, hnone h1]
    · split at h1
      · obtain ⟨r, _, h1⟩ := h1
        cases r <;> simp only [Stored] at h1
        · simp [Ends, hthrow h1]
        · simp [Ends, hnone h1]
      · simp [Ends, hnone h1]
  | finalize w =>
    simp only [StepOk] at h1
    split at h1
    · obtain ⟨r, _, h1⟩ := h1
      cases r <;> simp only [Stored] at h1
      · simp [Ends, hthrow h1]
      · simp [Ends, hnone h1]
    · simp [Ends, hnone h1]
  | definalize w =>
    simp only [StepOk] at h1
    split at h1 <;> simp [Ends, hnone h1]
  | assignThrough w x =>
    simp only [StepOk] at h1
    split at h1 <;> simp [Ends, hnone h1]
  | unwrap w move =>
    simp only [StepOk] at h1
    split at h1 <;> simp [Ends, hnone h1]
  | read w r =>
    simp only [StepOk] at h1
    split at h1
    · simp [Ends, hnone h1]
    · split at h1
      · obtain ⟨r, _, h1⟩ := h1
        cases r <;> simp only at h1
        · simp [Ends, hthrow h1]
        · simp [Ends, hnone h1]
      · simp [Ends, hnone h1]
  | concat w t =>
    simp only [StepOk] at h1
    rcases h.wrap w with ⟨h3, h4⟩ | ⟨k, p, s, h3, h4, hp, ht⟩
    · rw [h4] at h1; simp [Ends, hnone h1, h3]
    · rw [h4] at h1
      cases k with
      | string =>
        have hn : p.getType = .null ↔ s.value = .null := by rw [hp.getType, null_iff]
        simp only [Ends, h3, Option.some.injEq, Prod.mk.injEq, true_and, exists_eq_left', hn]
        obtain ⟨f, v⟩ := s
        rcases ht (by simp) with e | ⟨u, e⟩ <;> simp only at e <;> subst e <;> simp only at h1 <;> simp [h1]
      | _ => simp [Ends, hnone h1, h3]
  | arith w f =>
    simp only [StepOk] at h1
    rcases h.wrap w with ⟨h3, h4⟩ | ⟨k, p, s, h3, h4, hp, ht⟩
    · rw [h4] at h1; simp [Ends, hnone h1, h3]
    · rw [h4] at h1
      cases k with
      | number =>
        have hn : p.getType = .null ↔ s.value = .null := by rw [hp.getType, null_iff]
        simp only [Ends, h3, Option.some.injEq, Prod.mk.injEq, true_and, exists_eq_left', hn, hp.inState.1]
        obtain ⟨b, v⟩ := s
        rcases ht (by simp) with e | ⟨u, e⟩ | ⟨u, e⟩ <;> simp only at e <;> subst e <;> cases b <;>
          simp only [number] at h1 <;> simp [h1]
      | _ => simp [Ends, hnone h1, h3]
  | ask w q =>
    simp only [StepOk] at h1
    rcases h.wrap w with ⟨h3, h4⟩ | ⟨k, p, s, h3, h4, hp, ht⟩
    · rw [h4] at h1; simp [Ends, hnone h1, h3]
    · rw [h4] at h1
      have hn : p.getType = .null ↔ s.value = .null := by rw [hp.getType, null_iff]
      have hty : s.value = .null ∨ k.Means s.value := by
        rcases hs.get h3 with h | h
        · right; rw [hp.getType] at h; exact (typed_iff_means k _).1 h
        · left; exact hn.1 h.2
      have hgoal : Ends st (.ask w q) ↔ (k.offers q = true ∧ q.needsValue ∧ s.value = .null) := by
        simp only [Ends, h3, Option.some.injEq, Prod.mk.injEq]
        constructor
        · rintro ⟨_, _, ⟨rfl, rfl⟩, h5, h6, h7⟩; exact ⟨h5, h6, hn.1 h7⟩
        · rintro ⟨h5, h6, h7⟩; exact ⟨k, p, ⟨rfl, rfl⟩, h5, h6, hn.2 h7⟩
      rw [hgoal]
      obtain ⟨f, v⟩ := s
      simp only at hty h1 ⊢
      by_cases ho : k.offers q = true
      · simp only [ho, if_true] at h1
        clear hgoal hn hp h4 h3 hs ht
        cases q <;> simp only [AskOk, plain] at h1
        case isNull => simp [hnone h1, Query.needsValue]
        case getType => simp [hnone h1, Query.needsValue]
        case isFinalized => simp [hnone h1, Query.needsValue]
        case truth => simp [hnone h1, Query.needsValue]
        case integer => cases v <;> simp only at h1 <;> subst h1 <;> simp [Query.needsValue]
        case decimal => cases v <;> simp only at h1 <;> subst h1 <;> simp [Query.needsValue]
        all_goals
          simp only [ho, Query.needsValue, true_and]
          rcases h1 with ⟨o, h5, h6⟩ | ⟨h5, h6⟩
          · refine iff_of_false (hnone h6) ?_
            rintro rfl
            first
              | exact False.elim h5
              | (cases k <;> simp [Answer, Kind.Means] at h5; done)
              | (obtain ⟨d, h7, _⟩ := h5; cases h7)
          · refine iff_of_true h6 ?_
            rcases hty with h7 | h7
            · exact h7
            · exfalso
              cases k <;> simp only [Kind.offers, Bool.false_eq_true] at ho <;> simp only [Kind.Means] at h7 <;>
                first
                  | (obtain ⟨x, rfl⟩ := h7; first
                      | exact h5 _ ⟨⟨_, rfl⟩, rfl⟩
                      | exact h5 _ rfl
                      | exact h5 _ ⟨_, .inl rfl, rfl⟩)
                  | (rcases h7 with ⟨x, rfl⟩ | ⟨x, rfl⟩ <;> first
                      | exact h5 _ ⟨.inl ⟨_, rfl⟩, rfl⟩
                      | exact h5 _ ⟨.inr ⟨_, rfl⟩, rfl⟩
                      | exact h5 _ ⟨_, rfl, rfl⟩)
      · simp only [ho] at h1
        simp [hnone h1, ho]

end Dart.Typed
