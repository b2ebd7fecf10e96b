import Verif.Lemmas.AbiCalls

/-
C52: a C program that keeps the rules of the C interface is never undefined, gets the results its calls are specified to
have, and loses no object.
-/
namespace Dart.Props

open Dart.Spec Dart.Abi

/-- Any program that makes only calls it is allowed to make, starting with nothing: every call is defined and does what the
specification says, whatever mixture of packets, heaps, buffers, counters and iterators is in use, and no object is
overwritten. Partial: what is allowed leaves out asking finalized numbers for a truth value (C41), and looking up keys in
finalized objects may miss (C02). -/
theorem C52_programs_partial {signed : Bool} (P : Prog) (h : Careful signed P AState.empty) :
    ∃ s a os, P.run signed CState.empty = some (s, os) ∧ ProgDoes signed P AState.empty a os ∧ MemoryShows s a ∧ s.lost = 0 := by
  obtain ⟨s, a, os, h1, h2, h3, h4⟩ := prog_ok (z := false) P memHeld_empty h
  exact ⟨s, a, os, h1, h2, h3.shows, h4⟩

/-- A call that reports an error has changed nothing. -/
theorem C52_failure {signed : Bool} {a a' : AState} {c : Call} {e : Err} (h : CallDoes signed a c a' (.code e)) (he : e ≠ .noError) :
    a' = a := by
  have make : ∀ {byVal : Bool} {x : Nat} {rep : Rep} {rc : Nat} {r : Except Exc PState}, Makes a byVal x rep rc r a' (.code e) → a' = a := by
    intro byVal x rep rc r hm
    cases r with
    | ok p =>
      obtain ⟨_, h2⟩ := hm
      cases byVal
      · cases h2; exact absurd rfl he
      · cases h2
    | error e' =>
      cases byVal
      · exact hm.1
      · cases hm.2
  cases c with
  | init packet x rc v =>
    simp only [CallDoes] at h
    split at h
    · cases h.2; exact absurd rfl he
    · exact h.1
  | initBuffer x rc =>
    simp only [CallDoes] at h
    split at h
    · cases h.2; exact absurd rfl he
    · exact h.1
  | copy byVal x y => obtain ⟨b, _, h⟩ := h; exact make h
  | change x m =>
    obtain ⟨b, _, h | h | ⟨_, _, r, _, h⟩⟩ := h
    · exact h.2.1
    · exact h.2.2.1
    · cases r with
      | ok p => cases h.2; exact absurd rfl he
      | error e' => exact h.1
  | get byVal x y w => obtain ⟨b, r, _, _, h⟩ := h; exact make h
  | conv byVal x y c => obtain ⟨b, r, _, _, h⟩ := h; exact make h
  | query y q => obtain ⟨b, _, h, _⟩ := h; exact h
  | destroy x => cases h.2; exact absurd rfl he
  | itInit keys i y =>
    obtain ⟨b, _, h⟩ := h
    split at h
    · cases h.2; exact absurd rfl he
    · exact h.1
  | itCopy i j => obtain ⟨it, _, _, h⟩ := h; cases h; exact absurd rfl he
  | itGet byVal x i =>
    obtain ⟨it, _, h⟩ := h
    split at h
    · exact make h
    · split at h
      · cases h.2
      · exact h.1
  | itNext i => obtain ⟨it, _, _, h⟩ := h; cases h; exact absurd rfl he
  | itDone i => obtain ⟨it, _, h, _⟩ := h; exact h
  | itDestroy i => cases h.2; exact absurd rfl he
  | itDoneDestroy i x =>
    obtain ⟨it, _, h⟩ := h
    split at h
    · cases h.2
    · exact h.1

/-- The documentation says that for a finalized argument `dart_to_buffer` is a copy. **It is not**: it refuses every
finalized value that is not an object. -/
theorem C52_to_buffer_wrong {signed : Bool} {s : CState} {x y : Nat} {o : Obj} {v : Val} (hy : s.objs y = some o) (hx : s.objs x = none)
    (ho : InState o.pkt ⟨true, v⟩) (hv : ∀ fs, v ≠ .obj fs) :
    (Call.conv false x y .toBuffer).run signed s = some (s, .code .typeError) := by
  have hxy : x ≠ y := by rintro rfl; rw [hx] at hy; cases hy
  obtain ⟨rep, rc, p⟩ := o
  cases p with
  | heap w => cases ho.1
  | buf b =>
    have hd : (Res.ofRead b.value).bind (fun v => Res.ok (Pkt.heap v)) = .ok (.heap v) := by
      have := ho.2
      simp only [Pkt.toHeap] at this
      rw [this]; rfl
    have hf : Dart.finalize v = .throw .typeError := by
      cases v with
      | obj fs => exact absurd rfl (hv fs)
      | _ => rfl
    have hc : Conv.run (.buf b) .toBuffer = .throw .typeError := by
      simp only [Conv.run, Pkt.definalize]
      rw [hd]
      simp [Res.bind, Pkt.finalize, hf]
    simp [Call.run, hy, hxy, hc, CState.make, CState.spoil, hx, errCode]

/-- The variable a call initialises. -/
def initialises : Call → Option Nat
  | .init _ x _ _ | .initBuffer x _ | .copy _ x _ | .get _ x _ _ | .conv _ x _ _ | .itGet _ x _ => some x
  | _ => none

/-- The variable a call may destroy. -/
def destroys : Call → Option Nat
  | .destroy x => some x
  | .itDoneDestroy _ x => x
  | _ => none

/-- Whatever a program does, objects do not vanish without being destroyed or counted as lost: only the calls that destroy a
variable or initialise it end the life of the object there. Initialising a variable that holds an object loses the object;
if the call fails the object is either still there or lost as well. -/
theorem C52_lost_are_counted {signed : Bool} {s s' : CState} {c : Call} {out : Out} (h : c.run signed s = some (s', out)) {x : Nat}
    {o : Obj} (hx : s.objs x = some o) :
    (initialises c ≠ some x → destroys c ≠ some x → (s'.objs x).isSome) ∧
    (initialises c = some x → out = .object ∨ out = .code .noError → s'.lost = s.lost + 1 ∧ (s'.objs x).isSome) ∧
    (initialises c = some x → ∀ e, e ≠ .noError → out = .code e →
      (s'.objs x = some o ∧ s'.lost = s.lost) ∨ (s'.objs x = none ∧ s'.lost = s.lost + 1)) := by
  have hcode : ∀ e : Exc, errCode e ≠ .noError := by intro e; cases e <;> decide
  have put : ∀ {s' : CState} {y p}, s' = s.put y p → (y ≠ x → (s'.objs x).isSome) ∧
      (y = x → s'.lost = s.lost + 1 ∧ (s'.objs x).isSome) := by
    rintro s' y p rfl
    refine ⟨fun hy => ?_, fun hy => ?_⟩
    · simp [CState.put, upd, Ne.symm hy, hx]
    · subst hy; simp [CState.put, upd, hx]
  have spoil : ∀ {s' : CState} {y rep rc}, s' = s.spoil y rep rc → (y ≠ x → (s'.objs x).isSome) ∧
      (y = x → (s'.objs x = some o ∧ s'.lost = s.lost) ∨ (s'.objs x = none ∧ s'.lost = s.lost + 1)) := by
    rintro s' y rep rc rfl
    refine ⟨fun hy => ?_, fun hy => ?_⟩
    · unfold CState.spoil
      cases s.objs y with
      | none => simp [hx]
      | some p =>
        simp only
        split
        · simp [hx]
        · simp [upd, Ne.symm hy, hx]
    · subst hy
      unfold CState.spoil
      simp only [hx]
      split
      · exact .inl ⟨hx, rfl⟩
      · exact .inr ⟨by simp [upd], rfl⟩
  have good : ∀ {y p} {out' : Out}, initialises c = some y → s' = s.put y p → out = out' → (out' = .object ∨ out' = .code .noError) →
      (initialises c ≠ some x → destroys c ≠ some x → (s'.objs x).isSome) ∧
      (initialises c = some x → out = .object ∨ out = .code .noError → s'.lost = s.lost + 1 ∧ (s'.objs x).isSome) ∧
      (initialises c = some x → ∀ e, e ≠ .noError → out = .code e →
        (s'.objs x = some o ∧ s'.lost = s.lost) ∨ (s'.objs x = none ∧ s'.lost = s.lost + 1)) := by
    intro y p out' hi hs ho hg
    obtain ⟨h1, h2⟩ := put hs
    rw [hi]
    refine ⟨fun hn _ => h1 (fun e => hn (by rw [e])), fun e _ => h2 (Option.some.inj e), fun _ e he hoe => ?_⟩
    rw [ho] at hoe
    rcases hg with hg | hg <;> rw [hg] at hoe <;> cases hoe
    exact absurd rfl he
  have bad : ∀ {y rep rc} {e : Err}, initialises c = some y → s' = s.spoil y rep rc → out = .code e → e ≠ .noError →
      (initialises c ≠ some x → destroys c ≠ some x → (s'.objs x).isSome) ∧
      (initialises c = some x → out = .object ∨ out = .code .noError → s'.lost = s.lost + 1 ∧ (s'.objs x).isSome) ∧
      (initialises c = some x → ∀ e, e ≠ .noError → out = .code e →
        (s'.objs x = some o ∧ s'.lost = s.lost) ∨ (s'.objs x = none ∧ s'.lost = s.lost + 1)) := by
    intro y rep rc e hi hs ho he
    obtain ⟨h1, h2⟩ := spoil hs
    rw [hi]
    refine ⟨fun hn _ => h1 (fun e => hn (by rw [e])), fun _ hoe => ?_, fun e _ _ _ => h2 (Option.some.inj e)⟩
    rw [ho] at hoe
    rcases hoe with hoe | hoe <;> cases hoe
    exact absurd rfl he
  have made : ∀ {byVal y rep rc null r}, initialises c = some y → s.make byVal y rep rc null r = some (s', out) →
      (initialises c ≠ some x → destroys c ≠ some x → (s'.objs x).isSome) ∧
      (initialises c = some x → out = .object ∨ out = .code .noError → s'.lost = s.lost + 1 ∧ (s'.objs x).isSome) ∧
      (initialises c = some x → ∀ e, e ≠ .noError → out = .code e →
        (s'.objs x = some o ∧ s'.lost = s.lost) ∨ (s'.objs x = none ∧ s'.lost = s.lost + 1)) := by
    intro byVal y rep rc null r hi hm
    cases r with
    | ok p =>
      simp only [CState.make, Option.some.injEq, Prod.mk.injEq] at hm
      exact good hi hm.1.symm hm.2.symm (by cases byVal <;> simp)
    | throw e =>
      simp only [CState.make] at hm
      cases byVal
      · simp only [Bool.false_eq_true, if_false, Option.some.injEq, Prod.mk.injEq] at hm
        exact bad hi hm.1.symm hm.2.symm (hcode e)
      · simp only [if_true, Option.some.injEq, Prod.mk.injEq] at hm
        exact good hi hm.1.symm hm.2.symm (.inl rfl)
    | ub => cases hm
  -- calls that initialise no object
  have other : initialises c = none → (destroys c ≠ some x → (s'.objs x).isSome) →
      (initialises c ≠ some x → destroys c ≠ some x → (s'.objs x).isSome) ∧
      (initialises c = some x → out = .object ∨ out = .code .noError → s'.lost = s.lost + 1 ∧ (s'.objs x).isSome) ∧
      (initialises c = some x → ∀ e, e ≠ .noError → out = .code e →
        (s'.objs x = some o ∧ s'.lost = s.lost) ∨ (s'.objs x = none ∧ s'.lost = s.lost + 1)) := by
    intro hi hd
    rw [hi]
    exact ⟨fun _ h => hd h, fun h => (by cases h), fun h => (by cases h)⟩
  cases c with
  | init packet y rc v =>
    simp only [Call.run] at h
    split at h <;> simp only [Option.some.injEq, Prod.mk.injEq] at h
    · exact good rfl h.1.symm h.2.symm (.inr rfl)
    · exact bad rfl h.1.symm h.2.symm (by decide)
  | initBuffer y rc =>
    simp only [Call.run] at h
    split at h <;> simp only [Option.some.injEq, Prod.mk.injEq] at h
    · exact good rfl h.1.symm h.2.symm (.inr rfl)
    · exact bad rfl h.1.symm h.2.symm (by decide)
  | copy byVal y z =>
    simp only [Call.run] at h
    split at h
    · cases h
    · split at h
      · cases h
      · exact made rfl h
  | get byVal y z w =>
    simp only [Call.run] at h
    split at h
    · cases h
    · split at h
      · cases h
      · exact made rfl h
  | conv byVal y z w =>
    simp only [Call.run] at h
    split at h
    · cases h
    · split at h
      · cases h
      · exact made rfl h
  | itGet byVal y i =>
    simp only [Call.run] at h
    split at h
    · cases h
    · split at h
      · cases h
      · split at h
        · exact made rfl h
        · cases byVal <;> simp only [Bool.false_eq_true, if_false, if_true, Option.some.injEq, Prod.mk.injEq] at h
          · exact bad rfl h.1.symm h.2.symm (by decide)
          · exact good rfl h.1.symm h.2.symm (.inl rfl)
  | change y m =>
    refine other rfl fun _ => ?_
    have happ : ∀ p, applyMut s y p m = some (s', out) → (s'.objs x).isSome := by
      intro p ha
      unfold applyMut at ha
      split at ha
      · simp only [Option.some.injEq, Prod.mk.injEq] at ha
        rw [← ha.1]
        simp only [CState.change, upd]
        split
        · rfl
        · rw [hx]; rfl
      · simp only [Option.some.injEq, Prod.mk.injEq] at ha
        rw [← ha.1, hx]; rfl
      · cases ha
    have hsame : some (s, out) = some (s', out) → (s'.objs x).isSome := by
      intro e; cases e; rw [hx]; rfl
    simp only [Call.run, runMut] at h
    split at h
    · cases h
    · split at h
      · cases h; exact hsame rfl
      · split at h
        · split at h
          · cases h
          · split at h
            · cases h; exact hsame rfl
            · split at h
              · cases h
              · exact happ _ h
        · exact happ _ h
  | query y q =>
    refine other rfl fun _ => ?_
    simp only [Call.run] at h
    split at h
    · cases h
    · simp only [Option.map_eq_some_iff, Prod.mk.injEq] at h
      obtain ⟨_, _, rfl, _⟩ := h
      rw [hx]; rfl
  | destroy y =>
    refine other rfl fun hd => ?_
    simp only [Call.run] at h
    split at h
    · cases h
    · cases h
      have : x ≠ y := fun e => hd (by rw [e]; rfl)
      simp [CState.drop, upd, this, hx]
  | itDoneDestroy i y =>
    refine other rfl fun hd => ?_
    simp only [Call.run] at h
    split at h
    · cases h
    · split at h
      · cases h
      · split at h
        · split at h
          · cases h; simp [hx]
          · split at h
            · cases h
            · rename_i y _ _ _
              cases h
              have : x ≠ y := fun e => hd (by rw [e]; rfl)
              simp [CState.drop, upd, this, hx]
        · cases h; simp [hx]
  | itInit keys i y =>
    refine other rfl fun _ => ?_
    simp only [Call.run] at h
    split at h
    · cases h
    · split at h
      · cases h; simp [CState.putIt, hx]
      · cases h
        unfold CState.spoilIt
        split <;> simp [hx]
      · cases h
  | itCopy i j =>
    refine other rfl fun _ => ?_
    simp only [Call.run] at h
    split at h
    · cases h
    · split at h
      · cases h
      · cases h; simp [CState.putIt, hx]
  | itNext i =>
    refine other rfl fun _ => ?_
    simp only [Call.run] at h
    split at h
    · cases h
    · split at h
      · cases h
      · cases h; simp [hx]
  | itDone i =>
    refine other rfl fun _ => ?_
    simp only [Call.run] at h
    split at h
    · cases h
    · split at h
      · cases h
      · cases h; simp [hx]
  | itDestroy i =>
    refine other rfl fun _ => ?_
    simp only [Call.run] at h
    split at h
    · cases h
    · cases h; simp [hx]

/-- The same for iterators: initialising an iterator variable that holds an iterator loses that iterator, whether the call
succeeds or fails; then the variable holds the new iterator, or none. -/
theorem C52_lost_iterators {signed : Bool} {s s' : CState} {c : Call} {out : Out} (h : c.run signed s = some (s', out)) {i : Nat}
    (hc : (∃ keys y, c = .itInit keys i y) ∨ ∃ j, c = .itCopy i j) (hi : (s.its i).isSome) :
    s'.lost = s.lost + 1 ∧ ((s'.its i).isSome ↔ out = .code .noError) := by
  have hcode : ∀ e : Exc, errCode e ≠ .noError := by intro e; cases e <;> decide
  obtain ⟨it, hit⟩ := Option.isSome_iff_exists.1 hi
  rcases hc with ⟨keys, y, rfl⟩ | ⟨j, rfl⟩
  · simp only [Call.run] at h
    split at h
    · cases h
    · split at h
      · cases h; simp [CState.putIt, hit, upd]
      · rename_i e _; cases h; simp [CState.spoilIt, hit, upd, hcode e]
      · cases h
  · simp only [Call.run] at h
    split at h
    · cases h
    · split at h
      · cases h
      · cases h; simp [CState.putIt, hit, upd]

/-- An array that is initialised again as a heap, with a counter that does not exist, is lost. -/
example : ∃ s', (Call.init false 0 7 .null).run true (CState.empty.put 0 ⟨.packet, 1, .heap (.arr [])⟩) = some (s', .code .clientError) ∧
    s'.objs 0 = none ∧ s'.lost = 1 := ⟨_, rfl, rfl, rfl⟩

/-- An iterator over an array in variable 0, initialised again: over the array, and over the keys the array does not have. -/
example : let s := (CState.empty.put 0 ⟨.packet, 1, .heap (.arr [])⟩).putIt 0 ⟨1, 0, false, []⟩
    (∃ s', (Call.itInit false 0 0).run true s = some (s', .code .noError) ∧ s'.lost = 1 ∧ (s'.its 0).isSome) ∧
    ∃ s', (Call.itInit true 0 0).run true s = some (s', .code .typeError) ∧ s'.lost = 1 ∧ s'.its 0 = none :=
  ⟨⟨_, rfl, rfl, rfl⟩, _, rfl, rfl, rfl⟩

/-! ### A program -/

/-- Make an object, store 5 under "k", fetch it, read it, destroy both. -/
def c52Prog : Prog :=
  .call (.init true 0 1 .obj) fun _ =>
  .call (.change 0 (.objInsert [0x6b] (.int 5))) fun _ =>
  .call (.get false 1 0 (.key [0x6b])) fun _ =>
  .call (.query 1 .int) fun _ =>
  .call (.destroy 1) fun _ =>
  .call (.destroy 0) fun _ => .stop

/-- It keeps the rules. -/
example : Careful true c52Prog AState.empty := by
  refine ⟨⟨rfl, by intro t h; cases h⟩, fun a1 o1 h1 => ?_⟩
  obtain ⟨rfl, rfl⟩ := h1
  refine ⟨⟨by simp [AState.set], by simp [cxxCall, PMut.All]⟩, fun a2 o2 h2 => ?_⟩
  obtain ⟨b, hb, h2⟩ := h2
  have hb' : b = ⟨.packet, 1, ⟨false, .obj []⟩⟩ := by
    simp only [AState.set, if_true, Option.some.injEq] at hb
    exact hb.symm
  subst hb'
  have hst : ∃ st, a2.objs 0 = some ⟨.packet, 1, st⟩ ∧ a2.objs 1 = none ∧ st = ⟨false, .obj [([0x6b], .int 5)]⟩ := by
    rcases h2 with h | h | ⟨_, _, r, hm, h⟩
    · cases h.1
    · obtain ⟨_, ⟨y, c, h, _⟩, _⟩ := h; cases h
    · have hr : r = .ok ⟨false, .obj [([0x6b], .int 5)]⟩ := hm
      subst hr
      obtain ⟨rfl, _⟩ := h
      exact ⟨_, rfl, rfl, rfl⟩
  obtain ⟨st, h0, h1, rfl⟩ := hst
  refine ⟨⟨h1, by rw [h0]; simp⟩, fun a3 o3 h3 => ?_⟩
  obtain ⟨b, r, hb, hr, hm⟩ := h3
  rw [h0] at hb
  cases hb
  obtain ⟨q, _, hr⟩ := hr
  subst hr
  obtain ⟨rfl, _⟩ := hm
  refine ⟨by simp [Allowed, AState.set], fun a4 o4 h4 => ?_⟩
  obtain ⟨_, _, rfl, _⟩ := h4
  refine ⟨by simp [Allowed, AState.set], fun a5 o5 h5 => ?_⟩
  obtain ⟨rfl, _⟩ := h5
  exact ⟨by simp [Allowed, AState.set, h0], fun _ _ _ => trivial⟩

/-- What its calls return. -/
example : (c52Prog.run true CState.empty).map (·.2) = some
    [.code .noError, .code .noError, .code .noError, .int (.ok 5), .code .noError, .code .noError] := rfl

/-- `dart_to_buffer` refuses a finalized null (what fetching a missing key of a finalized object gives), which can be lowered. -/
example : ∃ s, (Call.conv false 1 0 .toBuffer).run true s = some (s, .code .typeError) ∧
    (Call.conv false 1 0 .lower).run true s ≠ none ∧ s.objs 0 = some ⟨.packet, 1, .buf ⟨[], .null, none⟩⟩ :=
  ⟨CState.empty.put 0 ⟨.packet, 1, .buf ⟨[], .null, none⟩⟩,
    C52_to_buffer_wrong (v := .null) rfl rfl ⟨rfl, rfl⟩ (by simp), by simp [Call.run, CState.put, upd, Conv.run, Pkt.finalize, CState.make], rfl⟩

end Dart.Props
