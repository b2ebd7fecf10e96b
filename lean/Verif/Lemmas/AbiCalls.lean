import Verif.Spec.AbiCalls
import Verif.Lemmas.Container

/-
The C interface does to the memory what its specification does to values.
-/
namespace Dart

open Spec Abi

variable {z : Bool}

def HeldObj (z : Bool) (o : Obj) (b : AObj) : Prop := o.rep = b.rep ∧ o.rc = b.rc ∧ Held z o.pkt b.st

def HeldIt (z : Bool) (it : It) (b : AIt) : Prop :=
  it.rc = b.rc ∧ it.src = b.src ∧ it.stale = b.stale ∧ Each (Held z) it.rest b.rest

/-- Both there and related, or neither. -/
def Both {α β : Type} (R : α → β → Prop) : Option α → Option β → Prop
  | none, none => True
  | some x, some y => R x y
  | _, _ => False

def MemHeld (z : Bool) (s : CState) (a : AState) : Prop :=
  (∀ x, Both (HeldObj z) (s.objs x) (a.objs x)) ∧ ∀ i, Both (HeldIt z) (s.its i) (a.its i)

theorem Both.of_none {α β : Type} {R : α → β → Prop} {x : Option α} {y : Option β} (h : Both R x y) (hy : y = none) : x = none := by
  subst hy; cases x with
  | none => rfl
  | some _ => exact h.elim

theorem Both.of_some {α β : Type} {R : α → β → Prop} {x : Option α} {y : Option β} {b : β} (h : Both R x y) (hy : y = some b) :
    ∃ a, x = some a ∧ R a b := by
  subst hy; cases x with
  | none => exact h.elim
  | some a => exact ⟨a, rfl, h⟩

theorem Each.imp {α β : Type} {R S : α → β → Prop} (h : ∀ x y, R x y → S x y) : ∀ {xs : List α} {ys : List β}, Each R xs ys → Each S xs ys
  | [], [], _ => trivial
  | _ :: _, _ :: _, g => ⟨h _ _ g.1, Each.imp h g.2⟩
  | [], _ :: _, g => g.elim
  | _ :: _, [], g => g.elim

theorem Both.imp {α β : Type} {R S : α → β → Prop} (h : ∀ x y, R x y → S x y) {x : Option α} {y : Option β} (g : Both R x y) :
    Both S x y := by
  cases x <;> cases y <;> first | exact g | exact h _ _ g

theorem MemHeld.shows {s : CState} {a : AState} (h : MemHeld z s a) : MemoryShows s a := by
  refine ⟨fun x => ?_, fun i => ?_⟩
  · have := h.1 x
    cases hx : s.objs x <;> cases ha : a.objs x <;> rw [hx, ha] at this <;>
      first | trivial | exact this.elim | exact ⟨this.1, this.2.1, this.2.2.inState⟩
  · have := h.2 i
    cases hx : s.its i <;> cases ha : a.its i <;> rw [hx, ha] at this <;>
      first | trivial | exact this.elim | exact ⟨this.1, this.2.1, this.2.2.1, Each.imp (fun _ _ g => g.inState) this.2.2.2⟩

theorem memHeld_empty : MemHeld z CState.empty AState.empty := ⟨fun _ => trivial, fun _ => trivial⟩

theorem both_stale {s : CState} {a : AState} (h : MemHeld z s a) (x i : Nat) :
    Both (HeldIt z) (staleOver x s.its i) (outdate x a.its i) := by
  have := h.2 i
  unfold staleOver outdate
  cases hx : s.its i with
  | none =>
    cases ha : a.its i with
    | none => trivial
    | some _ => rw [hx, ha] at this; exact this.elim
  | some it =>
    cases ha : a.its i with
    | none => rw [hx, ha] at this; exact this.elim
    | some b =>
      rw [hx, ha] at this
      obtain ⟨h1, h2, h3, h4⟩ := this
      simp only [Option.map_some, Both]
      by_cases hc : it.src = x
      · rw [if_pos hc, if_pos (h2 ▸ hc)]; exact ⟨h1, h2, rfl, h4⟩
      · rw [if_neg hc, if_neg (h2 ▸ hc)]; exact ⟨h1, h2, h3, h4⟩

theorem MemHeld.set {s : CState} {a : AState} (h : MemHeld z s a) (x : Nat) {o : Option Obj} {b : Option AObj}
    (hb : Both (HeldObj z) o b) (n : Nat) : MemHeld z ⟨upd s.objs x o, staleOver x s.its, n⟩ (a.set x b) := by
  refine ⟨fun y => ?_, both_stale h x⟩
  simp only [upd, AState.set]
  split
  · exact hb
  · exact h.1 y

theorem MemHeld.put {s : CState} {a : AState} (h : MemHeld z s a) (x : Nat) {o : Obj} {b : AObj} (hb : HeldObj z o b) :
    MemHeld z (s.put x o) (a.set x (some b)) := h.set x (o := some o) (b := some b) hb _

theorem MemHeld.setIt {s : CState} {a : AState} (h : MemHeld z s a) (i : Nat) {o : Option It} {b : Option AIt}
    (hb : Both (HeldIt z) o b) (n : Nat) : MemHeld z ⟨s.objs, upd s.its i o, n⟩ (a.setIt i b) := by
  refine ⟨h.1, fun j => ?_⟩
  simp only [upd, AState.setIt]
  split
  · exact hb
  · exact h.2 j

theorem put_lost {s : CState} {x : Nat} (h : s.objs x = none) (o : Obj) : (s.put x o).lost = s.lost := by
  simp [CState.put, h]

theorem spoil_none {s : CState} {x : Nat} (h : s.objs x = none) (rep : Rep) (rc : Nat) : s.spoil x rep rc = s := by
  simp [CState.spoil, h]

theorem held_null_buf : Held z (.buf ⟨[], .null, none⟩) ⟨true, .null⟩ := ⟨rfl, .inl ⟨rfl, rfl⟩⟩

theorem heldObj_null (rep : Rep) : HeldObj z (nullObj rep) ⟨rep, 1, ⟨decide (rep = .buffer), .null⟩⟩ := by
  cases rep
  · exact ⟨rfl, rfl, rfl, by simp [Val.WF]⟩
  · exact ⟨rfl, rfl, held_null_buf⟩
  · exact ⟨rfl, rfl, rfl, by simp [Val.WF]⟩

theorem codeFor_eq (e : Exc) : errCode e = codeFor e := by cases e <;> rfl

theorem ne_zero_eq {n : Nat} (i : BitVec n) : (i != 0) = decide (i.toNat ≠ 0) := by
  by_cases h : i = 0
  · subst h; simp
  · have h1 : (i != 0) = true := by simpa using h
    have h2 : i.toNat ≠ 0 := fun hc => h (BitVec.eq_of_toNat_eq (by simpa using hc))
    rw [h1, decide_eq_true h2]

theorem initial_eq (v : InitVal) : initial v = v.val := by
  cases v with
  | bool i => exact congrArg Val.bool (ne_zero_eq i).symm
  | _ => rfl

theorem stores_iff {y : Nat} {m : CMut} : Stores y m ↔ m.stored = some (.dart y) := by
  cases m <;> simp [Stores, CMut.stored]

theorem make_ok {s : CState} {a : AState} (h : MemHeld z s a) {x : Nat} (hx : a.objs x = none) (byVal : Bool) (rep : Rep) (rc : Nat)
    {r : Res Pkt} {out : Except Exc PState} (hr : Outcome z r out) :
    ∃ s' a' o, s.make byVal x rep rc (nullObj rep) r = some (s', o) ∧ Makes a byVal x rep rc out a' o ∧ MemHeld z s' a' ∧
      s'.lost = s.lost := by
  have hs := (h.1 x).of_none hx
  cases r with
  | ok p =>
    cases out with
    | error e => exact hr.elim
    | ok st => exact ⟨_, _, _, rfl, ⟨rfl, rfl⟩, h.put x ⟨rfl, rfl, hr⟩, put_lost hs _⟩
  | throw e =>
    cases out with
    | ok st => exact hr.elim
    | error e' =>
      cases hr
      cases byVal
      · exact ⟨s, a, .code (codeFor e), by simp only [CState.make, spoil_none hs, codeFor_eq]; rfl, ⟨rfl, rfl⟩, h, rfl⟩
      · exact ⟨_, _, _, rfl, ⟨rfl, rfl⟩, h.put x (heldObj_null rep), put_lost hs _⟩
  | ub => cases out <;> exact hr.elim

theorem PMut.All.imp' {α : Type} {P Q : α → Prop} {m : PMut α} (hm : m.All P) (h : ∀ a, P a → Q a) : m.All Q := by
  cases m <;> first | exact hm | exact h _ hm | exact ⟨h _ hm.1, h _ hm.2⟩

theorem cVal_held {s : CState} {a : AState} (h : MemHeld z s a) (v : CVal)
    (hv : match v with | .dart y => a.objs y ≠ none | .str t => t.length < 2 ^ 32 | _ => True) :
    Held z (v.pkt s) (argOf a v) := by
  cases v with
  | str t => exact ⟨rfl, by simpa [Val.WF] using hv⟩
  | dart y =>
    simp only at hv
    obtain ⟨b, hb⟩ := Option.ne_none_iff_exists'.1 hv
    obtain ⟨o, ho, h1⟩ := (h.1 y).of_some hb
    simp only [CVal.pkt, argOf, ho, hb]
    exact h1.2.2
  | bool i =>
    simp only [CVal.pkt, argOf, ← ne_zero_eq]
    exact ⟨rfl, by simp [Val.WF]⟩
  | _ => exact ⟨rfl, by simp [Val.WF]⟩

theorem cxxCall_eq (m : CMut) : cxxCall m = m.call := by cases m <;> rfl

theorem contents_held {p : Pkt} {st : PState} (h : Held z p st) (keys : Bool) :
    match contents keys st with
    | .ok ss => ∃ ps, (if keys then p.keys else p.values) = .ok ps ∧ Each (Held z) ps ss
    | .error e => (if keys then p.keys else p.values) = .throw e := by
  obtain ⟨f, v⟩ := st
  have hv := h.values
  have hk := h.keys
  cases keys with
  | false =>
    cases v with
    | obj fs =>
      obtain ⟨_, vs, _, h1, _, h2⟩ := h.fields
      exact ⟨vs, h1, each_map_right h2⟩
    | arr es =>
      obtain ⟨vs, h1, h2⟩ := h.elems
      exact ⟨vs, h1, each_map_right h2⟩
    | _ => exact hv
  | true =>
    cases v with
    | obj fs =>
      show ∃ ps, p.keys = .ok ps ∧ _
      cases p with
      | heap v =>
        obtain ⟨e, hw⟩ := h
        cases e
        rw [wf_obj] at hw
        refine ⟨fs.map fun x => .heap (.str x.1), ?_, each_map_right (each_map_left (each_refl fun v hv => ⟨rfl, ?_⟩))⟩
        · simp [Pkt.keys, Pkt.size, Pkt.visit, Val.size, Val.keys, Res.bind, Function.comp_def]
        · have := (hw.2 v hv).1
          simp only [Val.WF]
          omega
      | buf b =>
        obtain ⟨rfl, h⟩ := h
        simp only at h
        obtain ⟨ks, g1, g2, g3⟩ := h.keys
        refine ⟨ks.map .buf, ?_, each_map_right (each_map_left (each_of_getElem g2 fun i a b => ⟨rfl, g3 i a b⟩))⟩
        simp [Pkt.keys, Pkt.size, Pkt.visit, h.size, g1, Val.size, Res.bind]
    | _ => exact hk
where
  each_map_right {α β γ : Type} {R : α → γ → Prop} {f : β → γ} : ∀ {xs : List α} {ys : List β},
      Each (fun x y => R x (f y)) xs ys → Each R xs (ys.map f)
    | [], [], _ => trivial
    | _ :: xs, _ :: ys, h => ⟨h.1, each_map_right (xs := xs) (ys := ys) h.2⟩
    | [], _ :: _, h => h.elim
    | _ :: _, [], h => h.elim

theorem held_hasKey {signed : Bool} {p : Pkt} {st : PState} (h : Held z p st) (k : Bytes) :
    match st.value with
    | .obj fs => ∃ r, Found signed st.finalized fs k r ∧ p.hasKey signed k = .ok r.isSome
    | _ => ∃ e, p.hasKey signed k = .throw e := by
  obtain ⟨f, v⟩ := st
  cases p with
  | heap w =>
    obtain ⟨e, hw⟩ := h
    cases e
    cases v with
    | obj fs => exact ⟨lookup fs k, .inl rfl, by rw [← mapFind_eq]; rfl⟩
    | _ => exact ⟨_, rfl⟩
  | buf b =>
    obtain ⟨rfl, h⟩ := h
    simp only at h
    cases v with
    | obj fs =>
      obtain ⟨r, h1, h2, _⟩ := h.found (signed := signed) k
      exact ⟨r, h1, by simp [Pkt.hasKey, Pkt.visit, h2, Res.bind]⟩
    | _ =>
      have hn := buf_object_throw h (by simp)
      exact ⟨.typeError, by simp [Pkt.hasKey, Pkt.visit, Buf.hasKey, hn, Res.bind]⟩

theorem query_ok {signed : Bool} {p : Pkt} {st : PState} (h : Held z p st) (q : Query)
    (hq : q = .bool → (∀ i, st.value ≠ .int i) ∧ ∀ d, st.value ≠ .dec d) :
    ∃ o, runQuery signed p q = some o ∧ Answers signed st o q := by
  cases q with
  | hasKey k =>
    have := held_hasKey (signed := signed) h k
    obtain ⟨f, v⟩ := st
    cases v with
    | obj fs =>
      obtain ⟨r, h1, h2⟩ := this
      exact ⟨.flag r.isSome, by simp [runQuery, h2], r, h1, rfl⟩
    | _ =>
      obtain ⟨e, he⟩ := this
      exact ⟨.flag false, by simp [runQuery, he], rfl⟩
  | size =>
    simp only [runQuery, h.size]
    obtain ⟨f, v⟩ := st
    cases v <;> exact ⟨_, rfl, rfl⟩
  | getType =>
    simp only [runQuery, h.getType]
    obtain ⟨f, v⟩ := st
    cases v <;> exact ⟨_, rfl, rfl⟩
  | isFinalized => exact ⟨_, rfl, by rw [h.inState.1]; rfl⟩
  | int =>
    simp only [runQuery, h.integer]
    obtain ⟨f, v⟩ := st
    cases v <;> exact ⟨_, rfl, rfl⟩
  | dcm =>
    simp only [runQuery, h.decimal]
    obtain ⟨f, v⟩ := st
    cases v <;> exact ⟨_, rfl, rfl⟩
  | bool =>
    obtain ⟨hi, hd⟩ := hq rfl
    simp only [runQuery, h.boolean hi hd]
    obtain ⟨f, v⟩ := st
    cases v <;> exact ⟨_, rfl, rfl⟩
  | str =>
    simp only [runQuery, h.strv]
    obtain ⟨f, v⟩ := st
    cases v <;> exact ⟨_, rfl, rfl⟩

theorem conv_ok {p : Pkt} {st : PState} (h : Held z p st) (c : Conv) : ∃ r, Converts st r c ∧ Outcome z (c.run p) r := by
  cases c with
  | toHeap => exact ⟨_, rfl, definalize_held h⟩
  | lift => exact ⟨_, rfl, definalize_held h⟩
  | lower => exact finalize_held h
  | toBuffer =>
    have hd := definalize_held h
    simp only [Conv.run]
    cases hp : p.definalize with
    | ok q =>
      rw [hp] at hd
      exact finalize_held hd
    | throw e => rw [hp] at hd; exact hd.elim
    | ub => rw [hp] at hd; exact hd.elim

theorem change_ok {s : CState} {a : AState} (h : MemHeld z s a) {x : Nat} {m : CMut} (hw : Allowed a (.change x m)) :
    ∃ s' a' o b, runMut s x m = some (s', o) ∧ a.objs x = some b ∧ Changes a x b m a' o ∧ MemHeld z s' a' ∧ s'.lost = s.lost := by
  obtain ⟨hx, hm⟩ := hw
  obtain ⟨b, hb⟩ := Option.ne_none_iff_exists'.1 hx
  obtain ⟨o, ho, hr, hc, hh⟩ := (h.1 x).of_some hb
  simp only [runMut, ho]
  by_cases hrep : o.rep = .buffer
  · exact ⟨s, a, _, b, by rw [if_pos hrep], hb, .inl ⟨hr ▸ hrep, rfl, rfl⟩, h, rfl⟩
  rw [if_neg hrep]
  have hrep' : b.rep ≠ .buffer := hr ▸ hrep
  have happ : ¬ mixesCounters a b.rc m → ∃ s' a' out, applyMut s x o m = some (s', out) ∧ Changes a x b m a' out ∧
      MemHeld z s' a' ∧ s'.lost = s.lost := by
    intro hmix
    obtain ⟨r, h1, h2⟩ := mut_ok (f := CVal.pkt s) (g := argOf a) hh (cxxCall m) (hm.imp' fun v hv => cVal_held h v (by
      cases v with
      | dart y => exact hv.1
      | _ => exact hv))
    rw [cxxCall_eq] at h2
    simp only [applyMut]
    cases hres : (m.call.map (CVal.pkt s)).run o.pkt with
    | ok p =>
      rw [hres] at h2
      cases r with
      | error e => exact h2.elim
      | ok st => exact ⟨_, _, _, rfl, .inr (.inr ⟨hrep', hmix, _, h1, rfl, rfl⟩), h.set x (o := some { o with pkt := p }) (b := some { b with st := st }) ⟨hr, hc, h2⟩ _, rfl⟩
    | throw e =>
      rw [hres] at h2
      cases r with
      | ok st => exact h2.elim
      | error e' =>
        cases h2
        exact ⟨s, a, _, rfl, .inr (.inr ⟨hrep', hmix, _, h1, rfl, by rw [codeFor_eq]⟩), h, rfl⟩
    | ub => rw [hres] at h2; cases r <;> exact h2.elim
  cases hst : m.stored with
  | none =>
    obtain ⟨s', a', out, h1, h2, h3, h4⟩ := happ (by rintro ⟨y, b', h1, _⟩; rw [stores_iff, hst] at h1; cases h1)
    exact ⟨s', a', out, b, h1, hb, h2, h3, h4⟩
  | some v =>
    cases v with
    | dart y =>
      have hy : a.objs y ≠ none ∧ y ≠ x := by
        cases m <;> simp only [CMut.stored, Option.some.injEq, reduceCtorEq] at hst <;> (subst hst; exact hm.2)
      obtain ⟨c, hcy⟩ := Option.ne_none_iff_exists'.1 hy.1
      obtain ⟨oy, hoy, hr2, hc2, _⟩ := (h.1 y).of_some hcy
      simp only [hoy]
      by_cases hrc : oy.rc = o.rc
      · rw [if_neg (by simpa using hrc), if_neg hy.2]
        obtain ⟨s', a', out, h1, h2, h3, h4⟩ := happ (by
          rintro ⟨y', b', h1, h2, h3⟩
          rw [stores_iff, hst] at h1
          cases h1
          rw [hcy] at h2
          cases h2
          exact h3 (by rw [← hc2, hrc, hc]))
        exact ⟨s', a', out, b, h1, hb, h2, h3, h4⟩
      · rw [if_pos (by simpa using hrc)]
        exact ⟨s, a, _, b, rfl, hb, .inr (.inl ⟨hrep', ⟨y, c, stores_iff.2 hst, hcy, by rw [← hc2, ← hc]; exact hrc⟩, rfl, rfl⟩), h, rfl⟩
    | _ =>
      obtain ⟨s', a', out, h1, h2, h3, h4⟩ := happ (by rintro ⟨y, b', h1, _⟩; rw [stores_iff, hst] at h1; cases h1)
      exact ⟨s', a', out, b, h1, hb, h2, h3, h4⟩

theorem usable_it {s : CState} {a : AState} (h : MemHeld z s a) {i : Nat} (hu : Usable a i) :
    ∃ it b, s.its i = some it ∧ a.its i = some b ∧ it.stale = false ∧ HeldIt z it b := by
  obtain ⟨b, hb, hs⟩ := hu
  obtain ⟨it, h1, h2⟩ := (h.2 i).of_some hb
  exact ⟨it, b, h1, hb, by rw [h2.2.2.1, hs], h2⟩

theorem each_tail {α β : Type} {R : α → β → Prop} {xs : List α} {ys : List β} (h : Each R xs ys) : Each R xs.tail (ys.drop 1) := by
  cases xs <;> cases ys <;> first | exact h.elim | exact h | exact h.2

theorem each_isEmpty {α β : Type} {R : α → β → Prop} {xs : List α} {ys : List β} (h : Each R xs ys) : xs.isEmpty = (ys.length == 0) := by
  cases xs <;> cases ys <;> first | exact h.elim | rfl

theorem call_ok {signed : Bool} {s : CState} {a : AState} (h : MemHeld z s a) {c : Call} (hw : Allowed a c) :
    ∃ s' a' o, c.run signed s = some (s', o) ∧ CallDoes signed a c a' o ∧ MemHeld z s' a' ∧ s'.lost = s.lost := by
  cases c with
  | init packet x rc v =>
    have hs := (h.1 x).of_none hw.1
    simp only [Call.run, CallDoes]
    by_cases hrc : rc = 1 ∨ rc = 2
    · simp only [if_pos hrc]
      rw [initial_eq]
      refine ⟨_, _, _, rfl, ⟨rfl, rfl⟩, h.put x ⟨rfl, rfl, rfl, ?_⟩, put_lost hs _⟩
      cases v with
      | str t => simpa [InitVal.val, Val.WF] using hw.2 t rfl
      | obj => simp [InitVal.val, Val.WF, WFFields]
      | arr => simp [InitVal.val, Val.WF, WFElems]
      | _ => simp [InitVal.val, Val.WF]
    · simp only [if_neg hrc, spoil_none hs]
      exact ⟨_, _, _, rfl, ⟨rfl, rfl⟩, h, rfl⟩
  | initBuffer x rc =>
    have hs := (h.1 x).of_none hw
    simp only [Call.run, CallDoes]
    by_cases hrc : rc = 1 ∨ rc = 2
    · simp only [if_pos hrc]
      exact ⟨_, _, _, rfl, ⟨rfl, rfl⟩, h.put x ⟨rfl, rfl, held_null_buf⟩, put_lost hs _⟩
    · simp only [if_neg hrc, spoil_none hs]
      exact ⟨_, _, _, rfl, ⟨rfl, rfl⟩, h, rfl⟩
  | copy byVal x y =>
    obtain ⟨hx, hy⟩ := hw
    obtain ⟨b, hb⟩ := Option.ne_none_iff_exists'.1 hy
    obtain ⟨o, ho, hr, hc, hh⟩ := (h.1 y).of_some hb
    have hxy : x ≠ y := by rintro rfl; exact hy hx
    have hs := (h.1 x).of_none hx
    simp only [Call.run, ho, hxy, false_and, if_false, hr, hc]
    exact ⟨_, _, _, rfl, ⟨b, hb, rfl, rfl⟩, h.put x ⟨rfl, rfl, hh⟩, put_lost hs _⟩
  | change x m =>
    obtain ⟨s', a', o, b, h1, h2, h3, h4, h5⟩ := change_ok h hw
    exact ⟨s', a', o, h1, ⟨b, h2, h3⟩, h4, h5⟩
  | get byVal x y w =>
    obtain ⟨hx, hy⟩ := hw
    obtain ⟨b, hb⟩ := Option.ne_none_iff_exists'.1 hy
    obtain ⟨o, ho, hr, hc, hh⟩ := (h.1 y).of_some hb
    have hxy : x ≠ y := by rintro rfl; exact hy hx
    simp only [Call.run, ho, hxy, false_and, if_false, hc]
    have : ∃ r, ReadOk signed b.st (elemRead w) r ∧ Outcome z (w.read.run signed o.pkt) r := by
      cases w with
      | key k => exact read_ok (α := Empty) (f := fun e => e.elim) (g := fun e => e.elim) hh (.get k) trivial
      | idx i => exact read_ok (α := Empty) (f := fun e => e.elim) (g := fun e => e.elim) hh (.getIdx i) trivial
    obtain ⟨r, h1, h2⟩ := this
    obtain ⟨s', a', out, h3, h4, h5, h6⟩ := make_ok h hx byVal .packet b.rc h2
    exact ⟨s', a', out, h3, ⟨b, r, hb, h1, h4⟩, h5, h6⟩
  | conv byVal x y c =>
    obtain ⟨hx, hy⟩ := hw
    obtain ⟨b, hb⟩ := Option.ne_none_iff_exists'.1 hy
    obtain ⟨o, ho, hr, hc, hh⟩ := (h.1 y).of_some hb
    have hxy : x ≠ y := by rintro rfl; exact hy hx
    simp only [Call.run, ho, hxy, false_and, if_false, hc]
    obtain ⟨r, h1, h2⟩ := conv_ok hh c
    obtain ⟨s', a', out, h3, h4, h5, h6⟩ := make_ok h hx byVal c.rep b.rc h2
    exact ⟨s', a', out, h3, ⟨b, r, hb, h1, by cases c <;> exact h4⟩, h5, h6⟩
  | query y q =>
    have : ∃ b, a.objs y = some b ∧ (q = .bool → (∀ i, b.st.value ≠ .int i) ∧ ∀ d, b.st.value ≠ .dec d) := by
      cases q with
      | bool => obtain ⟨b, h1, h2⟩ := hw; exact ⟨b, h1, fun _ => h2⟩
      | _ =>
        obtain ⟨b, hb⟩ := Option.ne_none_iff_exists'.1 hw
        exact ⟨b, hb, fun e => by cases e⟩
    obtain ⟨b, hb, hq⟩ := this
    obtain ⟨o, ho, hr, hc, hh⟩ := (h.1 y).of_some hb
    obtain ⟨out, h1, h2⟩ := query_ok (signed := signed) hh q hq
    exact ⟨s, a, out, by simp [Call.run, ho, h1], ⟨b, hb, rfl, h2⟩, h, rfl⟩
  | destroy x =>
    obtain ⟨b, hb⟩ := Option.ne_none_iff_exists'.1 hw
    obtain ⟨o, ho, _⟩ := (h.1 x).of_some hb
    exact ⟨s.drop x, _, _, by simp [Call.run, ho], ⟨rfl, rfl⟩, h.set x (o := none) (b := none) trivial _, rfl⟩
  | itInit keys i y =>
    obtain ⟨hi, hy⟩ := hw
    have hs := (h.2 i).of_none hi
    obtain ⟨b, hb⟩ := Option.ne_none_iff_exists'.1 hy
    obtain ⟨o, ho, hr, hc, hh⟩ := (h.1 y).of_some hb
    have hcon := contents_held hh keys
    simp only [Call.run, ho, CallDoes]
    cases hct : contents keys b.st with
    | ok ss =>
      rw [hct] at hcon
      obtain ⟨ps, h1, h2⟩ := hcon
      rw [h1]
      refine ⟨s.putIt i ⟨o.rc, y, false, ps⟩, a.setIt i (some ⟨b.rc, y, false, ss⟩), _, rfl, ⟨b, hb, ?_⟩,
        h.setIt i (o := some _) (b := some _) ⟨hc, rfl, rfl, h2⟩ _, by simp [CState.putIt, hs]⟩
      rw [hct]; exact ⟨rfl, rfl⟩
    | error e =>
      rw [hct] at hcon
      simp only at hcon
      rw [hcon]
      refine ⟨s, a, .code (codeFor e), by simp [CState.spoilIt, hs, codeFor_eq], ⟨b, hb, ?_⟩, h, rfl⟩
      rw [hct]; exact ⟨rfl, rfl⟩
  | itCopy i j =>
    obtain ⟨hi, hj⟩ := hw
    have hs := (h.2 i).of_none hi
    obtain ⟨it, b, h1, h2, h3, h4⟩ := usable_it h hj
    have hij : i ≠ j := by rintro rfl; rw [h2] at hi; cases hi
    exact ⟨s.putIt i it, _, _, by simp [Call.run, h1, h3, hij], ⟨b, h2, rfl, rfl⟩, h.setIt i (o := some _) (b := some _) h4 _,
      by simp [CState.putIt, hs]⟩
  | itGet byVal x i =>
    obtain ⟨hx, hi⟩ := hw
    have hs := (h.1 x).of_none hx
    obtain ⟨it, b, h1, h2, h3, h4, h5, h6, h7⟩ := usable_it h hi
    simp only [Call.run, h1, h3, Bool.false_eq_true, if_false, CallDoes]
    cases hr : it.rest with
    | nil =>
      rw [hr] at h7
      have hb : b.rest = [] := by
        cases hbr : b.rest with
        | nil => rfl
        | cons _ _ => rw [hbr] at h7; exact h7.elim
      cases byVal
      · refine ⟨s, a, .code .runtimeError, by simp [spoil_none hs], ⟨b, h2, ?_⟩, h, rfl⟩
        rw [hb]; exact ⟨rfl, rfl⟩
      · refine ⟨s.put x (nullObj .packet), a.set x (some ⟨.packet, 1, ⟨false, .null⟩⟩), .object, rfl, ⟨b, h2, ?_⟩,
          h.put x (heldObj_null .packet), put_lost hs _⟩
        rw [hb]; exact ⟨rfl, rfl⟩
    | cons p ps =>
      rw [hr] at h7
      cases hbr : b.rest with
      | nil => rw [hbr] at h7; exact h7.elim
      | cons q qs =>
        rw [hbr] at h7
        obtain ⟨s', a', out, g1, g2, g3, g4⟩ := make_ok h hx byVal .packet it.rc (r := .ok p) (out := .ok q) h7.1
        refine ⟨s', a', out, g1, ⟨b, h2, ?_⟩, g3, g4⟩
        rw [hbr]
        rw [h4] at g2
        exact g2
  | itNext i =>
    obtain ⟨it, b, h1, h2, h3, h4, h5, h6, h7⟩ := usable_it h hw
    simp only [Call.run, h1]
    rw [if_neg (by simp [h3])]
    exact ⟨_, _, _, rfl, ⟨b, h2, rfl, rfl⟩,
      h.setIt i (o := some { it with rest := it.rest.tail }) (b := some { b with rest := b.rest.drop 1 })
        ⟨h4, h5, h6, each_tail h7⟩ _, rfl⟩
  | itDone i =>
    obtain ⟨it, b, h1, h2, h3, h4, h5, h6, h7⟩ := usable_it h hw
    simp only [Call.run, h1]
    rw [if_neg (by simp [h3])]
    exact ⟨s, a, _, rfl, ⟨b, h2, rfl, by rw [each_isEmpty h7]⟩, h, rfl⟩
  | itDestroy i =>
    obtain ⟨b, hb⟩ := Option.ne_none_iff_exists'.1 hw
    obtain ⟨o, ho, _⟩ := (h.2 i).of_some hb
    exact ⟨_, _, _, by simp only [Call.run, ho], ⟨rfl, rfl⟩, h.setIt i (o := none) (b := none) trivial _, rfl⟩
  | itDoneDestroy i x =>
    obtain ⟨hi, hx⟩ := hw
    obtain ⟨it, b, h1, h2, h3, h4, h5, h6, h7⟩ := usable_it h hi
    have he := each_isEmpty h7
    simp only [Call.run, h1, h3, Bool.false_eq_true, if_false, CallDoes]
    by_cases hl : b.rest.length = 0
    · have : it.rest.isEmpty = true := by rw [he]; simp [hl]
      simp only [this, if_true]
      have h' := h.setIt i (o := none) (b := none) trivial s.lost
      cases x with
      | none => exact ⟨_, _, _, rfl, ⟨b, h2, by rw [if_pos hl]; exact ⟨rfl, rfl⟩⟩, h', rfl⟩
      | some x =>
        obtain ⟨bx, hbx⟩ := Option.ne_none_iff_exists'.1 (hx b x h2 rfl (List.length_eq_zero_iff.1 hl))
        obtain ⟨o, ho, _⟩ := (h.1 x).of_some hbx
        simp only [ho]
        exact ⟨_, _, _, rfl, ⟨b, h2, by rw [if_pos hl]; exact ⟨rfl, rfl⟩⟩, h'.set x (o := none) (b := none) trivial _, rfl⟩
    · have : it.rest.isEmpty = false := by rw [he]; simpa using hl
      simp only [this, Bool.false_eq_true, if_false]
      exact ⟨s, a, _, rfl, ⟨b, h2, by rw [if_neg hl]; exact ⟨rfl, rfl⟩⟩, h, rfl⟩

theorem prog_ok {signed : Bool} (P : Prog) : ∀ {s : CState} {a : AState}, MemHeld z s a → Careful signed P a →
    ∃ s' a' os, P.run signed s = some (s', os) ∧ ProgDoes signed P a a' os ∧ MemHeld z s' a' ∧ s'.lost = s.lost := by
  induction P with
  | stop => intro s a h _; exact ⟨s, a, [], rfl, ⟨rfl, rfl⟩, h, rfl⟩
  | call c next ih =>
    intro s a h hc
    obtain ⟨s1, a1, o, h1, h2, h3, h4⟩ := call_ok (signed := signed) h hc.1
    obtain ⟨s2, a2, os, h5, h6, h7, h8⟩ := ih o h3 (hc.2 a1 o h2)
    exact ⟨s2, a2, o :: os, by simp [Prog.run, h1, h5], ⟨a1, o, os, h2, h6, rfl⟩, h7, h8.trans h4⟩

end Dart
