import Verif.Lemmas.BufView
import Verif.Props.C35

/-
C62: views of finalized buffers. `s.seen (s.view x)` is what the functions reading through view `x` see in state
`s`; `s.own.buf (s.own.var v)` is what the functions reading variable `v` see.
-/
namespace Dart.Props
open Spec Own

/-- A view of a variable that owns its memory shows what the variable holds, and goes on doing so whatever the
program does, as long as it does not change that variable (or makes the view show something else). -/
theorem C62_shows_the_variable {signed : Bool} {n m : Nat} {s : VState} (hr : BufViews.Reachable signed n m s) {v x : Nat}
    (ho : OwnsItsMemory (s.own.var v)) (hx : x < s.views.length) {ops : List VOp}
    (ha : ∀ op ∈ ops, ¬ BufViews.Changes v op ∧ ¬ BufViews.Points x op) {t : VState}
    (h : s.run signed (.look x v :: ops) = .ok t) :
    t.seen (t.view x) = s.own.buf (s.own.var v) ∧ t.own.buf (t.own.var v) = s.own.buf (s.own.var v) ∧
    BufViews.Readable t (t.view x) := by
  have hi := vinv_reachable hr
  have h' : (s.point x ((s.own.var v).look v)).run signed ops = .ok t := h
  have hi' : VInv (s.point x ((s.own.var v).look v)) := vinv_step (signed := signed) (op := .look x v) hi rfl
  have h1 := vrun_owner (v := v) ops hi' (fun o h => (ha o h).1) h'
  have h2 := vrun_view (x := x) ops (fun o h => (ha o h).2) h'
  rw [view_point_self hx] at h2
  have hb : ∀ b p, (s.own.var v).pos = some (b, p) → t.own.blocks[b]? = s.own.blocks[b]? ∧ t.own.alive b = true :=
    fun b p hp => h1.2 b (ho b p hp)
  refine ⟨buf_congr h2.1 h2.2.1 fun b p hp => (hb b p hp).1, ?_, ?_⟩
  · rw [h1.1]; exact buf_congr rfl rfl fun b p hp => (hb b p hp).1
  · intro b p hp
    rw [h2.2.1] at hp
    exact (hb b p hp).2

/-- `as_owner()` of such a view is the variable's value with its ownership: afterwards the variable may be changed
or destroyed, and the new owner still reads the same. -/
theorem C62_as_owner {signed : Bool} {n m : Nat} {s : VState} (hr : BufViews.Reachable signed n m s) {v x u : Nat}
    (ho : OwnsItsMemory (s.own.var v)) (hx : x < s.views.length) {ops : List VOp}
    (ha : ∀ op ∈ ops, ¬ BufViews.Changes v op ∧ ¬ BufViews.Points x op) {t : VState}
    (h : s.run signed (.look x v :: ops) = .ok t) (hu : u < t.own.vars.length) :
    ∃ r, t.step signed (.own u x) = .ok r ∧ OwnsItsMemory (r.own.var u) ∧
      r.own.buf (r.own.var u) = s.own.buf (s.own.var v) ∧
      ∀ more, (∀ op ∈ more, ¬ BufViews.Changes u op) → ∀ z, r.run signed more = .ok z →
        z.own.buf (z.own.var u) = s.own.buf (s.own.var v) ∧ Readable z.own (z.own.var u) := by
  have hi := vinv_reachable hr
  have hshow := C62_shows_the_variable hr ho hx ha h
  have h' : (s.point x ((s.own.var v).look v)).run signed ops = .ok t := h
  have hi' : VInv (s.point x ((s.own.var v).look v)) := vinv_step (signed := signed) (op := .look x v) hi rfl
  have h1 := vrun_owner (v := v) ops hi' (fun o h => (ha o h).1) h'
  have h2 := vrun_view (x := x) ops (fun o h => (ha o h).2) h'
  rw [view_point_self hx] at h2
  have hsrc : (t.view x).src = .var v := h2.2.2 fun w hw o ho => by cases hw; exact (ha o ho).1
  have hstep : t.step signed (.own u x) = .ok { t with own := t.own.set u ⟨(t.view x).type, (t.view x).pos, (t.own.var v).ref⟩ } := by
    simp only [VState.step, VState.owner, hsrc, Res.bind]
  have hg : (⟨(t.view x).type, (t.view x).pos, (t.own.var v).ref⟩ : Handle) = s.own.var v := by
    rw [h2.1, h2.2.1, h1.1]; rfl
  rw [hg] at hstep
  have hvar : (t.own.set u (s.own.var v)).var u = s.own.var v := by simp [State.var, State.set, hu]
  have hbuf : (t.own.set u (s.own.var v)).buf (s.own.var v) = s.own.buf (s.own.var v) :=
    buf_congr rfl rfl fun b p hp => (h1.2 b (ho b p hp)).1
  refine ⟨_, hstep, by simp only [hvar]; exact ho, by simp only [hvar]; exact hbuf, fun more hm z hz => ?_⟩
  have hit : VInv t := vinv_run ops hi' h'
  have h3 := vrun_owner (v := u) more (vinv_step hit hstep) hm hz
  have hv3 : z.own.var u = s.own.var v := h3.1.trans hvar
  have h4 : ∀ b p, (s.own.var v).pos = some (b, p) → z.own.blocks[b]? = t.own.blocks[b]? ∧ z.own.alive b = true := by
    intro b p hp
    exact h3.2 b (by simp only [hvar]; exact ho b p hp)
  refine ⟨?_, ?_⟩
  · rw [hv3]
    exact buf_congr rfl rfl fun b p hp => (h4 b p hp).1.trans (h1.2 b (ho b p hp)).1
  · intro b p hp
    rw [hv3] at hp
    exact (h4 b p hp).2

/-- Parts of a view are views of the parts: looking up a key or an index through the view has the same outcome as
looking it up in the variable: the same exception, or an element reading the same. `y` and `u` are where the results go. -/
theorem C62_parts {signed : Bool} {s : VState} {v x y u : Nat} (hx : s.view x = (s.own.var v).look v)
    (hy : y < s.views.length) (hu : u < s.own.vars.length) (op : VOp) (op' : Op)
    (hop : (∃ k, op = .get y x k ∧ op' = .get u v k) ∨ (∃ i, op = .getIdx y x i ∧ op' = .getIdx u v i)) :
    (s.step signed op = .ub ∧ s.own.step signed op' = .ub) ∨
    (∃ e, s.step signed op = .throw e ∧ s.own.step signed op' = .throw e) ∨
    ∃ t r, s.step signed op = .ok t ∧ s.own.step signed op' = .ok r ∧ t.seen (t.view y) = r.buf (r.var u) := by
  have hpos : (s.view x).pos = (s.own.var v).pos := by rw [hx]; rfl
  have hsee : s.seen (s.view x) = s.own.buf (s.own.var v) := by rw [hx]; exact buf_congr rfl rfl fun _ _ _ => rfl
  have key : ∀ e : Buf, (s.point y ((s.view x).sub e)).seen ((s.point y ((s.view x).sub e)).view y) =
      (s.own.set u ((s.own.var v).sub e)).buf ((s.own.set u ((s.own.var v).sub e)).var u) := by
    intro e
    have h1 : (s.own.set u ((s.own.var v).sub e)).var u = (s.own.var v).sub e := by simp [State.var, State.set, hu]
    rw [view_point_self hy, h1]
    unfold VState.seen
    have h2 : ((s.view x).sub e).type = ((s.own.var v).sub e).type ∧ ((s.view x).sub e).pos = ((s.own.var v).sub e).pos := by
      unfold View.sub Handle.sub
      rw [hpos]
      split <;> exact ⟨rfl, rfl⟩
    exact buf_congr h2.1 h2.2 fun _ _ _ => rfl
  rcases hop with ⟨k, rfl, rfl⟩ | ⟨i, rfl, rfl⟩
  · simp only [VState.step, State.step, hsee, hpos]
    split
    · cases hg : (s.own.buf (s.own.var v)).get signed k with
      | ok e => exact .inr (.inr ⟨_, _, rfl, rfl, key e⟩)
      | throw e => exact .inr (.inl ⟨e, rfl, rfl⟩)
      | ub => exact .inl ⟨rfl, rfl⟩
    · exact .inl ⟨rfl, rfl⟩
  · simp only [VState.step, State.step, hsee, hpos]
    split
    · cases hg : (s.own.buf (s.own.var v)).getIdx i with
      | ok e => exact .inr (.inr ⟨_, _, rfl, rfl, key e⟩)
      | throw e => exact .inr (.inl ⟨e, rfl, rfl⟩)
      | ub => exact .inl ⟨rfl, rfl⟩
    · exact .inl ⟨rfl, rfl⟩

/-- In programs that do not change variables while they are looked at, all views (of variables, of parts, of parts of
parts, copies) can be read, show the same until they are pointed elsewhere, and give owners which own what they show.
Missing for the full property: programs that do change such variables, for which it is false (see below). -/
theorem C62_programs_partial {signed : Bool} {n m : Nat} {ops more : List VOp} {s t : VState}
    (hs : (VState.start n m).run signed ops = .ok s) (hc : BufViews.CoveredRun signed (.start n m) ops)
    (ht : s.run signed more = .ok t) (hd : BufViews.CoveredRun signed s more) {x : Nat}
    (ha : ∀ op ∈ more, ¬ BufViews.Points x op) :
    BufViews.Readable s (s.view x) ∧ BufViews.Readable t (t.view x) ∧ t.seen (t.view x) = s.seen (s.view x) ∧
    ∀ u < t.own.vars.length, ∃ r, t.step signed (.own u x) = .ok r ∧ OwnsItsMemory (r.own.var u) ∧
      r.own.buf (r.own.var u) = s.seen (s.view x) := by
  have h1 := sound_run ops (sound_start n m) hc hs
  have h2 := sound_run more h1 hd ht
  have h3 := sound_seen more h1 hd ha ht
  refine ⟨sound_readable h1 x, sound_readable h2 x, h3.2, fun u hu => ?_⟩
  obtain ⟨g, hg⟩ : ∃ g, t.owner (t.view x) = .ok g := by
    unfold VState.owner
    split
    · exact ⟨_, rfl⟩
    · exact ⟨_, rfl⟩
    · rename_i e; exact absurd e (h2.there x)
  have hvar : (t.own.set u g).var u = g := by simp [State.var, State.set, hu]
  refine ⟨{ t with own := t.own.set u g }, by simp only [VState.step, hg, Res.bind], ?_, ?_⟩
  · simp only [hvar]; exact sound_owner h2 hg
  · simp only [hvar]
    rw [← h3.2]
    exact buf_congr (owner_ok hg).1 (owner_ok hg).2.1 fun _ _ _ => rfl

/-- Such programs never run into undefined behaviour because of a view: looking things up through a view has the
outcome that reading its memory has. -/
theorem C62_defined {signed : Bool} {n m : Nat} {ops : List VOp} {s : VState}
    (hs : (VState.start n m).run signed ops = .ok s) (hc : BufViews.CoveredRun signed (.start n m) ops) (x y : Nat) :
    (∀ key, (s.step signed (.get x y key)).bind (fun _ => .ok ()) = ((s.seen (s.view y)).get signed key).bind fun _ => .ok ()) ∧
    (∀ i, (s.step signed (.getIdx x y i)).bind (fun _ => .ok ()) = ((s.seen (s.view y)).getIdx i).bind fun _ => .ok ()) ∧
    (∀ v, s.step signed (.own v y) ≠ .ub) := by
  have h1 := sound_run ops (sound_start n m) hc hs
  have hr := sound_readable h1 y
  have hall : (s.view y).pos.all (s.own.alive ·.1) = true := by
    cases hp : (s.view y).pos with
    | none => rfl
    | some q => exact hr q.1 q.2 hp
  refine ⟨fun key => ?_, fun i => ?_, fun v => ?_⟩
  · simp only [VState.step, hall, if_true]
    cases (s.seen (s.view y)).get signed key <;> rfl
  · simp only [VState.step, hall, if_true]
    cases (s.seen (s.view y)).getIdx i <;> rfl
  · simp only [VState.step, VState.owner]
    have := h1.there y
    split <;> simp_all [Res.bind]

/-- Views change nothing for the owners: leaving all of them out of a program (with no `as_owner()`) leaves the same
variables, contents and lifetimes. In particular a view keeps nothing alive. -/
theorem C62_looking_is_free {signed : Bool} : ∀ (ops : List VOp) {s t : VState}, (∀ op ∈ ops, BufViews.NoOwn op) →
    s.run signed ops = .ok t → s.own.run signed (BufViews.withoutViews ops) = .ok t.own
  | [], s, t, _, h => by cases h; rfl
  | op :: ops, s, t, ha, h => by
    unfold VState.run at h
    have hn : ∀ o ∈ ops, BufViews.NoOwn o := fun o ho => ha o (by simp [ho])
    cases hs : s.step signed op with
    | ok u =>
      rw [hs] at h
      have ih := C62_looking_is_free ops hn h
      rcases step_own hs with ⟨e, h1, h2⟩ | ⟨o, rfl, e, _⟩ | ⟨v, x, g, rfl, _, _⟩
      · rw [e] at ih
        cases op with
        | plain o => exact absurd rfl (h1 o)
        | own v x => exact absurd rfl (h2 v x)
        | _ => exact ih
      · simp only [BufViews.withoutViews, State.run, e]; exact ih
      · exact absurd (ha (.own v x) (by simp)) (by simp [BufViews.NoOwn])
    | throw e =>
      rw [hs] at h
      have ih := C62_looking_is_free ops hn h
      cases op with
      | plain o =>
        have : s.own.step signed o = .throw e := by
          simp only [VState.step] at hs
          cases ho : s.own.step signed o with
          | ok r => rw [ho] at hs; cases hs
          | throw e' => rw [ho] at hs; cases hs; rfl
          | ub => rw [ho] at hs; cases hs
        simp only [BufViews.withoutViews, State.run, this]; exact ih
      | own v x => exact absurd (ha (.own v x) (by simp)) (by simp [BufViews.NoOwn])
      | _ => exact ih
    | ub => rw [hs] at h; cases h

/-- Views are copied and moved like values: the target shows what the source showed and gives the same owner, all other views
and the variables are as before; a moved-from view is null; moving a view to itself does nothing. -/
theorem C62_copy_and_move (signed : Bool) (s : VState) (x y : Nat) (hx : x < s.views.length) (hy : y < s.views.length) :
    (∃ t, s.step signed (.dup x y) = .ok t ∧ t.own = s.own ∧ t.view x = s.view y ∧ t.owner (t.view x) = s.owner (s.view y) ∧
      ∀ z, z ≠ x → t.view z = s.view z) ∧
    (x ≠ y → ∃ t, s.step signed (.take x y) = .ok t ∧ t.own = s.own ∧ t.view x = s.view y ∧
      t.owner (t.view x) = s.owner (s.view y) ∧ t.view y = .null ∧ ∀ z, z ≠ x → z ≠ y → t.view z = s.view z) ∧
    s.step signed (.take x x) = .ok s := by
  refine ⟨⟨_, rfl, rfl, view_point_self hx, ?_, fun z hz => view_point_ne hz⟩,
    fun hxy => ⟨(s.point x (s.view y)).point y .null, by simp only [VState.step, if_neg hxy], rfl, ?_, ?_, ?_, fun z h1 h2 => ?_⟩, by simp only [VState.step, if_true]⟩
  · rw [view_point_self hx]; rfl
  · rw [view_point_ne hxy, view_point_self hx]
  · rw [view_point_ne hxy, view_point_self hx]; rfl
  · exact view_point_self (by simpa [VState.point] using hy)
  · rw [view_point_ne h2, view_point_ne h1]

/-! What is wrong when the variable changes. Contrast C61: the views of the mutable kind follow the variable then. -/

/-- The variable gets a new value: its old memory is freed, and the view still points there. -/
theorem C62_negation_assigned (signed : Bool) (a b : Nat) (m m' : Bytes) :
    ∃ t, (VState.start 1 1).run signed [.plain (.alloc (8 * a) m), .plain (.fromUnique 0 (some 0)), .look 0 0,
      .plain (.alloc (8 * b) m'), .plain (.fromUnique 0 (some 1))] = .ok t ∧
      ¬ BufViews.Readable t (t.view 0) ∧ Readable t.own (t.own.var 0) := by
  refine ⟨_, by
    simp [VState.run, VState.step, VState.start, State.step, State.start, State.alloc, State.validate, Res.bind, VState.point, Handle.look,
      State.var, State.set]; rfl, ?_, ?_⟩
  · intro h
    have := h 0 0 (by simp [VState.view])
    simp [State.alive] at this
  · intro c p h
    simp [State.var] at h
    simp [State.alive, h.1]

/-- `as_owner()` after the variable got a new value: here the old memory is still there, owned by variable 1. The new
owner reads the old memory but owns the new one; when variable 1 goes, the new owner dangles. -/
theorem C62_negation_as_owner (signed : Bool) (a b : Nat) (m m' : Bytes) :
    ∃ t, (VState.start 3 1).run signed [.plain (.alloc (8 * a) m), .plain (.fromUnique 0 (some 0)), .plain (.copy 1 0), .look 0 0,
      .plain (.alloc (8 * b) m'), .plain (.fromUnique 0 (some 1)), .own 2 0] = .ok t ∧
      BufViews.Readable t (t.view 0) ∧ t.own.buf (t.own.var 2) = Buf.ofBytes m ∧ ¬ OwnsItsMemory (t.own.var 2) ∧
      ∃ r, t.step signed (.plain (.drop 1)) = .ok r ∧ ¬ Readable r.own (r.own.var 2) := by
  refine ⟨_, by
    simp [VState.run, VState.step, VState.start, State.step, State.start, State.alloc, State.validate, Res.bind, VState.point, Handle.look,
      State.var, State.set, VState.owner, VState.view]; rfl, ?_, ?_, ?_, _, rfl, ?_⟩
  · intro c p h
    simp [VState.view] at h
    simp [State.alive, h.1]
  · simp [State.buf, State.var, Buf.ofBytes]
  · intro h
    have := h 0 0 (by simp [State.var])
    simp [State.var] at this
  · intro h
    have := h 0 0 (by simp [State.var, State.set])
    simp [State.alive, State.set, Handle.null] at this

/-- `as_owner()` after the value was moved to another variable: nothing was freed, but the new owner owns nothing. -/
theorem C62_negation_moved (signed : Bool) (a : Nat) (m : Bytes) :
    ∃ t, (VState.start 3 1).run signed [.plain (.alloc (8 * a) m), .plain (.fromUnique 0 (some 0)), .look 0 0, .plain (.move 1 0),
      .own 2 0] = .ok t ∧
      BufViews.Readable t (t.view 0) ∧ t.own.buf (t.own.var 2) = Buf.ofBytes m ∧ (t.own.var 2).ref = none ∧
      ∃ r, t.step signed (.plain (.drop 1)) = .ok r ∧ ¬ Readable r.own (r.own.var 2) := by
  refine ⟨_, by
    simp [VState.run, VState.step, VState.start, State.step, State.start, State.alloc, State.validate, Res.bind, VState.point, Handle.look,
      State.var, State.set, VState.owner, VState.view]; rfl, ?_, ?_, ?_, _, rfl, ?_⟩
  · intro c p h
    simp [VState.view] at h
    simp [State.alive, h.1]
  · simp [State.buf, State.var, Buf.ofBytes]
  · simp [State.var, Handle.null]
  · intro h
    have := h 0 0 (by simp [State.var, State.set])
    simp [State.alive, State.set, Handle.null] at this

/-- `as_owner()` after the end of the variable's life is undefined, although the memory is there. -/
theorem C62_negation_gone (signed : Bool) (a : Nat) (m : Bytes) :
    (∃ t, (VState.start 2 1).run signed [.plain (.alloc (8 * a) m), .plain (.fromUnique 0 (some 0)), .plain (.copy 1 0), .look 0 0,
      .plain (.drop 0)] = .ok t ∧ BufViews.Readable t (t.view 0) ∧ t.seen (t.view 0) = Buf.ofBytes m ∧
      t.step signed (.own 0 0) = .ub) := by
  refine ⟨_, by
    simp [VState.run, VState.step, VState.start, State.step, State.start, State.alloc, State.validate, Res.bind, VState.point, Handle.look,
      State.var, State.set, View.lose]; rfl, ?_, ?_, ?_⟩
  · intro c p h
    simp [VState.view] at h
    simp [State.alive, h.1]
  · simp [VState.seen, State.buf, VState.view, Buf.ofBytes]
  · simp [VState.step, VState.owner, VState.view, Res.bind]

/-! Concrete cases. -/

instance decBView1 (op : Op) (v : Nat) : Decidable (Assigns v op) := by cases op <;> simp only [Assigns] <;> infer_instance
instance decBView2 (op : VOp) (v : Nat) : Decidable (BufViews.Changes v op) := by
  cases op <;> simp only [BufViews.Changes] <;> infer_instance
instance decBView3 (op : VOp) (v : Nat) : Decidable (BufViews.Points v op) := by
  cases op <;> simp only [BufViews.Points] <;> infer_instance
instance decBView4 (op : Op) : Decidable (NotSpan op) := by cases op <;> simp only [NotSpan] <;> infer_instance
instance decBView5 (op : VOp) (w : View) : Decidable (BufViews.Spares op w) := by
  unfold BufViews.Spares
  cases w.src <;> simp only <;> infer_instance
instance decBView6 (op : VOp) : Decidable (BufViews.NoSpan op) := by cases op <;> simp only [BufViews.NoSpan] <;> infer_instance
instance decBView7 (s : VState) (op : VOp) : Decidable (BufViews.Covered s op) := inferInstanceAs (Decidable (_ ∧ _))
instance decBCovered (signed : Bool) : ∀ (ops : List VOp) s, Decidable (BufViews.CoveredRun signed s ops)
  | [], _ => isTrue trivial
  | op :: ops, s => by
    unfold BufViews.CoveredRun
    have (t : VState) := decBCovered signed ops t
    cases s.step signed op <;> simp only <;> infer_instance

/-- A buffer, a view of it, a view of its string, a missing field, copies and moves of views, an owner of the string;
then all views are let go and the buffer is destroyed. -/
def glancing : List VOp :=
  [.plain (.alloc 16 sampleBytes), .plain (.fromUnique 0 (some 0)), .look 0 0, .get 1 0 [107], .get 2 0 [108], .getIdx 2 0 1, .dup 3 1,
   .take 2 3, .plain (.alloc 64 [1, 2]), .plain (.write 1 0 7), .own 1 2, .take 4 2, .dup 0 3, .dup 1 3, .dup 4 3, .plain (.drop 0)]

example : BufViews.CoveredRun true (.start 2 5) glancing := by decide +kernel
example : ∃ t, (VState.start 2 5).run true glancing = .ok t ∧ (t.own.buf (t.own.var 1)).strv = .ok [120] ∧
    t.own.var 0 = .null ∧ t.own.alive 0 = true := ⟨_, rfl, by decide +kernel, by decide +kernel, by decide +kernel⟩
/-- Half way. -/
example : ∃ t, (VState.start 2 5).run true (glancing.take 10) = .ok t ∧ (t.seen (t.view 2)).strv = .ok [120] ∧
    t.view 0 = (t.own.var 0).look 0 ∧ t.view 3 = .null ∧ (t.view 1).src = .var 0 ∧ OwnsItsMemory (t.own.var 0) ∧
    t.step true (.getIdx 4 0 1) = .throw .typeError :=
  ⟨_, rfl, by decide +kernel, by decide +kernel, by decide +kernel, by decide +kernel,
    by intro b p h; have : some (0, 0) = some (b, p) := h; cases this; rfl, by decide +kernel⟩

end Dart.Props
