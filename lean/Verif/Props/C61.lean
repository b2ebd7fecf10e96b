import Verif.Lemmas.CowView
import Verif.Props.C60

/-
C61: views of dynamic values.

The model (`Verif.Model.CowView`) has shared storage, owner counts, and views that own nothing and hold
the address of the smart pointer of an owner. The specification (`Verif.Spec.Views`) has no storage: every
variable has a private value and a view is a name for (a part of) the value of a variable.
-/
namespace Dart.Props
open Dart.Cow Spec.Indep

/-- C61: any program with any number of variables and views, which (by the specification) never uses a view
of a variable after that variable has changed its type, and never a view of a part of a variable after that
variable may have changed, behaves as if views were names for private values: each statement has the
specified outcome, each look at a view shows the specified type, scalar and size, no statement is
undefined, and at the end each variable has the specified value. In particular, changing or destroying one
variable does not disturb the views of another, or of its parts, however much storage they share.

Missing for the full property: `clear` and `resize` of shared storage (false, see below), and a variable
inserted into itself (false, see C32). -/
theorem C61_programs_partial (n m : Nat) (ops : List VwOp)
    (hvars : ∀ op ∈ ops, ∀ x ∈ Spec.Views.uses op, x < n) (hcov : Spec.Views.CoveredRun (vinit n m) ops)
    (huse : ∀ o ∈ (Spec.Views.run (Spec.Views.init n m) ops).2, o ≠ .ub) :
    (vrun (vinit n m) ops).2 = (Spec.Views.run (Spec.Views.init n m) ops).2 ∧
    (∀ o ∈ (vrun (vinit n m) ops).2, o ≠ .ub) ∧
    (∀ x, Holds (vrun (vinit n m) ops).1.st x ((Spec.Views.run (Spec.Views.init n m) ops).1.env.var x)) := by
  obtain ⟨h1, h2⟩ := vrun_ok (mirrors_init n m) (by simpa [vinit, Cow.init] using hvars) hcov huse
  exact ⟨h2, h2 ▸ huse, h1.sim.holds⟩

theorem vrun_append (ops more : List VwOp) : ∀ s, vrun s (ops ++ more) =
    ((vrun (vrun s ops).1 more).1, (vrun s ops).2 ++ (vrun (vrun s ops).1 more).2) := by
  induction ops with
  | nil => intro s; rfl
  | cons op ops ih => intro s; simp only [List.cons_append, vrun, ih]

theorem views_append (ops more : List VwOp) : ∀ w, Spec.Views.run w (ops ++ more) =
    ((Spec.Views.run (Spec.Views.run w ops).1 more).1,
      (Spec.Views.run w ops).2 ++ (Spec.Views.run (Spec.Views.run w ops).1 more).2) := by
  induction ops with
  | nil => intro s; rfl
  | cons op ops ih => intro s; simp only [List.cons_append, Spec.Views.run, ih]

theorem viewsCovered_append (ops more : List VwOp) : ∀ s, Spec.Views.CoveredRun s ops →
    Spec.Views.CoveredRun (vrun s ops).1 more → Spec.Views.CoveredRun s (ops ++ more) := by
  induction ops with
  | nil => intro s _ h; exact h
  | cons op ops ih => intro s h1 h2; exact ⟨h1.1, ih _ h1.2 h2⟩

/-- A program as in C61, which may be continued. -/
structure ViewProgram (n m : Nat) (ops : List VwOp) : Prop where
  vars : ∀ op ∈ ops, ∀ x ∈ Spec.Views.uses op, x < n
  covered : Spec.Views.CoveredRun (vinit n m) ops
  careful : ∀ o ∈ (Spec.Views.run (Spec.Views.init n m) ops).2, o ≠ .ub

/-- The value of variable `x` after a program, by the specification. -/
def valueAfter (n m : Nat) (ops : List VwOp) (x : Nat) : Val := (Spec.Views.run (Spec.Views.init n m) ops).1.env.var x

theorem views_length (ops : List VwOp) : ∀ w, (Spec.Views.run w ops).1.env.length = w.env.length ∧
    (Spec.Views.run w ops).1.views.length = w.views.length := by
  induction ops with
  | nil => intro w; exact ⟨rfl, rfl⟩
  | cons op ops ih =>
    intro w
    have : (Spec.Views.step w op).1.env.length = w.env.length ∧ (Spec.Views.step w op).1.views.length = w.views.length := by
      cases op with
      | plain op => exact ⟨indep_length _ _, by simp [Spec.Views.step]⟩
      | look i x => simp [Spec.Views.step, Spec.Views.World.point]
      | dup i j => simp [Spec.Views.step, Spec.Views.World.point]
      | _ =>
        simp only [Spec.Views.step]
        repeat' split
        all_goals simp [Spec.Views.World.point]
    obtain ⟨h1, h2⟩ := ih (Spec.Views.step w op).1
    exact ⟨h1.trans this.1, h2.trans this.2⟩

/-- After a program there are `n` variables and `m` views. -/
theorem views_sizes {n m : Nat} (ops : List VwOp) :
    (Spec.Views.run (Spec.Views.init n m) ops).1.env.length = n ∧ (Spec.Views.run (Spec.Views.init n m) ops).1.views.length = m := by
  have := views_length ops (Spec.Views.init n m)
  simpa [Spec.Views.init, Spec.Indep.init] using this

/-- Take a view, execute a statement, take the value the view shows. -/
theorem look_then_own {n m : Nat} {ops : List VwOp} {op : Op} {i x z : Nat} {v : Val} (h : ViewProgram n m ops)
    (hz : z < n) (hop : ∀ y ∈ x :: Spec.Indep.uses op, y < n) (hcov : Spec.Indep.Covered (vrun (vinit n m) ops).1.st op)
    (hub : (Spec.Indep.step (Spec.Views.run (Spec.Views.init n m) ops).1.env op).2 ≠ .ub)
    (hshow : (Spec.Views.step (Spec.Views.step (Spec.Views.run (Spec.Views.init n m) ops).1 (.look i x)).1 (.plain op)).1.shows i = some v) :
    Holds (vrun (vinit n m) (ops ++ [.look i x, .plain op, .own z i])).1.st z v := by
  obtain ⟨hlen, hlenv⟩ := views_sizes (n := n) (m := m) ops
  generalize hw : (Spec.Views.run (Spec.Views.init n m) ops).1 = w at *
  have hrun : Spec.Views.run w [.look i x, .plain op, .own z i] =
      ((Spec.Views.step (Spec.Views.step (Spec.Views.step w (.look i x)).1 (.plain op)).1 (.own z i)).1,
        [.ok .done, (Spec.Indep.step w.env op).2.bind fun _ => .ok .done, .ok .done]) := by
    simp only [Spec.Views.run]
    rw [Spec.Views.step.eq_6, hshow]
    rfl
  have hcv : Spec.Views.CoveredRun (vrun (vinit n m) ops).1 [.look i x, .plain op, .own z i] :=
    ⟨trivial, hcov, trivial, trivial⟩
  obtain ⟨_, _, h3⟩ := C61_programs_partial n m (ops ++ [.look i x, .plain op, .own z i])
    (fun o ho => by
      rcases List.mem_append.1 ho with ho | ho
      · exact h.vars o ho
      · simp only [List.mem_cons, List.not_mem_nil, or_false] at ho hop
        rcases ho with rfl | rfl | rfl
        · intro y hy; simp only [Spec.Views.uses, List.mem_singleton] at hy; exact hop y (.inl hy)
        · intro y hy; exact hop y (.inr hy)
        · intro y hy; simp only [Spec.Views.uses, List.mem_singleton] at hy; exact hy ▸ hz)
    (viewsCovered_append _ _ _ h.covered hcv)
    (fun o ho => by
      rw [views_append, hw, hrun] at ho
      rcases List.mem_append.1 ho with ho | ho
      · exact h.careful o ho
      · simp only [List.mem_cons, List.not_mem_nil, or_false] at ho
        rcases ho with rfl | rfl | rfl
        · simp
        · intro hc
          cases hr : (Spec.Indep.step w.env op).2 <;> simp [hr, Res.bind] at hc
          exact hub hr
        · simp)
  have := h3 z
  rw [views_append, hw, hrun] at this
  rw [Spec.Views.step.eq_6, hshow] at this
  simp only [Env.var, List.getElem?_set, if_true] at this
  rwa [if_pos (by simp [Spec.Views.step, indep_length, Spec.Views.World.point, hlen, hz])] at this

/-- C61: a view of an object or array follows the variable. Take a view of `x`, then execute any statement
after which `x` is of the same type as before (an insertion, an erasure, an assignment of another object,
…): what `as_owner()` now gives is the new value of `x`. -/
theorem C61_follows_partial (n m : Nat) (ops : List VwOp) (op : Op) (i x z : Nat) (h : ViewProgram n m ops)
    (hi : i < m) (hz : z < n) (hop : ∀ y ∈ x :: Spec.Indep.uses op, y < n) (hcov : Spec.Indep.Covered (vrun (vinit n m) ops).1.st op)
    (hub : (Spec.Indep.step (Spec.Views.run (Spec.Views.init n m) ops).1.env op).2 ≠ .ub)
    (hkind : Spec.Views.sameKind (valueAfter n m ops x) (valueAfter n m (ops ++ [.plain op]) x) = true) :
    Holds (vrun (vinit n m) (ops ++ [.look i x, .plain op, .own z i])).1.st z (valueAfter n m (ops ++ [.plain op]) x) := by
  refine look_then_own h hz hop hcov hub ?_
  obtain ⟨hlen, hlenv⟩ := views_sizes (n := n) (m := m) ops
  generalize hw : (Spec.Views.run (Spec.Views.init n m) ops).1 = w at *
  have hval : valueAfter n m ops x = w.env.var x := by simp [valueAfter, hw]
  have hval' : valueAfter n m (ops ++ [.plain op]) x = (Spec.Indep.step w.env op).1.var x := by
    simp [valueAfter, views_append, hw, Spec.Views.run, Spec.Views.step]
  rw [hval, hval'] at hkind
  rw [hval']
  have hag : Spec.Views.isAggregate (w.env.var x) = true := by
    cases hv : w.env.var x <;> simp_all [Spec.Views.sameKind, Spec.Views.isAggregate]
  have hfol : Spec.Views.follow w.env (Spec.Indep.step w.env op).1 op (.live x []) = .live x [] := by
    cases op <;> simp [Spec.Views.follow, Spec.Views.renew, hkind]
  have hview : (Spec.Views.step (Spec.Views.step w (.look i x)).1 (.plain op)).1.view i = .live x [] := by
    simp only [Spec.Views.step, Spec.Views.World.view, Spec.Views.World.point, List.getElem?_map, List.getElem?_set, if_true,
      show i < w.views.length by omega, Option.map_some, Option.getD_some, Spec.Views.seen, hag, hfol]
  rw [Spec.Views.World.shows, hview]
  rfl

/-- C61: but a view of a scalar or string is a copy. Take a view of `x`, then execute any statement: what
`as_owner()` now gives is the old value of `x`. -/
theorem C61_copies (n m : Nat) (ops : List VwOp) (op : Op) (i x z : Nat) (h : ViewProgram n m ops)
    (hi : i < m) (hz : z < n) (hop : ∀ y ∈ x :: Spec.Indep.uses op, y < n) (hcov : Spec.Indep.Covered (vrun (vinit n m) ops).1.st op)
    (hub : (Spec.Indep.step (Spec.Views.run (Spec.Views.init n m) ops).1.env op).2 ≠ .ub)
    (hkind : Spec.Views.isAggregate (valueAfter n m ops x) = false) :
    Holds (vrun (vinit n m) (ops ++ [.look i x, .plain op, .own z i])).1.st z (valueAfter n m ops x) := by
  refine look_then_own h hz hop hcov hub ?_
  obtain ⟨hlen, hlenv⟩ := views_sizes (n := n) (m := m) ops
  generalize hw : (Spec.Views.run (Spec.Views.init n m) ops).1 = w at *
  have hval : valueAfter n m ops x = w.env.var x := by simp [valueAfter, hw]
  rw [hval] at hkind ⊢
  have hfol : Spec.Views.follow w.env (Spec.Indep.step w.env op).1 op (.snap (w.env.var x)) = .snap (w.env.var x) := by
    cases op <;> rfl
  have hview : (Spec.Views.step (Spec.Views.step w (.look i x)).1 (.plain op)).1.view i = .snap (w.env.var x) := by
    simp only [Spec.Views.step, Spec.Views.World.view, Spec.Views.World.point, List.getElem?_map, List.getElem?_set, if_true,
      show i < w.views.length by omega, Option.map_some, Option.getD_some, Spec.Views.seen, hkind, Bool.false_eq_true, if_false, hfol]
  rw [Spec.Views.World.shows, hview]

/-- C61: looking is free. Making a view, taking a view of a part, copying or moving a view, asking for the
type, the value or the size: none of this changes a variable, storage, or the number of its owners. -/
theorem C61_looking_is_free (s : VState) (ops : List VwOp)
    (hops : ∀ op ∈ ops, (∀ p, op ≠ .plain p) ∧ ∀ z i, op ≠ .own z i) : (vrun s ops).1.st = s.st := by
  induction ops generalizing s with
  | nil => rfl
  | cons op ops ih =>
    have h1 : (vstep s op).1.st = s.st := by
      have h := hops op (by simp)
      cases op with
      | plain p => exact absurd rfl (h.1 p)
      | own z i => exact absurd rfl (h.2 z i)
      | look i x => rfl
      | dup i j => rfl
      | take i j => simp only [vstep]; split <;> rfl
      | _ => simp only [vstep, VState.use]; repeat' split
             all_goals rfl
    exact (ih (vstep s op).1 fun o ho => hops o (by simp [ho])).trans h1

/-- C61: `as_owner()` does not copy: the new owner refers to the very storage that the view shows, which
then has one owner more than before (unless the variable that is assigned was an owner of it). -/
theorem C61_as_owner_shares (s : VState) (z i a : Nat) (r : Ref) (n : Nat) (hz : z < s.st.vars.length)
    (ht : s.target i = some r) (ha : r.addr = some a) (hn : refcount s.st.cells r = some n)
    (hz' : s.st.var z = .null) (hok : (vstep s (.own z i)).2 = .ok .done) :
    (vstep s (.own z i)).1.st.var z = r ∧ refcount (vstep s (.own z i)).1.st.cells r = some (n + 1) := by
  simp only [vstep, VState.use, ht] at hok ⊢
  cases h1 : incr s.st.cells r with
  | none => simp [h1] at hok
  | some c =>
    cases h2 : assign ⟨c, s.st.vars⟩ z r with
    | none => simp [h1, h2] at hok
    | some st =>
      simp only [h1, h2, Option.bind_some, VState.after]
      simp only [incr, ha, Option.map_eq_some_iff] at h1
      obtain ⟨cell, h3, rfl⟩ := h1
      have hv : (⟨s.st.cells.set a (some { cell with count := cell.count + 1 }), s.st.vars⟩ : State).var z = .null := hz'
      simp only [assign, hv, drop, drops, Ref.addr, Option.map_some, Option.some.injEq] at h2
      subst h2
      simp only [refcount, ha, h3, Option.map_some, Option.some.injEq] at hn
      refine ⟨by simp [State.var, hz], ?_⟩
      simp only [refcount, ha, at_set_self (at_lt h3), Option.map_some, hn]

/-- C61: a variable can be inserted into itself by way of a view: `x.insert(k, view.as_owner())`, where the
view is one of `x`, gives `x` with its old value under the key. (Inserting the variable itself makes a
cycle, C32.) -/
theorem C61_nest_partial (n m : Nat) (ops : List VwOp) (i x z : Nat) (k : Key) (v : Val) (h : ViewProgram n m ops)
    (hi : i < m) (hx : x < n) (hz : z < n) (hxz : x ≠ z)
    (hv : (valueAfter n m ops x).insert k.toVal (valueAfter n m ops x) = .ok v) :
    Holds (vrun (vinit n m) (ops ++ [.look i x, .own z i, .plain (.insert x k z .const)])).1.st x v := by
  obtain ⟨hlen, hlenv⟩ := views_sizes (n := n) (m := m) ops
  have hcv : Spec.Views.CoveredRun (vrun (vinit n m) ops).1 [.look i x, .own z i, .plain (.insert x k z .const)] :=
    ⟨trivial, trivial, hxz, trivial⟩
  have hmv : ∀ self, insertMoves self k .const = false := by intro self; cases k <;> simp [insertMoves]
  have hprog := C61_programs_partial n m (ops ++ [.look i x, .own z i, .plain (.insert x k z .const)])
    (fun o ho => by
      rcases List.mem_append.1 ho with ho | ho
      · exact h.vars o ho
      · simp only [List.mem_cons, List.not_mem_nil, or_false] at ho
        rcases ho with rfl | rfl | rfl
        · simpa [Spec.Views.uses] using hx
        · simpa [Spec.Views.uses] using hz
        · simpa [Spec.Views.uses, Spec.Indep.uses] using ⟨hx, hz⟩)
    (viewsCovered_append _ _ _ h.covered hcv)
  rw [views_append] at hprog
  simp only [valueAfter] at hv
  have hcareful := h.careful
  generalize hw : (Spec.Views.run (Spec.Views.init n m) ops).1 = w at *
  have hview : (Spec.Views.step w (.look i x)).1.shows i = some (w.env.var x) := by
    simp only [Spec.Views.World.shows, Spec.Views.step, Spec.Views.World.view, Spec.Views.World.point, List.getElem?_set, if_true,
      show i < w.views.length by omega, Option.getD_some, Spec.Views.seen]
    by_cases hag : Spec.Views.isAggregate (w.env.var x) = true
    · simp only [if_pos hag, Spec.Views.walk]
    · simp only [if_neg hag]
  have henv : (Spec.Views.step w (.look i x)).1.env = w.env := rfl
  have h2 : Spec.Views.step (Spec.Views.step w (.look i x)).1 (.own z i) =
      (⟨w.env.set z (w.env.var x), (Spec.Views.step w (.look i x)).1.views.map (Spec.Views.renew w.env (w.env.set z (w.env.var x)) [z])⟩, .ok .done) := by
    rw [Spec.Views.step.eq_6, hview]; rfl
  have e1 : Env.var (w.env.set z (w.env.var x)) x = w.env.var x := by
    simp [Env.var, List.getElem?_set, Ne.symm hxz]
  have e2 : Env.var (w.env.set z (w.env.var x)) z = w.env.var x := by
    simp [Env.var, List.getElem?_set, hlen, hz]
  have h3 : Spec.Indep.step (w.env.set z (w.env.var x)) (.insert x k z .const) = ((w.env.set z (w.env.var x)).set x v, .ok ()) := by
    simp only [Spec.Indep.step, e1, e2, hv, update, takeIf, hmv, Bool.false_eq_true, if_false]
  have hrun : (Spec.Views.run w [.look i x, .own z i, .plain (.insert x k z .const)]).1.env = (w.env.set z (w.env.var x)).set x v ∧
      (Spec.Views.run w [.look i x, .own z i, .plain (.insert x k z .const)]).2 = [.ok .done, .ok .done, .ok .done] := by
    simp only [Spec.Views.run, h2]
    simp only [Spec.Views.step, h3, Res.bind, and_self]
  obtain ⟨_, _, h4⟩ := hprog (fun o ho => by
    rcases List.mem_append.1 ho with ho | ho
    · exact hcareful o ho
    · rw [hrun.2] at ho
      simp only [List.mem_cons, List.not_mem_nil, or_false, or_self] at ho
      rw [ho]; simp)
  have := h4 x
  simp only [hrun.1, Env.var, List.getElem?_set, if_true, List.length_set, hlen, hx, Option.getD_some] at this
  exact this

/-- A view must not be used after the variable has changed its type, even though the variable is still
there: assigning a scalar (or an array to an object, …) makes the view dangle. -/
theorem C61_type_change (s : VState) (i x : Nat) (o : Bool) (f : Fresh) (hview : s.vw i = .aggr o (.var x))
    (hx : x < s.st.vars.length) (hf : (o = true → f ≠ .obj) ∧ (o = false → f ≠ .arr))
    (hok : (vstep s (.plain (.fresh x f))).2 = .ok .done) :
    (vstep (vstep s (.plain (.fresh x f))).1 (.what i)).2 = .ub := by
  simp only [vstep, Cow.step, Cow.fresh] at hok ⊢
  cases h : assign ⟨(f.make s.st.cells).1, s.st.vars⟩ x (f.make s.st.cells).2 with
  | none => simp [h, orUb, Res.bind] at hok
  | some s' =>
    obtain ⟨_, h2⟩ := assign_sub h
    simp only [Option.map_some, orUb]
    have hvx : s'.var x = (f.make s.st.cells).2 := by
      simp [State.var, h2, hx]
    have hno : (s'.var x).isAggr o = false := by
      rw [hvx]
      cases o <;> cases f <;> simp_all [Fresh.make, Ref.isAggr]
    have : (s.after s').vw i = .stale := by
      have h1 : (s.after s').vw i = VwVar.age s.st s' (s.vw i) := by
        simp only [VState.vw, VState.after]
        rw [← age_null s.st s', map_getD, age_null]
      rw [h1, hview]
      simp [VwVar.age, Loc.survives, hno]
    simp only [VState.use, VState.target, this]

/-- The statements that fill variable 0 with an object that has an object under the key `a`; then variable 1
is a copy of it and view 0 a view of variable 0. -/
def nested : List VwOp :=
  [.plain (.fresh 0 .obj), .plain (.fresh 2 .obj), .plain (.insert 0 (.name [97]) 2 .const), .plain (.fresh 2 .null),
   .plain (.copy 1 0), .look 0 0]

/-- C61 is false for `clear` of shared storage: clearing the copy empties what the view of the original
shows, … -/
theorem C61_negation_clear :
    (Spec.Views.run (Spec.Views.init 3 1) (nested ++ [.plain (.clear 1), .size 0])).2.getLast? = some (.ok (.num 1)) ∧
    (vrun (vinit 3 1) (nested ++ [.plain (.clear 1), .size 0])).2.getLast? = some (.ok (.num 0)) := by
  constructor <;> decide +kernel

/-- … and a view of a part of the original dangles. -/
theorem C61_negation_clear_part :
    (Spec.Views.run (Spec.Views.init 3 1) (nested ++ [.sub 0 0 (.name [97]), .plain (.clear 1), .size 0])).2.getLast? = some (.ok (.num 0)) ∧
    (vrun (vinit 3 1) (nested ++ [.sub 0 0 (.name [97]), .plain (.clear 1), .size 0])).2.getLast? = some .ub := by
  constructor <;> decide +kernel

/-- Why views of parts are lost by any change: variable 0 gets a further field. It shares its storage
with variable 1, so that it gets new storage, and the view of its old part (which did not change) points
into the storage that is variable 1's alone now. It dangles as soon as variable 1 goes away. Without
sharing it does not. -/
theorem C61_parts_may_dangle :
    (vrun (vinit 3 1) (nested ++ [.sub 0 0 (.name [97]), .plain (.insert 0 (.name [98]) 2 .const), .plain (.fresh 1 .null), .size 0])).2.getLast? = some .ub ∧
    (vrun (vinit 3 1) (nested ++ [.plain (.fresh 1 .null), .sub 0 0 (.name [97]), .plain (.insert 0 (.name [98]) 2 .const), .size 0])).2.getLast? = some (.ok (.num 0)) := by
  constructor <;> decide +kernel

/-- A view of a field does not outlive the field: when the field is erased and another value is inserted
under the same name, the old view cannot be used, while a new view can. -/
theorem C61_field_erased :
    let erased : List VwOp := nested ++ [.plain (.fresh 1 .null), .sub 0 0 (.name [97]), .plain (.erase 0 (.name [97])),
      .plain (.fresh 1 .obj), .plain (.insert 0 (.name [97]) 1 .const)]
    (vrun (vinit 3 1) (erased ++ [.size 0])).2.getLast? = some .ub ∧
    (vrun (vinit 3 1) (erased ++ [.look 0 0, .sub 0 0 (.name [97]), .size 0])).2.getLast? = some (.ok (.num 0)) := by
  constructor <;> decide +kernel

/-- A view of an element of an array does not outlive a change of the length of the array, whatever becomes of the
element: the elements may have moved to other memory. -/
theorem C61_element_moved :
    let two : List VwOp := [.plain (.fresh 0 .arr), .plain (.fresh 1 .obj), .plain (.insert 0 (.index 0) 1 .const),
      .plain (.insert 0 (.index 1) 1 .const), .plain (.fresh 1 .null), .look 0 0, .sub 0 0 (.index 0)]
    (vrun (vinit 3 1) (two ++ [.size 0])).2.getLast? = some (.ok (.num 0)) ∧
    (vrun (vinit 3 1) (two ++ [.plain (.insert 0 (.index 2) 1 .const), .size 0])).2.getLast? = some .ub ∧
    (vrun (vinit 3 1) (two ++ [.plain (.erase 0 (.index 1)), .size 0])).2.getLast? = some .ub := by
  refine ⟨?_, ?_, ?_⟩ <;> decide +kernel

/-! Cases. -/

instance (s : State) (op : VwOp) : Decidable (Spec.Views.Covered s op) := by
  cases op <;> simp only [Spec.Views.Covered] <;> infer_instance
instance decVCovered : ∀ (ops : List VwOp) s, Decidable (Spec.Views.CoveredRun s ops)
  | [], _ => isTrue trivial
  | op :: ops, s => have := decVCovered ops (vstep s op).1; inferInstanceAs (Decidable (_ ∧ _))

/-- Views of the whole and of a part; changes of the other variable and of the variable itself; scalars;
the moved value with the views of its parts; missing fields; an array; a new owner by way of a view. -/
def glances : List VwOp :=
  nested ++ [.sub 1 0 (.name [97]), .what 1, .size 1, .plain (.erase 1 (.name [97])), .size 1, .plain (.fresh 1 .arr), .size 1,
    .plain (.move 3 0), .size 1, .look 0 3, .plain (.fresh 2 (.str [120, 121])), .plain (.insert 3 (.name [98]) 2 .const), .size 0,
    .sub 1 0 (.name [98]), .plain (.fresh 2 .null), .what 1, .size 1, .sub 2 0 (.name [99]), .what 2, .sub 2 0 (.index 0), .size 2,
    .dup 2 0, .take 1 2, .what 2, .own 0 1, .plain (.insert 1 (.index 0) 0 .const), .look 2 1, .sub 2 2 (.index 0), .sub 2 2 (.name [97]),
    .what 2, .plain (.fresh 3 .null), .own 3 2, .plain (.fresh 0 .null), .size 2]

example : ∀ op ∈ glances, ∀ x ∈ Spec.Views.uses op, x < 4 := by decide
example : Spec.Views.CoveredRun (vinit 4 3) glances := by decide +kernel
example : (Spec.Views.run (Spec.Views.init 4 3) glances).2.drop 6 =
    [.ok .done, .ok (.kind .obj), .ok (.num 0), .ok .done, .ok (.num 0), .ok .done, .ok (.num 0), .ok .done, .ok (.num 0), .ok .done,
     .ok .done, .ok .done, .ok (.num 2), .ok .done, .ok .done, .ok (.kind (.str [120, 121])), .ok (.num 2), .ok .done, .ok (.kind .null),
     .throw .typeError, .throw .typeError, .ok .done, .ok .done, .ok (.kind .null), .ok .done, .ok .done, .ok .done, .ok .done, .ok .done,
     .ok (.kind .obj), .ok .done, .ok .done, .ok .done, .ok (.num 0)] := by decide +kernel
example : sizes (vrun (vinit 4 3) glances).1.st = [none, some 1, none, some 0] := by decide +kernel
/-- A view follows an insertion, and what it shows can be nested. -/
example : sizes (vrun (vinit 3 1) (nested ++ [.plain (.insert 0 (.name [98]) 1 .const), .own 2 0])).1.st = [some 2, some 1, some 2] ∧
    (vrun (vinit 3 1) (nested ++ [.own 2 0, .plain (.insert 0 (.name [98]) 2 .const), .sub 0 0 (.name [98]), .size 0])).2.getLast? =
      some (.ok (.num 1)) := by constructor <;> decide +kernel
/-- `as_owner()` adds an owner: two before, three after. -/
example : let s := (vrun (vinit 3 1) nested).1
    s.st.var 2 = .null ∧ (s.target 0).bind (refcount s.st.cells) = some 2 ∧ (vstep s (.own 2 0)).2 = .ok .done ∧
    (s.target 0).bind (refcount (vstep s (.own 2 0)).1.st.cells) = some 3 := by decide +kernel
example : (vrun (vinit 3 1) nested).1.vw 0 = .aggr true (.var 0) := by decide +kernel

end Dart.Props
