import Verif.Lemmas.CowLoop
import Verif.Props.C16

/-
C60: iterators into dynamic values.

The model (`Verif.Model.CowIter`) has shared storage, owner counts, and iterators that own nothing and point
at a node of a map or an index of a vector in that storage. The specification (`Verif.Spec.Cursor`) has
no storage: every variable has a private value and an iterator is a position in the value of a variable.
-/
namespace Dart.Props
open Dart.Cow Spec.Indep

/-- C60: any program with any number of variables and iterators, which (by the specification) never uses
an iterator after the value it came from may have changed, never steps past the ends, and never mixes
iterators of different variables, behaves as if iterators were positions in private values: each
statement has the specified outcome, each comparison the specified result, no statement is undefined,
and at the end each variable shows the specified value. In particular, changing one variable does not
disturb the iterators of another, however much storage they share.

Missing for the full property: `clear`, `resize` and `reserve` of shared storage (false, see below), and
a variable inserted into itself (false, see C32). -/
theorem C60_programs_partial (n m : Nat) (ops : List ItOp)
    (hvars : ∀ op ∈ ops, ∀ x ∈ Spec.Cursor.uses op, x < n) (hcov : Spec.Cursor.CoveredRun (iinit n m) ops)
    (huse : ∀ o ∈ (Spec.Cursor.run (Spec.Cursor.init n m) ops).2, o ≠ .ub) :
    (irun (iinit n m) ops).2 = (Spec.Cursor.run (Spec.Cursor.init n m) ops).2 ∧
    (∀ o ∈ (irun (iinit n m) ops).2, o ≠ .ub) ∧
    (∀ x, Holds (irun (iinit n m) ops).1.st x ((Spec.Cursor.run (Spec.Cursor.init n m) ops).1.env.var x)) := by
  obtain ⟨h1, h2⟩ := irun_ok (follows_init n m) (by simpa [iinit, Cow.init] using hvars) hcov huse
  exact ⟨h2, h2 ▸ huse, h1.sim.holds⟩

/-- What every loop below starts from: a program as above has run, and it goes on with further
statements that are always covered. -/
theorem more_statements {n m : Nat} {ops more : List ItOp}
    (hvars : ∀ op ∈ ops, ∀ x ∈ Spec.Cursor.uses op, x < n) (hcov : Spec.Cursor.CoveredRun (iinit n m) ops)
    (huse : ∀ o ∈ (Spec.Cursor.run (Spec.Cursor.init n m) ops).2, o ≠ .ub)
    (hmore : ∀ op ∈ more, ∀ x ∈ Spec.Cursor.uses op, x < n) (hfree : ∀ op ∈ more, ∀ s, Spec.Cursor.Covered s op)
    {w : Spec.Cursor.World} {k : Nat}
    (hrun : Spec.Cursor.run (Spec.Cursor.run (Spec.Cursor.init n m) ops).1 more = (w, List.replicate k (.ok .done))) :
    (irun (irun (iinit n m) ops).1 more).2 = List.replicate k (.ok .done) ∧
    ∀ x, Holds (irun (irun (iinit n m) ops).1 more).1.st x (w.env.var x) := by
  have hub : ∀ o ∈ (Spec.Cursor.run (Spec.Cursor.init n m) (ops ++ more)).2, o ≠ .ub := by
    rw [crun_append, hrun]
    intro o ho
    rcases List.mem_append.1 ho with ho | ho
    · exact huse o ho
    · rw [List.eq_of_mem_replicate ho]; simp
  obtain ⟨h1, h2⟩ := irun_ok (follows_init n m) (ops := ops) (by simpa [iinit, Cow.init] using hvars) hcov huse
  obtain ⟨h3, _, h5⟩ := C60_programs_partial n m (ops ++ more)
    (fun o ho => by rcases List.mem_append.1 ho with h | h; exact hvars o h; exact hmore o h)
    (coveredRun_append hcov (coveredRun_free hfree _)) hub
  rw [irun_append, crun_append, hrun] at h3 h5
  simp only [h2] at h3
  exact ⟨List.append_cancel_left h3, h5⟩

theorem update_length (e : Env) (x : Nat) (r : Res Val) : (update e x r).1.length = e.length := by
  cases r <;> simp [update]

theorem takeIf_length (b : Bool) (y : Nat) (o : Env × Res Unit) : (takeIf b y o).1.length = o.1.length := by
  obtain ⟨e, r⟩ := o
  cases r <;> simp only [takeIf]
  split <;> simp

theorem indep_length (e : Env) (op : Op) : (Spec.Indep.step e op).1.length = e.length := by
  cases op with
  | fresh x v => simp [Spec.Indep.step]
  | copy z y => simp [Spec.Indep.step]
  | move z y => simp only [Spec.Indep.step]; split <;> simp
  | get z x k => cases k <;> exact update_length _ _ _
  | insert x k y m => simp only [Spec.Indep.step, takeIf_length, update_length]
  | set x k y m => simp only [Spec.Indep.step, takeIf_length, update_length]
  | erase x k => exact update_length _ _ _
  | clear x => exact update_length _ _ _
  | resize x n y => exact update_length _ _ _

/-- The numbers of variables and iterators do not change. -/
structure SameSize (w w' : Spec.Cursor.World) : Prop where
  env : w'.env.length = w.env.length
  cursors : w'.cursors.length = w.cursors.length

theorem point_size (w : Spec.Cursor.World) (i : Nat) (c : Spec.Cursor.Cursor) : SameSize w (w.point i c) :=
  ⟨rfl, by simp [Spec.Cursor.World.point]⟩

theorem call_size (w : Spec.Cursor.World) (j x : Nat) (op : Op) (pos : Val → Val → Nat) (keys : Bool) :
    SameSize w (w.call j x op pos keys).1 := by
  have h : SameSize w ⟨(step w.env op).1, w.cursors.map (Spec.Cursor.forget (changes op))⟩ :=
    ⟨indep_length _ _, by simp⟩
  simp only [Spec.Cursor.World.call]
  split
  · exact ⟨h.env, by rw [(point_size _ _ _).cursors]; exact h.cursors⟩
  · exact h
  · exact h

theorem arg_size (w : Spec.Cursor.World) (i x : Nat) (f : Key → Bool → Spec.Cursor.World × Res Seen)
    (h : ∀ k b, SameSize w (f k b).1) : SameSize w (w.arg i x f).1 := by
  simp only [Spec.Cursor.World.arg]
  split
  · exact ⟨rfl, rfl⟩
  · exact ⟨rfl, rfl⟩
  · split
    · split
      · exact h _ _
      · exact ⟨rfl, rfl⟩
    · exact ⟨rfl, rfl⟩

theorem cstep_size (w : Spec.Cursor.World) (op : ItOp) : SameSize w (Spec.Cursor.step w op).1 := by
  cases op with
  | plain op => exact ⟨indep_length _ _, by simp [Spec.Cursor.step]⟩
  | insert j x k y m => exact call_size _ _ _ _ _ _
  | set j x k y m => exact call_size _ _ _ _ _ _
  | erase j x k => exact call_size _ _ _ _ _ _
  | insertAt j x i y m => exact arg_size _ _ _ _ fun _ _ => call_size _ _ _ _ _ _
  | setAt j x i y m => exact arg_size _ _ _ _ fun _ _ => call_size _ _ _ _ _ _
  | eraseAt j x i => exact arg_size _ _ _ _ fun _ _ => call_size _ _ _ _ _ _
  | take i j =>
    simp only [Spec.Cursor.step]
    split
    · exact ⟨rfl, rfl⟩
    · exact ⟨rfl, by rw [(point_size _ _ _).cursors, (point_size _ _ _).cursors]⟩
  | deref z i =>
    simp only [Spec.Cursor.step]
    split
    · split
      · exact ⟨by simp, by simp⟩
      · exact ⟨rfl, rfl⟩
    · exact ⟨rfl, rfl⟩
  | dup i j => exact point_size _ _ _
  | isSet i => exact ⟨rfl, rfl⟩
  | _ =>
    simp only [Spec.Cursor.step]
    repeat' split
    all_goals first | exact point_size _ _ _ | exact ⟨rfl, rfl⟩ | exact ⟨rfl, by simp⟩

theorem crun_size (ops : List ItOp) : ∀ w, SameSize w (Spec.Cursor.run w ops).1 := by
  induction ops with
  | nil => intro w; exact ⟨rfl, rfl⟩
  | cons op ops ih =>
    intro w
    have h1 := cstep_size w op
    have h2 := ih (Spec.Cursor.step w op).1
    exact ⟨h2.env.trans h1.env, h2.cursors.trans h1.cursors⟩

theorem crun_env (n m : Nat) (ops : List ItOp) : (Spec.Cursor.run (Spec.Cursor.init n m) ops).1.env.length = n := by
  rw [(crun_size ops _).env]; simp [Spec.Cursor.init, Spec.Indep.init]

theorem crun_cursors (n m : Nat) (ops : List ItOp) : (Spec.Cursor.run (Spec.Cursor.init n m) ops).1.cursors.length = m := by
  rw [(crun_size ops _).cursors]; simp [Spec.Cursor.init]

/-- The program `i = x.begin(); ++i; …; ++i; z = *i;` with `p` steps (`key_begin` for `keys`). -/
def lookAt (x i z p : Nat) (keys : Bool) : List ItOp := .first i x keys :: List.replicate p (.next i) ++ [.deref z i]

/-- C60: walking from the beginning meets the items in order: after any program, `p` steps from
`x.begin()` (or `x.key_begin()`) the iterator shows exactly the `p`-th value (key, element) of `x`, and
looking at it changes no other variable. -/
theorem C60_walk_partial (n m : Nat) (ops : List ItOp) (x i z p : Nat) (keys : Bool) (l : List Val) (v : Val)
    (hvars : ∀ op ∈ ops, ∀ x ∈ Spec.Cursor.uses op, x < n) (hcov : Spec.Cursor.CoveredRun (iinit n m) ops)
    (huse : ∀ o ∈ (Spec.Cursor.run (Spec.Cursor.init n m) ops).2, o ≠ .ub)
    (hx : x < n) (hz : z < n) (hi : i < m)
    (hl : Spec.Cursor.items keys ((Spec.Cursor.run (Spec.Cursor.init n m) ops).1.env.var x) = some l)
    (hp : l[p]? = some v) :
    (irun (irun (iinit n m) ops).1 (lookAt x i z p keys)).2 = List.replicate (p + 2) (.ok .done) ∧
    Holds (irun (irun (iinit n m) ops).1 (lookAt x i z p keys)).1.st z v ∧
    (∀ y, y ≠ z → Holds (irun (irun (iinit n m) ops).1 (lookAt x i z p keys)).1.st y
      ((Spec.Cursor.run (Spec.Cursor.init n m) ops).1.env.var y)) := by
  generalize hw : (Spec.Cursor.run (Spec.Cursor.init n m) ops).1 = w at hl
  have he : w.env.length = n := by rw [← hw]; exact crun_env _ _ _
  have hc : w.cursors.length = m := by rw [← hw]; exact crun_cursors _ _ _
  have hlt : p < l.length := (List.getElem?_eq_some_iff.1 hp).1
  have h1 : Spec.Cursor.step w (.first i x keys) = (w.point i (.at x 0 keys), .ok .done) := by
    simp only [Spec.Cursor.step, hl]
  obtain ⟨w', h2, h3, h4, h5⟩ := walk (w := w.point i (.at x 0 keys)) (i := i) (l := l) hl p 0
    (by rw [(point_size _ _ _).cursors, hc]; exact hi) (by omega) (by rw [point_cursor _ (by omega), if_pos rfl])
  have h3' : w'.env = w.env := h3
  have h6 : Spec.Cursor.step w' (.deref z i) =
      (⟨w'.env.set z v, w'.cursors.map (Spec.Cursor.forget [z])⟩, .ok .done) := by
    simp only [Spec.Cursor.step, h4, Nat.zero_add, h3', hl, Option.bind_some, hp]
  have hrun : Spec.Cursor.run (Spec.Cursor.run (Spec.Cursor.init n m) ops).1 (lookAt x i z p keys) =
      (⟨w'.env.set z v, w'.cursors.map (Spec.Cursor.forget [z])⟩, List.replicate (p + 2) (.ok .done)) := by
    rw [hw, lookAt, List.cons_append, Spec.Cursor.run, h1]
    simp only
    rw [crun_append, h2]
    simp only [Spec.Cursor.run, h6]
    rw [← List.replicate_succ', ← List.replicate_succ]
  obtain ⟨g1, g2⟩ := more_statements hvars hcov huse
    (by
      intro o ho y hy
      simp only [lookAt, List.cons_append, List.mem_cons, List.mem_append, List.mem_replicate, List.not_mem_nil, or_false] at ho
      rcases ho with rfl | ⟨_, rfl⟩ | rfl <;> simp [Spec.Cursor.uses] at hy <;> omega)
    (by
      intro o ho s
      simp only [lookAt, List.cons_append, List.mem_cons, List.mem_append, List.mem_replicate, List.not_mem_nil, or_false] at ho
      rcases ho with rfl | ⟨_, rfl⟩ | rfl <;> trivial) hrun
  have hset : ∀ y, Env.var (w'.env.set z v) y = if y = z then v else w.env.var y := fun y => by
    rw [env_set _ _ _ _ (by rw [h3', he]; exact hz), h3']
  refine ⟨g1, ?_, fun y hy => ?_⟩
  · have := g2 z; rwa [hset, if_pos rfl] at this
  · have := g2 y; rw [hset, if_neg hy] at this; exact this

/-- The program `i = x.begin(); ++i; …; ++i; j = x.end();` with `p` steps. -/
def walkAll (x i j p : Nat) (keys : Bool) : List ItOp := .first i x keys :: List.replicate p (.next i) ++ [.past j x keys]

/-- C60: a loop `for (i = x.begin(); i != x.end(); ++i)` makes exactly as many steps as `x` has items:
after `p` steps, none of which is undefined, the comparison says equal exactly if `p` is the size. -/
theorem C60_loop_ends_partial (n m : Nat) (ops : List ItOp) (x i j p : Nat) (keys : Bool) (l : List Val)
    (hvars : ∀ op ∈ ops, ∀ x ∈ Spec.Cursor.uses op, x < n) (hcov : Spec.Cursor.CoveredRun (iinit n m) ops)
    (huse : ∀ o ∈ (Spec.Cursor.run (Spec.Cursor.init n m) ops).2, o ≠ .ub)
    (hx : x < n) (hi : i < m) (hj : j < m) (hij : i ≠ j)
    (hl : Spec.Cursor.items keys ((Spec.Cursor.run (Spec.Cursor.init n m) ops).1.env.var x) = some l) (hp : p ≤ l.length) :
    (irun (irun (iinit n m) ops).1 (walkAll x i j p keys)).2 = List.replicate (p + 2) (.ok .done) ∧
    (istep (irun (irun (iinit n m) ops).1 (walkAll x i j p keys)).1 (.same i j)).2 = .ok (.truth (decide (p = l.length))) := by
  generalize hw : (Spec.Cursor.run (Spec.Cursor.init n m) ops).1 = w at hl
  have he : w.env.length = n := by rw [← hw]; exact crun_env _ _ _
  have hc : w.cursors.length = m := by rw [← hw]; exact crun_cursors _ _ _
  have h1 : Spec.Cursor.step w (.first i x keys) = (w.point i (.at x 0 keys), .ok .done) := by
    simp only [Spec.Cursor.step, hl]
  obtain ⟨w', h2, h3, h4, h5⟩ := walk (w := w.point i (.at x 0 keys)) (i := i) (l := l) hl p 0
    (by rw [(point_size _ _ _).cursors, hc]; exact hi) (by omega) (by rw [point_cursor _ (by omega), if_pos rfl])
  have h3' : w'.env = w.env := h3
  have hlen : w'.cursors.length = m := by rw [h5, (point_size _ _ _).cursors, hc]
  have h6 : Spec.Cursor.step w' (.past j x keys) = (w'.point j (.at x l.length keys), .ok .done) := by
    simp only [Spec.Cursor.step, h3', hl]
  have hrun : Spec.Cursor.run w (walkAll x i j p keys) = (w'.point j (.at x l.length keys), List.replicate (p + 2) (.ok .done)) := by
    rw [walkAll, List.cons_append, Spec.Cursor.run, h1]
    simp only
    rw [crun_append, h2]
    simp only [Spec.Cursor.run, h6]
    rw [← List.replicate_succ', ← List.replicate_succ]
  obtain ⟨f1, f2⟩ := irun_ok (follows_init n m) (ops := ops) (by simpa [iinit, Cow.init] using hvars) hcov huse
  rw [hw] at f1
  have hn : (irun (iinit n m) ops).1.st.vars.length = n := by rw [f1.sim.len, he]
  obtain ⟨f3, f4⟩ := irun_ok (ops := walkAll x i j p keys) f1
    (by
      intro o ho y hy
      simp only [walkAll, List.cons_append, List.mem_cons, List.mem_append, List.mem_replicate, List.not_mem_nil, or_false] at ho
      rw [hn]
      rcases ho with rfl | ⟨_, rfl⟩ | rfl <;> simp [Spec.Cursor.uses] at hy <;> omega)
    (coveredRun_free (by
      intro o ho s
      simp only [walkAll, List.cons_append, List.mem_cons, List.mem_append, List.mem_replicate, List.not_mem_nil, or_false] at ho
      rcases ho with rfl | ⟨_, rfl⟩ | rfl <;> trivial) _)
    (by rw [hrun]; intro o ho; rw [List.eq_of_mem_replicate ho]; simp)
  rw [hrun] at f3 f4
  refine ⟨f4, ?_⟩
  have hs : Spec.Cursor.step (w'.point j (.at x l.length keys)) (.same i j) =
      (w'.point j (.at x l.length keys), .ok (.truth (decide (p = l.length)))) := by
    simp only [Spec.Cursor.step, if_neg hij]
    rw [point_cursor _ (by omega), point_cursor _ (by omega), if_neg hij, if_pos rfl, h4, Nat.zero_add]
    simp
  have := (istep_ok f3 (op := .same i j) (by simp [Spec.Cursor.uses]) trivial (by rw [hs]; simp))
  rw [hs] at this
  exact this.same

/-- C60: erasing in a loop: `i = x.begin();` and then for every item either `i = x.erase(i)` or `++i`
removes exactly the chosen items of an object, keeps the others in order, and changes no other variable,
however much storage is shared with them. -/
theorem C60_erase_loop_obj_partial (n m : Nat) (ops : List ItOp) (x i : Nat) (ds : List Bool) (fs : List (Bytes × Val))
    (hvars : ∀ op ∈ ops, ∀ x ∈ Spec.Cursor.uses op, x < n) (hcov : Spec.Cursor.CoveredRun (iinit n m) ops)
    (huse : ∀ o ∈ (Spec.Cursor.run (Spec.Cursor.init n m) ops).2, o ≠ .ub)
    (hx : x < n) (hi : i < m) (hv : (Spec.Cursor.run (Spec.Cursor.init n m) ops).1.env.var x = .obj fs)
    (hd : fs.length = ds.length) :
    (irun (irun (iinit n m) ops).1 (.first i x false :: Spec.Cursor.prune i x ds)).2 = List.replicate (ds.length + 1) (.ok .done) ∧
    Holds (irun (irun (iinit n m) ops).1 (.first i x false :: Spec.Cursor.prune i x ds)).1.st x (.obj (Spec.Cursor.kept ds fs)) ∧
    (∀ y, y ≠ x → Holds (irun (irun (iinit n m) ops).1 (.first i x false :: Spec.Cursor.prune i x ds)).1.st y
      ((Spec.Cursor.run (Spec.Cursor.init n m) ops).1.env.var y)) := by
  obtain ⟨f1, _⟩ := irun_ok (follows_init n m) (ops := ops) (by simpa [iinit, Cow.init] using hvars) hcov huse
  have hsort := sim_sorted f1.sim hv
  generalize hw : (Spec.Cursor.run (Spec.Cursor.init n m) ops).1 = w at hv
  have he : w.env.length = n := by rw [← hw]; exact crun_env _ _ _
  have hc : w.cursors.length = m := by rw [← hw]; exact crun_cursors _ _ _
  have h1 : Spec.Cursor.step w (.first i x false) = (w.point i (.at x 0 false), .ok .done) := by
    simp only [Spec.Cursor.step, hv, Spec.Cursor.items]
  obtain ⟨w', h2, h3, _, _⟩ := prune_obj (i := i) (x := x) (keys := false) ds (w.point i (.at x 0 false)) [] fs
    (by rw [(point_size _ _ _).env, he]; exact hx) (by rw [(point_size _ _ _).cursors, hc]; exact hi) hv hsort hd
    (by rw [point_cursor _ (by omega), if_pos rfl]; rfl)
  have h3' : w'.env = w.env.set x (.obj (Spec.Cursor.kept ds fs)) := h3
  have hrun : Spec.Cursor.run (Spec.Cursor.run (Spec.Cursor.init n m) ops).1 (.first i x false :: Spec.Cursor.prune i x ds) =
      (w', List.replicate (ds.length + 1) (.ok .done)) := by
    rw [hw, Spec.Cursor.run, h1]
    simp only
    rw [h2, ← List.replicate_succ]
  obtain ⟨g1, g2⟩ := more_statements hvars hcov huse
    (by
      intro o ho y hy
      simp only [Spec.Cursor.prune, List.mem_cons, List.mem_map] at ho
      rcases ho with rfl | ⟨d, _, rfl⟩
      · simp [Spec.Cursor.uses] at hy; omega
      · cases d <;> simp [Spec.Cursor.uses] at hy; omega)
    (by
      intro o ho s
      simp only [Spec.Cursor.prune, List.mem_cons, List.mem_map] at ho
      rcases ho with rfl | ⟨d, _, rfl⟩
      · trivial
      · cases d <;> trivial) hrun
  have hset : ∀ y, w'.env.var y = if y = x then .obj (Spec.Cursor.kept ds fs) else w.env.var y := fun y => by
    rw [h3', env_set _ _ _ _ (by omega)]
  refine ⟨g1, ?_, fun y hy => ?_⟩
  · have := g2 x; rwa [hset, if_pos rfl] at this
  · have := g2 y; rwa [hset, if_neg hy] at this

/-- C60: the same for arrays (of any size a vector can have). -/
theorem C60_erase_loop_arr_partial (n m : Nat) (ops : List ItOp) (x i : Nat) (ds : List Bool) (es : List Val)
    (hvars : ∀ op ∈ ops, ∀ x ∈ Spec.Cursor.uses op, x < n) (hcov : Spec.Cursor.CoveredRun (iinit n m) ops)
    (huse : ∀ o ∈ (Spec.Cursor.run (Spec.Cursor.init n m) ops).2, o ≠ .ub)
    (hx : x < n) (hi : i < m) (hv : (Spec.Cursor.run (Spec.Cursor.init n m) ops).1.env.var x = .arr es)
    (hsize : es.length < 2 ^ 64) (hd : es.length = ds.length) :
    (irun (irun (iinit n m) ops).1 (.first i x false :: Spec.Cursor.prune i x ds)).2 = List.replicate (ds.length + 1) (.ok .done) ∧
    Holds (irun (irun (iinit n m) ops).1 (.first i x false :: Spec.Cursor.prune i x ds)).1.st x (.arr (Spec.Cursor.kept ds es)) ∧
    (∀ y, y ≠ x → Holds (irun (irun (iinit n m) ops).1 (.first i x false :: Spec.Cursor.prune i x ds)).1.st y
      ((Spec.Cursor.run (Spec.Cursor.init n m) ops).1.env.var y)) := by
  generalize hw : (Spec.Cursor.run (Spec.Cursor.init n m) ops).1 = w at hv
  have he : w.env.length = n := by rw [← hw]; exact crun_env _ _ _
  have hc : w.cursors.length = m := by rw [← hw]; exact crun_cursors _ _ _
  have h1 : Spec.Cursor.step w (.first i x false) = (w.point i (.at x 0 false), .ok .done) := by
    simp only [Spec.Cursor.step, hv, Spec.Cursor.items, Bool.false_eq_true, if_false]
  obtain ⟨w', h2, h3, _, _⟩ := prune_arr (i := i) (x := x) ds (w.point i (.at x 0 false)) [] es
    (by rw [(point_size _ _ _).env, he]; exact hx) (by rw [(point_size _ _ _).cursors, hc]; exact hi) hv hsize hd
    (by rw [point_cursor _ (by omega), if_pos rfl]; rfl)
  have h3' : w'.env = w.env.set x (.arr (Spec.Cursor.kept ds es)) := h3
  have hrun : Spec.Cursor.run (Spec.Cursor.run (Spec.Cursor.init n m) ops).1 (.first i x false :: Spec.Cursor.prune i x ds) =
      (w', List.replicate (ds.length + 1) (.ok .done)) := by
    rw [hw, Spec.Cursor.run, h1]
    simp only
    rw [h2, ← List.replicate_succ]
  obtain ⟨g1, g2⟩ := more_statements hvars hcov huse
    (by
      intro o ho y hy
      simp only [Spec.Cursor.prune, List.mem_cons, List.mem_map] at ho
      rcases ho with rfl | ⟨d, _, rfl⟩
      · simp [Spec.Cursor.uses] at hy; omega
      · cases d <;> simp [Spec.Cursor.uses] at hy; omega)
    (by
      intro o ho s
      simp only [Spec.Cursor.prune, List.mem_cons, List.mem_map] at ho
      rcases ho with rfl | ⟨d, _, rfl⟩
      · trivial
      · cases d <;> trivial) hrun
  have hset : ∀ y, w'.env.var y = if y = x then .arr (Spec.Cursor.kept ds es) else w.env.var y := fun y => by
    rw [h3', env_set _ _ _ _ (by omega)]
  refine ⟨g1, ?_, fun y hy => ?_⟩
  · have := g2 x; rwa [hset, if_pos rfl] at this
  · have := g2 y; rwa [hset, if_neg hy] at this

/-! ### Negations -/

/-- C60, negation for `clear`: clearing a copy invalidates the iterators of the original; reading
through one is undefined. (By the specification the iterator of 0 is still good after clearing 1.) -/
theorem C60_negation_clear :
    ∃ ops : List ItOp, (∀ op ∈ ops, ∀ x ∈ Spec.Cursor.uses op, x < 3) ∧
      (∀ o ∈ (Spec.Cursor.run (Spec.Cursor.init 3 1) ops).2, o = .ok .done) ∧
      (irun (iinit 3 1) ops).2.getLast? = some .ub :=
  ⟨[.plain (.fresh 0 .obj), .plain (.fresh 2 (.int 7)), .plain (.insert 0 (.name [97]) 2 .const), .plain (.copy 1 0),
    .search 0 0 [97] false, .plain (.clear 1), .deref 2 0], by decide, by decide +kernel, by decide +kernel⟩

/-- C60, negation for `reserve`: reserving room in a copy invalidates the iterators of the original. -/
theorem C60_negation_reserve :
    ∃ ops : List ItOp, (∀ op ∈ ops, ∀ x ∈ Spec.Cursor.uses op, x < 3) ∧
      (∀ o ∈ (Spec.Cursor.run (Spec.Cursor.init 3 1) ops).2, o = .ok .done) ∧
      (irun (iinit 3 1) ops).2.getLast? = some .ub :=
  ⟨[.plain (.fresh 0 .arr), .plain (.fresh 2 (.int 7)), .plain (.insert 0 (.index 0) 2 .const), .plain (.copy 1 0),
    .first 0 0 false, .reserve 1 100, .deref 2 0], by decide, by decide +kernel, by decide +kernel⟩

/-- Why iterators have to be given up when their own variable changes, although a `std::map` keeps its
iterators on insertion: with an unshared object the iterator stays good, with a shared one the insertion
moves the variable to new storage and the iterator is left with the old, which may go away. -/
theorem C60_insertion_may_invalidate :
    (irun (iinit 3 1) [.plain (.fresh 0 .obj), .plain (.fresh 2 (.int 7)), .plain (.insert 0 (.name [97]) 2 .const),
      .search 0 0 [97] false, .plain (.insert 0 (.name [98]) 2 .const), .deref 2 0]).2.getLast? = some (.ok .done) ∧
    (irun (iinit 3 1) [.plain (.fresh 0 .obj), .plain (.fresh 2 (.int 7)), .plain (.insert 0 (.name [97]) 2 .const),
      .search 0 0 [97] false, .plain (.copy 1 0), .plain (.insert 0 (.name [98]) 2 .const), .plain (.fresh 1 .null),
      .deref 2 0]).2.getLast? = some .ub :=
  ⟨by decide +kernel, by decide +kernel⟩

/-- C60: an iterator into an array given to an object, or one into an object given to an array or a scalar,
is refused with `type_error` by `insert`, `set` and `erase`, in any state, and no variable changes. -/
theorem C60_wrong_kind (s : IState) (i j x y : Nat) (m : Mode) (it : It) (hit : s.it i = .at it)
    (hkind : (∃ a p, s.st.var x = .obj a ∧ it.place = .index p) ∨
      ((∀ a, s.st.var x ≠ .obj a) ∧ ∀ p, it.place ≠ .index p)) :
    ∀ op ∈ [ItOp.insertAt j x i y m, .setAt j x i y m, .eraseAt j x i],
      (istep s op).2 = .throw .typeError ∧ (istep s op).1.st = s.st := by
  have hk : keyOf s.st x it = .throw .typeError := by
    rcases hkind with ⟨a, p, h1, h2⟩ | ⟨h1, h2⟩
    · simp only [keyOf, h1, h2]
    · simp only [keyOf]
      cases hv : s.st.var x <;> cases hp : it.place <;> simp_all
  intro op hop
  simp only [List.mem_cons, List.not_mem_nil, or_false] at hop
  rcases hop with rfl | rfl | rfl <;>
    simp only [istep, IState.arg, hit, putAt, eraseAt, hk, IState.returns, IState.after, and_self]

/-! ### Non-vacuity -/

instance (s : Cow.State) (op : ItOp) : Decidable (Spec.Cursor.Covered s op) := by
  cases op <;> simp only [Spec.Cursor.Covered] <;> infer_instance
instance decICovered : ∀ (ops : List ItOp) s, Decidable (Spec.Cursor.CoveredRun s ops)
  | [], _ => isTrue trivial
  | op :: ops, s => have := decICovered ops (istep s op).1; inferInstanceAs (Decidable (_ ∧ _))

/-- An object with three fields, shared by 0 and 1; iterators into both; erasing through one while the
other goes on; an array; a moved value with its iterator; and calls with all kinds of iterators. -/
def cursors : List ItOp :=
  [.plain (.fresh 0 .obj), .plain (.fresh 2 (.int 7)), .insert 0 0 (.name [97]) 2 .const, .insert 0 0 (.name [99]) 2 .const,
   .insert 0 0 (.name [98]) 2 .const, .isSet 1, .plain (.copy 1 0), .first 0 0 false, .search 1 1 [98] true, .eraseAt 0 0 0,
   .deref 3 0, .deref 3 1, .next 1, .deref 2 1, .prev 1, .setAt 0 0 0 2 .const, .plain (.move 4 1), .deref 3 1,
   .past 2 4 true, .next 1, .same 1 2, .next 1, .same 1 2, .insertAt 3 0 4 2 .const, .first 3 2 false, .dup 3 0, .take 4 3,
   .eraseAt 0 0 4, .plain (.fresh 5 .arr), .insert 0 5 (.index 0) 2 .rvalue, .insertAt 0 5 0 3 .const, .reserve 5 10,
   .past 0 5 false, .prev 0, .eraseAt 0 5 0, .past 1 5 false, .same 0 1]

example : ∀ op ∈ cursors, ∀ x ∈ Spec.Cursor.uses op, x < 6 := by decide
example : Spec.Cursor.CoveredRun (iinit 6 5) cursors := by decide +kernel
example : (Spec.Cursor.run (Spec.Cursor.init 6 5) cursors).2 =
    [.ok .done, .ok .done, .ok .done, .ok .done, .ok .done, .ok (.truth false)] ++ List.replicate 14 (.ok .done) ++
    [.ok (.truth false), .ok .done, .ok (.truth true), .throw .invalidArgument, .throw .typeError] ++
    List.replicate 11 (.ok .done) ++ [.ok (.truth true)] := by decide +kernel
example : sizes (irun (iinit 6 5) cursors).1.st = [some 1, none, none, none, some 3, some 1] := by decide +kernel
example : Spec.Cursor.kept [true, false, true, false] [1, 2, 3, 4] = [2, 4] := by decide
/-- The erasing loop on an object that another variable shares. -/
example : sizes (irun (irun (iinit 4 1) [.plain (.fresh 0 .obj), .plain (.insert 0 (.name [97]) 2 .const),
      .plain (.insert 0 (.name [98]) 2 .const), .plain (.insert 0 (.name [99]) 2 .const), .plain (.copy 1 0)]).1
      (.first 0 0 false :: Spec.Cursor.prune 0 0 [true, false, true])).1.st = [some 1, some 3, none, none] := by decide +kernel
/-- An iterator into an array given to an object. -/
example : let s := (irun (iinit 2 1) [.plain (.fresh 0 .obj), .plain (.fresh 1 .arr), .first 0 1 false]).1
    s.it 0 = .at ⟨1, .index 0, false⟩ ∧ s.st.var 0 = .obj 0 := by decide +kernel

end Dart.Props
