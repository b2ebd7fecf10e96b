import Verif.Lemmas.CowOps

/-
C16: copies of dynamic values are independent.

The model (`Verif.Model.Cow`) has variables, shared storage and owner counts. The specification
(`Verif.Spec.Indep`) has no storage: every variable has a private value.
-/
namespace Dart.Props
open Spec.Indep

/-- The specified outcome of a statement is never undefined behaviour. -/
theorem indep_no_ub (e : Env) (op : Cow.Op) : (step e op).2 ≠ .ub := by
  have hu : ∀ x (r : Res Val), r ≠ .ub → (update e x r).2 ≠ .ub := by
    intro x r hr
    cases r <;> simp_all [update]
  have ht : ∀ b y (o : Env × Res Unit), o.2 ≠ .ub → (takeIf b y o).2 ≠ .ub := by
    intro b y o ho
    obtain ⟨e', r⟩ := o
    cases r <;> simp_all [takeIf]
  cases op with
  | fresh x v => simp [step]
  | copy z y => simp [step]
  | move z y => simp [step]
  | get z x k => cases k <;> refine hu _ _ ?_ <;> cases e.var x <;> simp [Val.get, Val.getIdx]
  | insert x k y m =>
    refine ht _ _ _ (hu _ _ ?_)
    cases k <;> simp only [Cow.Key.toVal, Val.insert] <;> cases e.var x <;> simp <;> (try split) <;> (try split) <;> simp
  | set x k y m =>
    refine ht _ _ _ (hu _ _ ?_)
    cases k <;> simp only [Cow.Key.toVal, Val.set] <;> cases e.var x <;> simp <;> (try split) <;> (try split) <;> simp
  | erase x k =>
    refine hu _ _ ?_
    cases k <;> simp only [Cow.Key.toVal, Val.erase, Val.eraseKey, Val.eraseIdx] <;> cases e.var x <;> simp <;> split <;> simp
  | clear x => refine hu _ _ ?_; cases e.var x <;> simp [Val.clear]
  | resize x n y => refine hu _ _ ?_; simp only [Val.resize]; cases e.var x <;> simp; split <;> simp

theorem indep_run_no_ub (ops : List Cow.Op) : ∀ e : Env, ∀ o ∈ (run e ops).2, o ≠ .ub := by
  induction ops with
  | nil => intro e o ho; simp [run] at ho
  | cons op ops ih =>
    intro e o ho
    simp only [run, List.mem_cons] at ho
    rcases ho with rfl | ho
    · exact indep_no_ub e op
    · exact ih _ o ho

/-- C16: any program over any number of variables — creating, copying, moving, reading nested values,
inserting, setting, erasing, in any order and with any sharing, plus `clear` and `resize` of unshared
storage — behaves as if every variable had a private value: at the end each variable shows the
specified value at every depth, each statement had the specified outcome, and no statement touched
freed storage.

Missing for the full property: `clear` and `resize` of shared storage (false, see below), and a
variable inserted into itself (false, see C32). -/
theorem C16_copies_are_independent_partial (n : Nat) (ops : List Cow.Op)
    (hvars : ∀ op ∈ ops, ∀ x ∈ uses op, x < n) (hcov : CoveredRun (Cow.init n) ops) :
    (∀ x, Holds (Cow.run (Cow.init n) ops).1 x ((run (init n) ops).1.var x)) ∧
    (Cow.run (Cow.init n) ops).2 = (run (init n) ops).2 ∧
    (∀ o ∈ (Cow.run (Cow.init n) ops).2, o ≠ .ub) := by
  obtain ⟨h1, h2⟩ := Cow.run_ok (Cow.sim_init n)
    (by simpa [Cow.init] using hvars) hcov
  exact ⟨h1.holds, h2, fun o ho => indep_run_no_ub ops _ o (h2 ▸ ho)⟩

theorem indep_untouched (e : Env) (op : Cow.Op) (z : Nat) (hz : z ∉ changes op) : (step e op).1.var z = e.var z := by
  have hset : ∀ (e : Env) x v, z ≠ x → Env.var (e.set x v) z = e.var z := by
    intro e x v h
    simp only [Env.var]
    rw [List.getElem?_set_ne (Ne.symm h)]
  have hu : ∀ x (r : Res Val), z ≠ x → (update e x r).1.var z = e.var z := by
    intro x r h
    cases r <;> simp only [update]
    exact hset _ _ _ h
  have ht : ∀ (b : Bool) y (o : Env × Res Unit), (b = true → z ≠ y) → (takeIf b y o).1.var z = o.1.var z := by
    intro b y o h
    obtain ⟨e', r⟩ := o
    cases r with
    | ok u =>
      simp only [takeIf]
      cases b with
      | false => rfl
      | true => exact hset _ _ _ (h rfl)
    | _ => rfl
  cases op with
  | fresh x v => exact hset _ _ _ (by simpa [changes] using hz)
  | copy w y => exact hset _ _ _ (by simpa [changes] using hz)
  | move w y =>
    simp only [changes, List.mem_cons, List.not_mem_nil, or_false, not_or] at hz
    simp only [step]
    split
    · rfl
    · rw [hset _ _ _ hz.2, hset _ _ _ hz.1]
  | get w x k => cases k <;> exact hu _ _ (by simpa [changes] using hz)
  | insert x k y m =>
    simp only [changes] at hz
    split at hz
    · rename_i hm
      rw [step, ht]
      · exact hu _ _ (by simpa using hz)
      · intro hb
        subst hm
        cases k <;> simp [insertMoves] at hb
    · simp only [List.mem_cons, List.not_mem_nil, or_false, not_or] at hz
      rw [step, ht _ _ _ (fun _ => hz.2), hu _ _ hz.1]
  | set x k y m =>
    simp only [changes] at hz
    split at hz
    · rename_i hm
      rw [step, ht]
      · exact hu _ _ (by simpa using hz)
      · intro hb
        subst hm
        simp at hb
    · simp only [List.mem_cons, List.not_mem_nil, or_false, not_or] at hz
      rw [step, ht _ _ _ (fun _ => hz.2), hu _ _ hz.1]
  | erase x k => exact hu _ _ (by simpa [changes] using hz)
  | clear x => exact hu _ _ (by simpa [changes] using hz)
  | resize x n y => exact hu _ _ (by simpa [changes] using hz)

/-- C16: after any program, one more statement never changes what any other variable shows, however
much storage they share. -/
theorem C16_mutation_not_visible_elsewhere_partial (n : Nat) (ops : List Cow.Op) (op : Cow.Op)
    (hvars : ∀ o ∈ op :: ops, ∀ x ∈ uses o, x < n) (hcov : CoveredRun (Cow.init n) ops)
    (hop : Covered (Cow.run (Cow.init n) ops).1 op) (z : Nat) (hz : z ∉ changes op) (v : Val) :
    Holds (Cow.run (Cow.init n) ops).1 z v → Holds (Cow.step (Cow.run (Cow.init n) ops).1 op).1 z v := by
  have hvars' : ∀ o ∈ ops, ∀ x ∈ uses o, x < (Cow.init n).vars.length := by
    simpa [Cow.init] using fun o ho => hvars o (by simp [ho])
  obtain ⟨h1, _⟩ := Cow.run_ok (Cow.sim_init n) hvars' hcov
  have hl := Cow.run_length ops (Cow.sim_init n) hvars' hcov
  have hs := (Cow.step_ok h1 (op := op)
    (fun x hx => by rw [hl]; simpa [Cow.init] using hvars op (by simp) x hx) hop).1.holds z
  rintro ⟨d, hd⟩
  obtain ⟨d', hd'⟩ := h1.holds z
  have : v = (run (init n) ops).1.var z := by
    have a := Cow.view_mono hd (Nat.le_add_right d d')
    have b := Cow.view_mono hd' (Nat.le_add_left d' d)
    rw [a] at b
    exact Option.some.inj b
  rw [indep_untouched _ op z hz, ← this] at hs
  exact hs

/-- C16: copying is cheap: in every state it allocates nothing and duplicates nothing; the copy refers
to the same storage. -/
theorem C16_copy_shares (s : Cow.State) (z y : Nat) (hz : z < s.vars.length) (h : (Cow.copy s z y).2 = .ok ()) :
    (Cow.copy s z y).1.cells.length = s.cells.length ∧ (Cow.copy s z y).1.var z = s.var y := by
  have hincr : ∀ (c c' : Cow.Cells) r, Cow.incr c r = some c' → c'.length = c.length := by
    intro c c' r h
    simp only [Cow.incr] at h
    split at h
    · cases h; rfl
    · obtain ⟨x, _, rfl⟩ := Option.map_eq_some_iff.1 h
      simp
  have hdrops : ∀ n (w : List Cow.Ref) (c c' : Cow.Cells), Cow.drops n w c = some c' → c'.length = c.length := by
    intro n
    induction n with
    | zero => intro w c c' h; cases w <;> simp only [Cow.drops] at h <;> cases h; rfl
    | succ n ih =>
      intro w c c' h
      cases w with
      | nil => simp only [Cow.drops] at h; cases h; rfl
      | cons r w =>
        simp only [Cow.drops] at h
        split at h
        · exact ih _ _ _ h
        · split at h
          · cases h
          · split at h
            · rw [ih _ _ _ h]; simp
            · rw [ih _ _ _ h]; simp
  unfold Cow.copy at h ⊢
  cases h1 : Cow.incr s.cells (s.var y) with
  | none => simp [h1, Cow.orUb] at h
  | some c =>
    cases h2 : Cow.assign ⟨c, s.vars⟩ z (s.var y) with
    | none => simp [h1, h2, Cow.orUb] at h
    | some s' =>
      simp only [h2, Option.bind_some, Option.map_some, Cow.orUb]
      simp only [Cow.assign, Cow.drop] at h2
      obtain ⟨c', h3, rfl⟩ := Option.map_eq_some_iff.1 h2
      refine ⟨?_, by simp [Cow.State.var, hz]⟩
      simp only
      rw [hdrops _ _ _ _ h3, hincr _ _ _ h1]

/-- Everything every variable shows. -/
def shown (s : Cow.State) : List (Option Val) := s.vars.map (Cow.view s.cells 8)

/-- What a value looks like, for comparing by evaluation. -/
def sizes (s : Cow.State) : List (Option Nat) :=
  (shown s).map fun v => match v with | some (.obj fs) => some fs.length | some (.arr es) => some es.length | _ => none

/-- C16, negation for `clear`: clearing a copy empties the original. -/
theorem C16_negation_clear :
    ∃ ops : List Cow.Op, (∀ op ∈ ops, ∀ x ∈ uses op, x < 3) ∧
      sizes (Cow.run (Cow.init 3) ops).1 = [some 1, some 1, none] ∧
      sizes (Cow.step (Cow.run (Cow.init 3) ops).1 (.clear 1)).1 = [some 0, some 0, none] :=
  ⟨[.fresh 0 .obj, .fresh 2 (.int 7), .insert 0 (.name [97]) 2 .const, .copy 1 0], by decide, by decide +kernel, by decide +kernel⟩

/-- C16, negation for `resize`: resizing a copy resizes the original. -/
theorem C16_negation_resize :
    ∃ ops : List Cow.Op, (∀ op ∈ ops, ∀ x ∈ uses op, x < 3) ∧
      sizes (Cow.run (Cow.init 3) ops).1 = [some 1, some 1, none] ∧
      sizes (Cow.step (Cow.run (Cow.init 3) ops).1 (.resize 1 4 2)).1 = [some 4, some 4, none] :=
  ⟨[.fresh 0 .arr, .fresh 2 (.int 7), .insert 0 (.index 0) 2 .const, .copy 1 0], by decide, by decide +kernel, by decide +kernel⟩

/-- A program with sharing at two depths: 0 and 1 are copies of an object holding the object 2, which is
then changed, read back from 1 and changed again. -/
def sharing : List Cow.Op :=
  [.fresh 2 .obj, .fresh 3 (.str [120]), .insert 2 (.name [98]) 3 .const, .fresh 0 .obj,
   .insert 0 (.name [97]) 2 .const, .copy 1 0, .insert 2 (.name [99]) 3 .const, .get 4 1 (.name [97]),
   .erase 4 (.name [98]), .insert 1 (.name [100]) 4 .rvalue, .set 0 (.name [97]) 3 .rvalue,
   .erase 4 (.name [99]), .clear 4]

/-- Non-vacuity: all hypotheses hold for it, and the final values are as they should be. -/
example : (∀ op ∈ sharing, ∀ x ∈ uses op, x < 5) := by decide
instance (s : Cow.State) (x : Nat) : Decidable (Unshared s x) := by unfold Unshared; infer_instance
instance (s : Cow.State) (op : Cow.Op) : Decidable (Covered s op) := by
  cases op <;> simp only [Covered] <;> infer_instance
instance decCovered : ∀ (ops : List Cow.Op) s, Decidable (CoveredRun s ops)
  | [], _ => isTrue trivial
  | op :: ops, s => have := decCovered ops (Cow.step s op).1; inferInstanceAs (Decidable (_ ∧ _))
example : CoveredRun (Cow.init 5) sharing := by decide +kernel
example : sizes (Cow.run (Cow.init 5) sharing).1 = [some 1, some 2, some 2, none, some 0] := by decide +kernel
example : (Cow.run (Cow.init 5) sharing).2 = List.replicate 13 (.ok ()) := by decide +kernel

end Dart.Props
