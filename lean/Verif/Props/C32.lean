import Verif.Props.C16

/-
C32: inserting does not change the inserted variable.
-/
namespace Dart.Props
open Spec.Indep

/-- C32: inserting a variable (not into itself) as a constant, or as an ordinary variable under a key
not yet present or into an array, leaves it showing what it showed, after any program.

Missing for the full property: an ordinary variable under a present key, and a variable inserted into
itself; both are false, see below. -/
theorem C32_inserting_keeps_argument_partial (n : Nat) (ops : List Cow.Op) (x y : Nat) (k : Cow.Key) (m : Cow.Mode)
    (hvars : ∀ o ∈ ops, ∀ x ∈ uses o, x < n) (hx : x < n) (hy : y < n) (hxy : x ≠ y)
    (hcov : CoveredRun (Cow.init n) ops) (v : Val)
    (hm : m = .const ∨ (m = .lvalue ∧ ∀ b, k = .name b → hasField ((run (init n) ops).1.var x) b = false)) :
    let s := (Cow.run (Cow.init n) ops).1
    Holds s y v → Holds (Cow.step s (.insert x k y m)).1 y v := by
  have hvars' : ∀ o ∈ ops, ∀ x ∈ uses o, x < (Cow.init n).vars.length := by simpa [Cow.init] using hvars
  obtain ⟨h1, _⟩ := Cow.run_ok (Cow.sim_init n) hvars' hcov
  have hl := h1.len
  have hl' : (run (init n) ops).1.length = n := by
    rw [← hl, Cow.run_length ops (Cow.sim_init n) hvars' hcov]
    simp [Cow.init]
  intro s
  rintro ⟨d, hd⟩
  have hs := (Cow.step_ok h1 (op := .insert x k y m) (fun z hz => by
    rw [hl, hl']
    simp only [uses, List.mem_cons, List.not_mem_nil, or_false] at hz
    rcases hz with rfl | rfl <;> assumption) hxy).1.holds y
  obtain ⟨d', hd'⟩ := h1.holds y
  have hve : v = (run (init n) ops).1.var y := by
    have a := Cow.view_mono hd (Nat.le_add_right d d')
    have b := Cow.view_mono hd' (Nat.le_add_left d' d)
    rw [a] at b
    exact Option.some.inj b
  have hmoves : insertMoves ((run (init n) ops).1.var x) k m = false := by
    rcases hm with rfl | ⟨rfl, hk⟩
    · cases k <;> simp [insertMoves]
    · cases k with
      | name b => simp [insertMoves, hk b rfl]
      | index i => simp [insertMoves]
  have : (step (run (init n) ops).1 (.insert x k y m)).1.var y = v := by
    rw [step, hmoves, hve]
    cases hr : ((run (init n) ops).1.var x).insert k.toVal ((run (init n) ops).1.var y) with
    | ok w =>
      simp only [update, takeIf, Bool.false_eq_true, if_false, Env.var]
      rw [List.getElem?_set_ne hxy]
    | throw ex => rfl
    | ub => rfl
  rw [this] at hs
  exact hs

/-- C32: with a constant argument or an index, and for a key not yet present, exactly the value is
inserted (the values of C15), whatever is shared. With C16 this describes the container too. -/
theorem C32_inserts_the_value_partial (n : Nat) (ops : List Cow.Op) (x y : Nat) (k : Cow.Key) (m : Cow.Mode)
    (hvars : ∀ o ∈ ops, ∀ x ∈ uses o, x < n) (hx : x < n) (hy : y < n) (hxy : x ≠ y)
    (hcov : CoveredRun (Cow.init n) ops) (w : Val)
    (hw : ((run (init n) ops).1.var x).insert k.toVal ((run (init n) ops).1.var y) = .ok w) :
    Holds (Cow.step (Cow.run (Cow.init n) ops).1 (.insert x k y m)).1 x w := by
  have hcov' : ∀ (ops : List Cow.Op) s, CoveredRun s ops → Covered (Cow.run s ops).1 (.insert x k y m) →
      CoveredRun s (ops ++ [.insert x k y m]) := by
    intro ops
    induction ops with
    | nil => intro s _ h; exact ⟨h, trivial⟩
    | cons o ops ih => intro s h h'; exact ⟨h.1, ih _ h.2 h'⟩
  have hrun : ∀ (ops : List Cow.Op) s, (Cow.run s (ops ++ [.insert x k y m])).1 = (Cow.step (Cow.run s ops).1 (.insert x k y m)).1 := by
    intro ops
    induction ops with
    | nil => intro s; rfl
    | cons o ops ih => intro s; exact ih _
  have hrun' : ∀ (ops : List Cow.Op) e, (run e (ops ++ [.insert x k y m])).1 = (step (run e ops).1 (.insert x k y m)).1 := by
    intro ops
    induction ops with
    | nil => intro s; rfl
    | cons o ops ih => intro s; exact ih _
  have h := (C16_copies_are_independent_partial n (ops ++ [.insert x k y m])
    (fun o ho z hz => by
      rcases List.mem_append.1 ho with ho | ho
      · exact hvars o ho z hz
      · cases List.mem_singleton.1 ho
        simp only [uses, List.mem_cons, List.not_mem_nil, or_false] at hz
        rcases hz with rfl | rfl <;> assumption) (hcov' _ _ hcov hxy)).1 x
  rw [hrun, hrun'] at h
  have hlen : (run (init n) ops).1.length = n := by
    obtain ⟨h1, _⟩ := Cow.run_ok (Cow.sim_init n) (by simpa [Cow.init] using hvars) hcov
    have := h1.len
    rw [← this]
    rw [Cow.run_length ops (Cow.sim_init n) (by simpa [Cow.init] using hvars) hcov]
    simp [Cow.init]
  have : (step (run (init n) ops).1 (.insert x k y m)).1.var x = w := by
    rw [step, hw]
    simp only [update, takeIf]
    split
    · simp only [Env.var]
      rw [List.getElem?_set_ne (Ne.symm hxy)]
      simp [hlen, hx]
    · simp [Env.var, hlen, hx]
  rw [this] at h
  exact h

/-- C32, negation: whenever an ordinary (non-constant) variable is inserted under a key that is already
present, the variable is null afterwards, whatever it held. -/
theorem C32_negation_argument_emptied (n : Nat) (ops : List Cow.Op) (x y : Nat) (k : Bytes)
    (hvars : ∀ o ∈ ops, ∀ x ∈ uses o, x < n) (hx : x < n) (hy : y < n) (hxy : x ≠ y)
    (hcov : CoveredRun (Cow.init n) ops) (hk : k.length ≤ 65535)
    (hpresent : hasField ((run (init n) ops).1.var x) k = true) :
    Holds (Cow.step (Cow.run (Cow.init n) ops).1 (.insert x (.name k) y .lvalue)).1 y .null := by
  have hvars' : ∀ o ∈ ops, ∀ x ∈ uses o, x < (Cow.init n).vars.length := by simpa [Cow.init] using hvars
  obtain ⟨h1, _⟩ := Cow.run_ok (Cow.sim_init n) hvars' hcov
  have hlen := Cow.run_length ops (Cow.sim_init n) hvars' hcov
  simp only [Cow.init, List.length_replicate] at hlen
  have hs := (Cow.step_ok h1 (op := .insert x (.name k) y .lvalue) (fun z hz => by
    have : (Cow.run (Cow.init n) ops).1.vars.length = n := hlen
    rw [this]
    simp only [uses, List.mem_cons, List.not_mem_nil, or_false] at hz
    rcases hz with rfl | rfl <;> assumption) hxy).1.holds y
  have hle : (run (init n) ops).1.length = n := by rw [← h1.len]; exact hlen
  have : (step (run (init n) ops).1 (.insert x (.name k) y .lvalue)).1.var y = .null := by
    rw [step]
    cases hv : (run (init n) ops).1.var x with
    | obj fs =>
      rw [hv] at hpresent
      have hk' : ¬ k.length > 65535 := by omega
      simp only [Cow.Key.toVal, Val.insert, hk', if_false, update, takeIf, insertMoves, hpresent, Bool.true_and]
      simp only [show (Cow.Mode.lvalue != Cow.Mode.const) = true from rfl, if_true, Env.var]
      simp [hle, hy]
    | _ => rw [hv] at hpresent; simp [hasField] at hpresent
  rw [this] at hs
  exact hs

/-- C32, negation: an object inserted into itself has no finite value any more: it contains itself.
(The same happens with an array.) -/
theorem C32_negation_self_insertion :
    let s := (Cow.run (Cow.init 1) [.fresh 0 .obj, .insert 0 (.name [97]) 0 .const]).1
    ∀ v, ¬ Holds s 0 v := by
  intro s v
  have hs : s = ⟨[some ⟨2, .fields [([97], .obj 0)]⟩], [.obj 0]⟩ := by decide +kernel
  rintro ⟨d, hd⟩
  rw [hs] at hd
  have : ∀ d, Cow.view [some ⟨2, .fields [([97], .obj 0)]⟩] d (.obj 0) = none := by
    intro d
    induction d with
    | zero => simp [Cow.view]
    | succ d ih =>
      rw [Cow.view_obj]
      have : Cow.Cells.at [some ⟨2, .fields [([97], .obj 0)]⟩] 0 = some ⟨2, .fields [([97], .obj 0)]⟩ := rfl
      rw [this]
      simp [Cow.mapFields, ih]
  have h2 := this d
  simp only [Cow.State.var] at hd
  rw [show ([Cow.Ref.obj 0][0]?.getD Cow.Ref.null) = .obj 0 from rfl, h2] at hd
  cases hd

/-- Non-vacuity: a program after which a key is present, another is not. -/
example : hasField ((run (init 2) [.fresh 0 .obj, .fresh 1 (.int 7), .insert 0 (.name [97]) 1 .lvalue]).1.var 0) [97] = true ∧
    hasField ((run (init 2) [.fresh 0 .obj, .fresh 1 (.int 7), .insert 0 (.name [97]) 1 .lvalue]).1.var 0) [98] = false := by
  decide +kernel

end Dart.Props
