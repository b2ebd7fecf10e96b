import Verif.Lemmas.CowCost
import Verif.Props.C16

/-
C86: a change copies one level at most. "Allocated" counts maps and vectors (and their control blocks), not the nodes in them.
-/
namespace Dart.Props
open Spec.Indep Cow

/-- A statement that changes a variable by `insert`, `set` or `erase`. -/
def mutates (x : Nat) : Cow.Op → Prop
  | .insert z _ _ _ => z = x
  | .set z _ _ _ => z = x
  | .erase z _ => z = x
  | _ => False

theorem mutates_split {s : Cow.State} {x : Nat} {op : Cow.Op} (hm : mutates x op) (hu : (Cow.step s op).2 ≠ .ub) :
    ∃ s1 ys, cow s x = some s1 ∧ InPlace s1 (Cow.step s op).1 x ys ∧ (Covered s op → x ∉ ys) ∧ ∀ y ∈ ys, y ∈ uses op := by
  cases op with
  | insert z k y m =>
    cases hm
    obtain ⟨s1, h1, h2⟩ := insert_split (s := s) (o := Cow.step s (.insert x k y m)) rfl hu
    exact ⟨s1, _, h1, h2, fun hc => by simpa [Covered] using hc, fun z hz => by simp [uses] at hz ⊢; exact .inr hz⟩
  | set z k y m =>
    cases hm
    obtain ⟨s1, h1, h2⟩ := set_split (s := s) (o := Cow.step s (.set x k y m)) rfl hu
    exact ⟨s1, _, h1, h2, fun hc => by simpa [Covered] using hc, fun z hz => by simp [uses] at hz ⊢; exact .inr hz⟩
  | erase z k =>
    cases hm
    obtain ⟨s1, h1, h2⟩ := erase_split (s := s) (o := Cow.step s (.erase x k)) rfl hu
    exact ⟨s1, _, h1, h2, fun _ => by simp, fun z hz => by simp at hz⟩
  | _ => exact hm.elim

/-- C86: changing a value whose storage has other owners allocates one map or vector, however deep the value is. Everything else keeps its
contents: the storage the other owners have, and everything below it. -/
theorem C86_shared (s : Cow.State) (op : Cow.Op) (x : Nat) (hx : x < s.vars.length) (hm : mutates x op) (hs : Shared s x)
    (hu : (Cow.step s op).2 ≠ .ub) :
    (Cow.step s op).1.allocated = s.allocated + 1 ∧ Untouched s (Cow.step s op).1 none := by
  obtain ⟨s1, ys, h1, h2, _⟩ := mutates_split hm hu
  exact (cow_inPlace hx h1 h2).1 hs

/-- C86: changing a value that is the only owner of its storage allocates no map and no vector; only that storage is changed. -/
theorem C86_sole (s : Cow.State) (op : Cow.Op) (x : Nat) (hx : x < s.vars.length) (hm : mutates x op) (hs : ¬ Shared s x)
    (hu : (Cow.step s op).2 ≠ .ub) :
    (Cow.step s op).1.allocated = s.allocated ∧ Untouched s (Cow.step s op).1 (s.var x).addr := by
  obtain ⟨s1, ys, h1, h2, _⟩ := mutates_split hm hu
  exact (cow_inPlace hx h1 h2).2 hs

/-- C86: copying, moving, destroying and reading allocate nothing and change no contents. -/
theorem C86_reading (s : Cow.State) (op : Cow.Op) (hc : op.changes = none) (hm : op.makes = false) (hu : (Cow.step s op).2 ≠ .ub) :
    (Cow.step s op).1.allocated = s.allocated ∧ Untouched s (Cow.step s op).1 none := by
  have key : ∀ {t : Cow.State}, Cow.KeptCells s.cells t.cells none → t.allocated = s.allocated ∧ Untouched s t none :=
    fun k => ⟨k.len, k.kept⟩
  cases op with
  | fresh x v =>
    obtain ⟨h1, h2⟩ := fresh_made (s := s) (x := x) (v := v) hu
    rw [hm] at h1
    exact ⟨h1, h2⟩
  | copy z y => exact key (copy_keptCells s z y)
  | move z y => exact key (move_keptCells s z y)
  | get z x k => exact key (get_keptCells s z x k)
  | _ => cases hc

/-- C86: a new object or array is one allocation. -/
theorem C86_making (s : Cow.State) (op : Cow.Op) (hm : op.makes = true) (hu : (Cow.step s op).2 ≠ .ub) :
    (Cow.step s op).1.allocated = s.allocated + 1 ∧ Untouched s (Cow.step s op).1 none := by
  cases op with
  | fresh x v =>
    obtain ⟨h1, h2⟩ := fresh_made (s := s) (x := x) (v := v) hu
    rw [hm] at h1
    exact ⟨h1, h2⟩
  | _ => cases hm

/-- C86: `clear` and `resize` never allocate a map or vector, as they do not copy: the storage they change may be that of others (C16). -/
theorem C86_clear_resize (s : Cow.State) (op : Cow.Op) (x : Nat) (hc : op.changes = some x) (hm : ¬ mutates x op) :
    (Cow.step s op).1.allocated = s.allocated ∧ Untouched s (Cow.step s op).1 (s.var x).addr := by
  have key : ∀ {t : Cow.State} {ys : List Nat}, InPlace s t x ys → t.allocated = s.allocated ∧ Untouched s t (s.var x).addr :=
    fun k => ⟨k.keeps.len, k.keeps.kept⟩
  cases op with
  | clear z => cases hc; exact key clear_inPlace
  | resize z n y => cases hc; exact key resize_inPlace
  | insert z k y m => cases hc; exact absurd rfl hm
  | set z k y m => cases hc; exact absurd rfl hm
  | erase z k => cases hc; exact absurd rfl hm
  | _ => cases hc

/-- A statement allocates one map or vector at most. -/
theorem step_allocates (s : Cow.State) (op : Cow.Op) (hu : (Cow.step s op).2 ≠ .ub) (hv : ∀ x ∈ uses op, x < s.vars.length) :
    (Cow.step s op).1.allocated ≤ s.allocated + 1 := by
  cases hm : op.makes with
  | true => rw [(C86_making s op hm hu).1]; exact Nat.le_refl _
  | false =>
    cases hc : op.changes with
    | none => rw [(C86_reading s op hc hm hu).1]; exact Nat.le_succ _
    | some x =>
      have hx : x < s.vars.length := by
        refine hv x ?_
        cases op <;> simp_all [Cow.Op.changes, uses]
      by_cases hmu : mutates x op
      · by_cases hs : Shared s x
        · rw [(C86_shared s op x hx hmu hs hu).1]; exact Nat.le_refl _
        · rw [(C86_sole s op x hx hmu hs hu).1]; exact Nat.le_succ _
      · rw [(C86_clear_resize s op x hc hmu).1]; exact Nat.le_succ _

/-- C86: whatever a program does and however deep its values are, it makes no more maps and vectors than it has statements that make or
change a value. -/
theorem C86_programs (n : Nat) (ops : List Cow.Op) (hvars : ∀ op ∈ ops, ∀ x ∈ uses op, x < n) (hcov : CoveredRun (Cow.init n) ops) :
    (Cow.run (Cow.init n) ops).1.allocated ≤ (ops.filter fun op => op.makes || op.changes.isSome).length := by
  have key : ∀ (ops : List Cow.Op) (s : Cow.State) (e : Env), Cow.Sim s e → (∀ op ∈ ops, ∀ x ∈ uses op, x < s.vars.length) →
      CoveredRun s ops → (Cow.run s ops).1.allocated ≤ s.allocated + (ops.filter fun op => op.makes || op.changes.isSome).length := by
    intro ops
    induction ops with
    | nil => intro s e _ _ _; exact Nat.le_refl _
    | cons op ops ih =>
      intro s e hs hv hc
      obtain ⟨h1, h2, h3⟩ := Cow.step_ok hs (hv op (by simp)) hc.1
      have hu : (Cow.step s op).2 ≠ .ub := by rw [h2]; exact indep_no_ub e op
      have := ih _ _ h1 (fun o ho x hx => by rw [h3]; exact hv o (by simp [ho]) x hx) hc.2
      simp only [Cow.run]
      refine Nat.le_trans this ?_
      cases hb : (op.makes || op.changes.isSome) with
      | true =>
        have hle := step_allocates s op hu (hv op (by simp))
        rw [List.filter_cons_of_pos (by simpa using hb), List.length_cons]
        omega
      | false =>
        rw [List.filter_cons_of_neg (by simpa using hb)]
        simp only [Bool.or_eq_false_iff, Option.isSome_eq_false_iff, Option.isNone_iff_eq_none] at hb
        rw [(C86_reading s op hb.2 hb.1 hu).1]
        exact Nat.le_refl _
  have := key ops _ _ (Cow.sim_init n) (by simpa [Cow.init] using hvars) hcov
  simpa [Cow.init, Cow.State.allocated] using this

/-- C86: after the change, in any program, the changed value is the only owner of its storage: `refcount()` is 1, as in the README. -/
theorem C86_owned_after (n : Nat) (ops : List Cow.Op) (op : Cow.Op) (x : Nat) (hvars : ∀ o ∈ op :: ops, ∀ x ∈ uses o, x < n)
    (hcov : CoveredRun (Cow.init n) ops) (hop : Covered (Cow.run (Cow.init n) ops).1 op) (hm : mutates x op) (hx : x < n) :
    refcount (Cow.step (Cow.run (Cow.init n) ops).1 op).1.cells ((Cow.step (Cow.run (Cow.init n) ops).1 op).1.var x) = some 1 := by
  have hvars' : ∀ o ∈ ops, ∀ x ∈ uses o, x < (Cow.init n).vars.length := by
    simpa [Cow.init] using fun o ho => hvars o (by simp [ho])
  obtain ⟨hs, _⟩ := Cow.run_ok (Cow.sim_init n) hvars' hcov
  have hl := Cow.run_length ops (Cow.sim_init n) hvars' hcov
  generalize (Cow.run (Cow.init n) ops).1 = s at *
  generalize (Spec.Indep.run (Spec.Indep.init n) ops).1 = e at *
  have hn : s.vars.length = n := by rw [hl]; simp [Cow.init]
  have hv : ∀ y ∈ uses op, y < s.vars.length := fun y hy => by rw [hn]; exact hvars op (by simp) y hy
  obtain ⟨g1, g2, g3⟩ := Cow.step_ok hs hv hop
  have hu : (Cow.step s op).2 ≠ .ub := by rw [g2]; exact indep_no_ub e op
  obtain ⟨s1, ys, h1, h2, h3, h4⟩ := mutates_split hm hu
  obtain ⟨s1', c1, c2, c3, c4, c5⟩ := cow_ok hs (x := x) (by omega)
  rw [h1] at c1
  cases c1
  have hsame := h2.var (h3 hop)
  rw [refcount, hsame]
  cases ha : (s1.var x).addr with
  | none => rfl
  | some a =>
    simp only
    have hone := c5 a ha
    -- no other variable has this storage
    have hother : ∀ y ∈ ys, (s1.var y).addr ≠ some a := by
      intro y hy hya
      have hne : x ≠ y := fun e => h3 hop (e ▸ hy)
      have hyl : y < s1.vars.length := by rw [c3]; exact hv y (h4 y hy)
      have hxl : x < s1.vars.length := by omega
      have hcount := c2.counted.eq a
      rw [hone] at hcount
      have hset := occ_set (a := a) (i := x) (l := s1.vars) .null hxl
      have hvx : s1.vars[x] = s1.var x := by simp [State.var, hxl]
      rw [hvx, occ_one ha, occ_one_none (by simp [Ref.addr])] at hset
      have hmem : s1.var y ∈ s1.vars.set x .null := by
        have : (s1.vars.set x .null)[y]? = some (s1.var y) := by
          rw [List.getElem?_set_ne hne]
          simp [State.var, hyl]
        exact List.mem_of_getElem? this
      have := occ_pos hmem hya
      omega
    have hle := h2.cnt a ha hother
    have hlen : x < (Cow.step s op).1.vars.length := by rw [g3]; omega
    have hpos : 0 < occ a (Cow.step s op).1.vars := by
      refine occ_pos (r := (Cow.step s op).1.var x) (var_mem hlen) (by rw [hsame]; exact ha)
    obtain ⟨cell, hcell⟩ := g1.counted.live (a := a) (by omega)
    have hp := g1.counted.pos a cell hcell
    rw [hone] at hle
    rw [cnt_some hcell] at hle
    rw [hcell]
    simp only [Option.map_some, Option.some.injEq]
    omega

/-- The example of the README, with an object inside: 0 and 1 share an object that holds the object 2. -/
def readme : List Cow.Op :=
  [.fresh 2 .obj, .fresh 0 .obj, .fresh 3 (.str [119]), .insert 0 (.name [104]) 3 .const, .insert 0 (.name [105]) 2 .const, .copy 1 0]

example : (∀ op ∈ readme, ∀ x ∈ uses op, x < 4) ∧ CoveredRun (Cow.init 4) readme := by decide +kernel
example : refcount (Cow.run (Cow.init 4) readme).1.cells ((Cow.run (Cow.init 4) readme).1.var 0) = some 2 := by decide +kernel
/-- "Mutate the copy": one allocation, two owners of the nested object, both sides have refcount 1. -/
example : let s := (Cow.run (Cow.init 4) readme).1
    let s' := (Cow.step s (.insert 1 (.name [104]) 3 .const)).1
    s'.allocated = s.allocated + 1 ∧ refcount s'.cells (s'.var 0) = some 1 ∧ refcount s'.cells (s'.var 1) = some 1 ∧
    refcount s.cells (s.var 2) = some 2 ∧ refcount s'.cells (s'.var 2) = some 3 := by decide +kernel

/-- C86, a cost nobody would look for: a call that throws has already copied. `set` of a field that does not exist throws and changes
nothing one can see, but the value is no longer shared: one map was allocated for nothing. -/
theorem C86_failing_calls_copy :
    let s := (Cow.run (Cow.init 4) readme).1
    let o := Cow.step s (.set 1 (.name [120]) 3 .const)
    Shared s 1 ∧ o.2 = .throw .outOfRange ∧ o.1.allocated = s.allocated + 1 ∧ ¬ Shared o.1 1 := by
  refine ⟨⟨2, by decide +kernel, by decide⟩, by decide +kernel, by decide +kernel, ?_⟩
  rintro ⟨n, h1, h2⟩
  have : refcount (Cow.step (Cow.run (Cow.init 4) readme).1 (.set 1 (.name [120]) 3 .const)).1.cells
      ((Cow.step (Cow.run (Cow.init 4) readme).1 (.set 1 (.name [120]) 3 .const)).1.var 1) = some 1 := by decide +kernel
  rw [this] at h1
  cases h1
  omega

end Dart.Props
