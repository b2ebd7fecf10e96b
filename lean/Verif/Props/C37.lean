import Verif.Props.C16

/-
C37: owner counts are exact and no storage leaks.
-/
namespace Dart.Props
open Spec.Indep

/-- Number of values, in variables and in live storage, that refer to storage `a`. -/
def owners (s : Cow.State) (a : Nat) : Nat :=
  (s.vars.filter fun r => r.addr == some a).length + (s.cells.refs.filter fun r => r.addr == some a).length

/-- C37: after any program `refcount()` of live storage is exactly the number of values referring to
it, and it is not zero. (Programs as in C16.) -/
theorem C37_counts_exact_partial (n : Nat) (ops : List Cow.Op)
    (hvars : ∀ op ∈ ops, ∀ x ∈ uses op, x < n) (hcov : CoveredRun (Cow.init n) ops) (a : Nat) (cell : Cow.Cell)
    (hlive : (Cow.run (Cow.init n) ops).1.cells.at a = some cell) :
    cell.count = owners (Cow.run (Cow.init n) ops).1 a ∧ 0 < cell.count := by
  obtain ⟨h1, _⟩ := Cow.run_ok (Cow.sim_init n) (by simpa [Cow.init] using hvars) hcov
  have := h1.counted.eq a
  rw [Cow.cnt_some hlive, Cow.occ, Cow.occ, List.countP_eq_length_filter, List.countP_eq_length_filter] at this
  exact ⟨this.symm, h1.counted.pos a cell hlive⟩

/-- C37: storage nobody refers to is freed at once, and storage somebody refers to is not. -/
theorem C37_freed_exactly_when_unused_partial (n : Nat) (ops : List Cow.Op)
    (hvars : ∀ op ∈ ops, ∀ x ∈ uses op, x < n) (hcov : CoveredRun (Cow.init n) ops) (a : Nat) :
    (Cow.run (Cow.init n) ops).1.cells.at a = none ↔ owners (Cow.run (Cow.init n) ops).1 a = 0 := by
  obtain ⟨h1, _⟩ := Cow.run_ok (Cow.sim_init n) (by simpa [Cow.init] using hvars) hcov
  have := h1.counted.eq a
  rw [Cow.occ, Cow.occ, List.countP_eq_length_filter, List.countP_eq_length_filter] at this
  rw [owners, this, Cow.cnt]
  cases hc : (Cow.run (Cow.init n) ops).1.cells.at a with
  | none => simp
  | some x =>
    have := h1.counted.pos a x hc
    simp
    omega

/-- C37: when all variables are scalars again, all storage is freed: nothing leaks. -/
theorem C37_no_leak_partial (n : Nat) (ops : List Cow.Op)
    (hvars : ∀ op ∈ ops, ∀ x ∈ uses op, x < n) (hcov : CoveredRun (Cow.init n) ops)
    (hdone : ∀ x < n, ∃ v, Holds (Cow.run (Cow.init n) ops).1 x v ∧ (∀ f, v ≠ .obj f) ∧ (∀ f, v ≠ .arr f)) (a : Nat) :
    (Cow.run (Cow.init n) ops).1.cells.at a = none := by
  have hvars' : ∀ o ∈ ops, ∀ x ∈ uses o, x < (Cow.init n).vars.length := by simpa [Cow.init] using hvars
  obtain ⟨h1, _⟩ := Cow.run_ok (Cow.sim_init n) hvars' hcov
  have hl := Cow.run_length ops (Cow.sim_init n) hvars' hcov
  refine Cow.no_live h1.counted h1.whole (fun r hr => ?_) a
  obtain ⟨i, hi, rfl⟩ := List.getElem_of_mem hr
  have hin : i < n := by rw [hl] at hi; simpa [Cow.init] using hi
  obtain ⟨v, ⟨d, hd⟩, h2, h3⟩ := hdone i hin
  rw [Cow.var_eq hi] at hd
  cases hr' : (Cow.run (Cow.init n) ops).1.vars[i] with
  | obj b =>
    rw [hr'] at hd
    obtain ⟨_, _, _, vs, _, _, rfl⟩ := Cow.holds_obj ⟨d, hd⟩
    exact absurd rfl (h2 _)
  | arr b =>
    rw [hr'] at hd
    obtain ⟨_, _, _, vs, _, _, rfl⟩ := Cow.holds_arr ⟨d, hd⟩
    exact absurd rfl (h3 _)
  | _ => rfl

/-- C37, negation: an object inserted into itself is never freed: it keeps itself alive. -/
theorem C37_negation_self_insertion_leaks :
    (Cow.run (Cow.init 1) [.fresh 0 .obj, .insert 0 (.name [97]) 0 .const, .fresh 0 .null]).1 =
      ⟨[some ⟨1, .fields [([97], .obj 0)]⟩], [.null]⟩ := by decide +kernel

/-- Non-vacuity: the program of C16 followed by destroying all variables allocates six cells, all freed. -/
example : (Cow.run (Cow.init 5) (sharing ++ [.fresh 0 .null, .fresh 1 .null, .fresh 2 .null, .fresh 3 .null, .fresh 4 .null])).1.cells.all
    (· == none) = true := by decide +kernel
example : CoveredRun (Cow.init 5) (sharing ++ [.fresh 0 .null, .fresh 1 .null, .fresh 2 .null, .fresh 3 .null, .fresh 4 .null]) := by
  decide +kernel
example : (Cow.run (Cow.init 5) sharing).1.cells.length = 6 := by decide +kernel

end Dart.Props
