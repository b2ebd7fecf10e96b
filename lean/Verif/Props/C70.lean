import Verif.Lemmas.Share

/-
C70: `shareable_ptr` shares and hands over ownership, whatever counter it wraps and even if allocations fail.
-/
namespace Dart.Props
open Dart.Share Dart.Spec.Share

/-- All programs with `shareable_ptr`s (assignment and construction from each other, from the pointers they wrap, from
`unique_ptr`s and from new objects, `make_shareable`, `reset`, `share`, `transfer`), the pointers wrapped, `unique_ptr`s and views,
with allocations failing anywhere but in the cases `Avoids` names: everything is defined; statements that throw change
nothing; all accessors of all pointers and views show the groups of owners. -/
theorem C70_groups_partial (k : Kind) (c u v : Nat) (ops : List Op) (h : ∀ op ∈ ops, InRange c u v op ∧ Avoids k op) :
    ∃ s, (init c u v).run k ops = some (s, (run (start c u v) ops).2) ∧ Shows s (run (start c u v) ops).1 := by
  obtain ⟨s, h1, h2⟩ := run_share (k := k) ops (rel_init c u v) (by simpa [init] using h)
  exact ⟨s, h1, h2.shows⟩

/-- In the end, as at any moment: the deleter of every object that has no owner was called, once; that of an object that has
an owner was not. -/
theorem C70_deleted_once_partial (k : Kind) (c u v : Nat) (ops : List Op) (h : ∀ op ∈ ops, InRange c u v op ∧ Avoids k op) :
    ∃ s b, (init c u v).run k ops = some (s, b) ∧ Deleted s (run (start c u v) ops).1 := by
  obtain ⟨s, h1, h2⟩ := run_share (k := k) ops (rel_init c u v) (by simpa [init] using h)
  exact ⟨s, _, h1, h2.deleted⟩

/-- Views do not own: whatever statement about views is run, memory, pointers and counts stay the same. -/
theorem C70_views_own_nothing {k : Kind} {s s' : State} {b : Bool} {op : Op}
    (hop : (∃ v d, op = .view v d) ∨ (∃ v w, op = .viewCopy v w) ∨ (∃ v w, op = .viewMove v w) ∨ (∃ v, op = .viewReset v))
    (h : s.step k op = some (s', b)) : s'.mem = s.mem ∧ s'.cells = s.cells ∧ s'.uniqs = s.uniqs := by
  rcases hop with ⟨v, d, rfl⟩ | ⟨v, w, rfl⟩ | ⟨v, w, rfl⟩ | ⟨v, rfl⟩ <;> simp only [State.step] at h
  · split at h <;> cases h
    exact ⟨rfl, rfl, rfl⟩
  · cases hw : s.views[w]? with
    | none => rw [hw] at h; cases h
    | some x =>
      rw [hw] at h
      simp only [Option.bind_some] at h
      split at h <;> cases h
      exact ⟨rfl, rfl, rfl⟩
  · cases hw : s.views[w]? with
    | none => rw [hw] at h; cases h
    | some x =>
      rw [hw] at h
      simp only [Option.bind_some] at h
      split at h
      · split at h <;> cases h <;> exact ⟨rfl, rfl, rfl⟩
      · cases h
  · split at h <;> cases h
    exact ⟨rfl, rfl, rfl⟩

/-! ### What has to be avoided -/

/-- `p = std::unique_ptr(new X)` with `std::shared_ptr` inside: if the control block cannot be allocated, the object is deleted by
`std::shared_ptr` and again by the `unique_ptr`, which was not told. -/
theorem C70_double_delete : ∃ ops s b, (init 1 1 0).run .std ops = some (s, b) ∧ s.mem.log.count 0 = 2 :=
  ⟨[.uniq 0, .takeUniq 0 0 true, .dropUniq 0], _, _, rfl, rfl⟩

/-- `p = shareable_ptr(new X)` with a pointer of the library inside: if the control block cannot be allocated, nobody owns the
object and it is never deleted. -/
theorem C70_leak : ∃ ops s b, (init 1 1 0).run .own ops = some (s, b) ∧ ¬ (run (start 1 1 0) ops).1.owned 0 ∧
    0 < s.objs ∧ 0 ∉ s.mem.log :=
  ⟨[.takeNew 0 true], _, _, rfl, by simp [run, step, start, Owners.owned], by decide, by decide⟩

/-- `make_shareable`: if the construction of the object or of the control block throws, a pointer that was never
constructed is destroyed, whatever the counter. -/
theorem C70_make_undefined (k : Kind) (s : State) (d : Nat) : s.step k (.make d true) = none := rfl

/-- `p = std::move(p.raw())` and `std::move(p).transfer(p.raw())` move from a pointer that was destroyed before; assigning
`p` to itself, by copy or by move, or from a copy of `p.raw()`, does nothing. -/
theorem C70_own_raw (k : Kind) (s : State) (d : Nat) (hd : d < s.cells.length) :
    s.step k (.moveRaw d d) = none ∧ s.step k (.transfer d d) = none ∧ s.step k (.move d d) = some (s, false) ∧
      s.step k (.copy d d) = some (s, false) := by
  simp [State.step, State.moveFrom, hd]

/-- A `unique_ptr` never calls its deleter with a null pointer. Handed over while null, it makes a `shareable_ptr` that is null
and yet has a use count, and calls the deleter with null in the end; the pointer inside, if it is one of the library,
claims not to be null. -/
theorem C70_null_owner (k : Kind) : ∃ s t b b', (init 1 1 0).run k [.takeUniq 0 0 false] = some (s, b) ∧ s.get 0 = some none ∧
    s.ask 0 = some false ∧ s.useCount 0 = some 1 ∧ s.askOwn 0 = some true ∧ s.run k [.reset 0] = some (t, b') ∧ t.mem.nulls = 1 :=
  ⟨_, _, _, _, rfl, rfl, rfl, rfl, rfl, rfl, rfl⟩

/-! Concrete cases: a `unique_ptr` is handed over (the first attempt fails), shared three times, looked at, moved out and
dropped. -/

/-- The program. -/
def shareStory : List Op :=
  [.uniq 0, .takeUniq 0 0 true, .takeUniq 0 0 false, .copy 1 0, .share 0 2, .view 0 1, .move 0 1, .reset 2, .make 1 false,
    .copyRaw 1 0, .moveRaw 2 1, .transfer 0 1, .null 1]

example : ∀ op ∈ shareStory, InRange 3 1 1 op ∧ Avoids .own op := by
  intro op h
  simp only [shareStory, List.mem_cons, List.not_mem_nil, or_false] at h
  rcases h with h | h | h | h | h | h | h | h | h | h | h | h | h <;> subst h <;> simp [InRange, Avoids]

example : ((init 3 1 1).run .own shareStory).map (fun r => (r.1.mem.log, r.1.cells, r.1.useCount 2, r.1.viewGet 0, r.2.count true)) =
    some ([1], [none, none, some 0], some 1, some none, 1) := by decide +kernel

end Dart.Props
