import Verif.Lemmas.ConcPlain

/-
C47: threads may share dynamic packets: memory stays safe, whatever the interleaving.
-/
namespace Dart.Props
open Dart.Conc

/-- Two threads: the first makes `[7]`, sends a copy and pushes it into itself by way of another copy; the second
receives, pushes a new array and reads. -/
def twoThreads : List (List Op) :=
  [[.make 0, .leaf 1 (some 7), .push 0 1, .copy 1 0, .send 0 1, .copy 1 0, .push 0 1],
   [.recv 0 0, .make 1, .push 0 1, .leaf 1 none, .get 1 0 0]]

/-- So many steps of these threads. -/
def steps (l : List (Nat × Nat)) : List Nat := l.flatMap fun p => List.replicate p.1 p.2

theorem concEnds {o : Option M} (p : M → Bool) (h : o.any p = true) : ∃ m, o = some m ∧ p m = true := by
  cases o with
  | none => cases h
  | some m => exact ⟨m, rfl, h⟩

def concFinished (m : M) : Bool := m.threads.all fun th => th.prog.isEmpty && th.junk.isEmpty && th.dying.isNone

theorem concFinished_ok {m : M} (h : concFinished m = true) : Finished m := by
  intro t th ht
  simp only [concFinished, List.all_eq_true, Bool.and_eq_true, List.isEmpty_iff, Option.isNone_iff_eq_none] at h
  obtain ⟨⟨h1, h2⟩, h3⟩ := h th (List.mem_of_getElem? ht)
  exact ⟨h1, h2, h3⟩

/-- C47: no execution has undefined behaviour: no access to deleted elements, no counter below zero. -/
theorem C47_defined_partial (n k : Nat) (progs : List (List Op)) (hf : ∀ p ∈ progs, ∀ op ∈ p, op.Fine) (ts : List Nat) :
    ∃ m, run true (init n k progs) ts = some m := by
  obtain ⟨m, _, h, _⟩ := (Inv.init n k progs hf).run ts
  exact ⟨m, h⟩

example : (∀ p ∈ twoThreads, ∀ op ∈ p, op.Fine) ∧ ∃ m, run true (init 2 1 twoThreads) (steps [(20, 0), (3, 1), (9, 0), (60, 1), (60, 0)]) = some m ∧
    Finished m ∧ m.blocks.length = 4 := by
  obtain ⟨m, h1, h2⟩ := concEnds (o := run true (init 2 1 twoThreads) (steps [(20, 0), (3, 1), (9, 0), (60, 1), (60, 0)]))
    (fun m => concFinished m && decide (m.blocks.length = 4)) (by decide +kernel)
  simp only [Bool.and_eq_true, decide_eq_true_eq] at h2
  exact ⟨by simp [twoThreads, Op.Fine], m, h1, concFinished_ok h2.1, h2.2⟩

theorem conc_reach_inv {n k : Nat} {progs : List (List Op)} (hf : ∀ p ∈ progs, ∀ op ∈ p, op.Fine) {ts : List Nat} {m : M}
    (h : run true (init n k progs) ts = some m) : ∃ s, Inv m s := by
  obtain ⟨m', ts', h1, _, h2⟩ := (Inv.init n k progs hf).run ts
  rw [h] at h1; cases h1
  exact ⟨_, h2⟩

/-- C47: no two threads ever access the same elements at the same time, one of them writing. -/
theorem C47_no_races_partial (n k : Nat) (progs : List (List Op)) (hf : ∀ p ∈ progs, ∀ op ∈ p, op.Fine) (ts : List Nat) (m : M)
    (h : run true (init n k progs) ts = some m) : ¬ Race m := by
  obtain ⟨s, hs⟩ := conc_reach_inv hf h
  exact hs.no_race

/-- both threads read the same elements -/
example : ∃ m, run true (init 2 1 [[.make 0, .copy 1 0, .send 0 1, .get 1 0 0], [.recv 0 0, .get 1 0 0]])
    (steps [(8, 0), (2, 1)]) = some m ∧ access m 0 = some (0, false) ∧ access m 1 = some (0, false) := by
  simpa using concEnds (o := run true (init 2 1 [[.make 0, .copy 1 0, .send 0 1, .get 1 0 0], [.recv 0 0, .get 1 0 0]]) (steps [(8, 0), (2, 1)]))
    (fun m => decide (access m 0 = some (0, false)) && decide (access m 1 = some (0, false))) (by decide +kernel)

/-- C47: at every moment the counter of elements is the number of packets that refer to them. -/
theorem C47_counts_partial (n k : Nat) (progs : List (List Op)) (hf : ∀ p ∈ progs, ∀ op ∈ p, op.Fine) (ts : List Nat) (m : M)
    (h : run true (init n k progs) ts = some m) (a : Nat) (b : Blk) (hb : m.blocks[a]? = some (some b)) :
    b.count = m.packets.count (.ref a) := by
  obtain ⟨s, hs⟩ := conc_reach_inv hf h
  have := hs.counted a
  rw [blkAt_eq.2 hb] at this
  rw [packets_refs]
  exact this.1

example : ∃ m, run true (init 2 1 twoThreads) (steps [(14, 0)]) = some m ∧ m.blocks[0]? = some (some ⟨2, [.leaf (some 7)]⟩) := by
  obtain ⟨m, h1, h2⟩ := concEnds (o := run true (init 2 1 twoThreads) (steps [(14, 0)]))
    (fun m => decide (m.blocks[0]? = some (some (Blk.mk 2 [.leaf (some 7)])))) (by decide +kernel)
  exact ⟨m, h1, of_decide_eq_true h2⟩

/-- C47: elements that can be reached from a variable or a channel have not been deleted. -/
theorem C47_alive_partial (n k : Nat) (progs : List (List Op)) (hf : ∀ p ∈ progs, ∀ op ∈ p, op.Fine) (ts : List Nat) (m : M)
    (h : run true (init n k progs) ts = some m) (a : Nat) (hr : Reaches m a) : ∃ b, m.blocks[a]? = some (some b) ∧ 0 < b.count := by
  obtain ⟨s, hs⟩ := conc_reach_inv hf h
  exact hs.reached_alive hr

/-- C47: when all threads have finished, elements that cannot be reached have been deleted: there are no leaks. -/
theorem C47_no_leaks_partial (n k : Nat) (progs : List (List Op)) (hf : ∀ p ∈ progs, ∀ op ∈ p, op.Fine) (ts : List Nat) (m : M)
    (h : run true (init n k progs) ts = some m) (hm : Finished m) (a : Nat) (b : Blk) (hb : m.blocks[a]? = some (some b)) :
    Reaches m a := by
  obtain ⟨s, hs⟩ := conc_reach_inv hf h
  exact hs.alive_reached hm hb

/-- nested arrays of two threads are deleted -/
example : ∃ m, run true (init 2 1 [[.make 0, .make 1, .push 0 1, .leaf 1 none, .copy 1 0, .send 0 1, .leaf 0 none], [.recv 0 0, .leaf 0 none]])
    (steps [(20, 0), (8, 1), (40, 0), (40, 1)]) = some m ∧ m.blocks = [none, none] ∧ concFinished m = true := by
  simpa using concEnds (o := run true (init 2 1 [[.make 0, .make 1, .push 0 1, .leaf 1 none, .copy 1 0, .send 0 1, .leaf 0 none],
    [.recv 0 0, .leaf 0 none]]) (steps [(20, 0), (8, 1), (40, 0), (40, 1)])) (fun m => decide (m.blocks = [none, none]) && concFinished m)
    (by decide +kernel)

/-! What is missing: `clear`, and arrays pushed into themselves. -/

/-- C47 is false for `clear`, which does not copy on write: it may be called while another thread reads. -/
theorem C47_clear_races : ∃ (progs : List (List Op)) (ts : List Nat) (m : M), run true (init 2 1 progs) ts = some m ∧ Race m := by
  obtain ⟨m, h1, h2⟩ := concEnds (o := run true (init 2 1 [[.make 0, .push 0 1, .copy 1 0, .send 0 1, .clear 0], [.recv 0 0, .get 1 0 0]])
    (steps [(13, 0), (2, 1)])) (fun m => decide (access m 0 = some (0, true)) && decide (access m 1 = some (0, false))) (by decide +kernel)
  simp only [Bool.and_eq_true, decide_eq_true_eq] at h2
  exact ⟨_, _, m, h1, 0, 1, 0, true, false, by decide, h2.1, h2.2, .inl rfl⟩

/-- C47 is false for an array that is pushed into itself: it is never deleted. -/
theorem C47_self_push_leaks : ∃ (progs : List (List Op)) (ts : List Nat) (m : M), run true (init 1 0 progs) ts = some m ∧ Finished m ∧
    ∃ a b, m.blocks[a]? = some (some b) ∧ ¬ Reaches m a := by
  obtain ⟨m, h1, h2⟩ := concEnds (o := run true (init 1 0 [[.make 0, .push 0 0, .leaf 0 none]]) (steps [(30, 0)]))
    (fun m => concFinished m && decide (m.blocks = [some ⟨1, [.ref 0]⟩]) && decide (m.threads.map (·.vars) = [[.leaf none]]) &&
      decide (m.chans = [])) (by decide +kernel)
  simp only [Bool.and_eq_true, decide_eq_true_eq] at h2
  obtain ⟨⟨⟨g1, g2⟩, g3⟩, g4⟩ := h2
  refine ⟨_, _, m, h1, concFinished_ok g1, 0, ⟨1, [.ref 0]⟩, by rw [g2]; rfl, ?_⟩
  · have : ∀ {m : M} {a : Nat}, m.threads.map (·.vars) = [[.leaf none]] → m.chans = [] → ¬ Reaches m a := by
      intro m a h1 h2 h
      induction h with
      | @var t th a h3 h4 =>
        have h5 : th.vars ∈ m.threads.map (·.vars) := List.mem_map_of_mem (List.mem_of_getElem? h3)
        rw [h1] at h5
        simp only [List.mem_singleton] at h5
        rw [h5] at h4
        simp at h4
      | chan h3 => rw [h2] at h3; simp at h3
      | elem _ _ _ ih => exact ih
    exact this g3 g4

/-- Counters have to be atomic: with plain integers (`unsafe_ptr`) even such programs can access deleted elements. -/
theorem C47_plain_counters : ∃ (progs : List (List Op)) (ts : List Nat), (∀ p ∈ progs, ∀ op ∈ p, op.Fine) ∧
    run false (init 2 1 progs) ts = none := by
  refine ⟨[[.make 0, .copy 1 0, .send 0 1, .copy 1 0, .leaf 0 none, .leaf 1 none], [.recv 0 0, .copy 1 0, .leaf 0 none, .leaf 1 none]],
    steps [(11, 0), (5, 1), (40, 0), (40, 1)], by simp [Op.Fine], by decide +kernel⟩

theorem conc_starts {n k : Nat} {progs : List (List Op)} {t : Nat} {th : Th} (h : (init n k progs).threads[t]? = some th) : th.pending = none := by
  simp only [init, List.getElem?_map, Option.map_eq_some_iff] at h
  obtain ⟨p, _, rfl⟩ := h
  rfl

/-- C47 for plain counters, when only one thread runs: there is no undefined behaviour, and whenever the thread is
not between reading a counter and writing it back, the state is one that is reached with atomic counters. -/
theorem C47_plain_one_thread (n k : Nat) (progs : List (List Op)) (hf : ∀ p ∈ progs, ∀ op ∈ p, op.Fine) (t j : Nat) :
    ∃ m, run false (init n k progs) (List.replicate j t) = some m ∧
      ((∀ th, m.threads[t]? = some th → th.pending = none) →
        ∃ i, i ≤ j ∧ run true (init n k progs) (List.replicate i t) = some m) ∧
      ((∃ th, m.threads[t]? = some th ∧ th.pending ≠ none) →
        ∃ m' i, i ≤ j ∧ run false (init n k progs) (List.replicate (j + 1) t) = some m' ∧
          run true (init n k progs) (List.replicate i t) = some m' ∧ ∀ th, m'.threads[t]? = some th → th.pending = none) := by
  obtain ⟨i, m1, m2, h1, h2, h3, h4⟩ := run_plain (m := init n k progs) (t := t) (fun th h => conc_starts h)
    (fun k' => C47_defined_partial n k progs hf _) j
  refine ⟨m1, h2, fun h => ?_, fun h => ?_⟩
  · cases h4 with
    | now _ => exact ⟨i, h1, h3⟩
    | later a1 a2 _ _ => have := h _ a1; rw [a2] at this; cases this
  · cases h4 with
    | now a => obtain ⟨th, b1, b2⟩ := h; exact absurd (a th b1) b2
    | later a1 a2 a3 a4 =>
      exact ⟨m2, i, h1, by rw [List.replicate_succ', run_snoc, h2]; exact a3, h3, a4⟩

/-- one thread with plain counters copies on write, and deletes what it made -/
example : ∃ m, run false (init 2 1 [[.make 0, .copy 1 0, .push 1 0, .leaf 0 none, .leaf 1 none]]) (List.replicate 60 0) = some m ∧
    m.blocks = [none, none] ∧ concFinished m = true := by
  simpa using concEnds (o := run false (init 2 1 [[.make 0, .copy 1 0, .push 1 0, .leaf 0 none, .leaf 1 none]]) (List.replicate 60 0))
    (fun m => decide (m.blocks = [none, none]) && concFinished m) (by decide +kernel)

end Dart.Props
