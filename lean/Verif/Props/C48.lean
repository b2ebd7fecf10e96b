import Verif.Props.C47

/-
C48: threads twoThreads dynamic packets see values of their own.
-/
namespace Dart.Props
open Dart.Conc

/-- C48: every execution has the effect of executing whole statements one after another, in some order the schedule allows,
on values that are copied: the threads have the statements left and the variables have the values they would have then. -/
theorem C48_values_partial (n k : Nat) (progs : List (List Op)) (hf : ∀ p ∈ progs, ∀ op ∈ p, op.Fine) (ts : List Nat) (m : M)
    (h : run true (init n k progs) ts = some m) : ∃ ts', ts'.Sublist ts ∧ Agrees m ((sinit n k progs).run ts') := by
  obtain ⟨m', ts', h1, h2, h3⟩ := (Inv.init n k progs hf).run ts
  rw [h] at h1; cases h1
  exact ⟨ts', h2, h3.agrees⟩

/-- C48: a thread that does not receive ends with the values it would have if it were alone, whatever the others do with
the packets it has sent. -/
theorem C48_isolated_partial (n k : Nat) (progs : List (List Op)) (hf : ∀ p ∈ progs, ∀ op ∈ p, op.Fine) (ts : List Nat) (m : M)
    (h : run true (init n k progs) ts = some m) (t : Nat) (p : List Op) (th : Th) (hp : progs[t]? = some p)
    (hr : ∀ c x, .recv c x ∉ p) (ht : m.threads[t]? = some th) (hend : th.prog = []) :
    HoldsAll m.blocks th.vars (p.foldl (alone k) (List.replicate n (.leaf none))) := by
  obtain ⟨ts', _, ha⟩ := C48_values_partial n k progs hf ts m h
  obtain ⟨d, r, h1, h2⟩ := spec_alone k t p hr (List.replicate n (.leaf none)) ts' (sinit n k progs) (by simp [sinit])
    ⟨[], p, rfl, by simp [sinit, hp]⟩
  obtain ⟨h3, h4⟩ := ha.threads t th _ ht h2
  rw [hend] at h3
  simp only at h3
  rw [h1, ← h3, List.append_nil]
  exact h4

/-- the first thread of `twoThreads` ends with `[7, [7]]`, the second has inserted `[]` into the same array -/
example : ∃ m, run true (init 2 1 twoThreads) (steps [(20, 0), (3, 1), (9, 0), (60, 1), (60, 0)]) = some m ∧
    (∀ c x, .recv c x ∉ twoThreads[0]) ∧ m.threads.map (·.prog) = [[], []] ∧
    twoThreads[0].foldl (alone 1) (List.replicate 2 (.leaf none)) =
      [.node [.leaf (some 7), .node [.leaf (some 7)]], .node [.leaf (some 7)]] ∧
    ((sinit 2 1 twoThreads).run (steps [(7, 0), (5, 1)])).threads.map (·.vars) =
      [[.node [.leaf (some 7), .node [.leaf (some 7)]], .node [.leaf (some 7)]], [.node [.leaf (some 7), .node []], .leaf (some 7)]] := by
  obtain ⟨m, h1, h2⟩ := concEnds (o := run true (init 2 1 twoThreads) (steps [(20, 0), (3, 1), (9, 0), (60, 1), (60, 0)]))
    (fun m => decide (m.threads.map (·.prog) = [[], []])) (by decide +kernel)
  simp only [decide_eq_true_eq] at h2
  exact ⟨m, h1, by simp [twoThreads], h2, rfl, rfl⟩

/-- C48: the value in memory of a packet is the only one. -/
theorem C48_value_unique (bs : List (Option Blk)) (h : Hd) (v w : PV) (h1 : Holds bs h v) (h2 : Holds bs h w) : v = w :=
  Holds.unique v w h h1 h2

/-- C48 is false for `clear`: the array another thread has received becomes empty as well. -/
theorem C48_clear_interferes : ∃ (progs : List (List Op)) (ts : List Nat) (m : M) (th : Th), run true (init 2 1 progs) ts = some m ∧
    m.threads[1]? = some th ∧ th.prog = [] ∧ Holds m.blocks (th.var 0) (.node []) ∧
    ∀ ts' sth, ((sinit 2 1 progs).run ts').threads[1]? = some sth → sth.prog = [] → sth.var 0 = .node [.leaf none] := by
  obtain ⟨m, g1, g2⟩ := concEnds (o := run true (init 2 1 [[.make 0, .push 0 1, .copy 1 0, .send 0 1, .clear 0], [.recv 0 0]])
    (steps [(13, 0), (20, 1), (10, 0)])) (fun m => decide (m.threads[1]? = some (Th.mk [.ref 0, .leaf none] [] .start [] none none)) &&
      decide (m.blocks[0]? = some (some (Blk.mk 2 [])))) (by decide +kernel)
  simp only [Bool.and_eq_true, decide_eq_true_eq] at g2
  refine ⟨_, _, m, _, g1, g2.1, rfl, .ref g2.2 .nil, ?_⟩
  -- what the statements can lead to
  intro ts' sth h1 h2
  let s := PV.node [.leaf none]
  let P : S → Prop := fun z =>
    z = sinit 2 1 [[.make 0, .push 0 1, .copy 1 0, .send 0 1, .clear 0], [.recv 0 0]] ∨
    z = ⟨[[]], [⟨[.node [], .leaf none], [.push 0 1, .copy 1 0, .send 0 1, .clear 0]⟩, ⟨[.leaf none, .leaf none], [.recv 0 0]⟩]⟩ ∨
    z = ⟨[[]], [⟨[s, .leaf none], [.copy 1 0, .send 0 1, .clear 0]⟩, ⟨[.leaf none, .leaf none], [.recv 0 0]⟩]⟩ ∨
    z = ⟨[[]], [⟨[s, s], [.send 0 1, .clear 0]⟩, ⟨[.leaf none, .leaf none], [.recv 0 0]⟩]⟩ ∨
    z = ⟨[[s]], [⟨[s, .leaf none], [.clear 0]⟩, ⟨[.leaf none, .leaf none], [.recv 0 0]⟩]⟩ ∨
    z = ⟨[[s]], [⟨[.node [], .leaf none], []⟩, ⟨[.leaf none, .leaf none], [.recv 0 0]⟩]⟩ ∨
    z = ⟨[[]], [⟨[s, .leaf none], [.clear 0]⟩, ⟨[s, .leaf none], []⟩]⟩ ∨
    z = ⟨[[]], [⟨[.node [], .leaf none], []⟩, ⟨[s, .leaf none], []⟩]⟩
  have hstep : ∀ z t, P z → P (z.step t) := by
    intro z t hz
    match t with
    | 0 => rcases hz with rfl | rfl | rfl | rfl | rfl | rfl | rfl | rfl <;>
        first | exact .inl rfl | exact .inr (.inl rfl) | exact .inr (.inr (.inl rfl)) | exact .inr (.inr (.inr (.inl rfl))) |
          exact .inr (.inr (.inr (.inr (.inl rfl)))) | exact .inr (.inr (.inr (.inr (.inr (.inl rfl))))) |
          exact .inr (.inr (.inr (.inr (.inr (.inr (.inl rfl)))))) | exact .inr (.inr (.inr (.inr (.inr (.inr (.inr rfl))))))
    | 1 => rcases hz with rfl | rfl | rfl | rfl | rfl | rfl | rfl | rfl <;>
        first | exact .inl rfl | exact .inr (.inl rfl) | exact .inr (.inr (.inl rfl)) | exact .inr (.inr (.inr (.inl rfl))) |
          exact .inr (.inr (.inr (.inr (.inl rfl)))) | exact .inr (.inr (.inr (.inr (.inr (.inl rfl))))) |
          exact .inr (.inr (.inr (.inr (.inr (.inr (.inl rfl)))))) | exact .inr (.inr (.inr (.inr (.inr (.inr (.inr rfl))))))
    | t + 2 =>
      have : z.step (t + 2) = z := by
        have : z.threads[t + 2]? = none := by rcases hz with rfl | rfl | rfl | rfl | rfl | rfl | rfl | rfl <;> rfl
        simp only [S.step, this]
      rw [this]; exact hz
  have hrun : ∀ ts z, P z → P (z.run ts) := by
    intro ts
    induction ts with
    | nil => intro z hz; exact hz
    | cons t ts ih => intro z hz; exact ih _ (hstep z t hz)
  rcases hrun ts' _ (.inl rfl) with h | h | h | h | h | h | h | h <;> rw [h] at h1 <;> cases h1 <;> first | rfl | cases h2

end Dart.Props
