import Verif.Lemmas.Ptr

/-
C17: the intrusive reference counter frees exactly once and never early.

Managed objects may hold such pointers themselves, so linked structures of any shape, shared or cyclic,
are covered. A statement is considered (`Sound`) if the pointers it uses exist and are still reachable
when the overwritten pointer is gone; for pointer variables this holds always. Without this condition
move assignment is wrong: `C17_move_from_own_member`.
-/
namespace Dart.Props
open Dart.Ptr Dart.Spec.Ptr

/-- C17: no statement touches deleted memory or deletes twice: each one has defined behaviour. -/
theorem C17_defined_partial (n : Nat) (s : State) (h : Reached n s) (op : Op) (hs : Sound s op) : ∃ s', s.step op = some s' := by
  obtain ⟨s', h1, _⟩ := step_ok (reached_inv h) hs
  exact ⟨s', h1⟩

/-- C17: statements whose pointers are all variables are always defined. -/
theorem C17_variables (s : State) (op : Op) (hd : ∃ x, dest op = .var x ∧ x < s.vars.length)
    (ho : ∀ d o, op = .copy d o ∨ op = .move d o ∨ op = .convCopy d o ∨ op = .convMove d o → ∃ y, o = .var y ∧ y < s.vars.length) :
    Sound s op := by
  obtain ⟨x, hx, hlt⟩ := hd
  have hw : ∀ s', s.write (.var x) none = some s' → s'.vars.length = s.vars.length := by
    intro s' h
    simp only [State.write, if_pos hlt] at h
    cases h
    simp
  cases op with
  | make d k =>
    simp only [dest] at hx; subst hx
    exact ⟨hlt, fun s' h => by have := hw s' h; simp only [Usable]; omega⟩
  | reset d =>
    simp only [dest] at hx; subst hx
    exact ⟨hlt, fun s' h => by have := hw s' h; simp only [Usable]; omega⟩
  | copy d o =>
    simp only [dest] at hx; subst hx
    obtain ⟨y, rfl, hy⟩ := ho _ _ (.inl rfl)
    exact ⟨hlt, hy, fun s' h => by have := hw s' h; simp only [Usable]; omega⟩
  | move d o =>
    simp only [dest] at hx; subst hx
    obtain ⟨y, rfl, hy⟩ := ho _ _ (.inr (.inl rfl))
    exact ⟨hlt, hy, fun s' h => by have := hw s' h; simp only [Usable]; omega⟩
  | convCopy d o =>
    simp only [dest] at hx; subst hx
    obtain ⟨y, rfl, hy⟩ := ho _ _ (.inr (.inr (.inl rfl)))
    exact ⟨hlt, hy, fun s' h => by have := hw s' h; simp only [Usable]; omega⟩
  | convMove d o =>
    simp only [dest] at hx; subst hx
    obtain ⟨y, rfl, hy⟩ := ho _ _ (.inr (.inr (.inr rfl)))
    exact ⟨hlt, hy, fun s' h => by have := hw s' h; simp only [Usable]; omega⟩

/-- C17: copying from anywhere, also from a member of the object about to be released, into a variable
is always defined. -/
theorem C17_copy_to_variable (s : State) (x : Nat) (o : Loc) (hx : x < s.vars.length) (ho : Usable s o) :
    Sound s (.copy (.var x) o) := by
  refine ⟨hx, ho, fun s' h => ?_⟩
  simp only [State.write, if_pos hx] at h
  cases h
  simpa [Usable] using hx

/-- C17: the reported use count is the number of owners, zero for null pointers. -/
theorem C17_use_count_partial (n : Nat) (s : State) (h : Reached n s) (l : Loc) (hl : Usable s l) :
    ∃ p, s.read l = some p ∧ s.useCount l = some (match p with | none => 0 | some a => owners s a) := by
  have hi := reached_inv h
  obtain ⟨p, hp⟩ := usable_read hl
  refine ⟨p, hp, ?_⟩
  cases p with
  | none => simp only [State.useCount, hp, Option.bind_some]
  | some a =>
    simp only [State.useCount, hp, Option.bind_some]
    obtain ⟨m, h1, _⟩ := incr_ok hi ⟨l, hp⟩
    simp only [Mem.incr, Option.map_eq_some_iff] at h1
    obtain ⟨b, hb, _⟩ := h1
    rw [owners_eq, hb, Option.map_some, occs, hi.counted.eq a, cnt_some hb]

/-- C17: an object that was created is destroyed if and only if it has no owner. -/
theorem C17_destroyed_iff_unowned_partial (n : Nat) (s : State) (h : Reached n s) (a : Nat) (ha : a < s.mem.blocks.length) :
    a ∈ s.mem.log ↔ owners s a = 0 := by
  have hi := reached_inv h
  rw [hi.log.iff a, owners_eq, occs, hi.counted.eq a, cnt]
  cases hb : s.mem.at a with
  | none => simp [ha]
  | some b =>
    have := hi.counted.pos a b hb
    simp
    omega

/-- C17: no object is destroyed twice, and a destroyed object stays destroyed. -/
theorem C17_destroyed_once_partial (n : Nat) (s : State) (h : Reached n s) :
    s.mem.log.Nodup ∧ ∀ op s', Sound s op → s.step op = some s' → ∃ l, s'.mem.log = l ++ s.mem.log := by
  have hi := reached_inv h
  refine ⟨hi.log.nodup, fun op s' hs hstep => ?_⟩
  obtain ⟨s'', h1, _, h3, _⟩ := step_ok hi hs
  rw [h1] at hstep
  cases hstep
  exact h3.log

/-- C17: the destination of a statement gets the new value, a pointer moved from becomes null, and no
other pointer changes (unless its object is destroyed). Conversion of a pointer by move assignment to one
that already has the same value does nothing. -/
theorem C17_effect_partial (n : Nat) (s s' : State) (h : Reached n s) (op : Op) (hs : Sound s op) (hstep : s.step op = some s') :
    s'.read (dest op) = result s op ∧
    (∀ o, source op = some o → o ≠ dest op → (∀ d, op = .convMove d o → s.read d ≠ s.read o) → s'.read o = some none) ∧
    (∀ o p p', o ≠ dest op → source op ≠ some o → s.read o = some p → s'.read o = some p' → p' = p) := by
  obtain ⟨s'', h1, _, h3, h4⟩ := step_ok (reached_inv h) hs
  rw [h1] at hstep
  cases hstep
  exact ⟨h3.result, h4, h3.others⟩

/-- C17: whatever is reachable without the overwritten pointer survives the statement. -/
theorem C17_survives_partial (n : Nat) (s s0 s' : State) (h : Reached n s) (op : Op) (hs : Sound s op) (hstep : s.step op = some s')
    (h0 : s.write (dest op) none = some s0) (o : Loc) (ho : Usable s0 o) : (s'.read o).isSome := by
  obtain ⟨s'', h1, _, h3, _⟩ := step_ok (reached_inv h) hs
  rw [h1] at hstep
  cases hstep
  exact h3.survive s0 o h0 ho

/-- C17: when all variables are null and there are no cycles, everything has been destroyed. -/
theorem C17_no_leak_partial (n : Nat) (s : State) (h : Reached n s) (hv : ∀ p ∈ s.vars, p = none) (hac : Acyclic s) (a : Nat)
    (ha : a < s.mem.blocks.length) : a ∈ s.mem.log :=
  ((reached_inv h).log.iff a).2 ⟨ha, no_leak (reached_inv h) hv hac a⟩

/-! ### Concrete cases -/

/-- Statements in order. -/
def runPtr (s : State) (ops : List Op) : Option State := ops.foldl (fun s op => s.bind (·.step op)) (some s)

/-- A list of two nodes: `x = make(1 member); y = make(1 member); x->0 = y; y.reset()`. -/
def twoNodes : State := ⟨⟨[some ⟨1, [some 1]⟩, some ⟨1, [none]⟩], []⟩, [some 0, none]⟩

theorem twoNodes_reached : Reached 2 twoNodes := by
  have v : ∀ {s : State} {op : Op} {s' : State} {m : Nat}, Reached m s → Sound s op → s.step op = some s' → Reached m s' :=
    fun h hs e => .step h hs e
  have s1 := v (.init (n := 2)) (C17_variables (init 2) (.make (.var 0) 1) ⟨0, rfl, by decide⟩ (by intro d o h; simp at h)) rfl
  have s2 := v s1 (C17_variables _ (.make (.var 1) 1) ⟨1, rfl, by decide⟩ (by intro d o h; simp at h)) rfl
  refine v s2 (op := .move (.field 0 0) (.var 1)) ?_ (by decide +kernel)
  refine ⟨⟨.var (x := 0) rfl, by decide +kernel⟩, by simp only [Usable]; decide +kernel, fun s' h => ?_⟩
  cases h
  exact ⟨⟨.var (x := 0) rfl, by decide +kernel⟩, by simp only [Usable]; decide +kernel⟩

/-- Popping the list by copy assignment, `x = x->next`: the first node is destroyed, the second not. -/
example : Sound twoNodes (.copy (.var 0) (.field 0 0)) ∧
    (twoNodes.step (.copy (.var 0) (.field 0 0))) = some ⟨⟨[none, some ⟨1, [none]⟩], [0]⟩, [some 1, none]⟩ :=
  ⟨C17_copy_to_variable _ _ _ (by decide) ⟨.var (x := 0) rfl, by decide +kernel⟩, by decide +kernel⟩

/-- Resetting the head destroys both, once each. -/
example : Sound twoNodes (.reset (.var 0)) ∧ (twoNodes.step (.reset (.var 0))) = some ⟨⟨[none, none], [1, 0]⟩, [none, none]⟩ :=
  ⟨C17_variables _ _ ⟨0, rfl, by decide⟩ (by intro d o h; simp at h), by decide +kernel⟩

example : Acyclic twoNodes := by
  refine ⟨fun a => 1 - a, fun a j a' h => ?_⟩
  simp only [State.read, twoNodes, Mem.at] at h
  match a with
  | 0 =>
    match j with
    | 0 => simp at h; show 1 - a' < 1 - 0; omega
    | j + 1 => simp at h
  | 1 =>
    match j with
    | 0 => simp at h
    | j + 1 => simp at h
  | a + 2 => simp at h

/-- The code violates C17 for move assignment in general: popping the list by `x = std::move(x->next)`
destroys `x` first, which deletes the node `x->next` is a member of and the rest of the list, and then
reads the deleted pointer. -/
theorem C17_move_from_own_member : Usable twoNodes (.var 0) ∧ Usable twoNodes (.field 0 0) ∧
    twoNodes.step (.move (.var 0) (.field 0 0)) = none ∧ twoNodes.step (.convMove (.var 0) (.field 0 0)) = none :=
  ⟨by simp only [Usable]; decide, ⟨.var (x := 0) rfl, by decide +kernel⟩, by decide +kernel, by decide +kernel⟩

/-- So does resetting a member that (alone) keeps its own object alive. -/
theorem C17_reset_own_member : (⟨⟨[some ⟨1, [some 0]⟩], []⟩, [none]⟩ : State).step (.reset (.field 0 0)) = none := by decide +kernel

/-- A pointer moved from by converting move assignment is not null if both were equal. -/
theorem C17_converting_move_keeps_source (s : State) (d o : Loc) (p : Option Nat) (hd : s.read d = some p) (ho : s.read o = some p) :
    s.step (.convMove d o) = some s := by
  simp [State.step, State.convMove, hd, ho]

end Dart.Props
