import Verif.Lemmas.BufFail

/-
C79: when memory runs out while buffers are made or bytes handed over, nothing is lost, and nothing is freed twice.
-/
namespace Dart.Props
open Hand Spec.Hand

/-- Any program that makes buffers (from dynamic objects, spans, pairs, JSON text; by merging and projecting), lets them take over
the bytes of `unique_ptr`s, exports, copies, moves and destroys them, where any allocations fail and any of the conversions
throw: each statement does what it does with enough memory, or throws `std::bad_alloc` and changes nothing. All variables and pointers
have their bytes in memory that is not freed, and each `unique_ptr` is the only owner of its.

Missing for the full property: what `Survivable` excludes, see below. -/
theorem C79_all_or_nothing_partial (k : Share.Kind) (z : Size) (ops : List (Op × Fault)) (hnames : ∀ o ∈ ops, Names z o.1)
    (hcov : ∀ o ∈ ops, Survivable k o.2 o.1) :
    ∃ e, AllOrNothing .start ops (State.start.run k z ops).2 e ∧ Shows (State.start.run k z ops).1 e := by
  obtain ⟨e, h1, h2, h3⟩ := run_ok (k := k) ops (inv_start z) sim_start hnames hcov
  exact ⟨e, h1, shows_of h2 h3⟩

/-- Every block that was ever allocated is freed exactly once if nobody owns it any more, and not freed while somebody does. -/
theorem C79_freed_once_partial (k : Share.Kind) (z : Size) (ops : List (Op × Fault)) (hnames : ∀ o ∈ ops, Names z o.1)
    (hcov : ∀ o ∈ ops, Survivable k o.2 o.1) :
    ∀ b ∈ (State.start.run k z ops).1.blocks.zipIdx,
      (b.1.freed = 0 ∧ Owned (State.start.run k z ops).1 b.2) ∨ (b.1.freed = 1 ∧ ¬ Owned (State.start.run k z ops).1 b.2) := by
  obtain ⟨e, _, h2, _⟩ := run_ok (k := k) ops (inv_start z) sim_start hnames hcov
  intro b hb
  exact h2.bal b.2 b.1 (List.mk_mem_zipIdx_iff_getElem?.1 hb) (nofun)

/-- With enough memory every statement does what it is supposed to do, whichever counters are used. -/
theorem C79_enough_memory (k : Share.Kind) (z : Size) (ops : List Op) (hnames : ∀ o ∈ ops, Names z o)
    (hdef : ∀ x c, Op.build x c .ub ∉ ops) :
    ∃ e, AllOrNothing .start (ops.map (·, .none)) (State.start.run k z (ops.map (·, .none))).2 e ∧
      End.badAlloc ∉ (State.start.run k z (ops.map (·, .none))).2 ∧ Shows (State.start.run k z (ops.map (·, .none))).1 e := by
  obtain ⟨e, h1, h2⟩ := C79_all_or_nothing_partial k z (ops.map (·, .none))
    (by intro o ho; obtain ⟨o', h', rfl⟩ := List.mem_map.1 ho; exact hnames o' h')
    (by
      intro o ho
      obtain ⟨o', h', rfl⟩ := List.mem_map.1 ho
      cases o' with
      | take x u => exact (nofun)
      | build x c w => exact ⟨fun hw => hdef x c (hw ▸ h'), (nofun)⟩
      | _ => trivial)
  refine ⟨e, h1, ?_, h2⟩
  clear h2
  revert h1
  generalize (State.start.run k z (ops.map (·, .none))).2 = ends
  generalize Env.start = e₀
  clear hnames hdef
  induction ops generalizing ends e₀ with
  | nil =>
    cases ends with
    | nil => intro _ h; cases h
    | cons _ _ => exact fun h => h.elim
  | cons o ops ih =>
    cases ends with
    | nil => exact fun h => h.elim
    | cons r ends =>
      rintro (⟨_, h, _⟩ | ⟨h1, h2⟩) hm
      · exact h rfl
      · cases hm with
        | head =>
          revert h1
          cases o with
          | build x c w => cases c <;> cases w <;> exact (nofun)
          | take x u => simp only [exec]; split <;> exact (nofun)
          | dup u x => simp only [exec]; split <;> exact (nofun)
          | _ => exact (nofun)
        | tail _ hm => exact ih _ _ h2 hm

/-- Finalizing a dynamic value: without memory it throws `std::bad_alloc` and the variable keeps its value; what is no object, and
objects that are too large, are refused; else the variable shows the bytes. -/
theorem C79_finalize (z : Size) (s : State) (x : Nat) (v : Val)
    (hs : ∀ b, Owned s b → b < s.blocks.length) :
    (∀ m, finalize v = .ok m →
      (s.step .std z .memory (finalizeInto x v)) = (s, .badAlloc) ∧
      ((s.step .std z .control (finalizeInto x v)).2 = .badAlloc ∧ (s.step .std z .control (finalizeInto x v)).1.vars = s.vars) ∧
      ((s.step .std z .none (finalizeInto x v)).2 = .done ∧ ∃ b, (s.step .std z .none (finalizeInto x v)).1.vars x = some b ∧
        Live (s.step .std z .none (finalizeInto x v)).1 b m true)) ∧
    (∀ err, finalize v = .throw err → (s.step .std z .none (finalizeInto x v)).2 = .threw err ∧
      (s.step .std z .none (finalizeInto x v)).1.vars = s.vars ∧ (s.step .std z .none (finalizeInto x v)).1.ptrs = s.ptrs) := by
  refine ⟨fun m hm => ?_, fun err herr => ?_⟩
  · have ho : finalizeInto x v = .build x none (.ok m) := by
      unfold finalizeInto
      rw [hm]
      cases v with
      | obj f => rfl
      | _ => simp [finalize] at hm
    rw [ho]
    refine ⟨rfl, ⟨rfl, rfl⟩, rfl, s.blocks.length, ?_, ?_⟩
    · show ((s.alloc ⟨m, true, 0⟩).setVar z x (some s.blocks.length)).vars x = _
      rw [(setVar_fields _ _ _ _).1]; exact put_self _ _ _
    · show ((s.alloc ⟨m, true, 0⟩).setVar z x (some s.blocks.length)).blocks[s.blocks.length]? = _
      rw [State.setVar]
      cases hx : s.vars x with
      | none => simp [State.alloc, State.release, hx]
      | some b =>
        have hb : b ≠ s.blocks.length := Nat.ne_of_lt (hs b (.inl ⟨x, hx⟩))
        have e1 : (s.alloc ⟨m, true, 0⟩).vars x = some b := hx
        rw [e1]
        simp only [State.release]
        split
        · simp [State.alloc]
        · rw [free_get, if_neg hb]; simp [State.alloc]
  · unfold finalizeInto
    cases v with
    | obj f => rw [herr]; exact ⟨rfl, rfl, rfl⟩
    | _ => cases herr; exact ⟨rfl, rfl, rfl⟩

/-! ### What is wrong -/

/-- Taking bytes over without memory for the control block of a `std::shared_ptr`: the bytes are freed twice. -/
theorem C79_take_frees_twice (z : Size) (s : State) (x u b : Nat) (m : Bytes) (hu : s.ptrs u = some b) (hb : Live s b m true) :
    (s.step .std z .control (.take x u)).2 = .badAlloc ∧
      (s.step .std z .control (.take x u)).1.blocks[b]? = some ⟨m, true, 2⟩ := by
  unfold Live at hb
  simp [State.step, State.take, hu, hb, free_get]

/-- With the counters of the library they are freed once, but the caller has lost them: it is not as if nothing happened. -/
theorem C79_take_loses (z : Size) (s : State) (x u b : Nat) (m : Bytes) (hu : s.ptrs u = some b) (hb : Live s b m true) :
    (s.step .own z .control (.take x u)).2 = .badAlloc ∧ (s.step .own z .control (.take x u)).1.ptrs u = none ∧
      (s.step .own z .control (.take x u)).1.blocks[b]? = some ⟨m, true, 1⟩ := by
  unfold Live at hb
  simp [State.step, State.take, hu, hb, State.free, put]

/-- Making a buffer with the counters of the library, without memory for one: its bytes are never freed, and nobody owns them. -/
theorem C79_build_leaks (z : Size) (s : State) (x : Nat) (w : Res Bytes) (hs : ∀ b, Owned s b → b < s.blocks.length) :
    (s.step .own z .control (.build x none w)).2 = .badAlloc ∧
      (s.step .own z .control (.build x none w)).1.blocks[s.blocks.length]? = some ⟨[], true, 0⟩ ∧
      ¬ Owned (s.step .own z .control (.build x none w)).1 s.blocks.length :=
  ⟨rfl, by simp [State.step, State.build, State.alloc], fun h => absurd (hs _ h) (Nat.lt_irrefl _)⟩

/-! Concrete cases. -/

/-- Two buffers are made (one after failing, one writer throws), one is exported, bytes are handed over, all is dropped. -/
def handovers : List (Op × Fault) :=
  [(finalizeInto 0 (.obj []), .memory), (finalizeInto 0 (.obj []), .control), (finalizeInto 0 (.obj []), .none),
    (finalizeInto 1 .null, .none), (.build 1 none (.throw .lengthError), .none), (.copy 1 0, .none), (.dup 0 1, .memory), (.dup 0 1, .none),
    (.take 2 1, .none), (.own 1 [1, 2, 3] false, .none), (.take 2 1, .none), (.take 2 0, .none), (.take 2 0, .none), (.dup 0 3, .none),
    (.drop 0, .none), (.move 0 1, .none), (.move 0 0, .none), (.copy 2 0, .none), (.reset 1, .none)]

instance namesDec (z : Size) : (op : Op) → Decidable (Names z op)
  | .own .. | .build .. | .take .. | .dup .. | .copy .. | .move .. | .drop .. | .reset .. => by
    simp only [Names]; infer_instance

example : ∀ o ∈ handovers, Names ⟨4, 2⟩ o.1 := by decide +kernel

example : ∀ o ∈ handovers, Survivable .std o.2 o.1 := by
  intro o ho
  simp only [handovers, List.mem_cons, List.not_mem_nil, or_false] at ho
  have hf : finalize (.obj []) ≠ .ub := by
    intro h
    have : (finalize (.obj [])).toOption.isSome = true := by decide +kernel
    rw [h] at this
    cases this
  rcases ho with rfl | rfl | rfl | rfl | rfl | rfl | rfl | rfl | rfl | rfl | rfl | rfl | rfl | rfl | rfl | rfl | rfl | rfl | rfl <;>
    first
    | trivial
    | exact ⟨hf, fun _ => rfl⟩
    | (intro h; cases h; done)
    | exact ⟨by intro h; cases h, fun _ => rfl⟩

example : (State.start.run .std ⟨4, 2⟩ handovers).2 =
    [.badAlloc, .badAlloc, .done, .threw .typeError, .threw .lengthError, .done, .badAlloc, .done, .threw .invalidArgument, .done,
      .threw .invalidArgument, .done, .threw .invalidArgument, .threw .typeError, .done, .done, .done, .done, .done] := by decide +kernel

example : (State.start.run .std ⟨4, 2⟩ handovers).1.blocks.map (·.freed) = [1, 0, 1, 1, 1] := by decide +kernel

example : (List.range 4).map (State.start.run .std ⟨4, 2⟩ handovers).1.vars = [some 1, none, some 1, none] := by decide +kernel

end Dart.Props
