import Verif.Lemmas.TypedInv

/-
C55: the members of the typed wrappers declared `noexcept` do not end the program.
-/
namespace Dart.Props
open Dart.Typed

/-- In any state a program can get to (without the reference of C54), which steps end the program: exactly those that need
the value of a wrapper that is null, and arithmetic on a finalized number. -/
theorem C55_ends_iff {signed : Bool} {st : State} (h : Reached signed st) {op : Op} (hw : OpWF op) (hf : Typed.Fits st op) :
    op.run signed st = .terminate ↔ Ends st op := by
  obtain ⟨a, ha⟩ := h.rel
  exact terminate_iff ha h.sound hw hf

/-- No step has undefined behaviour. -/
theorem C55_defined {signed : Bool} {st : State} (h : Reached signed st) {op : Op} (hw : OpWF op) (hf : Typed.Fits st op) :
    op.run signed st ≠ .ub := by
  obtain ⟨a, ha⟩ := h.rel
  obtain ⟨out, _, h2⟩ := step_ok (signed := signed) ha op hw hf
  intro e
  rw [e] at h2
  cases out <;> exact h2.elim

/-- A program that never moves from a wrapper is ended by nothing but arithmetic on a number that was read from a finalized
packet. -/
theorem C55_program_partial {signed : Bool} {ops : List Op} (hw : ∀ op ∈ ops, OpWF op) (hr : ∀ op ∈ ops, ¬ op.throughRef)
    (hm : ∀ op ∈ ops, ¬ op.movesWrap) (hf : ProgFits signed start ops) :
    (∃ st log, run signed start ops = .done st log) ∨
    ∃ pre w f suf st log p, ops = pre ++ .arith w f :: suf ∧ run signed start pre = .done st log ∧
      st.wraps[w]? = some (.number, p) ∧ p.isFinalized := by
  obtain ⟨r, _, h2⟩ := steps_ok ops rel_start hw hf
  cases he : run signed start ops with
  | done st log => exact .inl ⟨st, log, rfl⟩
  | ub => rw [he] at h2; cases r <;> exact h2.elim
  | terminate =>
    obtain ⟨pre, op, suf, st, log, rfl, h4, h5, h6, h7⟩ := run_ends ops he hf
    have hreach : Reached signed st := ⟨pre, log, fun o ho => ⟨hw o (by simp [ho]), hr o (by simp [ho])⟩, h5, h4⟩
    have hend := (C55_ends_iff hreach (hw op (by simp)) h6).1 h7
    have hs : Sound False st := sound_run (e := False) pre (fun x hx => by simp [start] at hx)
      (fun o ho => hr o (by simp [ho])) (fun o ho => hm o (by simp [ho])) h4
    have hnn : ∀ {w : Nat} {k : Kind} {p : Pkt}, st.wraps[w]? = some (k, p) → p.getType ≠ .null := by
      intro w k p hwp hnull
      rcases hs.get hwp with h | h
      · rw [hnull] at h; cases k <;> simp [Kind.Typed] at h
      · exact h.1
    cases op with
    | ask w q => obtain ⟨k, p, h8, _, _, h9⟩ := hend; exact absurd h9 (hnn h8)
    | concat w q => obtain ⟨p, h8, h9⟩ := hend; exact absurd h9 (hnn h8)
    | arith w f =>
      obtain ⟨p, h8, h9⟩ := hend
      exact .inr ⟨pre, w, f, suf, st, log, p, rfl, h4, h8, h9.resolve_left (hnn h8)⟩
    | _ => exact hend.elim

/-- A program that does all sorts of things. -/
def quietExample : List Op :=
  [.make .object (.obj []), .mutate 0 (.insert (.const (.str [110])) (.const (.int 7))), .finalize 0,
   .read 0 (.get [110]), .wrap .number 0 false, .ask 1 .numeric, .ask 0 .size, .ask 0 (.hasKey [110]), .ask 0 .view,
   .make .string (.str [104]), .concat 2 [105], .ask 2 .strv, .ask 2 (.charAt 1), .make .flag (.bool true),
   .ask 3 .boolean, .assignNative 1 (.int 3), .arith 1 .incr, .ask 1 .toDouble]

example : (match run true start quietExample with
    | .done _ log => some log
    | _ => none) = some [.inl .nothing, .inl .nothing, .inl .nothing, .inl .nothing, .inl .nothing,
      .inl (.word 0x401C000000000000#64), .inl (.nat 1), .inl (.bool true), .inl (.type .object), .inl .nothing, .inl .nothing,
      .inl (.bytes [104, 105]), .inl (.char 105), .inl .nothing, .inl (.bool true), .inl .nothing, .inl .nothing,
      .inl (.word 0x4010000000000000#64)] := by decide +kernel

/-- The full statement is false: `++n` ends the program if `n` was read from a finalized object. -/
def finalizedNumber : List Op :=
  [.make .object (.obj []), .mutate 0 (.insert (.const (.str [110])) (.const (.int 7))), .finalize 0,
   .read 0 (.get [110]), .wrap .number 0 false, .arith 1 .incr]

theorem C55_negation_arithmetic : (∀ op ∈ finalizedNumber, OpWF op ∧ ¬ op.throughRef ∧ ¬ op.movesWrap) ∧
    run true start finalizedNumber = .terminate := by
  constructor
  · intro op ho
    simp only [finalizedNumber, List.mem_cons, List.not_mem_nil, or_false] at ho
    rcases ho with rfl | rfl | rfl | rfl | rfl | rfl <;>
      simp [OpWF, Op.throughRef, Op.movesWrap, PMut.All, PRead.All, Spec.constWF, Val.WF, WFFields]
  · have : (match run true start finalizedNumber with | .terminate => true | _ => false) = true := by decide +kernel
    revert this
    cases run true start finalizedNumber <;> simp

/-- And any question that needs a value, asked a wrapper that was moved from: here the size of an object, the characters of
a string, the value of a number and of a flag, and the view of an array. -/
theorem C55_negation_moved :
    run true start [.make .object (.obj []), .dup 0 true, .ask 0 .size] = .terminate ∧
    run true start [.make .string (.str []), .dup 0 true, .ask 0 .strv] = .terminate ∧
    run true start [.make .number (.int 1), .dup 0 true, .ask 0 .numeric] = .terminate ∧
    run true start [.make .flag (.bool true), .dup 0 true, .ask 0 .boolean] = .terminate ∧
    run true start [.make .array (.arr []), .dup 0 true, .ask 0 .view] = .terminate :=
  ⟨rfl, rfl, rfl, rfl, rfl⟩

end Dart.Props
