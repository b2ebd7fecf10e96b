import Verif.Model.BufFail

/-
What programs that make buffers and hand bytes over are supposed to do: variables have values, pointers have bytes; a statement is
executed, or nothing happens.
-/
namespace Dart.Spec.Hand
open Dart.Hand

/-- The bytes of each buffer variable (`none`: null), and of each `unique_ptr`, with whether they lie at a multiple of 8. -/
structure Env where
  vars : Nat → Option Bytes
  ptrs : Nat → Option (Bytes × Bool)

/-- Nothing yet. -/
def Env.start : Env := ⟨fun _ => none, fun _ => none⟩

/-- Assigning to one name. -/
def upd {α : Type} (f : Nat → α) (x : Nat) (a : α) : Nat → α := fun y => if y = x then a else f y

/-- A statement for which there is enough memory. -/
def exec (e : Env) : Op → Env × End
  | .own u bytes aligned => (⟨e.vars, upd e.ptrs u (some (bytes, aligned))⟩, .done)
  | .build _ (some err) _ => (e, .threw err)
  | .build _ none (.throw err) => (e, .threw err)
  | .build _ none .ub => (e, .ub)
  | .build x none (.ok m) => (⟨upd e.vars x (some m), e.ptrs⟩, .done)
  | .take x u =>
    match e.ptrs u with
    | some (m, true) => (⟨upd e.vars x (some m), upd e.ptrs u none⟩, .done)
    | _ => (e, .threw .invalidArgument)
  | .dup u x =>
    match e.vars x with
    | some m => (⟨e.vars, upd e.ptrs u (some (m, true))⟩, .done)
    | none => (e, .threw .typeError)
  | .copy x y => (⟨upd e.vars x (e.vars y), e.ptrs⟩, .done)
  | .move x y => (⟨if x = y then e.vars else upd (upd e.vars y none) x (e.vars y), e.ptrs⟩, .done)
  | .drop x => (⟨upd e.vars x none, e.ptrs⟩, .done)
  | .reset u => (⟨e.vars, upd e.ptrs u none⟩, .done)

/-- Each statement ended as if there were memory and did what it does then, or an allocation failed in it, it ended with
`std::bad_alloc`, and nothing changed. -/
def AllOrNothing (e : Env) : List (Op × Fault) → List End → Env → Prop
  | [], [], e' => e' = e
  | (op, f) :: ops, r :: rs, e' =>
    (r = .badAlloc ∧ f ≠ .none ∧ AllOrNothing e ops rs e') ∨ (r = (exec e op).2 ∧ AllOrNothing (exec e op).1 ops rs e')
  | _, _, _ => False

/-- The variables and pointers a statement names are among those of the program. -/
def Names (z : Size) : Op → Prop
  | .own u _ _ => u < z.ptrs
  | .build x _ _ => x < z.vars
  | .take x u => x < z.vars ∧ u < z.ptrs
  | .dup u x => x < z.vars ∧ u < z.ptrs
  | .copy x y => x < z.vars ∧ y < z.vars
  | .move x y => x < z.vars ∧ y < z.vars
  | .drop x => x < z.vars
  | .reset u => u < z.ptrs

/-- What the code gets right: not a control block that cannot be allocated while a buffer takes bytes over, nor, with the counters
of the library, while it is made. What writes the bytes is defined. -/
def Survivable (k : Share.Kind) (f : Fault) : Op → Prop
  | .take _ _ => f ≠ .control
  | .build _ _ w => w ≠ .ub ∧ (f = .control → k = .std)
  | _ => True

/-- Some variable or pointer owns the block. -/
def Owned (s : State) (b : Nat) : Prop := (∃ x, s.vars x = some b) ∨ ∃ u, s.ptrs u = some b

/-- A block that is not freed has these bytes. -/
def Live (s : State) (b : Nat) (bytes : Bytes) (aligned : Bool) : Prop := s.blocks[b]? = some ⟨bytes, aligned, 0⟩

/-- Variables and pointers have the values of the environment, in memory that is not freed; each pointer is the only owner. -/
structure Shows (s : State) (e : Env) : Prop where
  vars : ∀ x, match e.vars x with
    | none => s.vars x = none
    | some m => ∃ b, s.vars x = some b ∧ Live s b m true
  ptrs : ∀ u, match e.ptrs u with
    | none => s.ptrs u = none
    | some (m, a) => ∃ b, s.ptrs u = some b ∧ Live s b m a ∧ (∀ x, s.vars x ≠ some b) ∧ ∀ v, s.ptrs v = some b → v = u

end Dart.Spec.Hand
