import Verif.Model.Lower
import Verif.Model.Share

/-
Making finalized buffers when memory runs out: which blocks of memory are freed, and how often. A program has buffer variables
and `std::unique_ptr`s to bytes. In each statement one allocation may fail. Parts of buffers are left out (C35), as are reference
counts (C17, C70): a block is freed when its last owner goes.
-/
namespace Dart.Hand

/-- A block of memory: its contents, whether its address is a multiple of 8, and how often it was freed. -/
structure Blk where
  bytes : Bytes
  aligned : Bool
  freed : Nat
  deriving DecidableEq, Repr

/-- All blocks ever allocated, the block each buffer variable owns, and the block each `unique_ptr` owns. -/
structure State where
  blocks : List Blk
  vars : Nat → Option Nat
  ptrs : Nat → Option Nat

/-- Owners go up to these numbers. -/
structure Size where
  vars : Nat
  ptrs : Nat

/-- The allocation that fails. -/
inductive Fault
  | none
  /-- the memory for the bytes (`posix_memalign`) -/
  | memory
  /-- the control block of the reference counter -/
  | control
  deriving DecidableEq, Repr

/-- How a statement ends. -/
inductive End
  | done | threw (e : Exc) | badAlloc | ub
  deriving DecidableEq, Repr

/-- Statements. -/
inductive Op
  /-- The caller gets bytes of their own: `u.reset(new byte[n])`, filled. -/
  | own (u : Nat) (bytes : Bytes) (aligned : Bool)
  /-- `x = buffer {…}` through `detail::aligned_alloc`: `check` is what is thrown before anything is allocated, `write` what
  the callback does. -/
  | build (x : Nat) (check : Option Exc) (write : Res Bytes)
  /-- `x = buffer {std::move(u)}` -/
  | take (x u : Nat)
  /-- `u = x.dup_bytes()` -/
  | dup (u x : Nat)
  /-- `x = y` -/
  | copy (x y : Nat)
  /-- `x = std::move(y)` -/
  | move (x y : Nat)
  /-- `x = buffer {}`, or the end of its life -/
  | drop (x : Nat)
  /-- `u.reset()` -/
  | reset (u : Nat)

/-- One more call of the deleter. -/
def State.free (s : State) (b : Nat) : State := { s with blocks := s.blocks.modify b fun k => { k with freed := k.freed + 1 } }

/-- Changing an owner. -/
def put (f : Nat → Option Nat) (x : Nat) (b : Option Nat) : Nat → Option Nat := fun y => if y = x then b else f y

/-- Does anybody own the block? -/
def State.owned (z : Size) (s : State) (b : Nat) : Bool :=
  (List.range z.vars).any (fun x => s.vars x == some b) || (List.range z.ptrs).any (fun u => s.ptrs u == some b)

/-- An owner has let go of what it owned. -/
def State.release (z : Size) (s : State) (old : Option Nat) : State :=
  match old with
  | none => s
  | some b => if s.owned z b then s else s.free b

/-- Giving a buffer variable another block. -/
def State.setVar (z : Size) (s : State) (x : Nat) (b : Option Nat) : State := { s with vars := put s.vars x b }.release z (s.vars x)

/-- Giving a `unique_ptr` another block: it frees the one it had, whoever else thinks to own it. -/
def State.setPtr (s : State) (u : Nat) (b : Option Nat) : State :=
  match s.ptrs u with
  | none => { s with ptrs := put s.ptrs u b }
  | some old => { s with ptrs := put s.ptrs u b }.free old

/-- A new block. -/
def State.alloc (s : State) (k : Blk) : State := { s with blocks := s.blocks ++ [k] }

/-- `detail::aligned_alloc`, include/dart/common.h 1370-1384, and the assignment of its result: include/dart/conversion_traits.h
120-139 (from dynamic objects), include/dart/common.tcc 226-282 (from pairs, merging, projecting), include/dart/buffer/detail.tcc
20-29 (from a span), include/dart/connector/json.tcc 100-109, 183-192. `Owner ref {tmp, …}` allocates the control block: if it
cannot, `std::shared_ptr` calls the deleter, the counters of the library do not (include/dart/support/ptrs.tcc 14-29; see C70). If
the callback throws, `ref` is destroyed. -/
def State.build (k : Share.Kind) (z : Size) (s : State) (x : Nat) (check : Option Exc) (write : Res Bytes) (f : Fault) : State × End :=
  match check with
  | some e => (s, .threw e)
  | none =>
    match f with
    | .memory => (s, .badAlloc)
    | .control => (s.alloc ⟨[], true, match k with | .std => 1 | .own => 0⟩, .badAlloc)
    | .none =>
      match write with
      | .throw e => (s.alloc ⟨[], true, 1⟩, .threw e)
      | .ub => (s, .ub)
      | .ok m => ((s.alloc ⟨m, true, 0⟩).setVar z x (some s.blocks.length), .done)

/-- `basic_buffer(std::unique_ptr&&)`, include/dart.h 8064-8108: `validate_pointer` (include/dart/buffer/detail.tcc 31-41) looks,
then the parameter of `normalize` (43-52) takes the bytes. If the control block cannot be allocated, `std::shared_ptr` calls the
deleter, and then the destructor of the parameter calls it (again). -/
def State.take (k : Share.Kind) (z : Size) (s : State) (x u : Nat) (f : Fault) : State × End :=
  match s.ptrs u with
  | none => (s, .threw .invalidArgument)
  | some b =>
    if ((s.blocks[b]?).map (·.aligned)).getD false then
      match f with
      | .control =>
        let t := { s with ptrs := put s.ptrs u none }
        (match k with | .std => (t.free b).free b | .own => t.free b, .badAlloc)
      | _ => ({ s with ptrs := put s.ptrs u none }.setVar z x (some b), .done)
    else (s, .threw .invalidArgument)

/-- `dup_bytes()`, include/dart/buffer/api.tcc 266-282; a `unique_ptr` has no control block. The root of a buffer made by these
statements is an object; its length is that of the block here (C35, C75). -/
def State.dup (s : State) (u x : Nat) (f : Fault) : State × End :=
  match s.vars x with
  | none => (s, .threw .typeError)
  | some b =>
    match f with
    | .memory => (s, .badAlloc)
    | _ => ((s.alloc ⟨((s.blocks[b]?).map (·.bytes)).getD [], true, 0⟩).setPtr u (some s.blocks.length), .done)

/-- One statement. -/
def State.step (k : Share.Kind) (z : Size) (s : State) (f : Fault) : Op → State × End
  | .own u bytes aligned =>
    match f with
    | .memory => (s, .badAlloc)
    | _ => ((s.alloc ⟨bytes, aligned, 0⟩).setPtr u (some s.blocks.length), .done)
  | .build x check write => s.build k z x check write f
  | .take x u => s.take k z x u f
  | .dup u x => s.dup u x f
  -- copies share the control block, include/dart.h 8118 and include/dart/support/ptrs.tcc 257-260
  | .copy x y => (s.setVar z x (s.vars y), .done)
  -- include/dart/buffer/api.tcc 12-30
  | .move x y => if x = y then (s, .done) else ({ s with vars := put s.vars y none }.setVar z x (s.vars y), .done)
  | .drop x => (s.setVar z x none, .done)
  | .reset u => (s.setPtr u none, .done)

/-- A program and how its statements end. -/
def State.run (k : Share.Kind) (z : Size) (s : State) : List (Op × Fault) → State × List End
  | [] => (s, [])
  | (op, f) :: ops => ((State.run k z (s.step k z f op).1 ops).1, (s.step k z f op).2 :: (State.run k z (s.step k z f op).1 ops).2)

/-- Nothing yet. -/
def State.start : State := ⟨[], fun _ => none, fun _ => none⟩

/-- `x = buffer {heap}`, include/dart/conversion_traits.h 120-139: the type is checked first, `layout` may throw. -/
def finalizeInto (x : Nat) (v : Val) : Op := .build x (match v with | .obj _ => none | _ => some .typeError) (finalize v)

end Dart.Hand
