import Verif.Model.Basic

/-
The intrusive reference-counted pointers `counted_ptr_base` (`unsafe_ptr`, `skinny_ptr`),
include/dart/support/ptrs.h 31-160 and include/dart/support/ptrs.tcc 14-216.

A managed object may itself hold such pointers (its members). A pointer lives in a variable or is a
member of a managed object. The counter is a natural number (in the code a signed 64-bit integer;
2^63 owners are not modelled). Threads are not modelled.
-/
namespace Dart.Ptr

/-- A control block with the managed object: `managed_ptr`, include/dart/support/ptrs.h 32-40. Of the
object only its pointer members matter. -/
structure Block where
  count : Nat
  slots : List (Option Nat)
  deriving DecidableEq

/-- Blocks by address (`none` once deleted; addresses are not reused) and the addresses whose deleter
was called, latest first. -/
structure Mem where
  blocks : List (Option Block)
  log : List Nat
  deriving DecidableEq

/-- Memory and pointer variables. A pointer is null or the address of a block. A variable not (yet or
any more) in scope is a null variable. -/
structure State where
  mem : Mem
  vars : List (Option Nat)
  deriving DecidableEq

/-- The block at an address, if not deleted. -/
def Mem.at (m : Mem) (a : Nat) : Option Block := m.blocks[a]?.join

/-- All members of live objects. -/
def Mem.slots (m : Mem) : List (Option Nat) := m.blocks.flatMap fun b => match b with | some b => b.slots | none => []

/-- Where a pointer lives: variable, or member `j` of the object managed by block `a`. -/
inductive Loc
  | var (x : Nat)
  | field (a j : Nat)
  deriving DecidableEq

/-- `other.value`; `none` if the location does not exist (any more): undefined behaviour. -/
def State.read (s : State) : Loc → Option (Option Nat)
  | .var x => s.vars[x]?
  | .field a j => (s.mem.at a).bind fun b => b.slots[j]?

/-- Assignment to `value`; `none` if the location does not exist (any more): undefined behaviour. -/
def State.write (s : State) (l : Loc) (p : Option Nat) : Option State :=
  match l with
  | .var x => if x < s.vars.length then some { s with vars := s.vars.set x p } else none
  | .field a j => (s.mem.at a).bind fun b =>
    if j < b.slots.length then
      some { s with mem := { s.mem with blocks := s.mem.blocks.set a (some { b with slots := b.slots.set j p }) } }
    else none

/-- `if (value) ++value->use_count`, include/dart/support/ptrs.tcc 33, 61. -/
def Mem.incr (m : Mem) : Option Nat → Option Mem
  | none => some m
  | some a => (m.at a).map fun b => { m with blocks := m.blocks.set a (some { b with count := b.count + 1 }) }

/-- `~counted_ptr_base`, include/dart/support/ptrs.tcc 69-75, for a list of pointers to be destroyed:
`if (value && --value->use_count == 0) { value->destroy(); delete value; }`. Destroying the object
destroys its members. Touching a deleted block is `none`. (The block counts as deleted as soon as its
object's destruction begins.) The first argument bounds the number of pointers destroyed. -/
def release : Nat → List (Option Nat) → Mem → Option Mem
  | _, [], m => some m
  | 0, _ :: _, _ => none
  | n + 1, none :: w, m => release n w m
  | n + 1, some a :: w, m =>
    match m.at a with
    | none => none
    | some b =>
      if b.count > 1 then release n w { m with blocks := m.blocks.set a (some { b with count := b.count - 1 }) }
      else release n (b.slots ++ w) ⟨m.blocks.set a none, a :: m.log⟩

/-- `this->~counted_ptr_base()`: the pointer itself keeps its old value. -/
def State.destroy (s : State) (l : Loc) : Option State :=
  (s.read l).bind fun p => (release (s.mem.slots.length + 1) [p] s.mem).map fun m => { s with mem := m }

/-- `this->~counted_ptr_base(); new(this) counted_ptr_base(std::move(tmp))` where `tmp` is a local
variable holding `p`. -/
def State.moveIn (s : State) (l : Loc) (p : Option Nat) : Option State := (s.destroy l).bind fun s => s.write l p

/-- `operator =(counted_ptr_base&&)`, include/dart/support/ptrs.tcc 113-121. -/
def State.move (s : State) (d o : Loc) : Option State :=
  if d = o then some s
  else (s.destroy d).bind fun s => (s.read o).bind fun p => (s.write d p).bind fun s => s.write o none

/-- `operator =(counted_ptr_base const&)`, include/dart/support/ptrs.tcc 103-110: copy to a temporary,
move-assign the temporary. -/
def State.copy (s : State) (d o : Loc) : Option State :=
  if d = o then some s
  else (s.read o).bind fun p => (s.mem.incr p).bind fun m => State.moveIn { s with mem := m } d p

/-- `operator =(counted_ptr_base<U> const&)`, include/dart/support/ptrs.tcc 77-87: compares the values,
not the addresses of the pointers. -/
def State.convCopy (s : State) (d o : Loc) : Option State :=
  (s.read d).bind fun q => (s.read o).bind fun p =>
    if q = p then some s else (s.mem.incr p).bind fun m => State.moveIn { s with mem := m } d p

/-- `operator =(counted_ptr_base<U>&&)`, include/dart/support/ptrs.tcc 89-101. -/
def State.convMove (s : State) (d o : Loc) : Option State :=
  (s.read d).bind fun q => (s.read o).bind fun p =>
    if q = p then some s
    else (s.destroy d).bind fun s => (s.read o).bind fun p => (s.write d p).bind fun s => s.write o none

/-- `reset()`, include/dart/support/ptrs.tcc 189-193; also the destructor of a variable. -/
def State.reset (s : State) (d : Loc) : Option State := (s.destroy d).bind fun s => s.write d none

/-- `reset(new T(…))`, include/dart/support/ptrs.tcc 195-200, and `make_unsafe`, `make_skinny`
(591-614): a new block with count 1 whose object has `k` null members, moved in. -/
def State.make (s : State) (d : Loc) (k : Nat) : Option State :=
  State.moveIn { s with mem := { s.mem with blocks := s.mem.blocks ++ [some ⟨1, List.replicate k none⟩] } } d
    (some s.mem.blocks.length)

/-- `use_count()`, include/dart/support/ptrs.tcc 182-187. -/
def State.useCount (s : State) (l : Loc) : Option Nat :=
  (s.read l).bind fun p => match p with
    | none => some 0
    | some a => (s.mem.at a).map (·.count)

/-- A statement. Copy and move construction of a variable are assignments to a null variable. -/
inductive Op
  | make (d : Loc) (k : Nat)
  | reset (d : Loc)
  | copy (d o : Loc)
  | move (d o : Loc)
  | convCopy (d o : Loc)
  | convMove (d o : Loc)
  deriving DecidableEq

/-- One statement; `none` is undefined behaviour. -/
def State.step (s : State) : Op → Option State
  | .make d k => s.make d k
  | .reset d => s.reset d
  | .copy d o => s.copy d o
  | .move d o => s.move d o
  | .convCopy d o => s.convCopy d o
  | .convMove d o => s.convMove d o

/-- `n` null variables, nothing allocated. -/
def init (n : Nat) : State := ⟨⟨[], []⟩, List.replicate n none⟩

end Dart.Ptr
