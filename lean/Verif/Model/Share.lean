import Verif.Model.Basic

/-
`shareable_ptr`, the wrapper around any reference counted pointer `T`, with the behaviour of `refcount_traits<T>`,
`std::unique_ptr`s whose objects are handed over, and `view_ptr`, including allocations that fail.

A cell is a pointer of type `T`: a variable of the client or the member `impl` of a `shareable_ptr` (which `raw()` gives
access to, include/dart/support/ptrs.tcc 425-433). Objects have no pointers of their own here (for these see `Verif.Model.Ptr`).
Variables live forever; one out of scope is null. Threads and 2^63 owners are not modelled.
-/
namespace Dart.Share

/-- The pointers a `shareable_ptr` may wrap: those of the library (`unsafe_ptr`, `skinny_ptr`; no difference without threads),
and `std::shared_ptr`. -/
inductive Kind where
  | own
  | std
  deriving DecidableEq

/-- A control block, include/dart/support/ptrs.h 34-58: the object managed, if any, and the number of owners. -/
structure Block where
  obj : Option Nat
  count : Nat
  deriving DecidableEq

/-- Control blocks by address (`none` once deleted), the objects whose deleter was called, latest first, and how often a deleter was
called with a null pointer. -/
structure Mem where
  blocks : List (Option Block)
  log : List Nat
  nulls : Nat
  deriving DecidableEq

/-- `objs` is the number of objects created so far. Views refer to cells. -/
structure State where
  mem : Mem
  objs : Nat
  cells : List (Option Nat)
  uniqs : List (Option Nat)
  views : List (Option Nat)
  deriving DecidableEq

namespace Mem

/-- The block at an address, if not deleted. -/
def at' (m : Mem) (a : Nat) : Option Block := m.blocks[a]?.join

/-- A deleter is called. -/
def del (m : Mem) : Option Nat → Mem
  | some o => { m with log := o :: m.log }
  | none => { m with nulls := m.nulls + 1 }

/-- The copy constructor of `T`, include/dart/support/ptrs.tcc 59-62; `none` if the block was deleted. -/
def inc (m : Mem) : Option Nat → Option Mem
  | none => some m
  | some a => (m.at' a).map fun b => { m with blocks := m.blocks.set a (some { b with count := b.count + 1 }) }

/-- The destructor of `T`, include/dart/support/ptrs.tcc 69-75. -/
def dec (m : Mem) : Option Nat → Option Mem
  | none => some m
  | some a => (m.at' a).map fun b =>
    if b.count - 1 = 0 then Mem.del { m with blocks := m.blocks.set a none } b.obj
    else { m with blocks := m.blocks.set a (some { b with count := b.count - 1 }) }

/-- `refcount::take::perform` with a pointer, include/dart/refcount_traits.h 63-66: `T(owned, del)`. `error` if the control
block cannot be allocated: `counted_ptr_base` (include/dart/support/ptrs.h 78-81) leaves the object alone, `std::shared_ptr` calls
the deleter ([util.smartptr.shared.const]). -/
def take (k : Kind) (m : Mem) (o : Option Nat) (fail : Bool) : Except Mem (Mem × Nat) :=
  if fail then
    match k with
    | .own => .error m
    | .std => .error (m.del o)
  else .ok ({ m with blocks := m.blocks ++ [some ⟨o, 1⟩] }, m.blocks.length)

end Mem

namespace State

/-- Move-assignment of a temporary holding `p` to a cell: the destructors of `shareable_ptr` (include/dart/support/ptrs.tcc
267-275: `reset`, which leaves null, then the destructor of `T`, which has nothing to do) and of `T`, then the move
constructor. -/
def moveIn (s : State) (d : Nat) (p : Option Nat) : Option State :=
  s.cells[d]?.bind fun q => (s.mem.dec q).bind fun m => some { s with mem := m, cells := s.cells.set d p }

/-- Destructor of cell `d`, then move construction from cell `o`; nothing is checked, and moving from the destroyed
pointer itself is undefined. -/
def moveFrom (s : State) (d o : Nat) : Option State :=
  if d = o then none
  else s.cells[d]?.bind fun q => s.cells[o]?.bind fun p => (s.mem.dec q).bind fun m =>
    some { s with mem := m, cells := (s.cells.set d p).set o none }

/-- Copy to a temporary, move-assign the temporary. -/
def copyIn (s : State) (d o : Nat) : Option State :=
  s.cells[o]?.bind fun p => (s.mem.inc p).bind fun m => moveIn { s with mem := m } d p

end State

/-- A statement. `d`, `o`, `p` are cells, `u` unique pointers, `v`, `w` views; `fail` says whether the allocation of a
control block fails. -/
inductive Op where
  /-- `u = std::unique_ptr(new X)` -/
  | uniq (u : Nat)
  /-- the end of `u` -/
  | dropUniq (u : Nat)
  /-- `d = std::move(u)` -/
  | takeUniq (d u : Nat) (fail : Bool)
  /-- `d = shareable_ptr(new X, deleter)` -/
  | takeNew (d : Nat) (fail : Bool)
  /-- `d = make_shareable<T>()` -/
  | make (d : Nat) (fail : Bool)
  /-- `d = nullptr` -/
  | null (d : Nat)
  /-- `d.reset()`, for a `shareable_ptr` or for `T`; also the end of the variable -/
  | reset (d : Nat)
  /-- `d = o` for `shareable_ptr`s; also for two `T`s -/
  | copy (d o : Nat)
  /-- `d = std::move(o)` for `shareable_ptr`s; also for two `T`s -/
  | move (d o : Nat)
  /-- `d = o` for a `shareable_ptr` and a `T` -/
  | copyRaw (d o : Nat)
  /-- `d = std::move(o)` for a `shareable_ptr` and a `T` -/
  | moveRaw (d o : Nat)
  /-- `o.share(p)` -/
  | share (o p : Nat)
  /-- `std::move(o).transfer(p)` -/
  | transfer (o p : Nat)
  /-- `v = d`: look at the `T` in a cell -/
  | view (v d : Nat)
  /-- `v = w` -/
  | viewCopy (v w : Nat)
  /-- `v = std::move(w)` -/
  | viewMove (v w : Nat)
  /-- `v.reset()` -/
  | viewReset (v : Nat)
  deriving DecidableEq

/-- One statement: the state afterwards and whether the statement threw; `none` is undefined behaviour. -/
def State.step (k : Kind) (s : State) : Op → Option (State × Bool)
  | .uniq u => s.uniqs[u]?.bind fun o =>
    some ({ s with mem := if o.isSome then s.mem.del o else s.mem, objs := s.objs + 1, uniqs := s.uniqs.set u (some s.objs) }, false)
  | .dropUniq u => s.uniqs[u]?.bind fun o =>
    some ({ s with mem := if o.isSome then s.mem.del o else s.mem, uniqs := s.uniqs.set u none }, false)
  -- include/dart/support/ptrs.tcc 243-250, 277-285
  | .takeUniq d u fail => s.cells[d]?.bind fun _ => s.uniqs[u]?.bind fun o =>
    match s.mem.take k o fail with
    | .error m => some ({ s with mem := m }, true)
    | .ok (m, a) => (State.moveIn { s with mem := m, uniqs := s.uniqs.set u none } d (some a)).map fun s => (s, false)
  -- include/dart/support/ptrs.tcc 235-241
  | .takeNew d fail => s.cells[d]?.bind fun _ =>
    match s.mem.take k (some s.objs) fail with
    | .error m => some ({ s with mem := m, objs := s.objs + 1 }, true)
    | .ok (m, a) => (State.moveIn { s with mem := m, objs := s.objs + 1 } d (some a)).map fun s => (s, false)
  -- include/dart/support/ptrs.tcc 435-440, include/dart/refcount_traits.h 26-53. If the construction throws, the destructor of
  -- `ptr` resets and destroys a `T` that was never constructed (include/dart/support/ptrs.h 366-374).
  | .make d fail =>
    if fail then none
    else (State.moveIn { s with mem := { s.mem with blocks := s.mem.blocks ++ [some ⟨some s.objs, 1⟩] }, objs := s.objs + 1 } d
      (some s.mem.blocks.length)).map fun s => (s, false)
  -- include/dart/support/ptrs.tcc 252-255, 304-309, include/dart/refcount_traits.h 58-61
  | .null d => (s.moveIn d none).map fun s => (s, false)
  -- include/dart/support/ptrs.tcc 402-405, include/dart/refcount_traits.h 118-126, include/dart/support/ptrs.tcc 197-201
  | .reset d => (s.moveIn d none).map fun s => (s, false)
  -- include/dart/support/ptrs.tcc 311-317; 102-110
  | .copy d o => if d = o then (s.cells[d]?).map fun _ => (s, false) else (s.copyIn d o).map fun s => (s, false)
  -- include/dart/support/ptrs.tcc 319-328; 112-121
  | .move d o => if d = o then (s.cells[d]?).map fun _ => (s, false) else (s.moveFrom d o).map fun s => (s, false)
  -- include/dart/support/ptrs.tcc 287-292
  | .copyRaw d o => (s.copyIn d o).map fun s => (s, false)
  -- include/dart/support/ptrs.tcc 294-302
  | .moveRaw d o => (s.moveFrom d o).map fun s => (s, false)
  -- include/dart/support/ptrs.tcc 407-412
  | .share o p => (s.copyIn p o).map fun s => (s, false)
  -- include/dart/support/ptrs.tcc 414-423
  | .transfer o p => (s.moveFrom p o).map fun s => (s, false)
  -- include/dart/support/ptrs.h 413, include/dart/support/ptrs.tcc 463-470
  | .view v d => if v < s.views.length ∧ d < s.cells.length then some ({ s with views := s.views.set v (some d) }, false) else none
  -- include/dart/support/ptrs.h 417, 425
  | .viewCopy v w => s.views[w]?.bind fun x => if v < s.views.length then some ({ s with views := s.views.set v x }, false) else none
  -- include/dart/support/ptrs.tcc 455-461, 472-479
  | .viewMove v w => s.views[w]?.bind fun x =>
    if v < s.views.length then
      if v = w then some (s, false) else some ({ s with views := (s.views.set v x).set w none }, false)
    else none
  -- include/dart/support/ptrs.tcc 586-590
  | .viewReset v => if v < s.views.length then some ({ s with views := s.views.set v none }, false) else none

/-- A program; statements that throw are survived. -/
def State.run (k : Kind) (s : State) : List Op → Option (State × List Bool)
  | [] => some (s, [])
  | op :: ops => (s.step k op).bind fun r => (r.1.run k ops).bind fun t => some (t.1, r.2 :: t.2)

namespace State

/-- `get` of a cell, include/dart/support/ptrs.tcc 179-184, 387-390, include/dart/refcount_traits.h 98-106. -/
def get (s : State) (d : Nat) : Option (Option Nat) :=
  s.cells[d]?.bind fun p => match p with
    | none => some none
    | some a => (s.mem.at' a).map (·.obj)

/-- `use_count`, include/dart/support/ptrs.tcc 191-195, 397-400, include/dart/refcount_traits.h 108-116. -/
def useCount (s : State) (d : Nat) : Option Nat :=
  s.cells[d]?.bind fun p => match p with
    | none => some 0
    | some a => (s.mem.at' a).map (·.count)

/-- `unique`, include/dart/support/ptrs.tcc 392-395. -/
def unique (s : State) (d : Nat) : Option Bool := (s.useCount d).map (· == 1)

/-- `operator bool` of `shareable_ptr`, include/dart/support/ptrs.tcc 382-385. -/
def ask (s : State) (d : Nat) : Option Bool := (s.get d).map (·.isSome)

/-- `operator bool` of `counted_ptr_base`, include/dart/support/ptrs.tcc 174-177. -/
def askOwn (s : State) (d : Nat) : Option Bool := s.cells[d]?.map (·.isSome)

/-- `operator ==` of `shareable_ptr`, include/dart/support/ptrs.tcc 340-345. -/
def eq (s : State) (d o : Nat) : Option Bool := (s.get d).bind fun x => (s.get o).map fun y => x == y

/-- `view_ptr::get`, include/dart/support/ptrs.tcc 561-569. -/
def viewGet (s : State) (v : Nat) : Option (Option Nat) :=
  s.views[v]?.bind fun x => match x with
    | none => some none
    | some d => s.get d

/-- `view_ptr::use_count`, include/dart/support/ptrs.tcc 571-584. -/
def viewCount (s : State) (v : Nat) : Option Nat :=
  s.views[v]?.bind fun x => match x with
    | none => some 0
    | some d => (s.useCount d).map fun n => if n = 0 then 1 else n

end State

/-- Null variables, nothing allocated. -/
def init (cells uniqs views : Nat) : State :=
  ⟨⟨[], [], 0⟩, 0, List.replicate cells none, List.replicate uniqs none, List.replicate views none⟩

end Dart.Share
