import Verif.Model.Buffer
import Verif.Model.Layout

/-
Who owns the memory of finalized buffers: the constructors taking bytes, copies, moves, sub-values,
`share_bytes` and `dup_bytes`, in programs with any number of buffer variables and of memory blocks
belonging to the caller.

Blocks live as long as somebody owns them. How that is arranged (reference counts, deleters) is the
subject of C17 (`Verif.Model.Ptr`) and is not repeated here: `State.alive` looks for owners.
-/
namespace Dart.Own

/-- A block of memory: its address and contents. -/
structure Block where
  base : Nat
  bytes : Bytes
  deriving DecidableEq, Repr

/-- A `basic_buffer`, include/dart.h 10241-10242: `raw` (type, and block and offset pointed at) and
`buffer_ref` (the block owned). -/
structure Handle where
  type : RawType
  pos : Option (Nat × Nat)
  ref : Option Nat
  deriving DecidableEq, Repr

/-- A default constructed buffer, include/dart.h 7968-7970. -/
def Handle.null : Handle := ⟨.null, none, none⟩

/-- `blocks`: all blocks ever allocated. `vars`: the buffer variables. `excl`: blocks the caller owns alone,
through a pointer with write access. `shared`: reference counted pointers to constant bytes held by the
caller. -/
structure State where
  blocks : List Block
  vars : List Handle
  excl : List Nat
  shared : List Nat
  deriving DecidableEq, Repr

/-- A variable. -/
def State.var (s : State) (v : Nat) : Handle := (s.vars[v]?).getD .null

/-- Somebody owns the block. -/
def State.alive (s : State) (b : Nat) : Bool :=
  s.excl.contains b || s.shared.contains b || s.vars.any fun h => h.ref == some b

/-- Assigning a variable. -/
def State.set (s : State) (v : Nat) (h : Handle) : State := { s with vars := s.vars.set v h }

/-- Allocating a block. -/
def State.alloc (s : State) (base : Nat) (bytes : Bytes) : State × Nat :=
  ({ s with blocks := s.blocks ++ [⟨base, bytes⟩] }, s.blocks.length)

/-- The buffer as the reading functions see it: the memory its `raw` points into. -/
def State.buf (s : State) (h : Handle) : Buf :=
  match h.pos with
  | none => ⟨[], h.type, none⟩
  | some (b, p) => ⟨((s.blocks[b]?).map (·.bytes)).getD [], h.type, some p⟩

/-- `basic_buffer(raw_element, buffer_ref)`, include/dart/buffer/detail.tcc 12-18: a sub-value shares the
ownership of the whole; null lets go of it. `e` is the element found, as a `Buf`. -/
def Handle.sub (h : Handle) (e : Buf) : Handle :=
  if e.type = .null then ⟨.null, none, none⟩ else ⟨e.type, e.addr.bind fun p => h.pos.map fun q => (q.1, p), h.ref⟩

/-- The steps of a program. -/
inductive Op
  /-- The caller allocates. -/
  | alloc (base : Nat) (bytes : Bytes)
  /-- The caller writes a byte to a block they own. -/
  | write (b off : Nat) (x : UInt8)
  /-- The caller frees a block they own. -/
  | free (b : Nat)
  /-- `basic_buffer(gsl::span)`; the copy is allocated at address `8 * k`. -/
  | fromSpan (v b off len k : Nat)
  /-- `basic_buffer(std::unique_ptr &&)`. -/
  | fromUnique (v : Nat) (p : Option Nat)
  /-- The caller turns an owned block into a reference counted pointer. -/
  | share (b : Nat)
  /-- The caller drops a reference counted pointer. -/
  | unshare (b : Nat)
  /-- `basic_buffer(RefCount)`, `basic_buffer(shareable_ptr)`. -/
  | fromShared (v : Nat) (p : Option Nat)
  /-- `v = w;` -/
  | copy (v w : Nat)
  /-- `v = std::move(w);` -/
  | move (v w : Nat)
  /-- The end of the variable's life. -/
  | drop (v : Nat)
  /-- `v = w.get(key);` -/
  | get (v w : Nat) (key : Bytes)
  /-- `v = w.get(i);` -/
  | getIdx (v w i : Nat)
  /-- `w.share_bytes(ptr)` -/
  | shareBytes (w : Nat)
  /-- `ptr = w.dup_bytes()`; the copy is allocated at address `8 * k`. -/
  | dupBytes (w k : Nat)

/-- Overwriting one byte. -/
def Block.write (m : Block) (off : Nat) (x : UInt8) : Block := { m with bytes := m.bytes.set off x }

/-- `validate_pointer`, include/dart/buffer/detail.tcc 31-41: not null, and aligned to 8 bytes. -/
def State.validate (s : State) (p : Option Nat) : Res Nat :=
  match p with
  | none => .throw .invalidArgument
  | some b =>
    match s.blocks[b]? with
    | none => .ub
    | some m => if m.base % 8 = 0 then .ok b else .throw .invalidArgument

/-- One step. Exceptions leave the state as it was. Steps of the caller that C++ does not allow (writing to or
freeing memory they do not own) are `ub`, as is reading a block that has been freed. -/
def State.step (signed : Bool) (s : State) : Op → Res State
  | .alloc base bytes => .ok { (s.alloc base bytes).1 with excl := s.blocks.length :: s.excl }
  | .write b off x =>
    if b ∈ s.excl then .ok { s with blocks := s.blocks.modify b (·.write off x) } else .ub
  | .free b => if b ∈ s.excl then .ok { s with excl := s.excl.erase b } else .ub
  | .fromSpan v b off len k =>
    -- include/dart.h 8009-8012: `raw` is made from the span, `buffer_ref` from the copy of
    -- `allocate_pointer`, include/dart/buffer/detail.tcc 20-29.
    if s.alive b then
      match s.blocks[b]? with
      | none => .ub
      | some m =>
        if off + len ≤ m.bytes.length then
          if len = 0 then .throw .invalidArgument
          else
            let r := s.alloc (8 * k) ((m.bytes.drop off).take len)
            .ok (r.1.set v ⟨.object, some (b, off), some r.2⟩)
        else .ub
    else .ub
  | .fromUnique v p =>
    -- include/dart.h 8064-8108.
    if p.all (· ∈ s.excl) then
      (s.validate p).bind fun b => .ok ({ s with excl := s.excl.erase b }.set v ⟨.object, some (b, 0), some b⟩)
    else .ub
  | .share b => if b ∈ s.excl then .ok { s with excl := s.excl.erase b, shared := b :: s.shared } else .ub
  | .unshare b => if b ∈ s.shared then .ok { s with shared := s.shared.erase b } else .ub
  | .fromShared v p =>
    -- include/dart.h 8026-8045.
    if p.all (· ∈ s.shared) then
      (s.validate p).bind fun b => .ok (s.set v ⟨.object, some (b, 0), some b⟩)
    else .ub
  | .copy v w => .ok (s.set v (s.var w))
  | .move v w =>
    -- include/dart/buffer/api.tcc 12-30: the source becomes null; assigning to itself does nothing.
    if v = w then .ok s else .ok ((s.set v (s.var w)).set w .null)
  | .drop v => .ok (s.set v .null)
  | .get v w key =>
    if (s.var w).pos.all (s.alive ·.1) then
      ((s.buf (s.var w)).get signed key).bind fun e => .ok (s.set v ((s.var w).sub e))
    else .ub
  | .getIdx v w i =>
    if (s.var w).pos.all (s.alive ·.1) then
      ((s.buf (s.var w)).getIdx i).bind fun e => .ok (s.set v ((s.var w).sub e))
    else .ub
  | .shareBytes w =>
    -- include/dart/buffer/api.tcc 256-264.
    if (s.var w).type = .null then .throw .typeError
    else
      match (s.var w).ref with
      | none => .ub
      | some b => .ok { s with shared := b :: s.shared }
  | .dupBytes w k =>
    -- include/dart/buffer/api.tcc 273-282, `get_bytes`, 249-253.
    if (s.var w).type = .object then
      if (s.var w).pos.all (s.alive ·.1) then
        match (s.var w).pos with
        | none => .ub
        | some (_, p) =>
          (Res.ofRead (findSizeof (s.buf (s.var w)).mem .object p)).bind fun n =>
            if p + n ≤ (s.buf (s.var w)).mem.length then
              .ok { (s.alloc (8 * k) (((s.buf (s.var w)).mem.drop p).take n)).1 with excl := s.blocks.length :: s.excl }
            else .ub
      else .ub
    else .throw .typeError

/-- A program starting in `s`: exceptions are caught and the program goes on; `ub` ends everything. -/
def State.run (signed : Bool) (s : State) : List Op → Res State
  | [] => .ok s
  | op :: ops =>
    match s.step signed op with
    | .ok t => t.run signed ops
    | .throw _ => s.run signed ops
    | .ub => .ub

/-- The start of a program with `n` buffer variables. -/
def State.start (n : Nat) : State := ⟨[], List.replicate n .null, [], []⟩

end Dart.Own
