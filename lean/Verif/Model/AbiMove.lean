import Verif.Model.AbiCalls
import Verif.Model.Rvalue
import Verif.Model.Json

/-
More calls of the C interface: those that move (`dart_move` and the `take` calls), parsing JSON, and raw bytes. They are
put on top of the machine of Model/AbiCalls.lean. Left out are `dart_from_bytes`, whose result refers to memory of the
caller (C35), and `dart_to_json` (C18).
-/
namespace Dart.Abi

/-- A pointer to raw bytes: null, to bytes the program has to free, or to bytes that were freed or given away. -/
inductive Blk
  | null
  | owned (b : Bytes)
  | dangling

/-- The variables, the pointers to bytes, and how many blocks were forgotten without being freed. -/
structure XState where
  core : CState
  blocks : Nat → Blk
  leaked : Nat

/-- Before anything is initialised. -/
def XState.empty : XState := ⟨CState.empty, fun _ => .null, 0⟩

/-- Where a `take` call puts its argument: `dart_obj_insert_take_dart_len`, `dart_obj_set_take_dart_len`,
`dart_arr_insert_take_dart`, `dart_arr_set_take_dart`. -/
inductive Slot
  | objInsert (k : Bytes)
  | objSet (k : Bytes)
  | arrInsert (i : Nat)
  | arrSet (i : Nat)

/-- The call that would store a copy. -/
def Slot.mut (y : Nat) : Slot → CMut
  | .objInsert k => .objInsert k (.dart y)
  | .objSet k => .objSet k (.dart y)
  | .arrInsert i => .arrInsert i (.dart y)
  | .arrSet i => .arrSet i (.dart y)

/-- The calls. The document of `fromJson` is `none` for a text that is not JSON. -/
inductive XCall
  | plain (c : Call)
  | move (byVal : Bool) (x y : Nat)
  | take (x : Nat) (w : Slot) (y : Nat)
  | fromJson (byVal : Bool) (x rc : Nat) (j : Option Json)
  | getBytes (y : Nat)
  | dupBytes (p y : Nat)
  | takeBytes (byVal : Bool) (x rc p : Nat)
  | free (p : Nat)

/-- What a call returns. `bytes none` is a null pointer. -/
inductive XOut
  | plain (o : Out)
  | bytes (r : Option Bytes)

/-- `dart_move_err`, src/generic.cc 47-54, and `dart_move`, 717-722: the move constructor of the class that is there. The
source stays alive. -/
def runMove (s : CState) (byVal : Bool) (x y : Nat) : Option (CState × Out) :=
  match s.objs y with
  | none => none
  | some o =>
    if x = y ∧ !byVal then none
    else some ((s.change y { o with pkt := o.pkt.movedFrom }).put x o, if byVal then .object else .code .noError)

/-- Does the conversion of an argument that is moved, `convert::cast<basic_heap>(std::move(val))`, empty it? A heap is passed
on as a reference, include/dart/conversion_traits.h 866-871; out of a packet that is dynamic the heap is moved, 153-157; what
is finalized is copied, 84-115. -/
def Obj.castEmpties (a : Obj) : Bool :=
  match a.rep, a.pkt with
  | .packet, .heap _ => true
  | _, _ => false

/-- `insert` copies its argument if the key is new, and moves it only if the key was there already,
include/dart/heap/api.tcc 135-143. -/
def Slot.copies (p : Pkt) : Slot → Bool
  | .objInsert k => match p with
    | .heap (.obj fs) => (mapFind k fs).isNone
    | _ => false
  | _ => false

/-- Does a `take` call that succeeds empty its argument? The reference to a heap is moved from in the end,
include/dart/heap/api.tcc 143, 149, 189, 195; the other classes were converted to a temporary before. -/
def Slot.empties (w : Slot) (dst : Pkt) (a : Obj) : Bool :=
  if a.rep = .heap then !w.copies dst else a.castEmpties

/-- The argument becomes null. -/
def CState.takeFrom (s : CState) (y : Nat) (a : Obj) (emptied : Bool) : CState :=
  if emptied then s.change y { a with pkt := .heap .null } else s

/-- The `take` calls, src/generic.cc 69-80, 127-138, 195-204, 246-255. As `runMut`; a finalized packet is refused before its
argument is looked at (`get_heap`, include/dart/packet/api.tcc 125-129, 140-144), everything else is checked after the
argument was converted, include/dart/heap/api.tcc 118-152, 171-199. -/
def runTake (s : CState) (x : Nat) (w : Slot) (y : Nat) : Option (CState × Out) :=
  match s.objs x with
  | none => none
  | some o =>
    if o.rep = .buffer then some (s, .code .clientError)
    else match s.objs y with
      | none => none
      | some a =>
        if a.rc ≠ o.rc then some (s, .code .typeError)
        else if y = x then none
        else if o.pkt.isFinalized then some (s, .code .stateError)
        else match (((w.mut y).call).map (CVal.pkt s)).run o.pkt with
          | .ok p => some ((s.change x { o with pkt := p }).takeFrom y a (w.empties o.pkt a), .code .noError)
          | .throw e => some (s.takeFrom y a a.castEmpties, .code (errCode e))
          | .ub => none

/-- `packet_typed_constructor_access`, src/helpers.h 637-645: a null packet is made first, then the result is assigned to it.
If that fails the null packet is there to stay; the variants that return an object make another one. -/
def CState.construct (s : CState) (byVal : Bool) (x rc : Nat) (r : Res Pkt) : Option (CState × Out) :=
  if rc = 1 ∨ rc = 2 then
    match r with
    | .ok p => some (s.put x ⟨.packet, rc, p⟩, if byVal then .object else .code .noError)
    | .throw e =>
      if byVal then some (s.put x (nullObj .packet), .object)
      else some (s.put x ⟨.packet, rc, .heap .null⟩, .code (errCode e))
    | .ub => none
  else if byVal then some (s.put x (nullObj .packet), .object)
  else some (s.spoil x .packet rc, .code .clientError)

/-- `packet::from_json`, include/dart/connector/json.tcc 193-199. -/
def parseText : Option Json → Res Pkt
  | none => .throw .parseError
  | some j => j.toHeap.bind fun v => .ok (.heap v)

/-- `get_bytes` through the C interface, src/generic.cc 496-510: failures are a null pointer. Heaps have no such call; asking
one is reported as an error as well. `dart_dup_bytes`, 512-539, copies the same bytes. -/
def runBytes (o : Obj) : Option (Option Bytes) :=
  if o.rep = .heap then some none
  else match o.pkt.getBytes with
    | .ok b => some (some b)
    | .throw _ => some none
    | .ub => none

/-- The pointer `dart_dup_bytes` returns. -/
def Blk.ofBytes : Option Bytes → Blk
  | some b => .owned b
  | none => .null

/-- The bytes behind a pointer as a packet: `basic_buffer(std::unique_ptr<byte const[], Del>)` checks the pointer,
include/dart.h 8064-8068, `validate_pointer`, include/dart/buffer/detail.tcc 33-41. What `dart_dup_bytes` returns is aligned. -/
def Blk.packet : Blk → Res Pkt
  | .null => .throw .invalidArgument
  | .owned b => .ok (.buf (Buf.ofBytes b))
  | .dangling => .ub

/-- Store a pointer; what it pointed to before is forgotten. -/
def XState.point (s : XState) (p : Nat) (b : Blk) : XState :=
  { s with blocks := upd s.blocks p b, leaked := s.leaked + match s.blocks p with | .owned _ => 1 | _ => 0 }

/-- The bytes behind a pointer are freed or given away. -/
def XState.release (s : XState) (p : Nat) : XState :=
  { s with blocks := match s.blocks p with | .null => s.blocks | _ => upd s.blocks p .dangling }

/-- The result of a call on the variables. -/
def XState.with (s : XState) (r : Option (CState × Out)) : Option (XState × XOut) :=
  r.map fun q => ({ s with core := q.1 }, .plain q.2)

/-- One call. `fromJson`: src/generic.cc 1418-1470. `takeBytes`: 553-571, 1567-1587; the bytes belong to the call from the
beginning and are freed if it fails, also if the kind of counter is unknown. `free`: `dart_aligned_free`, 1653-1660. -/
def XCall.run (signed : Bool) (s : XState) : XCall → Option (XState × XOut)
  | .plain c => s.with (c.run signed s.core)
  | .move byVal x y => s.with (runMove s.core byVal x y)
  | .take x w y => s.with (runTake s.core x w y)
  | .fromJson byVal x rc j => s.with (s.core.construct byVal x rc (parseText j))
  | .getBytes y =>
    match s.core.objs y with
    | none => none
    | some o => (runBytes o).map fun r => (s, .bytes r)
  | .dupBytes p y =>
    match s.core.objs y with
    | none => none
    | some o => (runBytes o).map fun r => (s.point p (.ofBytes r), .bytes r)
  | .takeBytes byVal x rc p =>
    match s.blocks p with
    | .dangling => none
    | b => (s.release p).with (s.core.construct byVal x rc b.packet)
  | .free p =>
    match s.blocks p with
    | .dangling => none
    | _ => some (s.release p, .plain .object)

/-- A C program, as far as it calls the library. -/
inductive XProg
  | stop
  | call (c : XCall) (next : XOut → XProg)

/-- Run a program: the final state, and what the calls returned. `none` is undefined behaviour. -/
def XProg.run (signed : Bool) : XProg → XState → Option (XState × List XOut)
  | .stop, s => some (s, [])
  | .call c next, s =>
    match c.run signed s with
    | none => none
    | some (s, o) =>
      match (next o).run signed s with
      | none => none
      | some (s, os) => some (s, o :: os)

end Dart.Abi
