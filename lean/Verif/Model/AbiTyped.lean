import Verif.Model.AbiMove

/-
The typed calls of the C interface: `dart_heap_*` (src/heap.cc) and `dart_buffer_*` (src/buffer.cc), on top of the
generic calls of Model/AbiCalls.lean and Model/AbiMove.lean. A typed call takes the memory for an object of its class
without looking at the type information (`heap_unwrap_impl` and `buffer_unwrap_impl`, src/helpers.h 322-360, switch on the
kind of counter only), so an object of another class there is undefined behaviour; the C types rule it out unless the
program casts pointers. Initialisers are in Model/AbiCalls.lean (`init`, `initBuffer`), comparisons in
Model/Compare.lean. Left out are `dart_buffer_from_json`, whose bytes depend on what was in the memory before (C43),
`dart_buffer_from_bytes` (C35), `to_json`, and `clear`, `resize`, `reserve` (C16).
-/
namespace Dart.Abi

/-- The class a family of calls is for. -/
inductive Family
  | heap | buffer
  deriving DecidableEq, Repr

/-- The class. -/
def Family.rep : Family → Rep
  | .heap => .heap
  | .buffer => .buffer

/-- The calls. `any` are the generic calls and the initialisers. Without a kind: `change` and `take` are `dart_heap_obj_insert_*`
and so on, the arguments that are objects are heaps as well; `lower` is `dart_heap_lower` and `dart_heap_finalize`,
`fromJson` is `dart_heap_from_json_len_rc`; `lift` is `dart_buffer_lift` and `dart_buffer_definalize`; the calls on bytes are
those of buffers. -/
inductive TCall
  | any (c : XCall)
  | copy (k : Family) (byVal : Bool) (x y : Nat)
  | move (k : Family) (byVal : Bool) (x y : Nat)
  | destroy (k : Family) (x : Nat)
  | query (k : Family) (y : Nat) (q : Query)
  | get (k : Family) (byVal : Bool) (x y : Nat) (w : Where)
  | change (x : Nat) (m : CMut)
  | take (x : Nat) (w : Slot) (y : Nat)
  | lower (byVal : Bool) (x y : Nat)
  | fromJson (byVal : Bool) (x rc : Nat) (j : Option Json)
  | lift (byVal : Bool) (x y : Nat)
  | getBytes (y : Nat)
  | dupBytes (p y : Nat)
  | takeBytes (byVal : Bool) (x rc p : Nat)

/-- The object a typed pointer refers to. -/
def CState.typed (s : CState) (k : Family) (x : Nat) : Option Obj :=
  match s.objs x with
  | none => none
  | some o => if o.rep = k.rep then some o else none

/-- `dart_heap_obj_insert_heap_len` to `dart_heap_arr_erase`, src/heap.cc 17-386. The argument is unwrapped by an inner
`heap_access`, which has an overload only for the counter of the destination; otherwise `safe_call`, src/helpers.h 306-320,
reports a client error. -/
def runHeapMut (s : CState) (x : Nat) (m : CMut) : Option (CState × Out) :=
  match s.typed .heap x with
  | none => none
  | some o =>
    match m.stored with
    | some (.dart y) =>
      match s.typed .heap y with
      | none => none
      | some a =>
        if a.rc ≠ o.rc then some (s, .code .clientError)
        else if y = x then none
        else applyMut s x o m
    | _ => applyMut s x o m

/-- The `take` calls for heaps, src/heap.cc 33-46, 118-131, 218-231, 303-316: the reference to the argument is passed on and
moved from in the end (`Slot.empties`), if the call succeeds. -/
def runHeapTake (s : CState) (x : Nat) (w : Slot) (y : Nat) : Option (CState × Out) :=
  match s.typed .heap x with
  | none => none
  | some o =>
    match s.typed .heap y with
    | none => none
    | some a =>
      if a.rc ≠ o.rc then some (s, .code .clientError)
      else if y = x then none
      else match (((w.mut y).call).map (CVal.pkt s)).run o.pkt with
        | .ok p => some ((s.change x { o with pkt := p }).takeFrom y a (w.empties o.pkt a), .code .noError)
        | .throw e => some (s, .code (errCode e))
        | .ub => none

/-- `heap_typed_constructor_access`, src/helpers.h 626-634, and the same in src/buffer.cc 583-604: a null object is made
first, then the result is assigned to it. -/
def CState.constructAs (s : CState) (k : Family) (byVal : Bool) (x rc : Nat) (r : Res Pkt) : Option (CState × Out) :=
  if rc = 1 ∨ rc = 2 then
    match r with
    | .ok p => some (s.put x ⟨k.rep, rc, p⟩, if byVal then .object else .code .noError)
    | .throw e =>
      if byVal then some (s.put x (nullObj k.rep), .object)
      else some (s.put x { nullObj k.rep with rc := rc }, .code (errCode e))
    | .ub => none
  else if byVal then some (s.put x (nullObj k.rep), .object)
  else some (s.spoil x k.rep rc, .code .clientError)

/-- One call. `copy`, `move`, `destroy`: src/heap.cc 568-622, src/buffer.cc 216-271. `query`: src/heap.cc 410-476, 496-508, 1166-1172, 1239-1320;
src/buffer.cc 17-83, 104-116, 273-279, 346-427. `get`: src/heap.cc 1174-1237, src/buffer.cc 281-344; the result has the type information
of the source. `lower`: src/heap.cc 1381-1415. `lift`: src/buffer.cc 489-521. `fromJson`: src/heap.cc 1322-1373. `getBytes`,
`dupBytes`: src/buffer.cc 139-180. `takeBytes`: 566-604; here the bytes belong to the call only after the kind of counter was
looked at. -/
def TCall.run (signed : Bool) (s : XState) : TCall → Option (XState × XOut)
  | .any c => c.run signed s
  | .copy k byVal x y =>
    match s.core.typed k y with
    | none => none
    | some o => if x = y ∧ !byVal then none else s.with (s.core.make byVal x k.rep o.rc (nullObj k.rep) (.ok o.pkt))
  | .move k byVal x y =>
    match s.core.typed k y with
    | none => none
    | some o =>
      if x = y ∧ !byVal then none
      else some ({ s with core := (s.core.change y { o with pkt := o.pkt.movedFrom }).put x o },
        .plain (if byVal then .object else .code .noError))
  | .destroy k x =>
    match s.core.typed k x with
    | none => none
    | some _ => some ({ s with core := s.core.drop x }, .plain (.code .noError))
  | .query k y q =>
    match s.core.typed k y with
    | none => none
    | some o => (runQuery signed o.pkt q).map fun r => (s, .plain r)
  | .get k byVal x y w =>
    match s.core.typed k y with
    | none => none
    | some o => if x = y ∧ !byVal then none else s.with (s.core.make byVal x k.rep o.rc (nullObj k.rep) (w.read.run signed o.pkt))
  | .change x m => s.with (runHeapMut s.core x m)
  | .take x w y => s.with (runHeapTake s.core x w y)
  | .lower byVal x y =>
    match s.core.typed .heap y with
    | none => none
    | some o => if x = y ∧ !byVal then none else s.with (s.core.make byVal x .buffer o.rc (nullObj .buffer) o.pkt.finalize)
  | .fromJson byVal x rc j => s.with (s.core.constructAs .heap byVal x rc (parseText j))
  | .lift byVal x y =>
    match s.core.typed .buffer y with
    | none => none
    | some o => if x = y ∧ !byVal then none else s.with (s.core.make byVal x .heap o.rc (nullObj .heap) o.pkt.definalize)
  | .getBytes y =>
    match s.core.typed .buffer y with
    | none => none
    | some o => (runBytes o).map fun r => (s, .bytes r)
  | .dupBytes p y =>
    match s.core.typed .buffer y with
    | none => none
    | some o => (runBytes o).map fun r => (s.point p (.ofBytes r), .bytes r)
  | .takeBytes byVal x rc p =>
    match s.blocks p with
    | .dangling => none
    | b =>
      if rc = 1 ∨ rc = 2 then (s.release p).with (s.core.constructAs .buffer byVal x rc b.packet)
      else s.with (s.core.constructAs .buffer byVal x rc b.packet)

/-- A C program, as far as it calls the library. -/
inductive TProg
  | stop
  | call (c : TCall) (next : XOut → TProg)

/-- Run a program: the final state, and what the calls returned. `none` is undefined behaviour. -/
def TProg.run (signed : Bool) : TProg → XState → Option (XState × List XOut)
  | .stop, s => some (s, [])
  | .call c next, s =>
    match c.run signed s with
    | none => none
    | some (s, o) =>
      match (next o).run signed s with
      | none => none
      | some (s, os) => some (s, o :: os)

end Dart.Abi
