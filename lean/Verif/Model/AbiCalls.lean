import Verif.Model.Abi
import Verif.Model.Packet

/-
The C interface as a machine: variables of the types `dart_packet_t`, `dart_heap_t`, `dart_buffer_t` and
`dart_iterator_t`, which the caller has to initialise and destroy. Using a variable in which there is no live object is
undefined. Left out are the calls that move (`take`, `dart_move`), those that act on elements shared with copies
(`clear`, `resize`; C16), JSON and raw bytes (AbiMove), and comparisons (Compare).
-/
namespace Dart.Abi

/-- `dart_packet_type_t`, include/dart/abi.h 146-151: which C++ class is in the memory. -/
inductive Rep
  | heap | buffer | packet
  deriving DecidableEq, Repr

/-- A live object: its class, the kind of its reference counter (`dart_rc_type_t`: 1 safe, 2 unsafe) and the C++ object. A
`heap` is always dynamic, a `buffer` always finalized. -/
structure Obj where
  rep : Rep
  rc : Nat
  pkt : Pkt

/-- A live iterator: a pair of C++ iterators. Iterators of dynamic values point into the source and do not own it, so they
die with it or when it changes: then they are `stale`. (Iterators of finalized values do own the buffer; to call them
stale as well is a simplification.) -/
structure It where
  rc : Nat
  src : Nat
  stale : Bool
  rest : List Pkt

/-- The variables of a program, and how many live objects were overwritten without being destroyed. -/
structure CState where
  objs : Nat → Option Obj
  its : Nat → Option It
  lost : Nat

/-- Before anything is initialised. -/
def CState.empty : CState := ⟨fun _ => none, fun _ => none, 0⟩

/-- Update of a function. -/
def upd {α : Type} (f : Nat → α) (x : Nat) (a : α) : Nat → α := fun y => if y = x then a else f y

/-- Iterators over `x` become stale. -/
def staleOver (x : Nat) (its : Nat → Option It) : Nat → Option It :=
  fun i => (its i).map fun it => if it.src = x then { it with stale := true } else it

/-- Placement `new` in the variable `x`. -/
def CState.put (s : CState) (x : Nat) (o : Obj) : CState :=
  ⟨upd s.objs x (some o), staleOver x s.its, s.lost + if (s.objs x).isSome then 1 else 0⟩

/-- A call that was to initialise `x` fails: the type information is written already (e.g. src/generic.cc 343-344), so an
object of another class that was there is no longer usable. -/
def CState.spoil (s : CState) (x : Nat) (rep : Rep) (rc : Nat) : CState :=
  match s.objs x with
  | none => s
  | some o => if o.rep = rep ∧ o.rc = rc then s else ⟨upd s.objs x none, staleOver x s.its, s.lost + 1⟩

/-- Assignment to the object in the variable `x`. -/
def CState.change (s : CState) (x : Nat) (o : Obj) : CState :=
  { s with objs := upd s.objs x (some o), its := staleOver x s.its }

/-- The destructor. -/
def CState.drop (s : CState) (x : Nat) : CState :=
  { s with objs := upd s.objs x none, its := staleOver x s.its }

/-- Placement `new` of an iterator. -/
def CState.putIt (s : CState) (i : Nat) (it : It) : CState :=
  { s with its := upd s.its i (some it), lost := s.lost + if (s.its i).isSome then 1 else 0 }

/-- The same for a call that fails; here what was there is given up whatever it was. -/
def CState.spoilIt (s : CState) (i : Nat) : CState :=
  match s.its i with
  | none => s
  | some _ => { s with its := upd s.its i none, lost := s.lost + 1 }

/-- What a call returns: an error code, nothing of interest (calls that return an object), or a value. -/
inductive Out
  | code (e : Err)
  | object
  | flag (b : Bool)
  | size (n : Option Nat)
  | type (t : Ty)
  | int (r : Except Err (BitVec 64))
  | dcm (r : Except Err (BitVec 64))
  | bool (r : Except Err Bool)
  | str (r : Option Bytes)

/-- The values there are initialisers for. -/
inductive InitVal
  | null
  | obj
  | arr
  | str (s : Bytes)
  | int (i : BitVec 64)
  | dcm (d : BitVec 64)
  | bool (i : BitVec 32)

/-- `dart_init_rc_err`, `dart_obj_init_rc_err` and so on, src/generic.cc 696-705, 763-1070, and the same functions for heaps,
src/heap.cc. -/
def InitVal.val : InitVal → Val
  | .null => .null
  | .obj => .obj []
  | .arr => .arr []
  | .str s => .str s
  | .int i => .int i
  | .dcm d => .dec d
  | .bool i => .bool (i != 0)

/-- The argument of the calls that store a value: there is one call for each kind. -/
inductive CVal
  | str (s : Bytes)
  | int (i : BitVec 64)
  | dcm (d : BitVec 64)
  | bool (i : BitVec 32)
  | null
  | dart (y : Nat)

/-- The calls that change an object, `dart_obj_insert_*_len`, `dart_obj_set_*_len`, `dart_obj_erase_len`, `dart_arr_insert_*`,
`dart_arr_set_*`, `dart_arr_erase`. -/
inductive CMut
  | objInsert (k : Bytes) (v : CVal)
  | objSet (k : Bytes) (v : CVal)
  | objErase (k : Bytes)
  | arrInsert (i : Nat) (v : CVal)
  | arrSet (i : Nat) (v : CVal)
  | arrErase (i : Nat)

/-- Elements are addressed by key or by index. -/
inductive Where
  | key (k : Bytes)
  | idx (i : Nat)

/-- `dart_to_heap`, `dart_to_buffer`, `dart_lower` (`dart_finalize`), `dart_lift` (`dart_definalize`). -/
inductive Conv
  | toHeap | toBuffer | lower | lift
  deriving DecidableEq, Repr

/-- The calls that only read. -/
inductive Query
  | hasKey (k : Bytes)
  | size
  | getType
  | isFinalized
  | int
  | dcm
  | bool
  | str

/-- The calls. Those with a flag come in two versions: one has a pointer to the result and returns an error code
(`false`), one returns the object (`true`). -/
inductive Call
  | init (packet : Bool) (x : Nat) (rc : Nat) (v : InitVal)
  | initBuffer (x : Nat) (rc : Nat)
  | copy (byVal : Bool) (x y : Nat)
  | change (x : Nat) (m : CMut)
  | get (byVal : Bool) (x y : Nat) (w : Where)
  | conv (byVal : Bool) (x y : Nat) (c : Conv)
  | query (y : Nat) (q : Query)
  | destroy (x : Nat)
  | itInit (keys : Bool) (i y : Nat)
  | itCopy (i j : Nat)
  | itGet (byVal : Bool) (x i : Nat)
  | itNext (i : Nat)
  | itDone (i : Nat)
  | itDestroy (i : Nat)
  | itDoneDestroy (i : Nat) (x : Option Nat)

/-- The outcome of a call that makes an object: `_err` versions report the exception, the others return a null object
instead of the result (e.g. src/generic.cc 707-712). -/
def CState.make (s : CState) (byVal : Bool) (x : Nat) (rep : Rep) (rc : Nat) (null : Obj) : Res Pkt → Option (CState × Out)
  | .ok p => some (s.put x ⟨rep, rc, p⟩, if byVal then .object else .code .noError)
  | .throw e => if byVal then some (s.put x null, .object) else some (s.spoil x rep rc, .code (errCode e))
  | .ub => none

/-- What `dart_init`, `dart_heap_init` and `dart_buffer_init` give, src/generic.cc 676-681. -/
def nullObj : Rep → Obj
  | .heap => ⟨.heap, 1, .heap .null⟩
  | .buffer => ⟨.buffer, 1, .buf ⟨[], .null, none⟩⟩
  | .packet => ⟨.packet, 1, .heap .null⟩

/-- The object an argument stands for. -/
def CVal.pkt (s : CState) : CVal → Pkt
  | .str t => .heap (.str t)
  | .int i => .heap (.int i)
  | .dcm d => .heap (.dec d)
  | .bool i => .heap (.bool (i != 0))
  | .null => .heap .null
  | .dart y => match s.objs y with | some o => o.pkt | none => .heap .null

/-- The argument that is stored. -/
def CMut.stored : CMut → Option CVal
  | .objInsert _ v => some v
  | .objSet _ v => some v
  | .objErase _ => none
  | .arrInsert _ v => some v
  | .arrSet _ v => some v
  | .arrErase _ => none

/-- The C++ call, src/generic.cc 57-330. Indexes are converted to 64-bit integers. -/
def CMut.call : CMut → PMut CVal
  | .objInsert k v => .insert (.str k) v
  | .objSet k v => .set (.str k) v
  | .objErase k => .eraseKey k
  | .arrInsert i v => .insert (.int (BitVec.ofNat 64 i)) v
  | .arrSet i v => .set (.int (BitVec.ofNat 64 i)) v
  | .arrErase i => .eraseIdx i

/-- The C++ call on the object itself. -/
def applyMut (s : CState) (x : Nat) (o : Obj) (m : CMut) : Option (CState × Out) :=
  match (m.call.map (CVal.pkt s)).run o.pkt with
  | .ok p => some (s.change x { o with pkt := p }, .code .noError)
  | .throw e => some (s, .code (errCode e))
  | .ub => none

/-- `generic_access(mutable_visitor(...))`, src/helpers.h 260-273, 306-372, 489-503: buffers have no such calls. `safe_insert` and
`safe_set`, src/helpers.h 179-226, refuse arguments with the other kind of counter. Storing an object in itself makes a
cycle (C32); there is no value for that here, and the model calls it undefined. -/
def runMut (s : CState) (x : Nat) (m : CMut) : Option (CState × Out) :=
  match s.objs x with
  | none => none
  | some o =>
    if o.rep = .buffer then some (s, .code .clientError)
    else match m.stored with
      | some (.dart y) =>
        match s.objs y with
        | none => none
        | some a =>
          if a.rc ≠ o.rc then some (s, .code .typeError)
          else if y = x then none
          else applyMut s x o m
      | _ => applyMut s x o m

/-- The value a failing call reports. -/
def orErr {α : Type} : Res α → Option (Except Err α)
  | .ok a => some (.ok a)
  | .throw e => some (.error (errCode e))
  | .ub => none

/-- `dart_obj_has_key`, `dart_str_get_len`, `dart_int_get_err`, `dart_dcm_get_err`, `dart_bool_get_err`, `dart_size`,
`dart_is_finalized`, `dart_get_type`, src/generic.cc 328-339, 369-429. -/
def runQuery (signed : Bool) (p : Pkt) : Query → Option Out
  | .hasKey k => match p.hasKey signed k with | .ok b => some (.flag b) | .throw _ => some (.flag false) | .ub => none
  | .size => match p.size with | .ok n => some (.size (some n)) | .throw _ => some (.size none) | .ub => none
  | .getType => some (.type p.getType)
  | .isFinalized => some (.flag p.isFinalized)
  | .int => (orErr p.integer).map .int
  | .dcm => (orErr p.decimal).map .dcm
  | .bool => (orErr p.boolean).map .bool
  | .str => match p.strv with | .ok t => some (.str (some t)) | .throw _ => some (.str none) | .ub => none

/-- `dart_to_heap_err`, `dart_to_buffer_err`, `dart_lower_err`, `dart_lift_err`, src/generic.cc 447-494, with the conversions of
include/dart/conversion_traits.h 78-200. To make a `buffer` the object is lifted first, whatever it was, and the result
must be an object. -/
def Conv.run (p : Pkt) : Conv → Res Pkt
  | .toHeap => p.definalize
  | .toBuffer => p.definalize.bind fun q => q.finalize
  | .lower => p.finalize
  | .lift => p.definalize

/-- The class of the result. -/
def Conv.rep : Conv → Rep
  | .toHeap => .heap
  | .toBuffer => .buffer
  | .lower => .packet
  | .lift => .packet

/-- `get` by key and by index, src/generic.cc 341-367. -/
def Where.read : Where → PRead Pkt
  | .key k => .get k
  | .idx i => .getIdx i

/-- One call. `init`: an unknown kind of counter is reported, src/helpers.h 620-676. `copy`: src/generic.cc 38-45. `destroy`:
729-744. Iterators: 570-669, 1642-1647. -/
def Call.run (signed : Bool) (s : CState) : Call → Option (CState × Out)
  | .init packet x rc v =>
    if rc = 1 ∨ rc = 2 then some (s.put x ⟨if packet then .packet else .heap, rc, .heap v.val⟩, .code .noError)
    else some (s.spoil x (if packet then .packet else .heap) rc, .code .clientError)
  | .initBuffer x rc =>
    if rc = 1 ∨ rc = 2 then some (s.put x ⟨.buffer, rc, .buf ⟨[], .null, none⟩⟩, .code .noError)
    else some (s.spoil x .buffer rc, .code .clientError)
  | .copy byVal x y =>
    match s.objs y with
    | none => none
    | some o => if x = y ∧ !byVal then none else s.make byVal x o.rep o.rc (nullObj .packet) (.ok o.pkt)
  | .change x m => runMut s x m
  | .get byVal x y w =>
    match s.objs y with
    | none => none
    | some o => if x = y ∧ !byVal then none else s.make byVal x .packet o.rc (nullObj .packet) (w.read.run signed o.pkt)
  | .conv byVal x y c =>
    match s.objs y with
    | none => none
    | some o => if x = y ∧ !byVal then none else s.make byVal x c.rep o.rc (nullObj c.rep) (c.run o.pkt)
  | .query y q =>
    match s.objs y with
    | none => none
    | some o => (runQuery signed o.pkt q).map fun r => (s, r)
  | .destroy x =>
    match s.objs x with
    | none => none
    | some _ => some (s.drop x, .code .noError)
  | .itInit keys i y =>
    match s.objs y with
    | none => none
    | some o =>
      match if keys then o.pkt.keys else o.pkt.values with
      | .ok ps => some (s.putIt i ⟨o.rc, y, false, ps⟩, .code .noError)
      | .throw e => some (s.spoilIt i, .code (errCode e))
      | .ub => none
  | .itCopy i j =>
    match s.its j with
    | none => none
    | some it => if i = j ∨ it.stale then none else some (s.putIt i it, .code .noError)
  | .itGet byVal x i =>
    match s.its i with
    | none => none
    | some it =>
      if it.stale then none
      else match it.rest with
        | p :: _ => s.make byVal x .packet it.rc (nullObj .packet) (.ok p)
        | [] => if byVal then some (s.put x (nullObj .packet), .object) else some (s.spoil x .packet it.rc, .code .runtimeError)
  | .itNext i =>
    match s.its i with
    | none => none
    | some it => if it.stale then none else some ({ s with its := upd s.its i (some { it with rest := it.rest.tail }) }, .code .noError)
  | .itDone i =>
    match s.its i with
    | none => none
    | some it => if it.stale then none else some (s, .flag it.rest.isEmpty)
  | .itDestroy i =>
    match s.its i with
    | none => none
    | some _ => some ({ s with its := upd s.its i none }, .code .noError)
  | .itDoneDestroy i x =>
    match s.its i with
    | none => none
    | some it =>
      if it.stale then none
      else if it.rest.isEmpty then
        let s := { s with its := upd s.its i none }
        match x with
        | none => some (s, .flag true)
        | some x =>
          match s.objs x with
          | none => none
          | some _ => some (s.drop x, .flag true)
      else some (s, .flag false)

/-- A C program, as far as it calls the library: the next call may depend on what the calls so far returned. -/
inductive Prog
  | stop
  | call (c : Call) (next : Out → Prog)

/-- Run a program: the final state, and what the calls returned. `none` is undefined behaviour. -/
def Prog.run (signed : Bool) : Prog → CState → Option (CState × List Out)
  | .stop, s => some (s, [])
  | .call c next, s =>
    match c.run signed s with
    | none => none
    | some (s, o) =>
      match (next o).run signed s with
      | none => none
      | some (s, os) => some (s, o :: os)

/-- One program after another. -/
def Prog.andThen : Prog → Prog → Prog
  | .stop, q => q
  | .call c next, q => .call c fun o => (next o).andThen q

/-- The error code in an answer. -/
def Out.err : Out → Err
  | .code e => e
  | _ => .noError

/-- The loop of `DART_FOR_EACH_IMPL`, include/dart/abi.h 56-60, with iterator `i`, loop variable `x` and no `break` in the
body. `fin` is the second argument of `dart_iterator_done_destroy`: the macro passes the loop variable. The first
argument bounds the number of rounds. -/
def forEachLoop (i x : Nat) (fin : Option Nat) (body : Prog) : Nat → Err → Prog
  | 0, _ => .stop
  | n + 1, err =>
    .call (.itDoneDestroy i fin) fun o =>
      match o with
      | .flag true => .stop
      | _ =>
        if err = .noError then
          body.andThen (.call (.itNext i) fun _ => .call (.destroy x) fun _ => .call (.itGet false x i) fun o =>
            forEachLoop i x fin body n o.err)
        else .stop

/-- `DART_FOR_EACH_IMPL`, include/dart/abi.h 52-60, over the variable `y`: `dart_for_each`, with `keys` `dart_for_each_key`. -/
def forEach (keys : Bool) (i x y : Nat) (fin : Option Nat) (body : Prog) (rounds : Nat) : Prog :=
  .call (.itInit keys i y) fun o =>
    match o.err with
    | .noError => .call (.itGet false x i) fun o => forEachLoop i x fin body rounds o.err
    | e => forEachLoop i x fin body rounds e

end Dart.Abi
