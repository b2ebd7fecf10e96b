import Verif.Model.Packet

/-
Calls on temporaries: the overloads of buffers and packets for rvalues (`std::move(p).get(...)`), which change the object
they are called on and return a reference to it, so that calls can be chained; and moves of packets.
-/
namespace Dart

/-! ### Buffers -/

/-- `if (is_null()) buffer_ref = nullptr;`: null lets go of the memory. -/
def Buf.release (b : Buf) : Buf := if b.type = .null then ⟨[], b.type, b.addr⟩ else b

/-- `get(string_view) &&`, include/dart/buffer/object.tcc 135-141. -/
def Buf.takeGet (signed : Bool) (b : Buf) (key : Bytes) : Res Buf :=
  b.object.bind fun p => (Res.ofRead (getValueImpl signed b.mem p key)).bind fun r =>
    match r with
    | none => .ok (b.sub (.null, none)).release
    | some e => .ok (b.sub e).release

/-- `at(string_view) &&`, include/dart/buffer/object.tcc 165-171. -/
def Buf.takeAt (signed : Bool) (b : Buf) (key : Bytes) : Res Buf :=
  b.object.bind fun p => (Res.ofRead (getValueImpl signed b.mem p key)).bind fun r =>
    match r with
    | none => .throw .outOfRange
    | some e => .ok (b.sub e).release

/-- `get(size_type) &&`, include/dart/buffer/array.tcc 52-57. -/
def Buf.takeIdx (b : Buf) (i : Nat) : Res Buf :=
  b.array.bind fun p => (Res.ofRead (numElems b.mem p)).bind fun n =>
    if i < n then (Res.ofRead (loadElem b.mem p i)).bind fun e => .ok (b.sub (e.1, some e.2)).release
    else .ok (b.sub (.null, none)).release

/-- `at(size_type) &&`, include/dart/buffer/array.tcc 76-82. -/
def Buf.takeAtIdx (b : Buf) (i : Nat) : Res Buf :=
  b.array.bind fun p => (Res.ofRead (numElems b.mem p)).bind fun n =>
    if i < n then (Res.ofRead (loadElem b.mem p i)).bind fun e => .ok (b.sub (e.1, some e.2)).release
    else .throw .outOfRange

/-- `front() &&`, include/dart/buffer/array.tcc 117-125. -/
def Buf.takeFront (b : Buf) : Res Buf :=
  b.array.bind fun _ => b.size.bind fun n => if n = 0 then .ok (b.sub (.null, none)).release else b.takeIdx 0

/-- `back() &&`, include/dart/buffer/array.tcc 134-142. -/
def Buf.takeBack (b : Buf) : Res Buf :=
  b.array.bind fun _ => b.size.bind fun n => if n = 0 then .ok (b.sub (.null, none)).release else b.takeIdx (n - 1)

/-- `at_front() &&`, include/dart/buffer/array.tcc 90-95. -/
def Buf.takeAtFront (b : Buf) : Res Buf := b.size.bind fun n => if n = 0 then .throw .outOfRange else b.takeFront

/-- `at_back() &&`, include/dart/buffer/array.tcc 103-108. -/
def Buf.takeAtBack (b : Buf) : Res Buf := b.size.bind fun n => if n = 0 then .throw .outOfRange else b.takeBack

/-! ### Packets -/

/-- The calls with an overload for temporaries that returns the packet again. `α` stands for an argument. `at` with a
packet as key is left out: it does not compile (`identifier.at_type()`, include/dart/buffer/api.tcc 233). -/
inductive RCall (α : Type) where
  | get (k : Bytes)
  | at (k : Bytes)
  | getIdx (i : Nat)
  | atIdx (i : Nat)
  | getKey (key : α)
  | front
  | back
  | atFront
  | atBack
  | addField (key value : α)
  | removeField (k : Bytes)
  | pushFront (v : α)
  | pushBack (v : α)
  | popFront
  | popBack
  | finalize
  | definalize

/-- Apply a function to the arguments. -/
def RCall.map {α β : Type} (f : α → β) : RCall α → RCall β
  | .get k => .get k
  | .at k => .at k
  | .getIdx i => .getIdx i
  | .atIdx i => .atIdx i
  | .getKey k => .getKey (f k)
  | .front => .front
  | .back => .back
  | .atFront => .atFront
  | .atBack => .atBack
  | .addField k v => .addField (f k) (f v)
  | .removeField k => .removeField k
  | .pushFront v => .pushFront (f v)
  | .pushBack v => .pushBack (f v)
  | .popFront => .popFront
  | .popBack => .popBack
  | .finalize => .finalize
  | .definalize => .definalize

/-- A function whose `return` is missing: undefined, unless an exception gets it out of there before. -/
def Res.noReturn {α : Type} : Res α → Res α
  | .ok _ => .ub
  | r => r

/-- One such call: the state of the packet afterwards. `v = std::move(v).get(...)` within `shim::visit`: a dynamic value has no
overloads for temporaries, the copy of the element is moved into it; a buffer changes itself, and the assignment is one to
itself. include/dart/packet/object.tcc 43-48, 57-62, 172-177, 214-219;
include/dart/packet/array.tcc 43-48, 57-62, 71-76, 85-90, 156-161, 193-198, 205-210, 217-222 (both without a `return` in a
lambda that has to return a packet), 229-234, 247-252; include/dart/packet/api.tcc 190-195, 216-221, 250-255, include/dart/buffer/api.tcc
204-215; include/dart/heap/object.tcc, heap/array.tcc (no overloads for temporaries of the reads). -/
def RCall.run (signed : Bool) (p : Pkt) : RCall Pkt → Res Pkt
  | .get k => p.visit (·.get k) (·.takeGet signed k) .heap .buf
  | .at k => p.visit (·.atKey k) (·.takeAt signed k) .heap .buf
  | .getIdx i => p.visit (·.getIdx i) (·.takeIdx i) .heap .buf
  | .atIdx i => p.visit (·.atIdx i) (·.takeAtIdx i) .heap .buf
  | .getKey key =>
    match key.getType with
    | .string => key.strv.bind fun k => p.visit (·.get k) (·.takeGet signed k) .heap .buf
    | .integer => key.integer.bind fun i => p.visit (·.getIdx i.toNat) (·.takeIdx i.toNat) .heap .buf
    | _ => .throw .typeError
  | .front => p.visit (·.front) (·.takeFront) .heap .buf
  | .back => p.visit (·.back) (·.takeBack) .heap .buf
  | .atFront => (p.visit (·.atFront) (·.takeAtFront) .heap .buf).noReturn
  | .atBack => (p.visit (·.atBack) (·.takeAtBack) .heap .buf).noReturn
  | .addField k v => (PMut.insert k v).run p
  | .removeField k => (PMut.eraseKey k).run p
  | .pushFront v => (PMut.pushFront v).run p
  | .pushBack v => (PMut.pushBack v).run p
  | .popFront => PMut.popFront.run p
  | .popBack => PMut.popBack.run p
  | .finalize => p.finalize
  | .definalize => p.definalize

/-- What a packet is after it was moved from: the variant keeps its alternative, which becomes null;
`basic_packet(basic_packet&&)`, include/dart.h 10616, include/dart/heap/api.tcc 12-15, include/dart/buffer/api.tcc 12-19. -/
def Pkt.movedFrom : Pkt → Pkt
  | .heap _ => .heap .null
  | .buf _ => .buf ⟨[], .null, none⟩

/-- `std::move(x).c₁(...).c₂(...)…`: every call works on `x`; the first exception ends the chain. -/
def runChain (signed : Bool) (x : Nat) : List Pkt → List (RCall PArg) → Option (List Pkt × Option Exc)
  | ps, [] => some (ps, none)
  | ps, c :: cs =>
    match storeAt ps x ((c.map (PArg.pkt ps)).run signed (pktVar ps x)) with
    | some (ps', none) => runChain signed x ps' cs
    | r => r

/-- The steps of a program. -/
inductive ROp where
  /-- as before -/
  | plain (op : POp)
  /-- `auto y = std::move(x).c₁(...).c₂(...)…;` with a new variable `y` -/
  | chain (x : Nat) (cs : List (RCall PArg))
  /-- `x = std::move(y);` -/
  | move (x y : Nat)

/-- One step. -/
def ROp.run (signed : Bool) (ps : List Pkt) : ROp → Option (List Pkt × Option Exc)
  | .plain op => op.run signed ps
  | .chain x cs =>
    match runChain signed x ps cs with
    | some (ps', none) => some (ps'.set x (pktVar ps' x).movedFrom ++ [pktVar ps' x], none)
    | r => r
  | .move x y =>
    -- include/dart.h 10647; assigning to itself does nothing, include/dart/heap/api.tcc 18-27,
    -- include/dart/buffer/api.tcc 21-30.
    if x = y then some (ps, none)
    else some ((ps.set x (pktVar ps y)).set y (pktVar ps y).movedFrom, none)

/-- A program: the final variables and the exception each step threw. -/
def runRvalues (signed : Bool) (ps : List Pkt) : List ROp → Option (List Pkt × List (Option Exc))
  | [] => some (ps, [])
  | op :: ops =>
    match op.run signed ps with
    | none => none
    | some (ps, e) =>
      match runRvalues signed ps ops with
      | none => none
      | some (ps, es) => some (ps, e :: es)

end Dart
