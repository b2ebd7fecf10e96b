import Verif.Model.Packet
import Verif.Model.Arith

/-
The typed wrappers `basic_object`, `basic_array`, `basic_string`, `basic_number` and `basic_flag` over `basic_packet`
(`dart::object`, `dart::array`, ...). A wrapper is a class with one private member `val`, a packet, which is checked when
the wrapper is made. `basic_null` has no state and is not modelled. Calls on rvalues other than moving the wrapper, and
iterators, are not modelled. As in the packet model, packets are values.
-/
namespace Dart.Typed

/-- The wrapper classes, include/dart.h 99, 1619, 3068, 3635, 4206. -/
inductive Kind
  | object | array | string | number | flag
  deriving DecidableEq, Repr

/-- The test each constructor makes: `ensure_object`, include/dart/object.tcc 213-215; include/dart/array.tcc 15;
include/dart/string.tcc 15; include/dart/primitive.tcc 15 and 24. -/
def Kind.test : Kind → Ty → Bool
  | .object, .object => true
  | .array, .array => true
  | .string, .string => true
  | .number, .integer => true
  | .number, .decimal => true
  | .flag, .boolean => true
  | _, _ => false

/-- Whether the constructor from a packet takes it before the test (`val(std::forward<Arg>(arg))` in the initialiser
list, include/dart/object.tcc 31, 43, 64; include/dart/array.tcc 14) or after it (include/dart/string.tcc 14-17;
include/dart/primitive.tcc 14-19, 23-28). -/
def Kind.takesFirst : Kind → Bool
  | .object => true
  | .array => true
  | _ => false

/-- What a packet is after it was moved from: the alternative stays and is null. include/dart/heap/api.tcc 13-15,
include/dart/buffer/api.tcc 13-19; `basic_packet(basic_packet&&)` is defaulted, include/dart.h 10616. -/
def movedFrom : Pkt → Pkt
  | .heap _ => .heap .null
  | .buf _ => .buf ⟨[], .null, none⟩

/-- The mutators a wrapper has (`add_field` and `remove_field` are `insert` and `erase`). include/dart/object.tcc 70-121; include/dart/array.tcc 20-114. -/
def Kind.offersMut {α : Type} : Kind → PMut α → Bool
  | .object, .insert _ _ => true
  | .object, .set _ _ => true
  | .object, .erase _ => true
  | .object, .eraseKey _ => true
  | .object, .clear => true
  | .array, .insert _ _ => true
  | .array, .set _ _ => true
  | .array, .erase _ => true
  | .array, .eraseIdx _ => true
  | .array, .pushFront _ => true
  | .array, .pushBack _ => true
  | .array, .popFront => true
  | .array, .popBack => true
  | .array, .clear => true
  | .array, .resize _ _ => true
  | _, _ => false

/-- The reads a wrapper has that return a packet. include/dart/object.tcc 141-168; include/dart/array.tcc 116-168. -/
def Kind.offersRead {α : Type} : Kind → PRead α → Bool
  | .object, .get _ => true
  | .object, .at _ => true
  | .object, .getOr _ _ => true
  | .object, .nested _ _ => true
  | .array, .getIdx _ => true
  | .array, .atIdx _ => true
  | .array, .getIdxOr _ _ => true
  | .array, .front => true
  | .array, .back => true
  | .array, .atFront => true
  | .array, .atBack => true
  | .array, .frontOr _ => true
  | .array, .backOr _ => true
  | _, _ => false

/-- The questions a wrapper answers. -/
inductive Query
  | isNull | getType | isFinalized | truth | view
  | size | empty | hasKey (k : Bytes)
  | strv | charAt (i : Nat)
  | numeric | toDouble | boolean
  | integer | decimal
  deriving DecidableEq, Repr

/-- Which classes have which of them. -/
def Kind.offers : Kind → Query → Bool
  | _, .isNull => true
  | _, .getType => true
  | _, .isFinalized => true
  | _, .truth => true
  | _, .view => true
  | .object, .size => true
  | .array, .size => true
  | .string, .size => true
  | .object, .empty => true
  | .array, .empty => true
  | .string, .empty => true
  | .object, .hasKey _ => true
  | .string, .strv => true
  | .string, .charAt _ => true
  | .number, .numeric => true
  | .number, .toDouble => true
  | .number, .integer => true
  | .number, .decimal => true
  | .flag, .boolean => true
  | _, _ => false

/-- Which of them are declared `noexcept`: all but `integer` and `decimal`. include/dart.h 595, 631, 1195-1211, 1287-1306
(object); 2204, 2240, 2790-2809, 2885-2904 (array); 3359-3375, 3414-3482, 3558-3577 (string); 3943-3950, 3994-4053,
4129-4148 (number); 4427-4434, 4470-4504, 4580-4599 (flag). -/
def Query.noexcept : Query → Bool
  | .integer => false
  | .decimal => false
  | _ => true

/-- An answer. -/
inductive Obs
  | nothing
  | nat (n : Nat)
  | bool (b : Bool)
  | bytes (s : Bytes)
  | char (c : UInt8)
  | word (d : BitVec 64)
  | type (t : Ty)
  deriving DecidableEq, Repr

/-- `basic_packet::numeric`, include/dart/packet/primitive.tcc 50-53, include/dart/heap/primitive.tcc 51-61,
include/dart/buffer/primitive.tcc 22-32. -/
def numeric (p : Pkt) : Res (BitVec 64) :=
  match p.getType with
  | .integer => p.integer.bind fun i => .ok (intToDouble i.toInt)
  | .decimal => p.decimal
  | _ => .throw .typeError

/-- The bodies. `is_null`, `get_type`, `is_finalized`: include/dart/api.tcc 851-874, 911-934, 941-964; `operator bool`:
297-321; `operator view`: 236-259, which makes a wrapper of a view and so tests again; `size`, `empty`: 520-549;
`has_key`: include/dart/object.tcc 208-210; `strv`, `operator []`: include/dart/string.tcc 27-41; `numeric`, `integer`,
`decimal`, `boolean`: include/dart/primitive.tcc 88-106; `operator T` with `double` for `T`: include/dart/api.tcc
441-444. -/
def ask (signed : Bool) (k : Kind) (p : Pkt) : Query → Res Obs
  | .isNull => .ok (.bool (p.getType == .null))
  | .getType => .ok (.type p.getType)
  | .isFinalized => .ok (.bool p.isFinalized)
  | .truth => match k with
    | .flag => if p.getType == .null then .ok (.bool false) else p.boolean.bind fun b => .ok (.bool b)
    | _ => .ok (.bool (!(p.getType == .null)))
  | .view => if k.test p.getType then .ok (.type p.getType) else .throw .typeError
  | .size => p.size.bind fun n => .ok (.nat n)
  | .empty => p.size.bind fun n => .ok (.bool (n == 0))
  | .hasKey key => (p.hasKey signed key).bind fun b => .ok (.bool b)
  | .strv => p.strv.bind fun s => .ok (.bytes s)
  | .charAt i => p.size.bind fun n => if i ≥ n then .ok (.char 0) else p.strv.bind fun s => .ok (.char (s[i]?.getD 0))
  | .numeric => (numeric p).bind fun d => .ok (.word d)
  | .toDouble =>
    if p.getType == .integer then p.integer.bind fun i => .ok (.word (intToDouble i.toInt))
    else p.decimal.bind fun d => .ok (.word d)
  | .boolean => p.boolean.bind fun b => .ok (.bool b)
  | .integer => p.integer.bind fun i => .ok (.word i)
  | .decimal => p.decimal.bind fun d => .ok (.word d)

/-- The arithmetic members of `basic_number`, include/dart/primitive.tcc 31-86, all declared `noexcept`, include/dart.h
3885-3934. The postfix forms differ from the prefix ones in what they return. -/
inductive Arith
  | assign (op : ArithOp) (rhs : NativeNum)
  | incr
  | decr
  deriving DecidableEq, Repr

/-- What they compute from the number. -/
def Arith.result (x : BitVec 64) : Arith → BitVec 64
  | .assign op rhs => op.builtin x rhs.toDouble
  | .incr => fadd x (intToDouble 1)
  | .decr => fsub x (intToDouble 1)

/-- `val = numeric() + val` and so on: `basic_packet::operator =(T&&)`, include/dart/packet/api.tcc 14-17, asks for the
dynamic representation. -/
def arith (p : Pkt) (a : Arith) : Res Pkt :=
  (numeric p).bind fun x => p.getHeap.bind fun _ => .ok (.heap (.dec (a.result x)))

/-- The variables of a program: packets, and wrappers with their classes. -/
structure State where
  packets : List Pkt
  wraps : List (Kind × Pkt)

/-- What a program does. Wrappers and packets are named by their positions. -/
inductive Op
  /-- a step on packet variables -/
  | packet (op : POp)
  /-- make a wrapper of native values (`object o {"a", 1}`, `string s {"abc"}`, `number n {1}`, ...); `v` is what they
  convert to -/
  | make (k : Kind) (v : Val)
  /-- make a wrapper of a packet variable, copying or moving it -/
  | wrap (k : Kind) (x : Nat) (move : Bool)
  /-- make a wrapper of another one, copying or moving it -/
  | dup (w : Nat) (move : Bool)
  /-- assign another wrapper of the same class, copying or moving it -/
  | assign (w v : Nat) (move : Bool)
  /-- assign native values -/
  | assignNative (w : Nat) (v : Val)
  /-- a mutator -/
  | mutate (w : Nat) (m : PMut PArg)
  /-- `operator +=` of a string -/
  | concat (w : Nat) (s : Bytes)
  /-- arithmetic of a number -/
  | arith (w : Nat) (a : Arith)
  /-- `finalize` or `definalize` of an object, the result is not used -/
  | finalize (w : Nat)
  | definalize (w : Nat)
  /-- `o.definalize() = p` for a packet variable -/
  | assignThrough (w : Nat) (x : Nat)
  /-- make a packet variable of a wrapper, copying or moving it -/
  | unwrap (w : Nat) (move : Bool)
  /-- store the packet a read returns in a new packet variable -/
  | read (w : Nat) (r : PRead PArg)
  /-- ask a question -/
  | ask (w : Nat) (q : Query)

/-- How a step ends. -/
inductive Out
  | next (st : State) (o : Obs)
  | throw (st : State) (e : Exc)
  /-- an exception leaves a function declared `noexcept` -/
  | terminate
  | ub

/-- The wrapper `w` (there may be none). -/
def State.wrap (st : State) (w : Nat) : Option (Kind × Pkt) := st.wraps[w]?

/-- Steps that name variables that do not exist, or that do not compile, do nothing. -/
def State.skip (st : State) : Out := .next st .nothing

/-- Add a wrapper. -/
def State.addWrap (st : State) (k : Kind) (p : Pkt) : State := { st with wraps := st.wraps ++ [(k, p)] }

/-- Change a wrapper. -/
def State.setWrap (st : State) (w : Nat) (k : Kind) (p : Pkt) : State := { st with wraps := st.wraps.set w (k, p) }

/-- Change a packet. -/
def State.setPacket (st : State) (x : Nat) (p : Pkt) : State := { st with packets := st.packets.set x p }

/-- Add a packet. -/
def State.addPacket (st : State) (p : Pkt) : State := { st with packets := st.packets ++ [p] }

/-- Store the outcome of a call in the wrapper `w`. -/
def State.store (st : State) (w : Nat) (k : Kind) : Res Pkt → Out
  | .ok p => .next (st.setWrap w k p) .nothing
  | .throw e => .throw st e
  | .ub => .ub

/-- One step. Making: include/dart.h 192-194 (object), 1716-1718 (array), 3090-3170 (string), 3685-3703 (number),
4256-4258 (flag); wrapping: see `Kind.takesFirst`; copy and move construction and assignment are defaulted,
include/dart.h 376-408, 1827-1858, 3281-3312, 3812-3843, 4367-4398 (moving onto oneself does nothing,
include/dart/heap/api.tcc 19, include/dart/buffer/api.tcc 24); assigning native values: include/dart/api.tcc 23-204, which
moves a fresh packet in whatever the state; `operator +=`: include/dart/string.tcc 21-25; `finalize`, `definalize`:
include/dart/api.tcc 447-484, which return what `basic_packet` returns, a reference to `val`; conversion to a packet:
include/dart/api.tcc 266-314. -/
def Op.run (signed : Bool) (st : State) : Op → Out
  | .packet op =>
    match op.run signed st.packets with
    | none => .ub
    | some (ps, none) => .next { st with packets := ps } .nothing
    | some (ps, some e) => .throw { st with packets := ps } e
  | .make k v => if k.test v.getType then .next (st.addWrap k (.heap v)) .nothing else .throw st .typeError
  | .wrap k x move =>
    match st.packets[x]? with
    | none => st.skip
    | some p =>
      if k.test p.getType then .next ((if move then st.setPacket x (movedFrom p) else st).addWrap k p) .nothing
      else .throw (if move && k.takesFirst then st.setPacket x (movedFrom p) else st) .typeError
  | .dup w move =>
    match st.wrap w with
    | none => st.skip
    | some (k, p) => .next ((if move then st.setWrap w k (movedFrom p) else st).addWrap k p) .nothing
  | .assign w v move =>
    match st.wrap w, st.wrap v with
    | some (k, _), some (k', p) =>
      if k = k' ∧ w ≠ v then .next ((if move then st.setWrap v k (movedFrom p) else st).setWrap w k p) .nothing
      else st.skip
    | _, _ => st.skip
  | .assignNative w v =>
    match st.wrap w with
    | none => st.skip
    | some (k, _) => if k.test v.getType then .next (st.setWrap w k (.heap v)) .nothing else st.skip
  | .mutate w m =>
    match st.wrap w with
    | none => st.skip
    | some (k, p) => if k.offersMut m then st.store w k ((m.map (PArg.pkt st.packets)).run p) else st.skip
  | .concat w s =>
    match st.wrap w with
    | some (.string, p) =>
      -- `strv` is `noexcept`
      match p.strv with
      | .ok t => .next (st.setWrap w .string (.heap (.str (t ++ s)))) .nothing
      | .throw _ => .terminate
      | .ub => .ub
    | _ => st.skip
  | .arith w a =>
    match st.wrap w with
    | some (.number, p) =>
      match Typed.arith p a with
      | .ok p => .next (st.setWrap w .number p) .nothing
      | .throw _ => .terminate
      | .ub => .ub
    | _ => st.skip
  | .finalize w =>
    match st.wrap w with
    | some (.object, p) => st.store w .object p.finalize
    | _ => st.skip
  | .definalize w =>
    match st.wrap w with
    | some (.object, p) => st.store w .object p.definalize
    | _ => st.skip
  | .assignThrough w x =>
    match st.wrap w, st.packets[x]? with
    | some (.object, p), some q => st.store w .object (p.definalize.bind fun _ => .ok q)
    | _, _ => st.skip
  | .unwrap w move =>
    match st.wrap w with
    | none => st.skip
    | some (k, p) => .next ((if move then st.setWrap w k (movedFrom p) else st).addPacket p) .nothing
  | .read w r =>
    match st.wrap w with
    | none => st.skip
    | some (k, p) =>
      if k.offersRead r then
        match (r.map (PArg.pkt st.packets)).run signed p with
        | .ok q => .next (st.addPacket q) .nothing
        | .throw e => .throw st e
        | .ub => .ub
      else st.skip
  | .ask w q =>
    match st.wrap w with
    | none => st.skip
    | some (k, p) =>
      if k.offers q then
        match Typed.ask signed k p q with
        | .ok o => .next st o
        | .throw e => if q.noexcept then .terminate else .throw st e
        | .ub => .ub
      else st.skip

/-- How a program ends; with each answer and each exception. -/
inductive End
  | done (st : State) (log : List (Obs ⊕ Exc))
  | terminate
  | ub

/-- A program: a step that throws is followed by the next one. -/
def run (signed : Bool) (st : State) : List Op → End
  | [] => .done st []
  | op :: ops =>
    match op.run signed st with
    | .next st o => match run signed st ops with
      | .done st log => .done st (.inl o :: log)
      | r => r
    | .throw st e => match run signed st ops with
      | .done st log => .done st (.inr e :: log)
      | r => r
    | .terminate => .terminate
    | .ub => .ub

end Dart.Typed
