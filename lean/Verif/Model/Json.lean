import Verif.Model.Heap

/-
JSON: the state machine building dynamic values from parser events, and the serializer emitting events.
The text level (RapidJSON's reader and writer) is not modelled; `Json` stands for a parsed document and
`Json.events` for the events RapidJSON's reader produces for it.
-/
namespace Dart

/-- A parsed JSON document; members in the order of the text, duplicate names allowed. Numbers without fraction
and exponent from -2^63 to 2^64 - 1 are `num`, all others `dbl`. -/
inductive Json
  | null
  | bool (b : Bool)
  | num (n : Int)
  | dbl (d : BitVec 64)
  | str (s : Bytes)
  | arr (es : List Json)
  | obj (fs : List (Bytes × Json))

/-- The handler calls of RapidJSON's SAX interface. -/
inductive Event
  | startObject | key (s : Bytes) | endObject
  | startArray | endArray
  | string (s : Bytes)
  | int (n : BitVec 32) | uint (n : BitVec 32) | int64 (n : BitVec 64) | uint64 (n : BitVec 64)
  | double (d : BitVec 64) | bool (b : Bool) | null
  deriving DecidableEq, Repr

/-- The event for an integral number: RapidJSON's reader delivers numbers that are not negative as unsigned,
and uses the 32-bit handlers when they suffice. -/
def intEvent (n : Int) : Event :=
  if 0 ≤ n then if n < 2 ^ 32 then .uint (BitVec.ofInt 32 n) else .uint64 (BitVec.ofInt 64 n)
  else if -2 ^ 31 ≤ n then .int (BitVec.ofInt 32 n) else .int64 (BitVec.ofInt 64 n)

mutual
/-- The events of a document. -/
def Json.events : Json → List Event
  | .null => [.null]
  | .bool b => [.bool b]
  | .num n => [intEvent n]
  | .dbl d => [.double d]
  | .str s => [.string s]
  | .arr es => .startArray :: (elemEvents es ++ [.endArray])
  | .obj fs => .startObject :: (fieldEvents fs ++ [.endObject])
def elemEvents : List Json → List Event
  | [] => []
  | e :: es => e.events ++ elemEvents es
def fieldEvents : List (Bytes × Json) → List Event
  | [] => []
  | (k, v) :: fs => .key k :: (v.events ++ fieldEvents fs)
end

/-- `heap_parser`, include/dart/connector/json.tcc 41-44; the heads of the lists are the tops of the stacks. -/
structure Parser where
  currKey : Val
  currObj : Val
  keyStack : List Val
  objStack : List Val

/-- A packet as condition: `explicit operator T` with `T = bool`, include/dart.h 5388-5412,
include/dart/conversion_traits.h 957-966. -/
def Val.truthy : Val → Bool
  | .null => false
  | .bool b => b
  | _ => true

/-- The state at the beginning. -/
def Parser.start : Parser := ⟨.null, .null, [], []⟩

/-- `StartObject` and `StartArray`, json.tcc 305-310, 327-332; `v` is the new empty aggregate. Moving from a
packet leaves null, include/dart/heap/api.tcc 13-15. -/
def Parser.startAggregate (s : Parser) (v : Val) : Parser where
  currKey := if s.currKey.truthy then .null else s.currKey
  keyStack := if s.currKey.truthy then s.currKey :: s.keyStack else s.keyStack
  objStack := if s.currObj.truthy then s.currObj :: s.objStack else s.objStack
  currObj := v

/-- `EndAggregate`, json.tcc 340-356; popping an empty stack is undefined behaviour. -/
def Parser.endAggregate (s : Parser) : Res Parser :=
  match s.objStack with
  | [] => .ok s
  | parent :: objs =>
    match parent with
    | .obj fs =>
      match s.keyStack with
      | [] => .ub
      | k :: ks => (Val.insert (.obj fs) k s.currObj).bind fun p => .ok ⟨s.currKey, p, ks, objs⟩
    | _ => (parent.pushBack s.currObj).bind fun p => .ok ⟨s.currKey, p, s.keyStack, objs⟩

/-- `String`, `Int64`, `Double`, `Bool` and `Null`, json.tcc 358-416: into the current object under the current
key, which is moved from, or at the end of the current array. -/
def Parser.embed (s : Parser) (v : Val) : Res Parser :=
  match s.currObj with
  | .obj fs => (Val.insert (.obj fs) s.currKey v).bind fun o => .ok { s with currKey := .null, currObj := o }
  | _ => (s.currObj.pushBack v).bind fun o => .ok { s with currObj := o }

/-- The event handlers, json.tcc 303-416. -/
def Parser.step (s : Parser) : Event → Res Parser
  | .startObject => .ok (s.startAggregate (.obj []))
  | .key k => .ok { s with currKey := .str k }
  | .endObject => s.endAggregate
  | .startArray => .ok (s.startAggregate (.arr []))
  | .endArray => s.endAggregate
  | .string t => s.embed (.str t)
  | .int n => s.embed (.int (n.signExtend 64))
  | .uint n => s.embed (.int (n.zeroExtend 64))
  | .int64 n => s.embed (.int n)
  | .uint64 n => s.embed (.int n)
  | .double d => s.embed (.dec d)
  | .bool b => s.embed (.bool b)
  | .null => s.embed .null

/-- Feeding events to the parser. -/
def Parser.run (s : Parser) : List Event → Res Parser
  | [] => .ok s
  | e :: es => (s.step e).bind fun t => t.run es

/-- `basic_heap::from_json`, json.tcc 136-158, of a text that parses to the given document. -/
def Json.toHeap (j : Json) : Res Val := (Parser.start.run j.events).bind fun s => .ok s.currObj

/-- A string handed to RapidJSON's writer: `SizeType` has 32 bits, json.tcc 427, 440. -/
def cut32 (s : Bytes) : Bytes := s.take (s.length % 2 ^ 32)

mutual
/-- `json_serialize` for dynamic values, json.tcc 418-455: the calls made to the writer. -/
def Val.serialize : Val → List Event
  | .obj fs => .startObject :: (serializeFields fs ++ [.endObject])
  | .arr es => .startArray :: (serializeElems es ++ [.endArray])
  | .str s => [.string (cut32 s)]
  | .int i => [.int64 i]
  | .dec d => [.double d]
  | .bool b => [.bool b]
  | .null => [.null]
def serializeFields : List (Bytes × Val) → List Event
  | [] => []
  | (k, v) :: fs => .key (cut32 k) :: (v.serialize ++ serializeFields fs)
def serializeElems : List Val → List Event
  | [] => []
  | v :: es => v.serialize ++ serializeElems es
end

/-- `json_serialize` for finalized values, json.tcc 418-455. The recursion is bounded by `fuel`; running out of it
is `ub`, so that the theorems show that this does not happen. -/
def Buf.serialize : Nat → Buf → Res (List Event)
  | 0, _ => .ub
  | fuel + 1, b =>
    match b.getType with
    | .object =>
      b.size.bind fun n =>
        (Res.collect (fun i => (b.keyAt i).bind fun k => k.strv.bind fun s => (b.valueAt i).bind fun v =>
          (Buf.serialize fuel v).bind fun l => .ok (Event.key (cut32 s) :: l)) n).bind fun ls =>
        .ok (.startObject :: (ls.flatten ++ [.endObject]))
    | .array =>
      b.size.bind fun n =>
        (Res.collect (fun i => (b.valueAt i).bind fun v => Buf.serialize fuel v) n).bind fun ls =>
        .ok (.startArray :: (ls.flatten ++ [.endArray]))
    | .string => b.strv.bind fun s => .ok [.string (cut32 s)]
    | .integer => b.integer.bind fun i => .ok [.int64 i]
    | .decimal => b.decimal.bind fun d => .ok [.double d]
    | .boolean => b.boolean.bind fun x => .ok [.bool x]
    | .null => .ok [.null]

end Dart
