import Verif.Model.Json
import Verif.Model.Packet

/-
YAML: the state machine that builds dynamic values from the events of libyaml, and the decoding of scalars.
The text level (libyaml's parser) is not modelled; `Yaml` stands for a parsed document and `Yaml.events` for the events
libyaml produces for it.
-/
namespace Dart

/-- A parsed YAML document. Aliases refer to nodes elsewhere. -/
inductive Yaml
  | scalar (quoted : Bool) (s : Bytes)
  | seq (es : List Yaml)
  | map (fs : List (Yaml × Yaml))
  | alias

/-- The events of libyaml. Those for the beginning of streams and documents are skipped, and reading stops at the first
end of a document, include/dart/connector/yaml.tcc 81-86, 149. -/
inductive YEvent
  | mappingStart | mappingEnd
  | sequenceStart | sequenceEnd
  | scalar (quoted : Bool) (s : Bytes)
  | alias
  deriving DecidableEq, Repr

mutual
/-- The events of a node. -/
def Yaml.events : Yaml → List YEvent
  | .scalar q s => [.scalar q s]
  | .seq es => .sequenceStart :: (elemYEvents es ++ [.sequenceEnd])
  | .map fs => .mappingStart :: (fieldYEvents fs ++ [.mappingEnd])
  | .alias => [.alias]
def elemYEvents : List Yaml → List YEvent
  | [] => []
  | e :: es => e.events ++ elemYEvents es
def fieldYEvents : List (Yaml × Yaml) → List YEvent
  | [] => []
  | (k, v) :: fs => k.events ++ (v.events ++ fieldYEvents fs)
end

/-! ### Scalars -/

/-- The value of a digit for `strtoll`. -/
def digitOf (base : Nat) (c : UInt8) : Option Nat :=
  let n := c.toNat
  let d := if 0x30 ≤ n ∧ n ≤ 0x39 then n - 0x30 else if 0x61 ≤ n ∧ n ≤ 0x66 then n - 0x61 + 10
    else if 0x41 ≤ n ∧ n ≤ 0x46 then n - 0x41 + 10 else 99
  if d < base then some d else none

/-- The longest row of digits: its value and how many there are. -/
def readDigits (base : Nat) (acc : Nat) : Bytes → Nat × Nat
  | [] => (acc, 0)
  | c :: s =>
    match digitOf base c with
    | some d => ((readDigits base (base * acc + d) s).1, (readDigits base (base * acc + d) s).2 + 1)
    | none => (acc, 0)

/-- Whether there is a `0x` with a digit after it. -/
def hexAhead : Bytes → Bool
  | 0x30 :: c :: d :: _ => (c == 0x78 || c == 0x58) && (digitOf 16 d).isSome
  | _ => false

/-- A number without sign for `strtoll` with base 0. -/
def readNumber (s : Bytes) : Nat × Nat :=
  if hexAhead s then ((readDigits 16 0 (s.drop 2)).1, (readDigits 16 0 (s.drop 2)).2 + 2)
  else if s.head? = some 0x30 then readDigits 8 0 s
  else readDigits 10 0 s

/-- `strtoll(str, &problem, 0)` of a C string that does not begin with white space: the number read, and
`problem - str`. If the number is out of range `errno` is set. -/
def strtoll : Bytes → Int × Nat
  | 0x2d :: s => if (readNumber s).2 = 0 then (0, 0) else (-(readNumber s).1, (readNumber s).2 + 1)
  | 0x2b :: s => if (readNumber s).2 = 0 then (0, 0) else ((readNumber s).1, (readNumber s).2 + 1)
  | s => ((readNumber s).1, (readNumber s).2)

/-- `strtod(str, &problem)`: the number, or nothing if `errno` is set, and `problem - str`. -/
abbrev Strtod := Bytes → Option (BitVec 64) × Nat

/-- `parse_maybe_number`, include/dart/connector/yaml.tcc 164-183. -/
def parseMaybeNumber (strtod : Strtod) (s : Bytes) : Option Val :=
  let c := cstr s
  let (n, k) := strtoll c
  if -2 ^ 63 ≤ n ∧ n < 2 ^ 63 ∧ k = s.length then some (.int (BitVec.ofInt 64 n))
  else if c[k]? = some 0x2e ∨ c[k]? = some 0x65 ∨ c[k]? = some 0x45 then
    match strtod c with
    | (some d, k) => if k = s.length then some (.dec d) else none
    | (none, _) => none
  else none

/-- `parse_scalar`, include/dart/connector/yaml.tcc 185-228. -/
def parseScalar (strtod : Strtod) (s : Bytes) : Val :=
  match s.head? with
  | none => .str s
  | some c =>
    if c = 0x6e then if cstr s = [0x6e, 0x75, 0x6c, 0x6c] then .null else .str s
    else if c = 0x74 ∨ c = 0x66 then
      if cstr s = [0x74, 0x72, 0x75, 0x65] ∨ cstr s = [0x66, 0x61, 0x6c, 0x73, 0x65] then
        .bool (cstr s = [0x74, 0x72, 0x75, 0x65])
      else .str s
    else if (0x30 ≤ c ∧ c ≤ 0x39) ∨ c = 0x2b ∨ c = 0x2d then (parseMaybeNumber strtod s).getD (.str s)
    else .str s

/-! ### The machine -/

/-- `parse_state`, include/dart/connector/yaml.tcc 15-20. -/
inductive YState
  | scalar | key | value | element
  deriving DecidableEq, Repr

/-- The variables of `parse_yaml`, include/dart/connector/yaml.tcc 64-71; the heads of the lists are the tops of the
stacks. -/
structure YParser where
  currKey : Val
  currObj : Val
  keyStack : List Val
  objStack : List Val
  stateStack : List YState
  state : YState

/-- The state at the beginning. -/
def YParser.start : YParser := ⟨.null, .null, [], [], [], .scalar⟩

/-- `YAML_MAPPING_START_EVENT`, `YAML_SEQUENCE_START_EVENT`, include/dart/connector/yaml.tcc 87-102. Moving from a packet
leaves null. -/
def YParser.startNode (s : YParser) (v : Val) (st : YState) : YParser where
  currKey := if s.currKey.truthy then .null else s.currKey
  keyStack := if s.currKey.truthy then s.currKey :: s.keyStack else s.keyStack
  objStack := if s.currObj.truthy then s.currObj :: s.objStack else s.objStack
  stateStack := s.state :: s.stateStack
  state := st
  currObj := v

/-- Moving the current object into its parent, include/dart/connector/yaml.tcc 105-118; reading the top of an empty stack
is undefined behaviour. -/
def YParser.intoParent (s : YParser) : Res YParser :=
  match s.objStack with
  | [] => .ok s
  | parent :: objs =>
    match parent with
    | .obj fs =>
      match s.keyStack with
      | [] => .ub
      | k :: ks => (Val.insert (.obj fs) k s.currObj).bind fun p =>
          .ok { s with currObj := p, keyStack := ks, objStack := objs }
    | _ => (parent.pushBack s.currObj).bind fun p => .ok { s with currObj := p, objStack := objs }

/-- `state = state_stack.back()` and so on, include/dart/connector/yaml.tcc 120-123. -/
def YParser.restore (s : YParser) : Res YParser :=
  match s.stateStack with
  | [] => .ub
  | st :: sts => .ok { s with state := if st = .value then .key else st, stateStack := sts }

/-- The cases of the `switch`, include/dart/connector/yaml.tcc 80-145. A plain `std::runtime_error` is `parseError`. -/
def YParser.step (strtod : Strtod) (s : YParser) : YEvent → Res YParser
  | .mappingStart => .ok (s.startNode (.obj []) .key)
  | .sequenceStart => .ok (s.startNode (.arr []) .element)
  | .mappingEnd => s.intoParent.bind YParser.restore
  | .sequenceEnd => s.intoParent.bind YParser.restore
  | .scalar _ t =>
    match s.state with
    | .scalar => .throw .parseError
    | .key => .ok { s with currKey := .str t, state := .value }
    | .value => (s.currObj.insert s.currKey (parseScalar strtod t)).bind fun o =>
        .ok { s with currKey := .null, currObj := o, state := .key }
    | .element => (s.currObj.pushBack (parseScalar strtod t)).bind fun o => .ok { s with currObj := o }
  | .alias => .throw .parseError

/-- The loop. -/
def YParser.run (strtod : Strtod) (s : YParser) : List YEvent → Res YParser
  | [] => .ok s
  | e :: es => (s.step strtod e).bind fun t => t.run strtod es

/-- `parse_yaml`, include/dart/connector/yaml.tcc 54-162, that is `basic_heap::from_yaml`, of a text whose first
document is the given one; nothing stands for a text without documents. -/
def parseYaml (strtod : Strtod) (y : Option Yaml) : Res Val :=
  (YParser.start.run strtod ((y.map Yaml.events).getD [])).bind fun s =>
    .ok (if s.currObj.truthy then s.currObj else .obj [])

/-- `basic_packet::from_yaml(yaml, finalized)`, include/dart/connector/yaml.tcc 44-50. -/
def Pkt.fromYaml (strtod : Strtod) (finalized : Bool) (y : Option Yaml) : Res Pkt :=
  (parseYaml strtod y).bind fun v => if finalized then (Pkt.heap v).finalize else .ok (.heap v)

end Dart
