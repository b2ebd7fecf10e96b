import Verif.Model.Heap
import Verif.Spec.Value

/-
What dynamic objects and arrays are supposed to do: a finite map from byte strings to values, and a
sequence of values. Written without the library's ordering, searching or index arithmetic.
-/
namespace Dart.Spec

/-- The value stored under exactly these bytes. -/
def lookup (fs : List (Bytes × Val)) (k : Bytes) : Option Val := (fs.find? (·.1 == k)).map (·.2)

/-- What a dynamic value is for its user. -/
inductive Shape where
  | map (m : Bytes → Option Val)
  | seq (l : List Val)
  | scalar (v : Val)

/-- Reading a dynamic value as a map, a sequence or a scalar. -/
def shape : Val → Shape
  | .obj fs => .map (lookup fs)
  | .arr es => .seq es
  | v => .scalar v

/-- A top-level value the API can hold: fields in key order without duplicates, keys at most 65535
bytes long, arrays no longer than a vector can be. Nothing is required of nested values. -/
def Proper : Val → Prop
  | .obj fs => fs.Pairwise (fun a b => KeyBefore a.1 b.1) ∧ ∀ f ∈ fs, f.1.length ≤ 65535
  | .arr es => es.length ≤ maxElems
  | _ => True

/-- Writing one key of a map. -/
def put (m : Bytes → Option Val) (k : Bytes) (v : Option Val) : Bytes → Option Val :=
  fun k' => if k' = k then v else m k'

/-- The exception a key gives rise to when used to write into an object. -/
def keyError : Val → Option Exc
  | .str k => if k.length ≤ 65535 then none else some .invalidArgument
  | _ => some .typeError

/-- The last pair with this key wins. -/
def lastPair (ps : List (Val × Val)) (k : Bytes) : Option Val :=
  (ps.reverse.find? fun p => match p.1 with | .str k' => k' == k | _ => false).map (·.2)

/-- What each operation is supposed to do, or which exception it throws. -/
def step : Shape → HOp → Except Exc Shape
  -- a string key addresses objects
  | .map m, .insert (.str k) v =>
    if k.length ≤ 65535 then .ok (.map (put m k (some v))) else .error .invalidArgument
  | .map m, .set (.str k) v =>
    if k.length ≤ 65535 then
      if (m k).isSome then .ok (.map (put m k (some v))) else .error .outOfRange
    else .error .invalidArgument
  | _, .insert (.str k) _ => if k.length ≤ 65535 then .error .typeError else .error .invalidArgument
  | _, .set (.str k) _ => if k.length ≤ 65535 then .error .typeError else .error .invalidArgument
  | .map m, .erase (.str k) => .ok (.map (put m k none))
  | .map m, .eraseKey k => .ok (.map (put m k none))
  -- an integer key addresses arrays; negative integers are out of range
  | .seq l, .insert (.int i) v =>
    if 0 ≤ i.toInt ∧ i.toInt ≤ l.length then
      if l.length < maxElems then .ok (.seq (l.insertIdx i.toInt.toNat v)) else .error .lengthError
    else .error .outOfRange
  | .seq l, .set (.int i) v =>
    if 0 ≤ i.toInt ∧ i.toInt < l.length then .ok (.seq (l.set i.toInt.toNat v)) else .error .outOfRange
  | .seq l, .erase (.int i) =>
    if 0 ≤ i.toInt ∧ i.toInt < l.length then .ok (.seq (l.eraseIdx i.toInt.toNat)) else .ok (.seq l)
  | .seq l, .eraseIdx n => .ok (.seq (l.eraseIdx n))
  | .seq l, .pushFront v => if l.length < maxElems then .ok (.seq (v :: l)) else .error .lengthError
  | .seq l, .pushBack v => if l.length < maxElems then .ok (.seq (l ++ [v])) else .error .lengthError
  | .seq l, .popFront => .ok (.seq l.tail)
  | .seq l, .popBack => .ok (.seq l.dropLast)
  | .seq l, .resize n d =>
    if n ≤ maxElems then .ok (.seq ((l ++ List.replicate (n - l.length) d).take n)) else .error .lengthError
  -- either
  | .map _, .clear => .ok (.map fun _ => none)
  | .seq _, .clear => .ok (.seq [])
  -- bulk operations on objects
  | .map m, .inject ps =>
    match ps.findSome? (fun p => keyError p.1) with
    | some e => .error e
    | none => .ok (.map fun k => (lastPair ps k).or (m k))
  | .map m, .project ks => .ok (.map fun k => if k ∈ ks then m k else none)
  -- everything else is a type error
  | _, _ => .error .typeError

/-- A history of calls: each result, and the final state. A call that throws changes nothing. -/
def history (s : Shape) : List HOp → Shape × List (Option Exc)
  | [] => (s, [])
  | op :: ops =>
    match step s op with
    | .ok s' => ((history s' ops).1, none :: (history s' ops).2)
    | .error e => ((history s ops).1, some e :: (history s ops).2)

/-- The values a call stores are themselves well formed. -/
def argsWF : HOp → Prop
  | .insert _ v => v.WF
  | .set _ v => v.WF
  | .pushFront v => v.WF
  | .pushBack v => v.WF
  | .resize _ d => d.WF
  | .inject ps => ∀ p ∈ ps, p.2.WF
  | _ => True

end Dart.Spec
