import Verif.Model.PktIter
import Verif.Spec.Container
import Verif.Spec.Packet

/-
What iterators of packets stand for: positions in a list of items.
-/
namespace Dart.Spec

/-- The items an iterator walks over: the elements, the values of the fields, or the keys. -/
def itemsOf : Val → Bool → Option (List Val)
  | .obj fs, true => some (fs.map fun f => .str f.1)
  | .obj fs, false => some (fs.map fun f => f.2)
  | .arr es, false => some es
  | _, _ => none

/-- An iterator: nowhere (`fin` says whether it was of a finalized packet before), or at a position of packet `x`. -/
inductive APos where
  | blank (fin : Bool)
  | at (x : Nat) (keys : Bool) (pos : Nat)

/-- The items of packet `x`. -/
def itemsAt (ss : List PState) (x : Nat) (keys : Bool) : Option (List Val) := ss[x]?.bind fun s => itemsOf s.value keys

/-- Whether the iterator is one of a finalized packet. -/
def APos.fin (ss : List PState) : APos → Option Bool
  | .blank f => some f
  | .at x _ _ => ss[x]?.map PState.finalized

/-- One step forward, if there is something left. -/
def APos.next (ss : List PState) : APos → Option APos
  | .at x keys pos => (itemsAt ss x keys).bind fun l => if pos < l.length then some (.at x keys (pos + 1)) else none
  | _ => none

/-- One step back, unless at the beginning. -/
def APos.prev : APos → Option APos
  | .at x keys pos => if 0 < pos then some (.at x keys (pos - 1)) else none
  | _ => none

/-- The item at the position, and the state of the packet it is in. -/
def APos.item (ss : List PState) : APos → Option PState
  | .at x keys pos => ss[x]?.bind fun s => (itemsOf s.value keys).bind fun l => l[pos]?.map fun v => ⟨s.finalized, v⟩
  | _ => none

/-- Whether two iterators are equal: the same position, whether of keys or of values. Iterators of a dynamic and of a
finalized packet never are. Those of different packets in the same state may not be compared. -/
def APos.same (ss : List PState) (a b : APos) : Option Bool :=
  match a, b with
  | .at x _ i, .at y _ j =>
    if x = y then some (i == j)
    else (ss[x]?).bind fun s => (ss[y]?).bind fun t => if s.finalized = t.finalized then none else some false
  | .blank f, .blank g => some (f == g)
  | _, _ => some false

/-- A step of a program; `none` if it is not allowed. -/
def walkStep (ss : List PState) (its : List APos) : WOp → Option (List APos × WOut PState)
  | .first x keys => ss[x]?.bind fun s => match itemsOf s.value keys with
    | some _ => some (its ++ [.at x keys 0], .quiet)
    | none => some (its, .exc .typeError)
  | .last x keys => ss[x]?.bind fun s => match itemsOf s.value keys with
    | some l => some (its ++ [.at x keys l.length], .quiet)
    | none => some (its, .exc .typeError)
  | .blank => some (its ++ [.blank false], .quiet)
  | .copy i => its[i]?.bind fun a => some (its ++ [a], .quiet)
  | .move i => its[i]?.bind fun a => (a.fin ss).bind fun f => some (its.set i (.blank f) ++ [a], .quiet)
  | .assign i j => its[i]?.bind fun _ => its[j]?.bind fun b => some (its.set i b, .quiet)
  | .moveAssign i j => its[i]?.bind fun _ => its[j]?.bind fun b => (b.fin ss).bind fun f =>
      if i = j then some (its, .quiet) else some ((its.set j (.blank f)).set i b, .quiet)
  | .next i => its[i]?.bind fun a => (a.next ss).bind fun a' => some (its.set i a', .quiet)
  | .prev i => its[i]?.bind fun a => a.prev.bind fun a' => some (its.set i a', .quiet)
  | .postNext i => its[i]?.bind fun a => (a.next ss).bind fun a' => some (its.set i a' ++ [a], .quiet)
  | .postPrev i => its[i]?.bind fun a => a.prev.bind fun a' => some (its.set i a' ++ [a], .quiet)
  | .same i j => its[i]?.bind fun a => its[j]?.bind fun b =>
      if i = j then some (its, .flag true) else (a.same ss b).bind fun r => some (its, .flag r)
  | .ask i => its[i]?.bind fun a => some (its, .flag (match a with | .blank _ => false | .at _ _ _ => true))
  | .read i => its[i]?.bind fun a => (a.item ss).bind fun s => some (its, .item s)
  | .rread i => its[i]?.bind fun a => a.prev.bind fun a' => (a'.item ss).bind fun s => some (its, .item s)

/-- A program; `none` if a step is not allowed. -/
def walk (ss : List PState) (its : List APos) : List WOp → Option (List APos × List (WOut PState))
  | [] => some (its, [])
  | op :: ops => (walkStep ss its op).bind fun r => (walk ss r.1 ops).bind fun s => some (s.1, r.2 :: s.2)

/-- What a step showed is what it should show. -/
def ShowsOut : WOut Pkt → WOut PState → Prop
  | .quiet, .quiet => True
  | .flag a, .flag b => a = b
  | .item p, .item s => InState p s
  | .exc a, .exc b => a = b
  | _, _ => False

/-- `v` with `x` inserted at a position: before the element there, or as value of the field there. -/
def insertedAt (v : Val) (pos : Nat) (x : Val) : Option (Except Exc Val) :=
  match v with
  | .obj fs => fs[pos]?.map fun f => .ok (.obj (fs.set pos (f.1, x)))
  | .arr es => some (.ok (.arr (es.take pos ++ x :: es.drop pos)))
  | _ => none

/-- `v` with the item at a position replaced by `x`; an error at the end of an array. -/
def replacedAt (v : Val) (pos : Nat) (x : Val) : Option (Except Exc Val) :=
  match v with
  | .obj fs => fs[pos]?.map fun f => .ok (.obj (fs.set pos (f.1, x)))
  | .arr es => some (if pos < es.length then .ok (.arr (es.set pos x)) else .error .outOfRange)
  | _ => none

/-- `v` without the item at a position; unchanged at the end of an array. -/
def erasedAt (v : Val) (pos : Nat) : Option (Except Exc Val) :=
  match v with
  | .obj fs => fs[pos]?.map fun _ => .ok (.obj (fs.eraseIdx pos))
  | .arr es => some (.ok (.arr (es.eraseIdx pos)))
  | _ => none

/-- A call with a dynamic packet as its outcome. -/
def Becomes (r : Res Pkt) : Except Exc Val → Prop
  | .ok v => r = .ok (.heap v)
  | .error e => r = .throw e

/-- An array has room for one more element. -/
def HasRoom : Val → Prop
  | .arr es => es.length < 2 ^ 58
  | _ => True

/-- What the calls that take an iterator do with one that is at `a`: without a position it is an argument they do not
accept; from a finalized packet it has the wrong type, whatever packet is to be changed; from a dynamic packet it is refused
for packets that are finalized, and says where to change its own packet. -/
def ChangesAt (ss : List PState) (i : PIter) : APos → Prop
  | .blank _ => ∀ p op, Pkt.changeAt op p i = .throw .invalidArgument
  | .at x _ pos => ∀ s, ss[x]? = some s →
    if s.finalized then ∀ p op, Pkt.changeAt op p i = .throw .typeError
    else (∀ b op, Pkt.changeAt op (.buf b) i = .throw .stateError) ∧ (HasRoom s.value → ∀ y r,
      (insertedAt s.value pos y = some r → Becomes (Pkt.changeAt (fun v it => v.insertAt it y) (.heap s.value) i) r) ∧
      (replacedAt s.value pos y = some r → Becomes (Pkt.changeAt (fun v it => v.setAt it y) (.heap s.value) i) r) ∧
      (erasedAt s.value pos = some r → Becomes (Pkt.changeAt Val.eraseAt (.heap s.value) i) r))

end Dart.Spec
