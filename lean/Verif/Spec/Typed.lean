import Verif.Model.Typed
import Verif.Spec.Packet
import Verif.Spec.Value
import Verif.Spec.Derived

/-
What a wrapper is for its user: a packet (a value and a flag) that is of the type the class names.
-/
namespace Dart.Typed
open Dart.Spec

/-- The values a wrapper of the class is meant for. -/
def Kind.Means : Kind → Val → Prop
  | .object, v => ∃ fs, v = .obj fs
  | .array, v => ∃ es, v = .arr es
  | .string, v => ∃ s, v = .str s
  | .number, v => (∃ i, v = .int i) ∨ ∃ d, v = .dec d
  | .flag, v => ∃ b, v = .bool b

/-- The types of these values. -/
def Kind.Typed : Kind → Ty → Prop
  | .object, t => t = .object
  | .array, t => t = .array
  | .string, t => t = .string
  | .number, t => t = .integer ∨ t = .decimal
  | .flag, t => t = .boolean

/-- Observable state: the packets and the wrappers. -/
structure AState where
  packets : List PState
  wraps : List (Kind × PState)

/-- How a step may end. -/
inductive AOut
  | next (a : AState) (o : Obs)
  | throw (a : AState) (e : Exc)
  | terminate

/-- Moving leaves null. -/
def left (s : PState) : PState := ⟨s.finalized, .null⟩

/-- The number as a double. -/
def number : Val → Option (BitVec 64)
  | .int i => some (intToDouble i.toInt)
  | .dec d => some d
  | _ => none

/-- The answers that need no value. -/
def plain (k : Kind) (s : PState) : Query → Option Obs
  | .isNull => some (.bool (match s.value with | .null => true | _ => false))
  | .getType => some (.type s.value.ty)
  | .isFinalized => some (.bool s.finalized)
  | .truth => some (.bool (match k, s.value with | _, .null => false | .flag, .bool b => b | _, _ => true))
  | _ => none

/-- The answers that need one. -/
def Answer (signed : Bool) (k : Kind) (s : PState) (q : Query) (o : Obs) : Prop :=
  match q, s.value with
  | .view, v => k.Means v ∧ o = .type v.ty
  | .size, .obj fs => o = .nat fs.length
  | .size, .arr es => o = .nat es.length
  | .size, .str t => o = .nat t.length
  | .empty, .obj fs => o = .bool fs.isEmpty
  | .empty, .arr es => o = .bool es.isEmpty
  | .empty, .str t => o = .bool t.isEmpty
  | .hasKey k, .obj fs => ∃ r, Found signed s.finalized fs k r ∧ o = .bool r.isSome
  | .strv, .str t => o = .bytes t
  | .charAt i, .str t => o = .char (t[i]?.getD 0)
  | .numeric, v => ∃ d, number v = some d ∧ o = .word d
  | .toDouble, v => ∃ d, number v = some d ∧ o = .word d
  | .boolean, .bool b => o = .bool b
  | _, _ => False

/-- What asking does. `integer` and `decimal` throw when the number is not of that type. All the others that need a value
end the program if it is not there. -/
def AskOk (signed : Bool) (a : AState) (k : Kind) (s : PState) (q : Query) (out : AOut) : Prop :=
  match q with
  | .integer => out = match s.value with | .int i => .next a (.word i) | _ => .throw a .typeError
  | .decimal => out = match s.value with | .dec d => .next a (.word d) | _ => .throw a .typeError
  | q => match plain k s q with
    | some o => out = .next a o
    | none => (∃ o, Answer signed k s q o ∧ out = .next a o) ∨ ((∀ o, ¬ Answer signed k s q o) ∧ out = .terminate)

/-- The result of a call goes into the wrapper `w`; a call that throws changes nothing. -/
def Stored (a : AState) (w : Nat) (k : Kind) (r : Except Exc PState) (out : AOut) : Prop :=
  match r with
  | .ok s => out = .next { a with wraps := a.wraps.set w (k, s) } .nothing
  | .error e => out = .throw a e

/-- One step on observable states. -/
def StepOk (signed : Bool) (a : AState) (op : Op) (out : AOut) : Prop :=
  match op with
  | .packet op => ∃ ps e, Spec.Step signed a.packets op ps e ∧
      out = match e with
        | none => .next { a with packets := ps } .nothing
        | some e => .throw { a with packets := ps } e
  | .make k v =>
      (k.Means v ∧ out = .next { a with wraps := a.wraps ++ [(k, ⟨false, v⟩)] } .nothing) ∨
      (¬ k.Means v ∧ out = .throw a .typeError)
  | .wrap k x move => match a.packets[x]? with
    | none => out = .next a .nothing
    | some s =>
      (k.Means s.value ∧
        out = .next ⟨if move then a.packets.set x (left s) else a.packets, a.wraps ++ [(k, s)]⟩ .nothing) ∨
      -- a failed conversion takes the value of the packet for objects and arrays, and leaves it for the others
      (¬ k.Means s.value ∧
        out = .throw { a with
          packets := if move ∧ (k = .object ∨ k = .array) then a.packets.set x (left s) else a.packets } .typeError)
  | .dup w move => match a.wraps[w]? with
    | none => out = .next a .nothing
    | some (k, s) =>
      out = .next { a with wraps := (if move then a.wraps.set w (k, left s) else a.wraps) ++ [(k, s)] } .nothing
  | .assign w v move => match a.wraps[w]?, a.wraps[v]? with
    | some (k, _), some (k', s) =>
      (k = k' ∧ w ≠ v ∧
        out = .next { a with wraps := (if move then a.wraps.set v (k, left s) else a.wraps).set w (k, s) } .nothing) ∨
      (¬ (k = k' ∧ w ≠ v) ∧ out = .next a .nothing)
    | _, _ => out = .next a .nothing
  | .assignNative w v => match a.wraps[w]? with
    | none => out = .next a .nothing
    | some (k, _) =>
      (k.Means v ∧ out = .next { a with wraps := a.wraps.set w (k, ⟨false, v⟩) } .nothing) ∨
      (¬ k.Means v ∧ out = .next a .nothing)
  | .mutate w m => match a.wraps[w]? with
    | none => out = .next a .nothing
    | some (k, s) =>
      if k.offersMut m then ∃ r, MutOk s (m.map (argState a.packets)) r ∧ Stored a w k r out
      else out = .next a .nothing
  | .concat w t => match a.wraps[w]? with
    | some (.string, s) => match s.value with
      | .str u => out = .next { a with wraps := a.wraps.set w (.string, ⟨false, .str (u ++ t)⟩) } .nothing
      | _ => out = .terminate
    | _ => out = .next a .nothing
  | .arith w f => match a.wraps[w]? with
    | some (.number, s) => match number s.value, s.finalized with
      | some x, false => out = .next { a with wraps := a.wraps.set w (.number, ⟨false, .dec (f.result x)⟩) } .nothing
      | _, _ => out = .terminate
    | _ => out = .next a .nothing
  | .finalize w => match a.wraps[w]? with
    | some (.object, s) => ∃ r, FinalizeOk s r ∧ Stored a w .object r out
    | _ => out = .next a .nothing
  | .definalize w => match a.wraps[w]? with
    | some (.object, s) => out = .next { a with wraps := a.wraps.set w (.object, ⟨false, s.value⟩) } .nothing
    | _ => out = .next a .nothing
  | .assignThrough w x => match a.wraps[w]?, a.packets[x]? with
    | some (.object, _), some s => out = .next { a with wraps := a.wraps.set w (.object, s) } .nothing
    | _, _ => out = .next a .nothing
  | .unwrap w move => match a.wraps[w]? with
    | none => out = .next a .nothing
    | some (k, s) =>
      out = .next ⟨a.packets ++ [s], if move then a.wraps.set w (k, left s) else a.wraps⟩ .nothing
  | .read w r => match a.wraps[w]? with
    | none => out = .next a .nothing
    | some (k, s) =>
      if k.offersRead r then ∃ res, ReadOk signed s (r.map (argState a.packets)) res ∧
        out = match res with
          | .ok t => .next { a with packets := a.packets ++ [t] } .nothing
          | .error e => .throw a e
      else out = .next a .nothing
  | .ask w q => match a.wraps[w]? with
    | none => out = .next a .nothing
    | some (k, s) => if k.offers q then AskOk signed a k s q out else out = .next a .nothing

/-- A program on observable states. -/
def StepsOk (signed : Bool) : AState → List Op → Option (AState × List (Obs ⊕ Exc)) → Prop
  | a, [], r => r = some (a, [])
  | a, op :: ops, r => ∃ out, StepOk signed a op out ∧
    match out with
    | .next a o => ∃ r', StepsOk signed a ops r' ∧ r = r'.map fun x => (x.1, .inl o :: x.2)
    | .throw a e => ∃ r', StepsOk signed a ops r' ∧ r = r'.map fun x => (x.1, .inr e :: x.2)
    | .terminate => r = none

/-- The state looks like this to a client. -/
def Looks (st : State) (a : AState) : Prop :=
  st.packets.length = a.packets.length ∧
  (∀ (i : Nat) (p : Pkt) (s : PState), st.packets[i]? = some p → a.packets[i]? = some s → InState p s) ∧
  st.wraps.map (·.1) = a.wraps.map (·.1) ∧
  ∀ (i : Nat) (x : Kind × Pkt) (y : Kind × PState), st.wraps[i]? = some x → a.wraps[i]? = some y → InState x.2 y.2

/-- The values written in the program are values the API can build. -/
def OpWF : Op → Prop
  | .packet op => opWF false op
  | .make _ v => v.WF
  | .assignNative _ v => v.WF
  | .mutate _ m => m.All constWF
  | .read _ r => r.All constWF
  | _ => True

/-- The step does not make a string of 4 GiB. -/
def Fits (st : State) : Op → Prop
  | .concat w s => ∀ k p t, st.wraps[w]? = some (k, p) → p.toHeap = .ok (.str t) → t.length + s.length < 2 ^ 32
  | _ => True

/-- No step of the program makes a string of 4 GiB. -/
def ProgFits (signed : Bool) : State → List Op → Prop
  | _, [] => True
  | st, op :: ops => Fits st op ∧
    match op.run signed st with
    | .next st _ => ProgFits signed st ops
    | .throw st _ => ProgFits signed st ops
    | _ => True

/-- At the start there are no variables. -/
def start : State := ⟨[], []⟩

/-- The step uses the reference `definalize` returns. -/
def Op.throughRef : Op → Prop
  | .assignThrough _ _ => True
  | _ => False

/-- The step moves from a wrapper. -/
def Op.movesWrap : Op → Prop
  | .dup _ move => move = true
  | .assign _ _ move => move = true
  | .unwrap _ move => move = true
  | _ => False

/-- A program gets to this state, without the reference `definalize` returns. -/
def Reached (signed : Bool) (st : State) : Prop :=
  ∃ ops log, (∀ op ∈ ops, OpWF op ∧ ¬ op.throughRef) ∧ ProgFits signed start ops ∧ run signed start ops = .done st log

/-- The questions that need a value and may not throw. -/
def Query.needsValue : Query → Prop
  | .isNull => False
  | .getType => False
  | .isFinalized => False
  | .truth => False
  | .integer => False
  | .decimal => False
  | _ => True

/-- The steps that end the program: those that need the value of a wrapper that was moved from, in a function that may
not throw, and arithmetic on a finalized number. -/
def Ends (st : State) : Op → Prop
  | .ask w q => ∃ k p, st.wraps[w]? = some (k, p) ∧ k.offers q ∧ q.needsValue ∧ p.getType = .null
  | .concat w _ => ∃ p, st.wraps[w]? = some (.string, p) ∧ p.getType = .null
  | .arith w _ => ∃ p, st.wraps[w]? = some (.number, p) ∧ (p.getType = .null ∨ p.isFinalized)
  | _ => False

end Dart.Typed
