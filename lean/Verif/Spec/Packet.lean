import Verif.Model.Packet
import Verif.Spec.Json
import Verif.Spec.JsonText
import Verif.Spec.Nested
import Verif.Spec.Value

/-
What a packet is for its user: a value and a flag saying whether it is finalized. Dynamic packets do
what dynamic values do (`HOp.run`, specified and proved in C15).
-/
namespace Dart

/-- All arguments satisfy `P`. -/
def PRead.All {α : Type} (P : α → Prop) : PRead α → Prop
  | .getOr _ d => P d
  | .getIdxOr _ d => P d
  | .frontOr d => P d
  | .backOr d => P d
  | _ => True

/-- All arguments satisfy `P`. -/
def PMut.All {α : Type} (P : α → Prop) : PMut α → Prop
  | .assign a => P a
  | .insert k a => P k ∧ P a
  | .set k a => P k ∧ P a
  | .erase k => P k
  | .pushFront a => P a
  | .pushBack a => P a
  | .resize _ a => P a
  | _ => True

end Dart

namespace Dart.Spec

/-- The observable state of a packet. -/
structure PState where
  finalized : Bool
  value : Val

/-- What searching the object `fs` for `k` may come up with. In a dynamic packet it is what is stored
under the key. In a finalized one, if the object has a key that is not plain (see C02), the search may
also miss. -/
def Found (signed fin : Bool) (fs : List (Bytes × Val)) (k : Bytes) (r : Option Val) : Prop :=
  r = lookup fs k ∨ (fin = true ∧ (∃ f ∈ fs, ¬ PlainKey signed f.1) ∧ r = none)

/-- Following keys, with each search as in `Found`. -/
def Follows (signed fin : Bool) : Val → List Bytes → Val → Prop
  | v, [], w => w = v
  | .obj fs, k :: ks, w => ∃ r, Found signed fin fs k r ∧ Follows signed fin (r.getD .null) ks w
  | _, _ :: _, w => w = .null

/-- What a read returns, or which exception it throws. The result has the representation of the packet
it was read from, except where it is the default. -/
def ReadOk (signed : Bool) (s : PState) : PRead PState → Except Exc PState → Prop
  | .get k, out => match s.value with
    | .obj fs => ∃ r, Found signed s.finalized fs k r ∧ out = .ok ⟨s.finalized, r.getD .null⟩
    | _ => out = .error .typeError
  | .at k, out => match s.value with
    | .obj fs => ∃ r, Found signed s.finalized fs k r ∧
        out = match r with | some w => .ok ⟨s.finalized, w⟩ | none => .error .outOfRange
    | _ => out = .error .typeError
  | .getOr k d, out => match s.value with
    | .obj fs => ∃ r, Found signed s.finalized fs k r ∧
        out = match r with | some w => .ok ⟨s.finalized, w⟩ | none => .ok d
    | _ => out = .ok d
  | .nested p sep, out => ∃ ks k w, (∀ t ∈ ks, sep ∉ t) ∧ sep ∉ k ∧ p = path sep ks k ∧
      Follows signed s.finalized s.value (components ks k) w ∧ out = .ok ⟨s.finalized, w⟩
  | .getIdx i, out => match s.value with
    | .arr es => out = .ok ⟨s.finalized, es[i]?.getD .null⟩
    | _ => out = .error .typeError
  | .getIdxOr i d, out => match s.value with
    | .arr es => out = match es[i]? with | some w => .ok ⟨s.finalized, w⟩ | none => .ok d
    | _ => out = .ok d
  | .atIdx i, out => match s.value with
    | .arr es => out = match es[i]? with | some w => .ok ⟨s.finalized, w⟩ | none => .error .outOfRange
    -- on other values the two representations disagree about the exception
    | .obj fs => out = .error (if !s.finalized && decide (fs.length ≤ i) then .outOfRange else .typeError)
    | .str t => out = .error (if !s.finalized && decide (t.length ≤ i) then .outOfRange else .typeError)
    | _ => out = .error .typeError
  | .front, out => match s.value with
    | .arr es => out = .ok ⟨s.finalized, es.head?.getD .null⟩
    | _ => out = .error .typeError
  | .back, out => match s.value with
    | .arr es => out = .ok ⟨s.finalized, es.getLast?.getD .null⟩
    | _ => out = .error .typeError
  | .atFront, out => match s.value with
    | .arr es => out = match es.head? with | some w => .ok ⟨s.finalized, w⟩ | none => .error .outOfRange
    | .obj fs => out = .error (if fs = [] then .outOfRange else .typeError)
    | .str t => out = .error (if t = [] then .outOfRange else .typeError)
    | _ => out = .error .typeError
  | .atBack, out => match s.value with
    | .arr es => out = match es.getLast? with | some w => .ok ⟨s.finalized, w⟩ | none => .error .outOfRange
    | .obj fs => out = .error (if fs = [] then .outOfRange else .typeError)
    | .str t => out = .error (if t = [] then .outOfRange else .typeError)
    | _ => out = .error .typeError
  -- these two need the dynamic representation
  | .frontOr d, out => out = if s.finalized then .error .stateError else
      match s.value with | .arr (w :: _) => .ok ⟨false, w⟩ | _ => .ok ⟨false, d.value⟩
  | .backOr d, out => out = if s.finalized then .error .stateError else
      match s.value with | .arr es => .ok ⟨false, es.getLast?.getD d.value⟩ | _ => .ok ⟨false, d.value⟩

/-- The call on the dynamic value a mutator amounts to (`none`: replace the value). -/
def mutCall : PMut PState → HOp ⊕ Val
  | .assign a => .inr a.value
  | .insert k a => .inl (.insert k.value a.value)
  | .set k a => .inl (.set k.value a.value)
  | .erase k => .inl (.erase k.value)
  | .eraseKey k => .inl (.eraseKey k)
  | .eraseIdx i => .inl (.eraseIdx i)
  | .pushFront a => .inl (.pushFront a.value)
  | .pushBack a => .inl (.pushBack a.value)
  | .popFront => .inl .popFront
  | .popBack => .inl .popBack
  | .clear => .inl .clear
  | .resize n a => .inl (.resize n a.value)

/-- Erasing by something that is neither a string nor an integer is a type error in any state. -/
def badErase : PMut PState → Bool
  | .erase k => match k.value with | .str _ => false | .int _ => false | _ => true
  | _ => false

/-- What a mutator does: nothing but throw `state_error` on a finalized packet, on a dynamic packet
what the call on the dynamic value does. -/
def MutOk (s : PState) (m : PMut PState) (out : Except Exc PState) : Prop :=
  if badErase m then out = .error .typeError
  else if s.finalized then out = .error .stateError
  else match mutCall m with
    | .inr w => out = .ok ⟨false, w⟩
    | .inl op => match op.run s.value with
      | .ok w => out = .ok ⟨false, w⟩
      | .throw e => out = .error e
      | .ub => False

/-- Finalizing keeps the value. It throws for anything but an object, and may throw for an object too
large for the format. -/
def FinalizeOk (s : PState) (out : Except Exc PState) : Prop :=
  if s.finalized then out = .ok s
  else match s.value with
    | .obj _ => out = .ok ⟨true, s.value⟩ ∨ (upperBound s.value = none ∧ out = .error .lengthError)
    | _ => out = .error .typeError

/-- The variable `x`, as in the model. -/
def stVar (st : List PState) (x : Nat) : PState := st[x]?.getD ⟨false, .null⟩

/-- What an argument stands for. -/
def argState (st : List PState) : PArg → PState
  | .const v => ⟨false, v⟩
  | .var y => stVar st y

/-- Parsing gives the value the document stands for; a finalized packet can only be an object. -/
def ParseOk (fin : Bool) (j : Json) (out : Except Exc PState) : Prop :=
  match j, fin with
  | .obj _, _ => ∃ v, Means j v ∧ out = .ok ⟨fin, v⟩
  | .arr _, false => ∃ v, Means j v ∧ out = .ok ⟨false, v⟩
  | _, _ => out = .error .typeError

/-- One step of a program on observable states. A step that throws changes nothing. -/
def Step (signed : Bool) (st : List PState) (op : POp) (st' : List PState) (e : Option Exc) : Prop :=
  match op with
  | .create a => st' = st ++ [argState st a] ∧ e = none
  | .definalize x => st' = st.set x ⟨false, (stVar st x).value⟩ ∧ e = none
  | .finalize x => ∃ out, FinalizeOk (stVar st x) out ∧ stored st x out
  | .mutate x m => ∃ out, MutOk (stVar st x) (m.map (argState st)) out ∧ stored st x out
  | .read x r => ∃ out, ReadOk signed (stVar st x) (r.map (argState st)) out ∧
      appended st out
  | .fromJson fin _ _ _ j => ∃ out, ParseOk fin j out ∧ appended st out
where
  appended (st : List PState) (out : Except Exc PState) : Prop :=
    match out with
    | .ok s => st' = st ++ [s] ∧ e = none
    | .error e' => st' = st ∧ e = some e'
  stored (st : List PState) (x : Nat) (out : Except Exc PState) : Prop :=
    match out with
    | .ok s => st' = st.set x s ∧ e = none
    | .error e' => st' = st ∧ e = some e'

/-- A program on observable states. -/
def Steps (signed : Bool) : List PState → List POp → List PState → List (Option Exc) → Prop
  | st, [], st', es => st' = st ∧ es = []
  | st, op :: ops, st', es => ∃ st₁ e es', Step signed st op st₁ e ∧ Steps signed st₁ ops st' es' ∧ es = e :: es'

/-- The packet is in this state, as far as a client can see: `is_finalized`, and the value it
contains. -/
def InState (p : Pkt) (s : PState) : Prop := p.isFinalized = s.finalized ∧ p.toHeap = .ok s.value

/-- The values written in the program are values the API can build. -/
def constWF : PArg → Prop
  | .const v => v.WF
  | .var _ => True

/-- Parsing is from some text of less than 512 MiB, without repeated names, with names of at most 65535 bytes and whole
numbers of 64 signed bits; the memory given has the size asked for, and the sorting sorts. -/
def ParseInput (sort : List (Bytes × Json) → List (Bytes × Json)) (fill : Nat → Bytes) (size : Nat) (j : Json) : Prop :=
  Sorts sort ∧ (∀ n, (fill n).length = n) ∧ (∃ x t, IsText x t j ∧ t.length = size) ∧ size < 2 ^ 29 ∧ Within j ∧
    DistinctNames j

/-- All constants of a step are well formed. With `exact`, nothing is parsed into a finalized packet (which leaves
arbitrary bytes in unused places). -/
def opWF (exact : Bool) : POp → Prop
  | .create a => constWF a
  | .mutate _ m => m.All constWF
  | .read _ r => r.All constWF
  | .fromJson fin sort fill size j => ParseInput sort fill size j ∧ (exact = true → fin = false)
  | _ => True

/-- Some program has `p` in a variable. -/
def Reached (signed exact : Bool) (p : Pkt) : Prop :=
  ∃ ops ps es, (∀ op ∈ ops, opWF exact op) ∧ runPackets signed [] ops = some (ps, es) ∧ p ∈ ps

/-- The list has these values, each packet as far as a client can see. -/
def Contain (r : Res (List Pkt)) : Except Exc (List Val) → Prop
  | .ok vs => ∃ ps, r = .ok ps ∧ ps.map Pkt.toHeap = vs.map .ok
  | .error e => r = .throw e

/-- The values of an aggregate, in order. -/
def contentsOf : Val → Except Exc (List Val)
  | .obj fs => .ok (fs.map (·.2))
  | .arr es => .ok es
  | _ => .error .typeError

/-- The keys of an object, in order. -/
def keysOf : Val → Except Exc (List Val)
  | .obj fs => .ok (fs.map fun f => .str f.1)
  | _ => .error .typeError

end Dart.Spec
