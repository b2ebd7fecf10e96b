import Verif.Model.Rvalue
import Verif.Spec.Packet

/-
What calls on temporaries do to the states of packets (Spec/Packet): the same as the calls on variables.
-/
namespace Dart

/-- All arguments satisfy `P`. -/
def RCall.All {α : Type} (P : α → Prop) : RCall α → Prop
  | .getKey k => P k
  | .addField k a => P k ∧ P a
  | .pushFront a => P a
  | .pushBack a => P a
  | _ => True

end Dart

namespace Dart.Spec

/-- The state of the packet after the call, or the exception. -/
def CallOk (signed : Bool) (s : PState) (c : RCall PState) (out : Except Exc PState) : Prop :=
  match c with
  | .get k => ReadOk signed s (.get k) out
  | .at k => ReadOk signed s (.at k) out
  | .getIdx i => ReadOk signed s (.getIdx i) out
  | .atIdx i => ReadOk signed s (.atIdx i) out
  | .getKey a =>
    match a.value with
    | .str k => ReadOk signed s (.get k) out
    | .int i => ReadOk signed s (.getIdx i.toNat) out
    | _ => out = .error .typeError
  | .front => ReadOk signed s .front out
  | .back => ReadOk signed s .back out
  | .atFront => ReadOk signed s .atFront out
  | .atBack => ReadOk signed s .atBack out
  | .addField k a => MutOk s (.insert k a) out
  | .removeField k => MutOk s (.eraseKey k) out
  | .pushFront a => MutOk s (.pushFront a) out
  | .pushBack a => MutOk s (.pushBack a) out
  | .popFront => MutOk s .popFront out
  | .popBack => MutOk s .popBack out
  | .finalize => FinalizeOk s out
  | .definalize => out = .ok ⟨false, s.value⟩

/-- A chain of calls on variable `x`: each works on the result of the one before, up to the first exception. -/
def ChainOk (signed : Bool) (x : Nat) : List PState → List (RCall PArg) → List PState → Option Exc → Prop
  | st, [], st', e => st' = st ∧ e = none
  | st, c :: cs, st', e => ∃ out, CallOk signed (stVar st x) (c.map (argState st)) out ∧
      match out with
      | .ok s => ChainOk signed x (st.set x s) cs st' e
      | .error e' => st' = st ∧ e = some e'

/-- What is left of a packet that was moved from. -/
def leftover (s : PState) : PState := ⟨s.finalized, .null⟩

/-- One step. The result of a chain is moved out of `x`; a chain that throws leaves in `x` what it has come to. -/
def RStep (signed : Bool) (st : List PState) (op : ROp) (st' : List PState) (e : Option Exc) : Prop :=
  match op with
  | .plain op => Step signed st op st' e
  | .chain x cs => ∃ mid, ChainOk signed x st cs mid e ∧
      match e with
      | none => st' = mid.set x (leftover (stVar mid x)) ++ [stVar mid x]
      | some _ => st' = mid
  | .move x y => e = none ∧ st' = if x = y then st else (st.set x (stVar st y)).set y (leftover (stVar st y))

/-- A program. -/
def RSteps (signed : Bool) : List PState → List ROp → List PState → List (Option Exc) → Prop
  | st, [], st', es => st' = st ∧ es = []
  | st, op :: ops, st', es => ∃ st₁ e es', RStep signed st op st₁ e ∧ RSteps signed st₁ ops st' es' ∧ es = e :: es'

/-- The call is none of the two that do not return. -/
def Returns {α : Type} : RCall α → Prop
  | .atFront => False
  | .atBack => False
  | _ => True

/-- The constants of the step are well formed (see Spec/Packet), and its calls return. -/
def ropWF (exact : Bool) : ROp → Prop
  | .plain op => opWF exact op
  | .chain _ cs => ∀ c ∈ cs, c.All constWF ∧ Returns c
  | .move _ _ => True

/-- The same call on a variable. -/
def named (signed : Bool) (p : Pkt) : RCall Pkt → Res Pkt
  | .get k => (PRead.get k).run signed p
  | .at k => (PRead.at k).run signed p
  | .getIdx i => (PRead.getIdx i).run signed p
  | .atIdx i => (PRead.atIdx i).run signed p
  | .getKey key =>
    match key.getType with
    | .string => key.strv.bind fun k => (PRead.get k).run signed p
    | .integer => key.integer.bind fun i => (PRead.getIdx i.toNat).run signed p
    | _ => .throw .typeError
  | .front => PRead.front.run signed p
  | .back => PRead.back.run signed p
  | .atFront => PRead.atFront.run signed p
  | .atBack => PRead.atBack.run signed p
  | .addField k v => (PMut.insert k v).run p
  | .removeField k => (PMut.eraseKey k).run p
  | .pushFront v => (PMut.pushFront v).run p
  | .pushBack v => (PMut.pushBack v).run p
  | .popFront => PMut.popFront.run p
  | .popBack => PMut.popBack.run p
  | .finalize => p.finalize
  | .definalize => p.definalize

/-- The same packet, except that a finalized null may or may not hold on to memory. -/
def SamePkt : Pkt → Pkt → Prop
  | .heap v, .heap w => v = w
  | .buf b, .buf c => b = c ∨ (b.type = .null ∧ c.type = .null)
  | _, _ => False

/-- The same outcome. -/
def SameOutcome : Res Pkt → Res Pkt → Prop
  | .ok p, .ok q => SamePkt p q
  | .throw e, .throw e' => e = e'
  | .ub, .ub => True
  | _, _ => False

end Dart.Spec

namespace Dart.Spec

/-- Following keys through objects whose keys are all plain (see C02). -/
def Leads (signed : Bool) : Val → List Bytes → Val → Prop
  | v, [], w => w = v
  | .obj fs, k :: ks, w => (∀ f ∈ fs, PlainKey signed f.1) ∧ ∃ u, (k, u) ∈ fs ∧ Leads signed u ks w
  | _, _ :: _, _ => False

end Dart.Spec
