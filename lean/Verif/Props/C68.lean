import Verif.Lemmas.Recount
import Verif.Props.C18
import Verif.Model.Sample

/-
C68: changing the kind of reference counter of a packet keeps its value, its state and its bytes.
-/
namespace Dart.Props
open Dart.Spec

/-- Changing the counter of a packet, any number of times: it succeeds, and the result is dynamic or finalized as the
packet was, has its value, and gives the same bytes (or the same error, for a dynamic packet). Partial: not for parts of
finalized packets that are no objects, see below. -/
theorem C68_transmogrify_partial {signed exact : Bool} {p : Pkt} {v : Val} (h : Reached signed exact p) (hv : p.toHeap = .ok v)
    (hs : Storable v) (ho : p.isFinalized = true → ∃ fs, v = .obj fs) (n : Nat) :
    ∃ q, p.transmogrifyN n = .ok q ∧ InState q ⟨p.isFinalized, v⟩ ∧ q.getBytes = p.getBytes := by
  obtain ⟨q, h1, h2, h3⟩ := transmogrifyN_held (s := ⟨p.isFinalized, v⟩) hs ho n (Reached.held_of h hv)
  exact ⟨q, h1, h2.inState, h3⟩

/-- The claim for all packets is false: whatever is finalized and not an object (an element, a string, a missing field)
makes it throw. -/
theorem C68_part_wrong {signed exact : Bool} {p : Pkt} {v : Val} (h : Reached signed exact p) (hv : p.toHeap = .ok v)
    (hf : p.isFinalized = true) (ho : ∀ fs, v ≠ .obj fs) : p.transmogrify = .throw .typeError := by
  have := Reached.held_of h hv
  cases p with
  | heap w => cases hf
  | buf b => exact transmogrify_part this.2 ho

/-- Such a part can be made dynamic first; then it always works. -/
theorem C68_part_dynamic {signed exact : Bool} {p : Pkt} {v : Val} (h : Reached signed exact p) (hv : p.toHeap = .ok v)
    (hs : Storable v) : p.definalize.bind Pkt.transmogrify = .ok (.heap v) := by
  have hp := Reached.held_of h hv
  have e : p.definalize = .ok (.heap v) := by
    cases p with
    | heap w => simpa [Pkt.definalize, Pkt.toHeap] using hv
    | buf b =>
      simp only [Pkt.toHeap] at hv
      simp only [Pkt.definalize, hv, Res.bind_ok]
  rw [e]
  simp only [Res.bind_ok, Pkt.transmogrify, Pkt.visit, transmogrify_val v hp.wf hs]

/-! Concrete cases. -/

/-- Make `{"a": "b", "c": [null, 7]}`, finalize it, and read the string and a missing field. -/
def recountStory : List POp :=
  [.create (.const (.obj [([97], .str [98]), ([99], .arr [.null, .int 7])])), .create (.var 0), .finalize 0, .read 0 (.get [97]),
    .read 0 (.get [120])]

/-- What changing the counter twice does: the exception, or the state and the bytes of the result. -/
def recounted (p : Pkt) : Except Exc (Bool × Option Bytes) :=
  match p.transmogrifyN 2 with
  | .ok q => .ok (q.isFinalized, q.getBytes.toOption)
  | .throw e => .error e
  | .ub => .ok (false, some [])

example : ∀ op ∈ recountStory, opWF true op := by
  simp only [recountStory, List.mem_cons, List.not_mem_nil, or_false, forall_eq_or_imp, forall_eq]
  simp [opWF, PRead.All, constWF, Val.WF, WFFields, WFElems, ← keyLt_iff_spec]
  decide

example : Storable (.obj [([97], .str [98]), ([99], .arr [.null, .int 7])]) := by simp [Storable, StorableFields, StorableElems]

example : (runPackets true [] recountStory).map (fun r => r.1.map Pkt.isFinalized) = some [true, false, true, true] := by
  decide +kernel

example : (runPackets true [] recountStory).map (fun r => r.1.map fun p =>
    match recounted p with
    | .ok (f, b) => decide (f = p.isFinalized ∧ b = p.getBytes.toOption)
    | .error e => decide (e = .typeError)) = some [true, true, true, true] := by decide +kernel

example : (runPackets true [] recountStory).map (fun r => r.1.map fun p =>
    match recounted p with | .ok _ => true | .error _ => false) = some [true, true, false, false] := by decide +kernel

end Dart.Props
