import Verif.Lemmas.Stack
import Verif.Props.C19
import Verif.Props.C21

/-
C90: how many nested calls it takes to finalize, to write as JSON, to compare and to destroy dynamic values. The functions `…Within
stack` are those of the code on a stack that holds `stack` nested calls; `none` is the overflow of the stack. `levels v` is how deep a
value is nested.
-/
namespace Dart.Props
open Spec

/-- A small stack changes nothing else: it overflows, or the outcome is the one the other properties are about. Destroying is of every
value in it once, if nothing else has a share of anything. -/
theorem C90_overflow_or_same (stack : Nat) (v w : Val) (same : List Nat → Val → Val → Bool) :
    (finalizeWithin stack v = none ∨ finalizeWithin stack v = some (finalize v)) ∧
    (serializeWithin stack v = none ∨ serializeWithin stack v = some v.serialize) ∧
    (eqWithin same stack v [] w = none ∨ eqWithin same stack v [] w = some (v.eqOp same w)) ∧
    (destroyWithin soleOwner stack v [] = none ∨ destroyWithin soleOwner stack v [] = some (valuesIn v)) :=
  ⟨(finalizeWithin_fits v stack).or, (serializeWithin_fits v stack).or, (eqWithin_fits same v stack [] w).or,
    (destroyWithin_fits v stack []).or⟩

/-- C90 (partial): as many nested calls as the value is nested are enough; to compare two values, as many as the shallower one is
nested; to destroy a value, whatever of it is shared. Missing is a limit that does not depend on the value; there is none, see
`C90_no_limit`. -/
theorem C90_levels_suffice_partial (stack : Nat) (v : Val) (h : levels v ≤ stack) :
    finalizeWithin stack v = some (finalize v) ∧ serializeWithin stack v = some v.serialize ∧
    (∀ same w, eqWithin same stack v [] w = some (v.eqOp same w) ∧ eqWithin same stack w [] v = some (w.eqOp same v)) ∧
    (∀ kept, ∃ n, destroyWithin kept stack v [] = some n ∧ n ≤ valuesIn v) := by
  refine ⟨(finalizeWithin_fits v stack).enough h, (serializeWithin_fits v stack).enough h, fun same w => ⟨?_, ?_⟩, fun kept => ?_⟩
  · exact (eqWithin_fits same v stack [] w).enough (by omega)
  · exact (eqWithin_fits same w stack [] v).enough (by omega)
  · obtain ⟨n, hn, ho⟩ := destroyWithin_kept kept v stack []
    exact ⟨n, ho.enough h, hn⟩

/-- As many are needed: to finalize (unless the value is refused), to write it, to find it equal to another that shares nothing with
it, and to destroy it if nothing in it is shared. -/
theorem C90_levels_needed (stack : Nat) (v : Val) :
    (∀ m, finalizeWithin stack v = some (.ok m) → levels v ≤ stack) ∧
    (∀ l, serializeWithin stack v = some l → levels v ≤ stack) ∧
    (∀ w, eqWithin apart stack v [] w = some true → levels v ≤ stack) ∧
    (∀ n, destroyWithin soleOwner stack v [] = some n → levels v ≤ stack) :=
  ⟨fun _ h => finalizeWithin_needs h, fun l h => serializeWithin_needs v stack l h, fun w h => eqWithin_needs v stack [] w h,
    fun n h => destroyWithin_needs v stack [] n h⟩

/-- Writing a finalized value takes exactly as many nested calls as what it holds is nested. -/
theorem C90_finalized {signed exact : Bool} {b : Buf} (hb : Obtained signed exact b) {v : Val} (hv : b.value = some v)
    (stack : Nat) : (levels v ≤ stack → b.serialize stack = .ok v.serialize) ∧ (stack < levels v → b.serialize stack = .ub) := by
  have h := Shows.serialize_levels v stack b (hb.shows_value hv)
  refine ⟨fun hl => ?_, fun hl => ?_⟩
  · rw [h, if_pos hl]
  · rw [h, if_neg (by omega)]

/-- C90, negation: for every number of calls there is a program of twice as many statements, each of them a `make_array()`, a
`push_back` of one variable into another, or (at the end) a `make_object()` and an `insert`, that builds a value in order, none of the
statements going into the values, and finalizing it, writing it, comparing it with such another or destroying it runs such a stack
over. -/
theorem C90_no_limit (signed : Bool) (stack : Nat) (h : 31 * stack + 64 < 2 ^ 32) (h1 : 1 ≤ stack) :
    ∃ (ops : List POp) (ps : List Pkt) (v : Val), ops.length = 2 * stack + 1 ∧
      runPackets signed [] ops = some (ps ++ [.heap v], List.replicate (2 * stack + 1) none) ∧ v.WF ∧
      (∀ op ∈ ops, op = .create (.const (.arr [])) ∨ op = .create (.const (.obj [])) ∨
        (∃ x y, op = .mutate x (.pushBack (.var y))) ∨ (∃ x y, op = .mutate x (.insert (.const (.str [])) (.var y)))) ∧
      (∃ m, finalize v = .ok m) ∧ finalizeWithin stack v = none ∧ serializeWithin stack v = none ∧
      v.eqOp apart v = true ∧ eqWithin apart stack v [] v = none ∧ destroyWithin soleOwner stack v [] = none := by
  obtain ⟨n, rfl⟩ : ∃ n, stack = n + 1 := ⟨stack - 1, by omega⟩
  obtain ⟨m, hm, -, -⟩ := nested_finalize n (by omega)
  have hl := levels_nested n
  have hneed := C90_levels_needed (n + 1) (nested n)
  have hor := C90_overflow_or_same (n + 1) (nested n) (nested n) apart
  have heq : (nested n).eqOp apart (nested n) = true :=
    (C21_reflexive_iff _).2 (nested_noNaN n)
  refine ⟨climbUp n, climbed n, nested n, ?_, ?_, nested_wf n, ?_, ⟨m, hm⟩, ?_, ?_, heq, ?_, ?_⟩
  · rw [climbUp, List.length_append, climb_length]; simp; omega
  · exact climbUp_run signed n
  · intro op hop
    rw [climbUp, List.mem_append] at hop
    rcases hop with h | h
    · rcases climb_shallow n op h with h | ⟨i, h⟩
      · exact .inl h
      · exact .inr (.inr (.inl ⟨_, _, h⟩))
    · simp only [List.mem_cons, List.not_mem_nil, or_false] at h
      rcases h with h | h
      · exact .inr (.inl h)
      · exact .inr (.inr (.inr ⟨_, _, h⟩))
  · refine hor.1.resolve_right fun h => ?_
    have := hneed.1 m (h.trans (by rw [hm]))
    omega
  · refine hor.2.1.resolve_right fun h => ?_
    have := hneed.2.1 _ h
    omega
  · refine hor.2.2.1.resolve_right fun h => ?_
    have := hneed.2.2.1 _ (h.trans (by rw [heq]))
    omega
  · refine hor.2.2.2.resolve_right fun h => ?_
    have := hneed.2.2.2 _ h
    omega

/-! Concrete cases: `{"a": {"b": true}, "c": "d"}` takes three nested calls for everything; next to a value of another type, one. -/

/-- A value of three levels and seven values (three of them keys). -/
def threeLevels : Val := .obj [([97], .obj [([98], .bool true)]), ([99], .str [100])]

example : levels threeLevels = 3 ∧ valuesIn threeLevels = 7 ∧
    [2, 3].map (fun s => (finalizeWithin s threeLevels).isSome) = [false, true] ∧
    [2, 3].map (fun s => (serializeWithin s threeLevels).isSome) = [false, true] ∧
    [0, 1, 2, 3].map (fun s => eqWithin apart s threeLevels [] threeLevels) = [none, none, none, some true] ∧
    [0, 1, 2].map (fun s => eqWithin apart s threeLevels [] (.obj [([97], .int 1)])) = [none, some false, some false] ∧
    [2, 3].map (fun s => destroyWithin soleOwner s threeLevels []) = [none, some 7] ∧
    -- the inner object is shared: it stays, and two calls are enough
    [1, 2].map (fun s => destroyWithin (· == [0]) s threeLevels []) = [none, some 5] := by
  decide +kernel

/-- Writing the finalized value with that many nested calls; the number of events. -/
def writeFinalized (v : Val) (stack : Nat) : Option Nat :=
  match finalize v with
  | .ok m => ((Buf.ofBytes m).serialize stack).toOption.map List.length
  | _ => none

example : [2, 3].map (writeFinalized threeLevels) = [none, some 9] := by
  decide +kernel

example : (runPackets true [] (climb 2)).map (fun r => r.1.map fun p => match p with | .heap v => levels v | .buf _ => 0) =
    some [1, 2, 3] := by
  decide +kernel

end Dart.Props
