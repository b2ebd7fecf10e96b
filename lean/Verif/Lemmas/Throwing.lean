import Verif.Model.Throwing
import Verif.Lemmas.Validate

/-
The throwing flavour of the validator throws exactly where the silent one returns false.
-/
namespace Dart

/-- The throwing run `a` goes as the silent run `v`: it throws where that returns false. -/
def Same (a : TVerdict) (v : Verdict) : Prop :=
  match v with
  | .ok true => a = .ok (.returns true)
  | .ok false => ∃ e, a = .ok (.throws e)
  | .error e => a = .error e

theorem Same.and {a : TVerdict} {v : Verdict} {b : Unit → TVerdict} {w : Unit → Verdict} (h : Same a v) (hb : Same (b ()) (w ())) :
    Same (a.and b) (v.and w) := by
  match v, h with
  | .ok true, h => cases h; exact hb
  | .ok false, ⟨e, h⟩ => cases h; exact ⟨e, rfl⟩
  | .error e, h => cases h; exact rfl

theorem Same.require (c : Prop) [Decidable c] (msg : String) : Same (require c msg) (check c) := by
  by_cases h : c
  · simp [Same, Dart.require, check, h]
  · simp [Same, Dart.require, check, h]

theorem Same.bind {α : Type} (o : Option α) {f : α → TVerdict} {g : α → Verdict} (h : ∀ x, Same (f x) (g x)) :
    Same (rd o >>= f) (rd o >>= g) := by
  cases o with
  | none => exact rfl
  | some x => exact h x

theorem Same.validString (m : Bytes) (t : RawType) (p b : Nat) : Same (validStringT m t p b) (validString m t p b) :=
  (Same.require _ _).and (Same.bind _ fun _ => (Same.require _ _).and (Same.bind _ fun _ => Same.require _ _))

theorem Same.typesValid (m : Bytes) (p : Nat) : ∀ n, Same (typesValidT m p n) (typesValid m p n)
  | 0 => rfl
  | n + 1 => (Same.typesValid m p n).and (Same.bind _ fun _ => Same.require _ _)

theorem Same.childAddr (s : String) (p total prev q : Nat) (t : RawType) : Same (childAddrT s p total prev q t) (childAddr p total prev q t) :=
  (Same.require _ _).and ((Same.require _ _).and (Same.require _ _))

theorem Same.validFields {rec : RawType → Nat → Nat → TVerdict} {rec' : RawType → Nat → Nat → Verdict}
    (hr : ∀ t p b, Same (rec t p b) (rec' t p b)) (m : Bytes) (p total : Nat) : ∀ k idx prev,
      Same (validFieldsT rec m p total k idx prev) (validFields rec' m p total k idx prev)
  | 0, _, _ => rfl
  | k + 1, _, _ => Same.bind _ fun _ => (Same.childAddr ..).and ((hr ..).and (Same.bind _ fun _ => (Same.childAddr ..).and
      ((hr ..).and (Same.validFields hr m p total k ..))))

theorem Same.validElems {rec : RawType → Nat → Nat → TVerdict} {rec' : RawType → Nat → Nat → Verdict}
    (hr : ∀ t p b, Same (rec t p b) (rec' t p b)) (m : Bytes) (p total : Nat) : ∀ k idx prev,
      Same (validElemsT rec m p total k idx prev) (validElems rec' m p total k idx prev)
  | 0, _, _ => rfl
  | k + 1, _, _ => Same.bind _ fun _ => (Same.childAddr ..).and ((hr ..).and (Same.validElems hr m p total k ..))

theorem Same.validTable {s : String} {m : Bytes} {p b : Nat} {loop : Nat → Nat → TVerdict} {loop' : Nat → Nat → Verdict}
    (h : ∀ t n, Same (loop t n) (loop' t n)) : Same (validTableT s m p b loop) (validTable m p b loop') :=
  (Same.require _ _).and (Same.bind _ fun _ => (Same.require _ _).and (Same.bind _ fun _ => (Same.require _ _).and
    ((Same.typesValid ..).and (h _ _))))

theorem Same.validBuffer (m : Bytes) : ∀ fuel t p b, Same (validBufferT m fuel t p b) (Dart.validBuffer m fuel t p b)
  | 0, _, _, _ => rfl
  | fuel + 1, t, p, b => by
    cases t <;> unfold validBufferT Dart.validBuffer <;> first
      | exact Same.require _ _
      | exact Same.validString m _ p b
      | exact rfl
      | exact Same.validTable fun total n => Same.validFields (Same.validBuffer m fuel) m p total n 0 p
      | exact Same.validTable fun total n => Same.validElems (Same.validBuffer m fuel) m p total n 0 p

end Dart
