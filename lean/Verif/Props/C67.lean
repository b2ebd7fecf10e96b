import Verif.Lemmas.KeyAccess
import Verif.Model.Sample
import Verif.Props.C33
import Verif.Props.C44

/-
C67: calls with a default (`integer_or`, `maybe_as`, ...) answer with the value if there is one of that type and with the
default otherwise, and never fail; a packet can be used as a key, and finds what the string or integer in it would find.
-/
namespace Dart.Props
open Dart.Spec

/-- The calls with a default: the value if it has the type asked for, otherwise the default. They never throw (being
`noexcept`, they must not), in either state of the packet. `numeric_or` gives a double nearest to an integer. -/
theorem C67_or {signed exact : Bool} {p : Pkt} {v : Val} (h : Reached signed exact p) (hv : p.toHeap = .ok v) :
    (∀ d, p.strvOr d = .ok (match v with | .str s => s | _ => d)) ∧
    (∀ d, p.integerOr d = .ok (match v with | .int i => i | _ => d)) ∧
    (∀ d, p.decimalOr d = .ok (match v with | .dec x => x | _ => d)) ∧
    (∀ d, p.booleanOr d = .ok (match v with | .bool b => b | _ => d)) ∧
    (∀ d, ∃ x, p.numericOr d = .ok x ∧
      match v with | .int _ => NumberAs v x | .dec _ => NumberAs v x | _ => x = d) := by
  have hp := Reached.held_of h hv
  have ht : p.getType = v.ty := hp.getType
  have h1 : p.strv = v.strv := hp.strv
  have h2 : p.integer = v.integer := hp.integer
  have h3 : p.decimal = v.decimal := hp.decimal
  have h4 : Typed.numeric p = v.numeric := hp.numeric
  refine ⟨fun d => ?_, fun d => ?_, fun d => ?_, fun d => ?_, fun d => ?_⟩
  · cases v with
    | str s => exact optionalAccess_yes (by rw [ht]; rfl) h1
    | _ => exact optionalAccess_no (by rw [ht]; rfl)
  · cases v with
    | int s => exact optionalAccess_yes (by rw [ht]; rfl) h2
    | _ => exact optionalAccess_no (by rw [ht]; rfl)
  · cases v with
    | dec s => exact optionalAccess_yes (by rw [ht]; rfl) h3
    | _ => exact optionalAccess_no (by rw [ht]; rfl)
  · cases v with
    | bool s => exact optionalAccess_yes (by rw [ht]; rfl) (hp.boolean (by simp) (by simp))
    | _ => exact optionalAccess_no (by rw [ht]; rfl)
  · have hn : p.isNumeric = (v.ty == .integer || v.ty == .decimal) := by rw [Pkt.isNumeric, ht]
    cases v with
    | int i =>
      obtain ⟨a, e, hna, _⟩ := operands_as (n := .int i) (t := .dbl 0) ⟨.inl ⟨i, rfl⟩, fun _ h => nomatch h⟩
      exact ⟨a, optionalAccess_yes (by rw [hn]; rfl) (h4.trans e), hna⟩
    | dec x => exact ⟨x, optionalAccess_yes (by rw [hn]; rfl) h4, .dec x⟩
    | _ => exact ⟨d, optionalAccess_no (by rw [hn]; rfl), rfl⟩

/-- Lookup by a packet: a string finds a field of an object and an integer an element of an array, in packets and with
keys in either state; where there is nothing (also at negative indices) the answer is null. Any other combination is a
type error. -/
theorem C67_get {signed exact : Bool} {p k : Pkt} {v w : Val} (hp : Reached signed exact p) (hk : Reached signed exact k)
    (ev : p.toHeap = .ok v) (ew : k.toHeap = .ok w) (ha : Addressable v) :
    ∃ r, AtKey signed ⟨p.isFinalized, v⟩ w r ∧
      Gives (p.getBy signed k)
        (if Matching v w then .ok ⟨p.isFinalized, r.getD .null⟩ else .error .typeError) := by
  obtain ⟨r, h⟩ := byKey (signed := signed) (Reached.held_of hp ev) (Reached.held_of hk ew) ha
  refine ⟨r, h.found, ?_⟩
  cases hm : Matching v w with
  | true =>
    obtain ⟨q, h1, h2⟩ := h.get hm
    exact ⟨q, h1, h2.inState⟩
  | false => exact h.wrong hm

/-- The question whether a key is there: on an object as `get` finds it, and never for a key that is not a string. On
anything else it is a type error to ask with a string. -/
theorem C67_has_key {signed exact : Bool} {p k : Pkt} {v w : Val} (hp : Reached signed exact p) (hk : Reached signed exact k)
    (ev : p.toHeap = .ok v) (ew : k.toHeap = .ok w) :
    match v, w with
    | .obj _, _ => ∃ r, AtKey signed ⟨p.isFinalized, v⟩ w r ∧ p.hasKeyBy signed k = .ok r.isSome
    | _, .str _ => p.hasKeyBy signed k = .throw .typeError
    | _, _ => p.hasKeyBy signed k = .ok false := by
  have h1 := Reached.held_of hp ev
  have h2 := Reached.held_of hk ew
  have ht : k.getType = w.ty := h2.getType
  have hs : k.strv = w.strv := h2.strv
  have other : (∀ fs, v ≠ .obj fs) →
      p.hasKeyBy signed k = match w with | .str _ => .throw .typeError | _ => .ok false := by
    intro hn
    cases w with
    | str s =>
      simp only [Pkt.hasKeyBy, ht, hs, Val.ty, Val.strv, if_true, Res.bind_ok]
      exact h1.hasKey_throw hn s
    | _ => simp [Pkt.hasKeyBy, ht, Val.ty]
  cases v with
  | obj fs =>
    obtain ⟨r, h⟩ := byKey (signed := signed) h1 h2 trivial
    exact ⟨r, h.found, h.key ⟨fs, rfl⟩⟩
  | _ => have h := other (by simp); cases w <;> exact h

/-- Lookup with a default, as documented: what is there, and the default if there is nothing or the key has the wrong
type. Partial: not for an array and a key that is not an integer, see below. -/
theorem C67_get_or_partial {signed exact : Bool} {p k d : Pkt} {v w u : Val} (hp : Reached signed exact p)
    (hk : Reached signed exact k) (ev : p.toHeap = .ok v) (ew : k.toHeap = .ok w) (ed : d.toHeap = .ok u)
    (ha : Addressable v) (hi : (∃ es, v = .arr es) → ∃ i, w = .int i) :
    ∃ r, AtKey signed ⟨p.isFinalized, v⟩ w r ∧
      Gives (p.getOrBy signed k d)
        (match r with | some x => .ok ⟨p.isFinalized, x⟩ | none => .ok ⟨d.isFinalized, u⟩) := by
  have h1 := Reached.held_of hp ev
  have h2 := Reached.held_of hk ew
  obtain ⟨r, h⟩ := byKey (signed := signed) h1 h2 ha
  have ht : p.getType = v.ty := h1.getType
  refine ⟨r, h.found, ?_⟩
  have dflt : Gives (.ok d) (.ok ⟨d.isFinalized, u⟩) := ⟨d, rfl, rfl, ed⟩
  cases v with
  | obj fs =>
    have ht' : p.getType = .object := ht
    simp only [Pkt.getOrBy, ht', if_true, h.key ⟨fs, rfl⟩, Res.bind_ok]
    cases r with
    | none => exact dflt
    | some x =>
      have hm : Matching (.obj fs) w = true := by
        cases hw : Matching (.obj fs) w with
        | true => rfl
        | false =>
          have := h.found
          cases w <;> first | (cases hw; done) | (cases this; done)
      obtain ⟨q, h3, h4⟩ := h.get hm
      exact ⟨q, h3, h4.inState⟩
  | arr es =>
    obtain ⟨i, rfl⟩ := hi ⟨es, rfl⟩
    have ht' : p.getType = .array := ht
    have hs : p.size = .ok es.length := h1.size
    have hn : k.integer = .ok i := h2.integer
    have hd : decide (es.length > asIndex i) = r.isSome := (h.inside es i rfl rfl).symm
    simp only [Pkt.getOrBy, ht', reduceCtorEq, if_false, if_true, Res.bind_ok, hs, hn, hd, Bool.false_eq_true]
    cases r with
    | none => exact dflt
    | some x =>
      obtain ⟨q, h3, h4⟩ := h.get rfl
      exact ⟨q, h3, h4.inState⟩
  | _ =>
    have hr : r = none := by have := h.found; cases w <;> exact this
    subst hr
    simp only [Pkt.getOrBy, ht, Val.ty, reduceCtorEq, if_false, Res.bind_ok, Bool.false_eq_true]
    exact dflt

/-- The claim for all keys is false: on every array, a key that is not an integer makes `get_or` throw, although the
documentation promises the default (and on objects it is returned). -/
theorem C67_get_or_wrong {signed exact : Bool} {p k : Pkt} {es : List Val} {w : Val} (hp : Reached signed exact p)
    (hk : Reached signed exact k) (ev : p.toHeap = .ok (.arr es)) (ew : k.toHeap = .ok w) (hw : ∀ i, w ≠ .int i) (d : Pkt) :
    p.getOrBy signed k d = .throw .typeError := by
  have h1 := Reached.held_of hp ev
  have h2 := Reached.held_of hk ew
  have ht : p.getType = .array := h1.getType
  have hs : p.size = .ok es.length := h1.size
  have hn : k.integer = .throw .typeError := by
    rw [h2.integer]
    cases w <;> first | rfl | exact absurd rfl (hw _)
  simp only [Pkt.getOrBy, ht, reduceCtorEq, if_false, if_true, Res.bind_ok, hs, hn, Bool.false_eq_true]
  rfl

/-- `maybe_as` for native types and containers: never fails, and does not depend on the state of the packet. It is empty
for a packet of a type that the C++ type has no values for; if the type's values can be told apart, and the packet holds
one, that is the answer. -/
theorem C67_maybe_as {signed exact : Bool} {p : Pkt} {v : Val} (h : Reached signed exact p) (hv : p.toHeap = .ok v) (t : CTy) :
    (∃ o, t.maybeAs p = .ok o ∧ t.maybeAs (.heap v) = .ok o) ∧
    (takes t v.ty = false → t.maybeAs p = .ok none) ∧
    (∀ x, Distinct t → Fit t x → Stands t x v → t.maybeAs p = .ok (some x)) := by
  have hp := Reached.held_of h hv
  have e : t.fromDart p = t.fromDart (.heap v) := fromDart_same t ⟨_, _, hp, rfl⟩
  refine ⟨?_, fun ht => ?_, fun x hd hf hs => ?_⟩
  · have hn := fromDart_ne_ub t v
    unfold CTy.maybeAs
    rw [e]
    cases hx : t.fromDart (.heap v) with
    | ok x => exact ⟨_, rfl, rfl⟩
    | throw e => exact ⟨_, rfl, rfl⟩
    | ub => exact absurd hx hn
  · unfold CTy.maybeAs
    rw [e, C44_wrong_type t hp.wf ht]
  · unfold CTy.maybeAs
    rw [fromDart_ok t hd hf hs hp]

/-- It does not say whether an integer fits: `maybe_as<int8_t>` of 300 is 44. -/
theorem C67_maybe_as_truncates : tyI8.maybeAs (.heap (.int 300)) = .ok (some (44 : Int)) := rfl

/-! Concrete cases. -/

/-- An array of two strings, made and kept dynamic. -/
theorem keyed_reached (v : Val) (hv : v.WF) : Reached true true (.heap v) :=
  ⟨[.create (.const v)], [.heap v], [none], by simpa [opWF, constWF] using hv, rfl, by simp⟩

example : (Pkt.heap (.arr [.str [97], .int 7])).getBy true (.heap (.int 1)) = .ok (.heap (.int 7)) ∧
    (Pkt.heap (.arr [.str [97], .int 7])).getBy true (.heap (.int (-1))) = .ok (.heap .null) ∧
    (Pkt.heap (.arr [.str [97], .int 7])).getOrBy true (.heap (.str [97])) (.heap (.bool true)) = .throw .typeError ∧
    (Pkt.heap (.obj [([97], .int 7)])).getOrBy true (.heap (.int 0)) (.heap (.bool true)) = .ok (.heap (.bool true)) ∧
    (Pkt.heap (.obj [([97], .int 7)])).getOrBy true (.heap (.str [97])) (.heap (.bool true)) = .ok (.heap (.int 7)) ∧
    (Pkt.heap (.int 3)).integerOr 9 = .ok 3 ∧ (Pkt.heap (.str [])).integerOr 9 = .ok 9 :=
  ⟨rfl, rfl, rfl, rfl, rfl, rfl, rfl⟩

example : ∃ r, AtKey true ⟨false, .arr [.str [97], .int 7]⟩ (.int 1) r ∧ r = some (.int 7) := by
  obtain ⟨r, h, _⟩ := C67_get (signed := true) (exact := true) (p := .heap (.arr [.str [97], .int 7])) (k := .heap (.int 1))
    (keyed_reached _ (by simp [Val.WF, WFElems])) (keyed_reached _ trivial) rfl rfl (show 2 < 2 ^ 63 by decide)
  exact ⟨r, h, h⟩

end Dart.Props
