import Verif.Lemmas.FloatCast
import Verif.Props.C26
import Verif.Props.C41

/-
C89: packets and the type `float`.
-/
namespace Dart.Props
open Spec

variable {signed exact : Bool} {p : Pkt} {v : Val}

/-- A packet made from a `float` holds its exact value; NaN stays NaN and the sign of zero is kept. -/
theorem C89_exact (f : BitVec 32) : ∃ d, F32.toDart f = .dec d ∧ doubleVal d.toNat = floatVal f.toNat ∧
    negBit d.toNat = floatNegBit f.toNat :=
  ⟨_, rfl, by rw [F32.toDouble_toNat, doubleVal_widen], F32.negBit_toDouble f⟩

/-- What `as<float>()` does on packets reached in any way, finalized or not: a decimal is rounded to the nearest `float`,
everything else is a type error. -/
theorem C89_rounds (h : Reached signed exact p) (hv : p.toHeap = .ok v) :
    (∀ d, v = .dec d → ∃ f, F32.fromDart p = .ok f ∧ IsFloatOf d.toNat f.toNat) ∧
    ((∀ d, v ≠ .dec d) → F32.fromDart p = .throw .typeError) := by
  have hh := Reached.held_of h hv
  have ht : p.getType = v.ty := hh.getType
  have hd : p.decimal = v.decimal := hh.decimal
  unfold F32.fromDart
  rw [ht, hd]
  constructor
  · rintro d rfl
    exact ⟨_, rfl, F32.ofDouble_isFloatOf d⟩
  · intro hn
    cases v with
    | dec d => exact absurd rfl (hn d)
    | _ => rfl

/-- There and back: a packet holding what a `float` was converted to, also after it was finalized, gives the same bits, and a
NaN for NaN. -/
theorem C89_round_trip (h : Reached signed exact p) {f : BitVec 32} (hv : p.toHeap = .ok (F32.toDart f)) :
    ∃ g, F32.fromDart p = .ok g ∧ (floatVal f.toNat ≠ .nan → g = f) ∧ (floatVal f.toNat = .nan → floatVal g.toNat = .nan) := by
  have hh := Reached.held_of h hv
  have ht : p.getType = .decimal := hh.getType
  have hd : p.decimal = .ok (F32.toDouble f) := hh.decimal
  refine ⟨F32.ofDouble (F32.toDouble f), by rw [F32.fromDart, if_pos ht, hd]; rfl, F32.ofDouble_toDouble f, fun hn => ?_⟩
  have h1 := F32.ofDouble_isFloatOf (F32.toDouble f)
  unfold IsFloatOf at h1
  rw [F32.toDouble_toNat, doubleVal_widen, hn] at h1
  exact h1

/-- Finalized, it takes four bytes, unless it is a NaN. -/
theorem C89_four_bytes {f : BitVec 32} (hn : floatVal f.toNat ≠ .nan) : (decBytes (F32.toDouble f)).length = 4 := by
  obtain ⟨h1, _, h3⟩ := C26_decimal_width (F32.toDouble f)
  have e : doubleVal (F32.toDouble f).toNat = floatVal f.toNat := by rw [F32.toDouble_toNat, doubleVal_widen]
  rw [h3, h1.2 ⟨f.toNat, f.isLt, e.symm, by rw [e]; exact hn⟩]
  rfl

/-- `packet == float` has an answer for packets in both states, and says whether the packet holds that number, as integer or as decimal. This is for
integers up to 2^53 in magnitude.
Missing for the full property: larger integers, for which it is wrong. -/
theorem C89_equals_partial (h : Reached signed exact p) (hv : p.toHeap = .ok v) (f : BitVec 32)
    (hm : ∀ i, v = .int i → i.toInt.natAbs ≤ 2 ^ 53) :
    ∃ r, F32.compare p f = .ok r ∧ (r = true ↔ SameAsFloat v f.toNat) := by
  have e : doubleVal (F32.toDouble f).toNat = floatVal f.toNat := by rw [F32.toDouble_toNat, doubleVal_widen]
  have h1 : F32.compare p f = v.eqNative (.dbl (F32.toDouble f)) := by
    rw [F32.compare, (Reached.held_of h hv).eqNative]; rfl
  rw [h1]
  have hM : Moderate v (.dbl (F32.toDouble f)) := by
    cases v with
    | int i => exact hm i rfl
    | _ => trivial
  obtain ⟨r, hr, hi⟩ := C41_numbers_partial v (.inr ⟨_, rfl⟩) hM
  refine ⟨r, hr, hi.trans ?_⟩
  cases v with
  | int i =>
    show IsInt _ _ ↔ _
    unfold IsInt SameAsFloat
    rw [e]
  | dec d =>
    show NumEq _ _ ↔ _
    unfold NumEq SameAsFloat
    rw [e]
    exact ⟨fun h => ⟨h.2, fun hn => h.1 (h.2.trans hn)⟩, fun h => ⟨fun hn => h.2 (h.1.symm.trans hn), h.1⟩⟩
  | _ => exact Iff.rfl

/-- Thus a decimal that equals a `float` converts to it, up to the sign of zero. -/
theorem C89_equal_decimal_converts (h : Reached signed exact p) {d : BitVec 64} (hv : p.toHeap = .ok (.dec d)) {f : BitVec 32}
    (he : F32.compare p f = .ok true) : ∃ g, F32.fromDart p = .ok g ∧ floatVal g.toNat = floatVal f.toNat := by
  obtain ⟨r, hr, hi⟩ := C89_equals_partial h hv f (fun i hi => nomatch hi)
  rw [he] at hr
  have hs : doubleVal d.toNat = floatVal f.toNat ∧ floatVal f.toNat ≠ .nan := hi.1 (Res.ok.inj hr).symm
  obtain ⟨g, hg, hf⟩ := (C89_rounds h hv).1 d rfl
  refine ⟨g, hg, ?_⟩
  unfold IsFloatOf at hf
  rw [hs.1] at hf
  cases hfv : floatVal f.toNat with
  | nan => exact absurd hfv hs.2
  | inf s => rw [hfv] at hf; exact hf
  | finite x =>
    rw [hfv] at hf
    obtain ⟨_, h1, h2⟩ := hf
    have hlt := F32.floatVal_small hfv
    obtain ⟨y, hy, hb⟩ := h1 hlt
    have := (hb f.toNat x hfv).1
    rw [hy]
    congr 1
    unfold dist at this
    omega

/-! What is wrong. -/

/-- An integer may equal a `float` and not convert to it: 5 and 5.0f. -/
theorem C89_equal_integer_does_not_convert : F32.compare (.heap (.int 5)) 0x40a00000#32 = .ok true ∧
    F32.fromDart (.heap (.int 5)) = .throw .typeError := by decide +kernel

/-- The integer 2^53 + 1 is said to equal the `float` 2^53. -/
theorem C89_large_integer_wrong : F32.compare (.heap (.int (2 ^ 53 + 1))) 0x5a000000#32 = .ok true ∧
    ¬ SameAsFloat (.int (2 ^ 53 + 1)) (0x5a000000#32).toNat := by
  refine ⟨by decide +kernel, fun h => ?_⟩
  have h1 : floatVal (0x5a000000#32).toNat = .finite (2 ^ 53 * 2 ^ 1074) := by
    rw [← doubleVal_widen, ← F32.toDouble_toNat, show F32.toDouble 0x5a000000#32 = intToDouble (2 ^ 53) by decide +kernel]
    exact intToDouble_isInt (by decide)
  have e := Spec.FVal.finite.inj (Eq.trans (Eq.symm h) h1)
  have e3 := Int.eq_of_mul_eq_mul_right (a := (2 : Int) ^ 1074) (by exact Int.ne_of_gt (Int.pow_pos (by decide))) e
  exact absurd e3 (by decide)

/-- 0.1, 1/3, the largest double, the negative zero, half of the smallest `float`, and just above half of it. -/
example : F32.fromDart (.heap (.dec 0x3fb999999999999a)) = .ok 0x3dcccccd#32 ∧
    F32.fromDart (.heap (.dec 0x3fd5555555555555)) = .ok 0x3eaaaaab#32 ∧
    F32.fromDart (.heap (.dec 0x7fefffffffffffff)) = .ok 0x7f800000#32 ∧
    F32.fromDart (.heap (.dec 0x8000000000000000)) = .ok 0x80000000#32 ∧
    F32.fromDart (.heap (.dec 0x3690000000000000)) = .ok 0#32 ∧
    F32.fromDart (.heap (.dec 0x3690000000000001)) = .ok 1#32 := by decide +kernel

example : F32.toDouble 0x3dcccccd#32 = 0x3fb99999a0000000#64 ∧ F32.toDouble 1#32 = 0x36a0000000000000#64 := by decide +kernel

/-- A packet `C89_round_trip` is about. -/
example : Reached true false (.heap (F32.toDart 0x3dcccccd#32)) ∧ floatVal (0x3dcccccd#32).toNat ≠ .nan :=
  ⟨⟨[.create (.const (F32.toDart 0x3dcccccd#32))], _, _, by simp [opWF, constWF, F32.toDart, Val.WF], rfl, by simp [PArg.pkt]⟩,
    fun h => by simp [floatVal] at h⟩

end Dart.Props
