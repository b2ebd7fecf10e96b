import Verif.Lemmas.Constant

/-
C88: converting packets to and from `std::integral_constant<T, c>` and comparing them with it.
-/
namespace Dart.Props
open Spec

variable {signed exact : Bool} {p : Pkt} {v : Val} {sh : Sharing} {c : Native}

/-- A packet equals the constant exactly if it holds that boolean or integer, finalized or not. -/
theorem C88_equals (h : Reached signed exact p) (hv : p.toHeap = .ok v) (hc : Constant c)
    (hs : ∀ l a b, sh.inside l a b = true → a = b) :
    ∃ r, Const.compare signed sh c p = .ok r ∧ (r = true ↔ Holds v c) :=
  compare_constant hs hc (Reached.held_of h hv)

/-- The packet made from the constant holds it. -/
theorem C88_makes (hc : Constant c) : Holds (Const.toDart c) c := (holds_iff hc _).2 rfl

/-- Converting to the constant succeeds for packets that hold it, and also for decimals of the same value, and is a type
error for all others. This is for constants up to 2^53 in magnitude.
Missing for the full property: it should accept exactly the packets that equal the constant; and larger constants, see
below. -/
theorem C88_accepts_partial (h : Reached signed exact p) (hv : p.toHeap = .ok v) (hc : Constant c)
    (hm : ∀ t x, c = .int t x → x.natAbs ≤ 2 ^ 53) :
    (Const.fromDart c p = .ok () ↔ Holds v c ∨ HoldsAsDecimal v c) ∧
    (Const.fromDart c p = .throw .typeError ↔ ¬ (Holds v c ∨ HoldsAsDecimal v c)) := by
  have key : ∃ r, v.eqNative c = .ok r ∧ (r = true ↔ Holds v c ∨ HoldsAsDecimal v c) := by
    rcases hc with ⟨⟨b, rfl⟩ | ⟨t, x, rfl⟩, _⟩
    · cases v with
      | bool a => exact ⟨_, rfl, by simp [Holds, HoldsAsDecimal]⟩
      | _ => exact ⟨false, rfl, by simp [Holds, HoldsAsDecimal]⟩
    · have hx := hm t x rfl
      have h1 := toInt_moderate hx
      cases v with
      | int i =>
        refine ⟨_, rfl, ?_⟩
        simp only [beq_iff_eq, Holds, HoldsAsDecimal, or_false]
        rw [← toInt_ofInt64]
        exact ⟨fun h => by rw [h], fun h => BitVec.eq_of_toInt_eq h⟩
      | dec d =>
        refine ⟨decEq d (intToDouble x), by simp [Val.eqNative, Val.getType, Val.decimal, Res.bind, h1], ?_⟩
        have h2 := intToDouble_isInt (i := x) hx
        rw [decEq_iff]
        unfold NumEq Holds HoldsAsDecimal IsInt at *
        rw [h2]
        exact ⟨fun h => .inr h.2, fun h => h.elim False.elim fun h => ⟨by rw [h]; simp, h⟩⟩
      | _ => exact ⟨false, rfl, by simp [Holds, HoldsAsDecimal]⟩
  obtain ⟨r, e, hr⟩ := key
  rw [fromDart_constant (Reached.held_of h hv), e, ← hr]
  cases r <;> simp [Res.bind]

/-- Whatever the size of the constant: a packet equal to it converts to it. -/
theorem C88_equal_implies_accepts (h : Reached signed exact p) (hv : p.toHeap = .ok v) (hc : Constant c)
    (hs : ∀ l a b, sh.inside l a b = true → a = b) (he : Const.compare signed sh c p = .ok true) :
    Const.fromDart c p = .ok () := by
  obtain ⟨r, e, hr⟩ := C88_equals h hv hc hs
  rw [e] at he
  have hh := (holds_iff hc v).1 (hr.1 (Res.ok.inj he))
  rw [fromDart_constant (Reached.held_of h hv), hh]
  rcases hc with ⟨⟨b, rfl⟩ | ⟨t, x, rfl⟩, _⟩
  · cases b <;> rfl
  · show (Res.ok (BitVec.ofInt 64 x == BitVec.ofInt 64 x)).bind _ = _
    simp [Res.bind]

/-- Converting and comparing are free of undefined behaviour and throw nothing else, whatever the size. -/
theorem C88_answers (h : Reached signed exact p) (hv : p.toHeap = .ok v) (hc : Constant c) :
    Const.fromDart c p = .ok () ∨ Const.fromDart c p = .throw .typeError := by
  rw [fromDart_constant (Reached.held_of h hv)]
  have : ∃ r, v.eqNative c = .ok r := by
    rcases hc with ⟨⟨b, rfl⟩ | ⟨t, x, rfl⟩, _⟩ <;> cases v <;> exact ⟨_, rfl⟩
  obtain ⟨r, e⟩ := this
  rw [e]
  cases r
  · exact .inr rfl
  · exact .inl rfl

/-- Converting and comparing disagree: the decimal 5.0 converts to `integral_constant<int, 5>`, but does not equal it. -/
theorem C88_converts_but_differs (hs : ∀ l a b, sh.inside l a b = true → a = b) :
    Const.fromDart (.int ⟨32, true⟩ 5) (.heap (.dec 0x4014000000000000)) = .ok () ∧
    Const.compare signed sh (.int ⟨32, true⟩ 5) (.heap (.dec 0x4014000000000000)) = .ok false := by
  refine ⟨by decide +kernel, ?_⟩
  have hc : Constant (.int ⟨32, true⟩ 5) := ⟨.inr ⟨_, _, rfl⟩, by simp [Possible, InRange]⟩
  show Res.ok ((Val.dec 0x4014000000000000).eqOp sh.inside (Const.toDart (.int ⟨32, true⟩ 5))) = _
  cases e : (Val.dec 0x4014000000000000).eqOp sh.inside (Const.toDart (.int ⟨32, true⟩ 5)) with
  | false => rfl
  | true => exact nomatch (eqOp_constant hs hc _).1 e

/-- Above 2^53 a decimal of another value is accepted too: 2^53 for the constant 2^53 + 1. -/
theorem C88_accepts_another_number :
    Const.fromDart (.int ⟨64, true⟩ (2 ^ 53 + 1)) (.heap (.dec (intToDouble (2 ^ 53)))) = .ok () ∧
    IsInt (intToDouble (2 ^ 53)).toNat (2 ^ 53) ∧ ¬ IsInt (intToDouble (2 ^ 53)).toNat (2 ^ 53 + 1) := by
  have h : IsInt (intToDouble (2 ^ 53)).toNat (2 ^ 53) := intToDouble_isInt (by decide)
  refine ⟨by decide +kernel, h, fun h' => ?_⟩
  have e := h.symm.trans h'
  have e2 := FVal.finite.inj e
  have e3 := Int.eq_of_mul_eq_mul_right (a := (2 : Int) ^ 1074) (by exact Int.ne_of_gt (Int.pow_pos (by decide))) e2
  exact absurd e3 (by decide)

/-- A packet holds -1 and is taken for the constant 2^64 - 1 of type `uint64_t`, as the packet made of the latter is. -/
theorem C88_unsigned_wraps : Holds (.int (-1)) (.int ⟨64, false⟩ (2 ^ 64 - 1)) ∧
    Const.toDart (.int ⟨64, false⟩ (2 ^ 64 - 1)) = .int (-1) := by
  constructor
  · show (-1 : BitVec 64).toInt = (2 ^ 64 - 1 : Int).bmod (2 ^ 64); decide
  · exact congrArg Val.int (by decide +kernel : BitVec.ofInt 64 (2 ^ 64 - 1) = -1)

example : Constant (.int ⟨32, true⟩ 5) ∧ Constant (.bool true) ∧ Constant (.int ⟨64, false⟩ (2 ^ 64 - 1)) :=
  ⟨⟨.inr ⟨_, _, rfl⟩, by simp [Possible, InRange]⟩, ⟨.inl ⟨_, rfl⟩, trivial⟩, ⟨.inr ⟨_, _, rfl⟩, by simp [Possible, InRange]⟩⟩

example : HoldsAsDecimal (.dec (intToDouble 5)) (.int ⟨32, true⟩ 5) ∧ intToDouble 5 = 0x4014000000000000 :=
  ⟨intToDouble_isInt (i := 5) (by decide), by decide +kernel⟩

example : Const.fromDart (.int ⟨32, true⟩ 5) (.heap (.int 5)) = .ok () ∧
    Const.fromDart (.int ⟨32, true⟩ 5) (.heap (.int 6)) = .throw .typeError ∧
    Const.fromDart (.bool true) (.heap (.int 1)) = .throw .typeError := by decide +kernel

end Dart.Props
