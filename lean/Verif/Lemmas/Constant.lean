import Verif.Lemmas.MapKeys
import Verif.Lemmas.EqualBuf
import Verif.Model.Constant
import Verif.Spec.Constant

namespace Dart
open Spec

theorem holds_iff {c : Native} (hc : Constant c) (v : Val) : Holds v c ↔ v = Const.toDart c := by
  rcases hc with ⟨⟨b, rfl⟩ | ⟨t, x, rfl⟩, _⟩
  · cases v <;> simp [Holds, Const.toDart, Native.toDart]
  · cases v <;> simp [Holds, Const.toDart, Native.toDart]
    constructor
    · intro h; exact BitVec.eq_of_toInt_eq (by rw [h, BitVec.toInt_ofInt])
    · rintro rfl; rw [BitVec.toInt_ofInt]

theorem alikeOrNull_constant {F} {c : Native} (hc : Constant c) (v : Val) :
    AlikeOrNull F v (Const.toDart c) ↔ v = Const.toDart c := by
  rcases hc with ⟨⟨b, rfl⟩ | ⟨t, x, rfl⟩, _⟩
  · constructor
    · intro h
      show v = .bool b
      replace h : AlikeOrNull F v (.bool b) := h
      cases h; rfl
    · rintro rfl; exact .bool b
  · constructor
    · intro h
      show v = .int (BitVec.ofInt 64 x)
      replace h : AlikeOrNull F v (.int (BitVec.ofInt 64 x)) := h
      cases h; rfl
    · rintro rfl; exact .int _

theorem eqOp_constant {same : List Nat → Val → Val → Bool} (hs : ∀ p a b, same p a b = true → a = b) {c : Native}
    (hc : Constant c) (v : Val) : v.eqOp same (Const.toDart c) = true ↔ v = Const.toDart c := by
  rcases hc with ⟨⟨b, rfl⟩ | ⟨t, x, rfl⟩, _⟩
  · show heapEq same v [] (.bool b) = true ↔ v = .bool b
    cases v <;> simp only [heapEq, Bool.or_false, Bool.or_eq_true, beq_iff_eq] <;>
      first
      | exact ⟨fun h => (hs _ _ _ h), fun h => nomatch h⟩
      | exact ⟨fun h => h.elim (hs _ _ _) fun e => by rw [e], fun h => .inr (Val.bool.inj h)⟩
  · show heapEq same v [] (.int (BitVec.ofInt 64 x)) = true ↔ v = .int (BitVec.ofInt 64 x)
    cases v <;> simp only [heapEq, Bool.or_false, Bool.or_eq_true, beq_iff_eq] <;>
      first
      | exact ⟨fun h => (hs _ _ _ h), fun h => nomatch h⟩
      | exact ⟨fun h => h.elim (hs _ _ _) fun e => by rw [e], fun h => .inr (Val.int.inj h)⟩

theorem plain_of_constant {signed : Bool} {c : Native} (hc : Constant c) : (Const.toDart c).PlainKeys signed := by
  rcases hc with ⟨⟨b, rfl⟩ | ⟨t, x, rfl⟩, _⟩ <;> simp [Const.toDart, Native.toDart, Val.PlainKeys]

theorem compare_constant {z signed : Bool} {sh : Sharing} (hs : ∀ p a b, sh.inside p a b = true → a = b) {c : Native}
    (hc : Constant c) {p : Pkt} {f : Bool} {v : Val} (h : Held z p ⟨f, v⟩) :
    ∃ r, Const.compare signed sh c p = .ok r ∧ (r = true ↔ Holds v c) := by
  rw [holds_iff hc]
  cases p with
  | heap u =>
    obtain ⟨e, _⟩ := h
    cases e
    exact ⟨_, rfl, eqOp_constant hs hc _⟩
  | buf b =>
    obtain ⟨r, e, h1, h2⟩ := eqVal_ok (signed := signed) (Const.toDart c) b v h.2
    refine ⟨r, e, fun hr => (alikeOrNull_constant hc v).1 (h1 hr), ?_⟩
    rintro rfl
    exact h2 (plain_of_constant hc) ((alikeOrNull_constant hc _).2 rfl)

theorem fromDart_constant {z : Bool} {p : Pkt} {f : Bool} {v : Val} (h : Held z p ⟨f, v⟩) (c : Native) :
    Const.fromDart c p = (v.eqNative c).bind fun r => if r then .ok () else .throw .typeError := by
  rw [Const.fromDart, h.eqNative]; rfl

end Dart
