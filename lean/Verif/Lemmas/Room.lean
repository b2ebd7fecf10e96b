import Verif.Lemmas.Shows
import Verif.Spec.Room

/-
The room values take is the size of their encoding.
-/
namespace Dart

theorem unit_eq (v : Val) : v.unit = v.rawType.align := by
  cases v with
  | int i =>
    simp only [Val.unit, Val.rawType, identifyInteger]
    split
    · rename_i h
      rw [if_neg (by omega), if_neg (by omega)]; rfl
    · rename_i h
      split
      · rename_i h2
        rw [if_neg (by omega), if_pos (by omega)]; rfl
      · rename_i h2
        rw [if_pos (by omega)]; rfl
  | dec d =>
    simp only [Val.unit, Val.rawType, identifyDecimal]
    cases narrowBits d.toNat <;> rfl
  | str s =>
    simp only [Val.unit, Val.rawType, identifyString]
    by_cases h : s.length > 65535
    · rw [if_neg (by omega), if_pos h]; rfl
    · rw [if_pos (by omega), if_neg h]; split <;> rfl
  | _ => rfl

theorem upTo_eq {u : Nat} (n : Nat) (hu : 0 < u) : upTo n u = alignUp n u := by
  unfold upTo alignUp
  have h1 := Nat.div_add_mod n u
  have h2 := Nat.mod_lt n hu
  by_cases h : n % u = 0
  · rw [if_pos h]
    have : (n + (u - 1)) / u = n / u := by
      rw [Nat.div_eq_iff hu]
      constructor
      · rw [Nat.mul_comm]; omega
      · rw [Nat.mul_comm]; omega
    rw [this, Nat.mul_comm]; omega
  · rw [if_neg h]
    have : (n + (u - 1)) / u = n / u + 1 := by
      rw [Nat.div_eq_iff hu]
      constructor
      · rw [Nat.add_mul, Nat.mul_comm]; omega
      · rw [Nat.add_mul, Nat.mul_comm]; omega
    rw [this, Nat.add_mul, Nat.mul_comm]; omega

theorem upTo_unit (n : Nat) (v : Val) : upTo n v.unit = alignUp n v.rawType.align := by
  rw [unit_eq, upTo_eq _ (align_pos _)]

theorem strSize_key {k : Bytes} (hk : k.length ≤ 65535) : strSize k = 2 + k.length + 1 := by
  unfold strSize strLw identifyString
  rw [if_neg (by omega)]
  split <;> rename_i h
  · split at h <;> cases h
  · rfl

mutual
theorem room_eq : ∀ v : Val, v.WF → v.room = sizeVal v
  | .obj fs, hw => by
    simp only [Val.WF] at hw
    simp only [Val.room, sizeVal]
    rw [roomFields_eq fs hw.2, upTo_eq _ (by decide)]
  | .arr es, hw => by
    simp only [Val.WF] at hw
    simp only [Val.room, sizeVal]
    rw [roomElems_eq es hw]
  | .null, _ => rfl
  | .bool _, _ => rfl
  | .int i, _ => by
    simp only [Val.room, unit_eq, sizeVal, Val.rawType, identifyInteger]
    split
    · simp [intBytes, RawType.align]
    · split <;> simp [intBytes, RawType.align]
  | .dec d, _ => by
    simp only [Val.room, Val.unit, sizeVal, decBytes]
    cases narrowBits d.toNat <;> simp
  | .str s, _ => by
    simp only [Val.room, sizeVal, strSize, strLw, Val.unit, identifyString]
    by_cases h : s.length > 65535
    · rw [if_neg (by omega), if_pos h]
    · rw [if_pos (by omega), if_neg h]; split <;> rename_i h2 <;> first | rfl | (split at h2 <;> cases h2)
theorem roomElems_eq : ∀ (es : List Val), WFElems es → ∀ off, roomElems off es = elemsEnd off es
  | [], _, _ => rfl
  | v :: es, hw, off => by
    simp only [WFElems] at hw
    simp only [roomElems, elemsEnd]
    rw [upTo_unit, room_eq v hw.1, roomElems_eq es hw.2]
theorem roomFields_eq : ∀ (fs : List (Bytes × Val)), WFFields fs → ∀ off, roomFields off fs = fieldsEnd off fs
  | [], _, _ => rfl
  | (k, v) :: fs, hw, off => by
    simp only [WFFields] at hw
    simp only [roomFields, fieldsEnd]
    rw [upTo_unit, upTo_eq _ (by decide), room_eq v hw.2.1, roomFields_eq fs hw.2.2, strSize_key hw.1]
end

end Dart
