import Verif.Model.Stack
import Verif.Spec.Stack
import Verif.Lemmas.Depth
import Verif.Lemmas.JsonBuf
import Verif.Spec.Equal

/-
Nested calls over dynamic values: with enough of them the limited functions do what the unlimited ones do, and otherwise the stack
overflows.
-/
namespace Dart
open Spec

/-- The stack suffices and the answer is `r`, or it overflows and holds less than `l` calls. -/
def StackOk {α : Type} (stack l : Nat) (x : Option α) (r : α) : Prop := x = some r ∨ (x = none ∧ stack < l)

theorem StackOk.some {α : Type} {stack l : Nat} (r : α) : StackOk stack l (some r) r := .inl rfl

theorem StackOk.zero {α : Type} {l : Nat} (r : α) (h : 0 < l) : StackOk 0 l (none : Option α) r := .inr ⟨rfl, h⟩

theorem StackOk.weaken {α : Type} {s l l' : Nat} {x : Option α} {r : α} (h : StackOk s l x r) (hl : l ≤ l') : StackOk s l' x r := by
  rcases h with h | ⟨h, hs⟩
  · exact .inl h
  · exact .inr ⟨h, by omega⟩

theorem StackOk.up {α : Type} {s l : Nat} {x : Option α} {r : α} (h : StackOk s l x r) : StackOk (s + 1) (1 + l) x r := by
  rcases h with h | ⟨h, hs⟩
  · exact .inl h
  · exact .inr ⟨h, by omega⟩

theorem StackOk.map {α β : Type} {s l : Nat} {x : Option α} {r : α} (h : StackOk s l x r) (f : α → β) : StackOk s l (x.map f) (f r) := by
  rcases h with rfl | ⟨rfl, hs⟩
  · exact .inl rfl
  · exact .inr ⟨rfl, hs⟩

theorem StackOk.bind {α β : Type} {s l l' : Nat} {x : Option α} {r : α} {f : α → Option β} {r' : β} (h : StackOk s l x r)
    (hf : StackOk s l' (f r) r') : StackOk s (max l l') (x.bind f) r' := by
  rcases h with rfl | ⟨rfl, hs⟩
  · exact hf.weaken (by omega)
  · exact .inr ⟨rfl, by omega⟩

theorem StackOk.unless {α β : Type} {s l l' : Nat} {x : Option (Option α)} {r : Option α} {f : α → Option (Option β)}
    {g : α → Option β} (h : StackOk s l x r) (hf : ∀ a, r = .some a → StackOk s l' (f a) (g a)) :
    StackOk s (max l l') (unlessFailed x f) (r.bind g) := by
  rcases h with rfl | ⟨rfl, hs⟩
  · cases r with
    | none => exact .inl rfl
    | some a => exact (hf a rfl).weaken (by omega)
  · exact .inr ⟨rfl, by omega⟩

theorem StackOk.first {α β : Type} {s l : Nat} {r : Option α} {f : α → Option (Option β)}
    {g : α → Option β} (hf : ∀ a, r = .some a → StackOk s l (f a) (g a)) : StackOk s l (unlessFailed (.some r) f) (r.bind g) := by
  cases r with
  | none => exact .inl rfl
  | some a => exact hf a rfl

mutual
theorem upperBoundWithin_fits : ∀ (v : Val) (s : Nat), StackOk s (levels v) (upperBoundWithin s v) (upperBound v)
  | v, 0 => by
    have : upperBoundWithin 0 v = none := by unfold upperBoundWithin; rfl
    rw [this]; exact .zero _ (levels_pos v)
  | .obj fs, s + 1 => by
    rw [upperBoundWithin, upperBound, levels]
    refine (((fieldsUBWithin_fits fs s).unless (l' := 0) fun a _ => ?_).weaken (by omega)).up
    show StackOk s 0 (if _ then _ else _) (if _ then _ else _)
    split <;> exact .some _
  | .arr es, s + 1 => by
    rw [upperBoundWithin, upperBound, levels]
    refine (((elemsUBWithin_fits es s).unless (l' := 0) fun a _ => ?_).weaken (by omega)).up
    show StackOk s 0 (if _ then _ else _) (if _ then _ else _)
    split <;> exact .some _
  | .str _, _ + 1 => .inl (by rw [upperBoundWithin, upperBound])
  | .int _, _ + 1 => .inl rfl
  | .dec _, _ + 1 => .inl rfl
  | .bool _, _ + 1 => .inl (by rw [upperBoundWithin, upperBound])
  | .null, _ + 1 => .inl (by rw [upperBoundWithin, upperBound])
theorem fieldsUBWithin_fits : ∀ (fs : List (Bytes × Val)) (s : Nat), StackOk s (levelsFields fs) (fieldsUBWithin s fs) (fieldsUB fs)
  | [], s => .inl (by rw [fieldsUBWithin, fieldsUB])
  | (k, v) :: fs, s => by
    rw [fieldsUBWithin, fieldsUB, levelsFields]
    refine (upperBoundWithin_fits v s).unless fun a _ => ?_
    exact ((fieldsUBWithin_fits fs s).unless (l' := 0) fun b _ => .some _).weaken (by omega)
theorem elemsUBWithin_fits : ∀ (es : List Val) (s : Nat), StackOk s (levelsElems es) (elemsUBWithin s es) (elemsUB es)
  | [], s => .inl (by rw [elemsUBWithin, elemsUB])
  | v :: es, s => by
    rw [elemsUBWithin, elemsUB, levelsElems]
    refine (upperBoundWithin_fits v s).unless fun a _ => ?_
    exact ((elemsUBWithin_fits es s).unless (l' := 0) fun b _ => .some _).weaken (by omega)
end

mutual
theorem layoutWithin_fits : ∀ (v : Val) (s p : Nat) (m : Bytes), StackOk s (levels v) (layoutWithin s v p m) (layoutVal v p m)
  | v, 0, p, m => by
    have : layoutWithin 0 v p m = none := by unfold layoutWithin; rfl
    rw [this]; exact .zero _ (levels_pos v)
  | .obj fs, s + 1, p, m => by
    rw [layoutWithin, layoutVal, levels]
    refine StackOk.first fun m' _ => ?_
    exact (((fieldsWithin_fits fs s _ _ _ _).unless (l' := 0) fun a _ => .some _).weaken (by omega)).up
  | .arr es, s + 1, p, m => by
    rw [layoutWithin, layoutVal, levels]
    refine StackOk.first fun m' _ => ?_
    exact (((elemsWithin_fits es s _ _ _ _).unless (l' := 0) fun a _ => .some _).weaken (by omega)).up
  | .str _, _ + 1, _, _ => .inl (by rw [layoutWithin, layoutVal])
  | .int _, _ + 1, _, _ => .inl (by rw [layoutWithin, layoutVal])
  | .dec _, _ + 1, _, _ => .inl (by rw [layoutWithin, layoutVal])
  | .bool _, _ + 1, _, _ => .inl (by rw [layoutWithin, layoutVal])
  | .null, _ + 1, _, _ => .inl (by rw [layoutWithin, layoutVal])
theorem fieldsWithin_fits : ∀ (fs : List (Bytes × Val)) (s base idx off : Nat) (m : Bytes),
    StackOk s (levelsFields fs) (fieldsWithin s fs base idx off m) (layoutFields fs base idx off m)
  | [], s, _, _, _, _ => .inl (by rw [fieldsWithin, layoutFields])
  | (k, v) :: fs, s, base, idx, off, m => by
    rw [fieldsWithin, layoutFields, levelsFields]
    refine StackOk.first fun m' _ => ?_
    refine StackOk.first fun r _ => ?_
    refine (layoutWithin_fits v s _ _).unless fun r' _ => ?_
    exact fieldsWithin_fits fs s _ _ _ _
theorem elemsWithin_fits : ∀ (es : List Val) (s base idx off : Nat) (m : Bytes),
    StackOk s (levelsElems es) (elemsWithin s es base idx off m) (layoutElems es base idx off m)
  | [], s, _, _, _, _ => .inl (by rw [elemsWithin, layoutElems])
  | v :: es, s, base, idx, off, m => by
    rw [elemsWithin, layoutElems, levelsElems]
    refine StackOk.first fun m' _ => ?_
    refine (layoutWithin_fits v s _ _).unless fun r' _ => ?_
    exact elemsWithin_fits es s _ _ _ _
end

theorem finalizeWithin_fits (v : Val) (s : Nat) : StackOk s (levels v) (finalizeWithin s v) (finalize v) := by
  cases v with
  | obj fs =>
    unfold finalizeWithin finalize
    rcases upperBoundWithin_fits (.obj fs) s with h | ⟨h, hs⟩
    · rw [h]
      cases hu : upperBound (.obj fs) with
      | none => exact .some _
      | some n =>
        rcases layoutWithin_fits (.obj fs) s 0 (zeros n) with h' | ⟨h', hs⟩
        · refine .inl ?_
          simp only [h']
          cases layoutVal (.obj fs) 0 (zeros n) <;> rfl
        · refine .inr ⟨?_, hs⟩
          simp only [h']
    · rw [h]; exact .inr ⟨rfl, hs⟩
  | _ => exact .some _

mutual
theorem serializeWithin_fits : ∀ (v : Val) (s : Nat), StackOk s (levels v) (serializeWithin s v) v.serialize
  | v, 0 => by
    have : serializeWithin 0 v = none := by unfold serializeWithin; rfl
    rw [this]; exact .zero _ (levels_pos v)
  | .obj fs, s + 1 => by
    rw [serializeWithin, Val.serialize, levels]
    exact ((serializeFieldsWithin_fits fs s).map _).up
  | .arr es, s + 1 => by
    rw [serializeWithin, Val.serialize, levels]
    exact ((serializeElemsWithin_fits es s).map _).up
  | .str _, _ + 1 => .inl (by rw [serializeWithin, Val.serialize])
  | .int _, _ + 1 => .inl (by rw [serializeWithin, Val.serialize])
  | .dec _, _ + 1 => .inl (by rw [serializeWithin, Val.serialize])
  | .bool _, _ + 1 => .inl (by rw [serializeWithin, Val.serialize])
  | .null, _ + 1 => .inl (by rw [serializeWithin, Val.serialize])
theorem serializeFieldsWithin_fits : ∀ (fs : List (Bytes × Val)) (s : Nat),
    StackOk s (levelsFields fs) (serializeFieldsWithin s fs) (serializeFields fs)
  | [], s => .inl (by rw [serializeFieldsWithin, serializeFields])
  | (k, v) :: fs, s => by
    rw [serializeFieldsWithin, serializeFields, levelsFields]
    exact (serializeWithin_fits v s).bind ((serializeFieldsWithin_fits fs s).map _)
theorem serializeElemsWithin_fits : ∀ (es : List Val) (s : Nat),
    StackOk s (levelsElems es) (serializeElemsWithin s es) (serializeElems es)
  | [], s => .inl (by rw [serializeElemsWithin, serializeElems])
  | v :: es, s => by
    rw [serializeElemsWithin, serializeElems, levelsElems]
    exact (serializeWithin_fits v s).bind ((serializeElemsWithin_fits es s).map _)
end

mutual
theorem destroyWithin_fits : ∀ (v : Val) (s : Nat) (p : List Nat), StackOk s (levels v) (destroyWithin soleOwner s v p) (valuesIn v)
  | v, 0, p => by
    have : destroyWithin soleOwner 0 v p = none := by unfold destroyWithin; rfl
    rw [this]; exact .zero _ (levels_pos v)
  | .obj fs, s + 1, p => by
    rw [destroyWithin, valuesIn, levels, Nat.add_comm 1 (valuesInFields fs)]
    exact ((destroyFieldsWithin_fits fs s p 0).map (· + 1)).up
  | .arr es, s + 1, p => by
    rw [destroyWithin, valuesIn, levels, Nat.add_comm 1 (valuesInElems es)]
    exact ((destroyElemsWithin_fits es s p 0).map (· + 1)).up
  | .str _, _ + 1, _ => .inl rfl
  | .int _, _ + 1, _ => .inl rfl
  | .dec _, _ + 1, _ => .inl rfl
  | .bool _, _ + 1, _ => .inl rfl
  | .null, _ + 1, _ => .inl rfl
theorem destroyFieldsWithin_fits : ∀ (fs : List (Bytes × Val)) (s : Nat) (p : List Nat) (i : Nat),
    StackOk s (levelsFields fs) (destroyFieldsWithin soleOwner s fs p i) (valuesInFields fs)
  | [], s, _, _ => .inl (by rw [destroyFieldsWithin, valuesInFields])
  | (k, v) :: fs, s, p, i => by
    rw [destroyFieldsWithin, valuesInFields, levelsFields]
    exact (destroyWithin_fits v s _).bind ((destroyFieldsWithin_fits fs s p (i + 1)).map _)
theorem destroyElemsWithin_fits : ∀ (es : List Val) (s : Nat) (p : List Nat) (i : Nat),
    StackOk s (levelsElems es) (destroyElemsWithin soleOwner s es p i) (valuesInElems es)
  | [], s, _, _ => .inl (by rw [destroyElemsWithin, valuesInElems])
  | v :: es, s, p, i => by
    rw [destroyElemsWithin, valuesInElems, levelsElems]
    exact (destroyWithin_fits v s _).bind ((destroyElemsWithin_fits es s p (i + 1)).map _)
end

mutual
theorem destroyWithin_kept (kept : List Nat → Bool) : ∀ (v : Val) (s : Nat) (p : List Nat),
    ∃ n, n ≤ valuesIn v ∧ StackOk s (levels v) (destroyWithin kept s v p) n
  | v, 0, p => by
    have : destroyWithin kept 0 v p = none := by unfold destroyWithin; rfl
    rw [this]; exact ⟨0, Nat.zero_le _, .zero _ (levels_pos v)⟩
  | .obj fs, s + 1, p => by
    rw [destroyWithin, valuesIn, levels]
    split
    · exact ⟨1, by omega, .some _⟩
    · obtain ⟨n, hn, h⟩ := destroyFieldsWithin_kept kept fs s p 0
      exact ⟨n + 1, by omega, (h.map (· + 1)).up⟩
  | .arr es, s + 1, p => by
    rw [destroyWithin, valuesIn, levels]
    split
    · exact ⟨1, by omega, .some _⟩
    · obtain ⟨n, hn, h⟩ := destroyElemsWithin_kept kept es s p 0
      exact ⟨n + 1, by omega, (h.map (· + 1)).up⟩
  | .str _, _ + 1, _ => ⟨1, Nat.le_refl _, .inl rfl⟩
  | .int _, _ + 1, _ => ⟨1, Nat.le_refl _, .inl rfl⟩
  | .dec _, _ + 1, _ => ⟨1, Nat.le_refl _, .inl rfl⟩
  | .bool _, _ + 1, _ => ⟨1, Nat.le_refl _, .inl rfl⟩
  | .null, _ + 1, _ => ⟨1, Nat.le_refl _, .inl rfl⟩
theorem destroyFieldsWithin_kept (kept : List Nat → Bool) : ∀ (fs : List (Bytes × Val)) (s : Nat) (p : List Nat) (i : Nat),
    ∃ n, n ≤ valuesInFields fs ∧ StackOk s (levelsFields fs) (destroyFieldsWithin kept s fs p i) n
  | [], s, _, _ => ⟨0, Nat.zero_le _, .inl (by rw [destroyFieldsWithin])⟩
  | (k, v) :: fs, s, p, i => by
    rw [destroyFieldsWithin, valuesInFields, levelsFields]
    obtain ⟨n, hn, h⟩ := destroyWithin_kept kept v s (i :: p)
    obtain ⟨r, hr, h'⟩ := destroyFieldsWithin_kept kept fs s p (i + 1)
    exact ⟨1 + n + r, by omega, h.bind (h'.map _)⟩
theorem destroyElemsWithin_kept (kept : List Nat → Bool) : ∀ (es : List Val) (s : Nat) (p : List Nat) (i : Nat),
    ∃ n, n ≤ valuesInElems es ∧ StackOk s (levelsElems es) (destroyElemsWithin kept s es p i) n
  | [], s, _, _ => ⟨0, Nat.zero_le _, .inl (by rw [destroyElemsWithin])⟩
  | v :: es, s, p, i => by
    rw [destroyElemsWithin, valuesInElems, levelsElems]
    obtain ⟨n, hn, h⟩ := destroyWithin_kept kept v s (i :: p)
    obtain ⟨r, hr, h'⟩ := destroyElemsWithin_kept kept es s p (i + 1)
    exact ⟨n + r, by omega, h.bind (h'.map _)⟩
end

theorem StackOk.both {s l l' : Nat} {x y : Option Bool} {a b : Bool} (h : StackOk s l x a) (h' : StackOk s l' y b) :
    StackOk s (max l l') (match x with | none => none | .some false => .some false | .some true => y) (a && b) := by
  rcases h with rfl | ⟨rfl, hs⟩
  · cases a
    · exact .inl rfl
    · exact h'.weaken (by omega)
  · exact .inr ⟨rfl, by omega⟩

theorem eqWithin_arr (same : List Nat → Val → Val → Bool) (s : Nat) (es : List Val) (p : List Nat) (w : Val) :
    eqWithin same (s + 1) (.arr es) p w = if same p (.arr es) w then some true else (match w with
      | .arr gs => if es.length = gs.length then elemsEqWithin same s es p 0 gs else some false
      | _ => some false) := rfl

theorem eqWithin_obj (same : List Nat → Val → Val → Bool) (s : Nat) (fs : List (Bytes × Val)) (p : List Nat) (w : Val) :
    eqWithin same (s + 1) (.obj fs) p w = if same p (.obj fs) w then some true else (match w with
      | .obj gs => if fs.length = gs.length then fieldsEqWithin same s fs p 0 gs else some false
      | _ => some false) := rfl

theorem heapEq_arr_def (same : List Nat → Val → Val → Bool) (es : List Val) (p : List Nat) (w : Val) :
    heapEq same (.arr es) p w = (same p (.arr es) w ||
      match w with | .arr gs => es.length == gs.length && elemsEq same es p 0 gs | _ => false) := rfl

theorem heapEq_obj_def (same : List Nat → Val → Val → Bool) (fs : List (Bytes × Val)) (p : List Nat) (w : Val) :
    heapEq same (.obj fs) p w = (same p (.obj fs) w ||
      match w with | .obj gs => fs.length == gs.length && fieldsEq same fs p 0 gs | _ => false) := rfl

mutual
theorem eqWithin_fits (same : List Nat → Val → Val → Bool) : ∀ (v : Val) (s : Nat) (p : List Nat) (w : Val),
    StackOk s (min (levels v) (levels w)) (eqWithin same s v p w) (heapEq same v p w)
  | v, 0, p, w => by
    have : eqWithin same 0 v p w = none := by unfold eqWithin; rfl
    rw [this]
    have := levels_pos v
    have := levels_pos w
    exact .zero _ (by omega)
  | .arr es, s + 1, p, w => by
    rw [eqWithin_arr, heapEq_arr_def]
    cases hs : same p (.arr es) w with
    | true => exact .some _
    | false =>
      cases w with
      | arr gs =>
        by_cases hl : es.length = gs.length
        · simp only [hl, if_true, levels, Bool.false_or, beq_self_eq_true, Bool.true_and, Bool.false_eq_true, if_false]
          exact ((elemsEqWithin_fits same es s p 0 gs).up).weaken (Nat.le_min.2 ⟨Nat.add_le_add_left (Nat.min_le_left ..) 1, Nat.add_le_add_left (Nat.min_le_right ..) 1⟩)
        · refine .inl ?_
          simp [hl]
      | _ => exact .some _
  | .obj es, s + 1, p, w => by
    rw [eqWithin_obj, heapEq_obj_def]
    cases hs : same p (.obj es) w with
    | true => exact .some _
    | false =>
      cases w with
      | obj gs =>
        by_cases hl : es.length = gs.length
        · simp only [hl, if_true, levels, Bool.false_or, beq_self_eq_true, Bool.true_and, Bool.false_eq_true, if_false]
          exact ((fieldsEqWithin_fits same es s p 0 gs).up).weaken (Nat.le_min.2 ⟨Nat.add_le_add_left (Nat.min_le_left ..) 1, Nat.add_le_add_left (Nat.min_le_right ..) 1⟩)
        · refine .inl ?_
          simp [hl]
      | _ => exact .some _
  | .str _, _ + 1, _, _ => .inl rfl
  | .int _, _ + 1, _, _ => .inl rfl
  | .dec _, _ + 1, _, _ => .inl rfl
  | .bool _, _ + 1, _, _ => .inl rfl
  | .null, _ + 1, _, _ => .inl rfl
theorem elemsEqWithin_fits (same : List Nat → Val → Val → Bool) : ∀ (es : List Val) (s : Nat) (p : List Nat) (i : Nat)
    (gs : List Val), StackOk s (min (levelsElems es) (levelsElems gs)) (elemsEqWithin same s es p i gs) (elemsEq same es p i gs)
  | [], _, _, _, _ => .inl (by rw [elemsEqWithin, elemsEq])
  | _ :: _, _, _, _, [] => .inl (by rw [elemsEqWithin, elemsEq])
  | v :: es, s, p, i, w :: gs => by
    rw [elemsEqWithin, elemsEq, levelsElems, levelsElems]
    exact ((eqWithin_fits same v s (i :: p) w).both (elemsEqWithin_fits same es s p (i + 1) gs)).weaken (by omega)
theorem fieldsEqWithin_fits (same : List Nat → Val → Val → Bool) : ∀ (fs : List (Bytes × Val)) (s : Nat) (p : List Nat) (i : Nat)
    (gs : List (Bytes × Val)),
    StackOk s (min (levelsFields fs) (levelsFields gs)) (fieldsEqWithin same s fs p i gs) (fieldsEq same fs p i gs)
  | [], _, _, _, _ => .inl (by rw [fieldsEqWithin, fieldsEq])
  | _ :: _, 0, _, _, [] => .inl (by rw [fieldsEqWithin, fieldsEq])
  | _ :: _, _ + 1, _, _, [] => .inl (by rw [fieldsEqWithin, fieldsEq])
  | (k, v) :: fs, 0, p, i, (l, w) :: gs => by
    rw [fieldsEqWithin, levelsFields, levelsFields]
    have := levels_pos v
    have := levels_pos w
    exact .zero _ (by omega)
  | (k, v) :: fs, s + 1, p, i, (l, w) :: gs => by
    rw [fieldsEqWithin, fieldsEq, levelsFields, levelsFields]
    cases (same (2 * i :: p) (.str k) (.str l) || strEq k l) with
    | true =>
      simp only [if_true, Bool.true_and]
      exact ((eqWithin_fits same v (s + 1) _ w).both (fieldsEqWithin_fits same fs (s + 1) p (i + 1) gs)).weaken (by omega)
    | false => exact .some _
end

mutual
theorem eqWithin_needs : ∀ (v : Val) (s : Nat) (p : List Nat) (w : Val), eqWithin apart s v p w = some true → levels v ≤ s
  | v, 0, p, w, h => by
    have : eqWithin apart 0 v p w = none := by unfold eqWithin; rfl
    rw [this] at h; cases h
  | .arr es, s + 1, p, w, h => by
    rw [eqWithin_arr] at h
    rw [if_neg (by simp [apart])] at h
    cases w with
    | arr gs =>
      dsimp only at h
      split at h
      · rename_i hl
        have := elemsEqWithin_needs es s p 0 gs hl h
        rw [levels]; omega
      · cases h
    | _ => cases h
  | .obj es, s + 1, p, w, h => by
    rw [eqWithin_obj] at h
    rw [if_neg (by simp [apart])] at h
    cases w with
    | obj gs =>
      dsimp only at h
      split at h
      · rename_i hl
        have := fieldsEqWithin_needs es s p 0 gs hl h
        rw [levels]; omega
      · cases h
    | _ => cases h
  | .str _, _ + 1, _, _, _ => by simp [levels]
  | .int _, _ + 1, _, _, _ => by simp [levels]
  | .dec _, _ + 1, _, _, _ => by simp [levels]
  | .bool _, _ + 1, _, _, _ => by simp [levels]
  | .null, _ + 1, _, _, _ => by simp [levels]
theorem elemsEqWithin_needs : ∀ (es : List Val) (s : Nat) (p : List Nat) (i : Nat) (gs : List Val), es.length = gs.length →
    elemsEqWithin apart s es p i gs = some true → levelsElems es ≤ s
  | [], _, _, _, _, _, _ => Nat.zero_le _
  | v :: es, s, p, i, w :: gs, hl, h => by
    rw [elemsEqWithin] at h
    rw [levelsElems]
    cases he : eqWithin apart s v (i :: p) w with
    | none => rw [he] at h; cases h
    | some b =>
      rw [he] at h
      cases b
      · cases h
      · have h1 := eqWithin_needs v s _ w he
        have h2 := elemsEqWithin_needs es s p (i + 1) gs (by simpa using hl) h
        omega
theorem fieldsEqWithin_needs : ∀ (fs : List (Bytes × Val)) (s : Nat) (p : List Nat) (i : Nat) (gs : List (Bytes × Val)),
    fs.length = gs.length → fieldsEqWithin apart s fs p i gs = some true → levelsFields fs ≤ s
  | [], _, _, _, _, _, _ => Nat.zero_le _
  | _ :: _, 0, _, _, _ :: _, _, h => by rw [fieldsEqWithin] at h; cases h
  | (k, v) :: fs, s + 1, p, i, (l, w) :: gs, hl, h => by
    rw [fieldsEqWithin] at h
    rw [levelsFields]
    split at h
    · cases he : eqWithin apart (s + 1) v ((2 * i + 1) :: p) w with
      | none => rw [he] at h; cases h
      | some b =>
        rw [he] at h
        cases b
        · cases h
        · have h1 := eqWithin_needs v (s + 1) _ w he
          have h2 := fieldsEqWithin_needs fs (s + 1) p (i + 1) gs (by simpa using hl) h
          omega
    · cases h
end

theorem StackOk.enough {α : Type} {s l : Nat} {x : Option α} {r : α} (h : StackOk s l x r) (hl : l ≤ s) : x = .some r := by
  rcases h with h | ⟨_, h⟩
  · exact h
  · omega

theorem StackOk.or {α : Type} {s l : Nat} {x : Option α} {r : α} (h : StackOk s l x r) : x = none ∨ x = .some r := by
  rcases h with h | ⟨h, _⟩
  · exact .inr h
  · exact .inl h

mutual
theorem serializeWithin_needs : ∀ (v : Val) (s : Nat) (l : List Event), serializeWithin s v = some l → levels v ≤ s
  | v, 0, l, h => by
    have : serializeWithin 0 v = none := by unfold serializeWithin; rfl
    rw [this] at h; cases h
  | .obj fs, s + 1, l, h => by
    rw [serializeWithin, Option.map_eq_some_iff] at h
    obtain ⟨a, ha, _⟩ := h
    have := serializeFieldsWithin_needs fs s a ha
    rw [levels]; omega
  | .arr es, s + 1, l, h => by
    rw [serializeWithin, Option.map_eq_some_iff] at h
    obtain ⟨a, ha, _⟩ := h
    have := serializeElemsWithin_needs es s a ha
    rw [levels]; omega
  | .str _, _ + 1, _, _ => by simp [levels]
  | .int _, _ + 1, _, _ => by simp [levels]
  | .dec _, _ + 1, _, _ => by simp [levels]
  | .bool _, _ + 1, _, _ => by simp [levels]
  | .null, _ + 1, _, _ => by simp [levels]
theorem serializeFieldsWithin_needs : ∀ (fs : List (Bytes × Val)) (s : Nat) (l : List Event),
    serializeFieldsWithin s fs = some l → levelsFields fs ≤ s
  | [], _, _, _ => Nat.zero_le _
  | (k, v) :: fs, s, l, h => by
    rw [serializeFieldsWithin, Option.bind_eq_some_iff] at h
    obtain ⟨a, ha, h⟩ := h
    rw [Option.map_eq_some_iff] at h
    obtain ⟨b, hb, _⟩ := h
    have h1 := serializeWithin_needs v s a ha
    have h2 := serializeFieldsWithin_needs fs s b hb
    rw [levelsFields]; omega
theorem serializeElemsWithin_needs : ∀ (es : List Val) (s : Nat) (l : List Event),
    serializeElemsWithin s es = some l → levelsElems es ≤ s
  | [], _, _, _ => Nat.zero_le _
  | v :: es, s, l, h => by
    rw [serializeElemsWithin, Option.bind_eq_some_iff] at h
    obtain ⟨a, ha, h⟩ := h
    rw [Option.map_eq_some_iff] at h
    obtain ⟨b, hb, _⟩ := h
    have h1 := serializeWithin_needs v s a ha
    have h2 := serializeElemsWithin_needs es s b hb
    rw [levelsElems]; omega
end

mutual
theorem destroyWithin_needs : ∀ (v : Val) (s : Nat) (p : List Nat) (n : Nat), destroyWithin soleOwner s v p = some n → levels v ≤ s
  | v, 0, p, n, h => by
    have : destroyWithin soleOwner 0 v p = none := by unfold destroyWithin; rfl
    rw [this] at h; cases h
  | .obj fs, s + 1, p, l, h => by
    rw [destroyWithin, if_neg (by simp [soleOwner]), Option.map_eq_some_iff] at h
    obtain ⟨a, ha, _⟩ := h
    have := destroyFieldsWithin_needs fs s p 0 a ha
    rw [levels]; omega
  | .arr es, s + 1, p, l, h => by
    rw [destroyWithin, if_neg (by simp [soleOwner]), Option.map_eq_some_iff] at h
    obtain ⟨a, ha, _⟩ := h
    have := destroyElemsWithin_needs es s p 0 a ha
    rw [levels]; omega
  | .str _, _ + 1, _, _, _ => by simp [levels]
  | .int _, _ + 1, _, _, _ => by simp [levels]
  | .dec _, _ + 1, _, _, _ => by simp [levels]
  | .bool _, _ + 1, _, _, _ => by simp [levels]
  | .null, _ + 1, _, _, _ => by simp [levels]
theorem destroyFieldsWithin_needs : ∀ (fs : List (Bytes × Val)) (s : Nat) (p : List Nat) (i n : Nat),
    destroyFieldsWithin soleOwner s fs p i = some n → levelsFields fs ≤ s
  | [], _, _, _, _, _ => Nat.zero_le _
  | (k, v) :: fs, s, p, i, n, h => by
    rw [destroyFieldsWithin, Option.bind_eq_some_iff] at h
    obtain ⟨a, ha, h⟩ := h
    rw [Option.map_eq_some_iff] at h
    obtain ⟨b, hb, _⟩ := h
    have h1 := destroyWithin_needs v s _ a ha
    have h2 := destroyFieldsWithin_needs fs s p _ b hb
    rw [levelsFields]; omega
theorem destroyElemsWithin_needs : ∀ (es : List Val) (s : Nat) (p : List Nat) (i n : Nat),
    destroyElemsWithin soleOwner s es p i = some n → levelsElems es ≤ s
  | [], _, _, _, _, _ => Nat.zero_le _
  | v :: es, s, p, i, n, h => by
    rw [destroyElemsWithin, Option.bind_eq_some_iff] at h
    obtain ⟨a, ha, h⟩ := h
    rw [Option.map_eq_some_iff] at h
    obtain ⟨b, hb, _⟩ := h
    have h1 := destroyWithin_needs v s _ a ha
    have h2 := destroyElemsWithin_needs es s p _ b hb
    rw [levelsElems]; omega
end

theorem unlessFailed_some {α β : Type} {x : Option (Option α)} {f : α → Option (Option β)} {b : β}
    (h : unlessFailed x f = some (some b)) : ∃ a, x = some (some a) ∧ f a = some (some b) := by
  cases x with
  | none => cases h
  | some o =>
    cases o with
    | none => cases h
    | some a => exact ⟨a, rfl, h⟩

mutual
theorem upperBoundWithin_needs : ∀ (v : Val) (s n : Nat), upperBoundWithin s v = some (some n) → levels v ≤ s
  | v, 0, n, h => by
    have : upperBoundWithin 0 v = none := by unfold upperBoundWithin; rfl
    rw [this] at h; cases h
  | .obj fs, s + 1, n, h => by
    rw [upperBoundWithin] at h
    obtain ⟨a, ha, _⟩ := unlessFailed_some h
    have := fieldsUBWithin_needs fs s a ha
    rw [levels]; omega
  | .arr es, s + 1, n, h => by
    rw [upperBoundWithin] at h
    obtain ⟨a, ha, _⟩ := unlessFailed_some h
    have := elemsUBWithin_needs es s a ha
    rw [levels]; omega
  | .str _, _ + 1, _, _ => by simp [levels]
  | .int _, _ + 1, _, _ => by simp [levels]
  | .dec _, _ + 1, _, _ => by simp [levels]
  | .bool _, _ + 1, _, _ => by simp [levels]
  | .null, _ + 1, _, _ => by simp [levels]
theorem fieldsUBWithin_needs : ∀ (fs : List (Bytes × Val)) (s n : Nat), fieldsUBWithin s fs = some (some n) → levelsFields fs ≤ s
  | [], _, _, _ => Nat.zero_le _
  | (k, v) :: fs, s, n, h => by
    rw [fieldsUBWithin] at h
    obtain ⟨a, ha, h⟩ := unlessFailed_some h
    obtain ⟨b, hb, _⟩ := unlessFailed_some h
    have h1 := upperBoundWithin_needs v s a ha
    have h2 := fieldsUBWithin_needs fs s b hb
    rw [levelsFields]; omega
theorem elemsUBWithin_needs : ∀ (es : List Val) (s n : Nat), elemsUBWithin s es = some (some n) → levelsElems es ≤ s
  | [], _, _, _ => Nat.zero_le _
  | v :: es, s, n, h => by
    rw [elemsUBWithin] at h
    obtain ⟨a, ha, h⟩ := unlessFailed_some h
    obtain ⟨b, hb, _⟩ := unlessFailed_some h
    have h1 := upperBoundWithin_needs v s a ha
    have h2 := elemsUBWithin_needs es s b hb
    rw [levelsElems]; omega
end

theorem finalizeWithin_needs {v : Val} {s : Nat} {m : Bytes} (h : finalizeWithin s v = some (.ok m)) : levels v ≤ s := by
  unfold finalizeWithin at h
  cases v with
  | obj fs =>
    cases hu : upperBoundWithin s (.obj fs) with
    | none => simp [hu] at h
    | some o =>
      cases o with
      | none => simp [hu] at h
      | some n => exact upperBoundWithin_needs _ _ _ hu
  | _ => cases h

/-! Building deep values. -/

theorem runPackets_append (signed : Bool) : ∀ (a b : List POp) (ps : List Pkt), runPackets signed ps (a ++ b) =
    (runPackets signed ps a).bind fun r => (runPackets signed r.1 b).map fun r' => (r'.1, r.2 ++ r'.2)
  | [], b, ps => by cases h : runPackets signed ps b <;> simp [runPackets, h]
  | op :: a, b, ps => by
    simp only [List.cons_append, runPackets]
    cases op.run signed ps with
    | none => rfl
    | some r =>
      obtain ⟨ps', e⟩ := r
      simp only [runPackets_append signed a b ps']
      cases runPackets signed ps' a with
      | none => rfl
      | some r =>
        simp only [Option.bind_some]
        cases runPackets signed r.1 b <;> rfl

/-- The variables after `climb n`. -/
def climbed (n : Nat) : List Pkt := (List.range (n + 1)).map fun i => Pkt.heap (nest i)

theorem climb_run (signed : Bool) (n : Nat) : runPackets signed [] (climb n) = some (climbed n, List.replicate (2 * n + 1) none) := by
  induction n with
  | zero => rfl
  | succ n ih =>
    have hv : pktVar (climbed n ++ [Pkt.heap (.arr [])]) (n + 1) = .heap (.arr []) := by
      simp [pktVar, climbed]
    have hw : pktVar (climbed n ++ [Pkt.heap (.arr [])]) n = .heap (nest n) := by
      simp [pktVar, climbed, List.getElem?_append]
    have hs : (climbed n ++ [Pkt.heap (.arr [])]).set (n + 1) (.heap (nest (n + 1))) = climbed (n + 1) := by
      simp [climbed, List.range_succ, nest]
    have hm : ((PMut.pushBack (PArg.var n)).map (PArg.pkt (climbed n ++ [Pkt.heap (.arr [])]))).run (.heap (.arr [])) =
        .ok (.heap (nest (n + 1))) := by
      show PMut.run (.heap (.arr [])) (.pushBack (pktVar (climbed n ++ [Pkt.heap (.arr [])]) n)) = _
      rw [hw]
      rfl
    have h2 : runPackets signed (climbed n) [emptyArray, .mutate (n + 1) (.pushBack (.var n))] =
        some (climbed (n + 1), [none, none]) := by
      simp only [runPackets, emptyArray, POp.run, PArg.pkt, hv]
      rw [show PMut.run (.heap (.arr [])) (PMut.map (PArg.pkt (climbed n ++ [Pkt.heap (.arr [])])) (.pushBack (.var n))) = _
        from hm]
      simp only [storeAt, hs]
    rw [climb, runPackets_append, ih]
    simp only [Option.bind_some, h2, Option.map_some]
    rw [show 2 * (n + 1) + 1 = (2 * n + 1) + 2 by omega, ← List.replicate_append_replicate (n := 2 * n + 1) (m := 2)]
    rfl

theorem climbUp_run (signed : Bool) (n : Nat) :
    runPackets signed [] (climbUp n) = some (climbed n ++ [.heap (nested n)], List.replicate (2 * n + 3) none) := by
  have hv : pktVar (climbed n ++ [Pkt.heap (.obj [])]) (n + 1) = .heap (.obj []) := by
    simp [pktVar, climbed]
  have hw : pktVar (climbed n ++ [Pkt.heap (.obj [])]) n = .heap (nest n) := by
    simp [pktVar, climbed, List.getElem?_append]
  have hs : (climbed n ++ [Pkt.heap (.obj [])]).set (n + 1) (.heap (nested n)) = climbed n ++ [.heap (nested n)] := by
    simp [climbed, List.set_append]
  have hm : PMut.run (.heap (.obj [])) ((PMut.insert (PArg.const (.str [])) (PArg.var n)).map
      (PArg.pkt (climbed n ++ [Pkt.heap (.obj [])]))) = .ok (.heap (nested n)) := by
    show PMut.run (.heap (.obj [])) (.insert (.heap (.str [])) (pktVar (climbed n ++ [Pkt.heap (.obj [])]) n)) = _
    rw [hw]
    rfl
  have h2 : runPackets signed (climbed n) [.create (.const (.obj [])), .mutate (n + 1) (.insert (.const (.str [])) (.var n))] =
      some (climbed n ++ [.heap (nested n)], [none, none]) := by
    simp only [runPackets, POp.run, PArg.pkt, hv]
    rw [show PMut.run (.heap (.obj [])) (PMut.map (PArg.pkt (climbed n ++ [Pkt.heap (.obj [])])) (.insert (.const (.str []))
      (.var n))) = _ from hm]
    simp only [storeAt, hs]
  rw [climbUp, runPackets_append, climb_run]
  simp only [Option.bind_some, h2, Option.map_some]
  rw [show 2 * n + 3 = (2 * n + 1) + 2 by omega, ← List.replicate_append_replicate (n := 2 * n + 1) (m := 2)]
  rfl

theorem nested_noNaN (n : Nat) : NoNaN (nested n) := by
  have h : NoNaN (nest n) := by
    induction n with
    | zero => exact .arr (by simp)
    | succ n ih => exact .arr fun e he => by rw [List.mem_singleton.1 he]; exact ih
  exact .obj (by simp) fun f hf => by rw [List.mem_singleton.1 hf]; exact h

theorem climb_length (n : Nat) : (climb n).length = 2 * n + 1 := by
  induction n with
  | zero => rfl
  | succ n ih => rw [climb, List.length_append, ih]; simp; omega

theorem climb_shallow (n : Nat) : ∀ op ∈ climb n, op = emptyArray ∨ ∃ i, op = .mutate (i + 1) (.pushBack (.var i)) := by
  induction n with
  | zero => simp [climb]
  | succ n ih =>
    intro op hop
    rw [climb, List.mem_append] at hop
    rcases hop with h | h
    · exact ih op h
    · simp only [List.mem_cons, List.not_mem_nil, or_false] at h
      rcases h with h | h
      · exact .inl h
      · exact .inr ⟨n, h⟩

/-! Writing finalized values. -/

theorem collect_ub {α : Type} {f : Nat → Res α} : ∀ (n : Nat), (∀ i, i < n → f i = .ub ∨ ∃ x, f i = .ok x) →
    (∃ i, i < n ∧ f i = .ub) → Res.collect f n = .ub
  | 0, _, ⟨_, h, _⟩ => absurd h (Nat.not_lt_zero _)
  | n + 1, h, ⟨i, hi, hu⟩ => by
    have hall : Res.collect f n = .ub ∨ ∃ l, Res.collect f n = .ok l := by
      by_cases hex : ∃ i, i < n ∧ f i = .ub
      · exact .inl (collect_ub n (fun i hi => h i (by omega)) hex)
      · refine .inr (collect_total n fun i hi => ?_)
        exact (h i (by omega)).resolve_left fun hu => hex ⟨i, hi, hu⟩
    rw [Res.collect]
    rcases hall with hc | ⟨l, hc⟩
    · rw [hc]; rfl
    · rw [hc]
      have : f n = .ub := by
        by_cases he : i = n
        · exact he ▸ hu
        · have := collect_ub n (fun i hi => h i (by omega)) ⟨i, by omega, hu⟩
          rw [hc] at this; cases this
      simp only [Res.bind, this]
where
  collect_total {α : Type} {f : Nat → Res α} : ∀ (n : Nat), (∀ i, i < n → ∃ x, f i = .ok x) → ∃ l, Res.collect f n = .ok l
    | 0, _ => ⟨[], rfl⟩
    | n + 1, h => by
      obtain ⟨l, hl⟩ := collect_total n fun i hi => h i (by omega)
      obtain ⟨x, hx⟩ := h n (by omega)
      exact ⟨l ++ [x], by rw [Res.collect, hl, hx]; rfl⟩

theorem levels_elem_le {es : List Val} {v : Val} (h : v ∈ es) : levels v ≤ levelsElems es := by
  induction es with
  | nil => cases h
  | cons w es ih =>
    rw [levelsElems]
    rcases List.mem_cons.1 h with rfl | h
    · omega
    · have := ih h; omega

theorem levels_field_le {fs : List (Bytes × Val)} {f : Bytes × Val} (h : f ∈ fs) : levels f.2 ≤ levelsFields fs := by
  induction fs with
  | nil => cases h
  | cons w es ih =>
    obtain ⟨k, w⟩ := w
    rw [levelsFields]
    rcases List.mem_cons.1 h with rfl | h
    · show levels w ≤ _; omega
    · have := ih h; omega

theorem levelsElems_deepest {es : List Val} {n : Nat} (h : n < levelsElems es) : ∃ i, ∃ hi : i < es.length, n < levels es[i] := by
  induction es with
  | nil => cases h
  | cons w es ih =>
    rw [levelsElems] at h
    by_cases hw : n < levels w
    · exact ⟨0, by simp, hw⟩
    · obtain ⟨i, hi, hd⟩ := ih (by omega)
      exact ⟨i + 1, by simpa using hi, by simpa using hd⟩

theorem levelsFields_deepest {fs : List (Bytes × Val)} {n : Nat} (h : n < levelsFields fs) :
    ∃ i, ∃ hi : i < fs.length, n < levels fs[i].2 := by
  induction fs with
  | nil => cases h
  | cons w es ih =>
    obtain ⟨k, w⟩ := w
    rw [levelsFields] at h
    by_cases hw : n < levels w
    · exact ⟨0, by simp, hw⟩
    · obtain ⟨i, hi, hd⟩ := ih (by omega)
      exact ⟨i + 1, by simpa using hi, by simpa using hd⟩

theorem Shows.serialize_levels {z : Bool} : ∀ (v : Val) (fuel : Nat) (b : Buf), Shows z b v →
    b.serialize fuel = if levels v ≤ fuel then .ok v.serialize else .ub := by
  have zero : ∀ (v : Val) (b : Buf), b.serialize 0 = if levels v ≤ 0 then .ok v.serialize else .ub := fun v b => by
    have := levels_pos v
    rw [if_neg (by omega)]; rfl
  apply Val.ind
  · intro fuel b h
    cases fuel with
    | zero => exact zero _ b
    | succ fuel => simp only [Buf.serialize, h.getType, Val.ty, Val.serialize, levels]; simp
  · intro x fuel b h
    cases fuel with
    | zero => exact zero _ b
    | succ fuel =>
      simp only [Buf.serialize, h.getType, Val.ty, h.boolean (by simp) (by simp), Val.boolean, Res.bind, Val.serialize, levels]; simp
  · intro x fuel b h
    cases fuel with
    | zero => exact zero _ b
    | succ fuel => simp only [Buf.serialize, h.getType, Val.ty, h.integer, Val.integer, Res.bind, Val.serialize, levels]; simp
  · intro x fuel b h
    cases fuel with
    | zero => exact zero _ b
    | succ fuel => simp only [Buf.serialize, h.getType, Val.ty, h.decimal, Val.decimal, Res.bind, Val.serialize, levels]; simp
  · intro x fuel b h
    cases fuel with
    | zero => exact zero _ b
    | succ fuel => simp only [Buf.serialize, h.getType, Val.ty, h.strv', Val.strv, Res.bind, Val.serialize, levels]; simp
  · intro es ih fuel b h
    cases fuel with
    | zero => exact zero _ b
    | succ fuel =>
    have hkid : ∀ i, (hi : i < es.length) → (b.valueAt i).bind (fun v => Buf.serialize fuel v) =
        if levels es[i] ≤ fuel then .ok es[i].serialize else .ub := by
      intro i hi
      obtain ⟨b', h1, h2⟩ := h.getIdx i
      have : b.valueAt i = .ok b' := by
        obtain ⟨p, ht, _⟩ := h.arr
        unfold Buf.valueAt; rw [ht]; exact h1
      rw [this]
      simp only [List.getElem?_eq_getElem hi, Option.getD_some] at h2
      exact ih _ (List.getElem_mem hi) fuel b' h2
    simp only [Buf.serialize, h.getType, Val.ty, h.size_arr, Res.bind_ok]
    by_cases hl : levels (.arr es) ≤ fuel + 1
    · rw [if_pos hl]
      rw [levels] at hl
      rw [collect_map (g := fun i => (es[i]?.getD .null).serialize) es.length ?_]
      · simp only [Val.serialize, range_map_getD es .null Val.serialize, serializeElems_eq, Res.bind_ok]
      · intro i hi
        rw [hkid i hi, if_pos (by have := levels_elem_le (List.getElem_mem hi); omega)]
        simp [List.getElem?_eq_getElem hi]
    · rw [if_neg hl]
      rw [levels] at hl
      rw [collect_ub]
      · rfl
      · intro i hi
        rw [hkid i hi]
        split
        · exact .inr ⟨_, rfl⟩
        · exact .inl rfl
      · obtain ⟨i, hi, hd⟩ := levelsElems_deepest (es := es) (n := fuel) (by omega)
        exact ⟨i, hi, by rw [hkid i hi, if_neg (by omega)]⟩
  · intro fs ih fuel b h
    cases fuel with
    | zero => exact zero _ b
    | succ fuel =>
    have hkid : ∀ i, (hi : i < fs.length) → ((b.keyAt i).bind fun k => k.strv.bind fun s => (b.valueAt i).bind fun v =>
          (Buf.serialize fuel v).bind fun l => .ok (Event.key (cut32 s) :: l)) =
        if levels fs[i].2 ≤ fuel then .ok (Event.key (cut32 fs[i].1) :: fs[i].2.serialize) else .ub := by
      intro i hi
      obtain ⟨kb, h1, h2⟩ := h.keyAt_obj i hi
      obtain ⟨vb, h3, h4⟩ := h.valueAt_obj i hi
      simp only [h1, h3, h2.strv, Res.bind_ok, ih _ (List.getElem_mem hi) fuel vb h4]
      split <;> rfl
    simp only [Buf.serialize, h.getType, Val.ty, h.size_obj, Res.bind_ok]
    by_cases hl : levels (.obj fs) ≤ fuel + 1
    · rw [if_pos hl]
      rw [levels] at hl
      rw [collect_map (g := fun i => Event.key (cut32 (fs[i]?.getD ([], .null)).1) :: (fs[i]?.getD ([], .null)).2.serialize)
        fs.length ?_]
      · simp only [Val.serialize, range_map_getD fs ([], .null) (fun f => Event.key (cut32 f.1) :: f.2.serialize),
          serializeFields_eq, Res.bind_ok]
      · intro i hi
        rw [hkid i hi, if_pos (by have := levels_field_le (List.getElem_mem hi); omega)]
        simp [List.getElem?_eq_getElem hi]
    · rw [if_neg hl]
      rw [levels] at hl
      rw [collect_ub]
      · rfl
      · intro i hi
        rw [hkid i hi]
        split
        · exact .inr ⟨_, rfl⟩
        · exact .inl rfl
      · obtain ⟨i, hi, hd⟩ := levelsFields_deepest (fs := fs) (n := fuel) (by omega)
        exact ⟨i, hi, by rw [hkid i hi, if_neg (by omega)]⟩

end Dart
