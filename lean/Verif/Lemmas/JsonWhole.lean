import Verif.Lemmas.JsonOut
import Verif.Lemmas.JsonUnique
import Verif.Lemmas.Json

/-
The text of a value has no NUL in it; what it is a text of.
-/
namespace Dart.JOut
open Spec

theorem num_noNul {t : Bytes} (h : ∀ c ∈ t, isNum c = true) : 0 ∉ t := fun h0 => by
  have := h 0 h0
  cases this

theorem hexText_noNul : ∀ n, n < 16 → hexText n ≠ 0 := by decide

theorem escape_noNul (c : UInt8) : 0 ∉ escape c := by
  have hc := c.toNat_lt
  unfold escape
  split
  · rename_i h; rcases h with rfl | rfl <;> decide
  iterate 5
    split
    · decide
  split
  · simp only [List.mem_cons, List.not_mem_nil, or_false, not_or]
    exact ⟨by decide, by decide, by decide, by decide, (hexText_noNul _ (by omega)).symm, (hexText_noNul _ (by omega)).symm⟩
  · rename_i h
    intro h0
    rw [← List.mem_singleton.1 h0] at h
    exact h (by decide)

theorem quote_noNul (s : Bytes) : 0 ∉ quote s := by
  unfold quote
  simp only [List.mem_cons, List.mem_append, List.not_mem_nil, or_false, not_or, List.mem_flatMap, not_exists, not_and]
  exact ⟨by decide, fun c _ => escape_noNul c, by decide⟩

section
variable {dbl : BitVec 64 → Bytes} {nan : Bool} (hd : PrintsNumbers dbl)
include hd

theorem double_noNul (d : BitVec 64) : 0 ∉ doubleText dbl nan d := by
  unfold doubleText
  split
  · cases nan <;> decide
  · rename_i neg _
    cases nan <;> cases neg <;> decide
  · rename_i n e
    obtain ⟨i, f, e, n, h1, h2, h3, h4, h5⟩ := hd d ⟨_, e⟩
    rw [h5]
    exact num_noNul (NumberText.dbl 0 h1 h2 h3 h4 rfl).all

mutual
theorem textOf_noNul : ∀ v : Val, 0 ∉ textOf dbl nan v
  | .obj fs => by
    rw [textOf]
    simp only [List.mem_cons, List.mem_append, List.not_mem_nil, or_false, not_or]
    exact ⟨by decide, fields_noNul true fs, by decide⟩
  | .arr es => by
    rw [textOf]
    simp only [List.mem_cons, List.mem_append, List.not_mem_nil, or_false, not_or]
    exact ⟨by decide, elems_noNul true es, by decide⟩
  | .str s => by rw [textOf]; exact quote_noNul _
  | .int i => by rw [textOf]; exact num_noNul (int_num (intText_is _))
  | .dec d => by rw [textOf]; exact double_noNul hd d
  | .bool b => by rw [textOf]; cases b <;> decide
  | .null => by rw [textOf]; decide
theorem fields_noNul : ∀ (first : Bool) (fs : List (Bytes × Val)), 0 ∉ fieldsFrom dbl nan first fs
  | _, [] => by rw [fieldsFrom]; simp
  | first, (k, v) :: fs => by
    rw [fieldsFrom]
    simp only [List.mem_cons, List.mem_append, not_or]
    exact ⟨by cases first <;> decide, quote_noNul _, by decide, textOf_noNul v, fields_noNul false fs⟩
theorem elems_noNul : ∀ (first : Bool) (es : List Val), 0 ∉ elemsFrom dbl nan first es
  | _, [] => by rw [elemsFrom]; simp
  | first, v :: es => by
    rw [elemsFrom]
    simp only [List.mem_append, not_or]
    exact ⟨by cases first <;> decide, textOf_noNul v, elems_noNul false es⟩
end
end

theorem asString_all : ∀ {t : Bytes}, 0 ∉ t → asString t = t
  | [], _ => rfl
  | c :: t, h => by
    simp only [List.mem_cons, not_or] at h
    have := asString_all h.2
    unfold asString at this ⊢
    rw [List.takeWhile_cons_of_pos (by simpa using fun e => h.1 e.symm), this]

theorem asString_noNul (t : Bytes) : 0 ∉ asString t := fun h => by
  have := List.all_takeWhile (p := (· ≠ (0 : UInt8))) (l := t)
  rw [List.all_eq_true] at this
  have := this 0 h
  simp at this

theorem heapToJson_text {dbl : BitVec 64 → Bytes} {nan : Bool} (hd : PrintsNumbers dbl) (v : Val) :
    heapToJson dbl nan v = textOf dbl nan v := by
  unfold heapToJson
  rw [written, asString_all (textOf_noNul hd v)]

theorem isText_of_value {x : Extensions} {t : Bytes} {j : Json} (h : ValueText x t j) : IsText x t j :=
  ⟨[], t, [], .nil, h, ⟨[], [], [], .nil, rfl, .inl rfl, .inl rfl⟩, by simp⟩

/-! ### Without NaN the flag does not matter -/

section
variable {dbl : BitVec 64 → Bytes}

mutual
theorem finite_flag : ∀ (v : Val), AllFinite v → textOf dbl true v = textOf dbl false v
  | .obj fs, h => by
    rw [textOf, textOf, finite_flag_fields true fs (by cases h with | obj _ h => exact h)]
  | .arr es, h => by
    rw [textOf, textOf, finite_flag_elems true es (by cases h with | arr h => exact h)]
  | .str _, _ => by rw [textOf, textOf]
  | .int _, _ => by rw [textOf, textOf]
  | .dec d, h => by
    rw [textOf, textOf]
    cases h with
    | dec h => obtain ⟨n, h⟩ := h; unfold doubleText; rw [h]
  | .bool _, _ => by rw [textOf, textOf]
  | .null, _ => by rw [textOf, textOf]
theorem finite_flag_fields : ∀ (b : Bool) (fs : List (Bytes × Val)), (∀ f ∈ fs, AllFinite f.2) → fieldsFrom dbl true b fs = fieldsFrom dbl false b fs
  | _, [], _ => by rw [fieldsFrom, fieldsFrom]
  | b, (k, v) :: fs, h => by
    rw [fieldsFrom, fieldsFrom, finite_flag v (h (k, v) (by simp)), finite_flag_fields false fs fun f hf => h f (List.mem_cons_of_mem _ hf)]
theorem finite_flag_elems : ∀ (b : Bool) (es : List Val), (∀ e ∈ es, AllFinite e) → elemsFrom dbl true b es = elemsFrom dbl false b es
  | _, [], _ => by rw [elemsFrom, elemsFrom]
  | b, v :: es, h => by
    rw [elemsFrom, elemsFrom, finite_flag v (h v (by simp)), finite_flag_elems false es fun f hf => h f (List.mem_cons_of_mem _ hf)]
end
end

/-! ### The document of a value -/

mutual
theorem asJson_within : ∀ (v : Val), v.WF → ArraysFit v → Within (asJson v)
  | .null, _, _ => trivial
  | .bool b, _, _ => trivial
  | .int i, _, _ => ⟨BitVec.le_toInt i, by have := BitVec.toInt_lt (x := i); omega⟩
  | .dec _, _, _ => trivial
  | .str _, _, _ => trivial
  | .arr es, h, ha => by
    unfold Val.WF at h
    unfold ArraysFit at ha
    rw [asJson]
    unfold Within
    exact ⟨by rw [asElems_len]; exact ha.1, asElems_within es h ha.2⟩
  | .obj fs, h, ha => by
    unfold Val.WF at h
    unfold ArraysFit at ha
    rw [asJson]
    unfold Within
    exact asFields_within fs h.2 ha
theorem asElems_len : ∀ (es : List Val), (asElems es).length = es.length
  | [] => rfl
  | _ :: es => by simp [asElems, asElems_len es]
theorem asElems_within : ∀ (es : List Val), WFElems es → ArraysFitElems es → WithinElems (asElems es)
  | [], _, _ => trivial
  | v :: es, h, ha => by
    unfold WFElems at h; unfold ArraysFitElems at ha
    rw [asElems]; exact ⟨asJson_within v h.1 ha.1, asElems_within es h.2 ha.2⟩
theorem asFields_within : ∀ (fs : List (Bytes × Val)), WFFields fs → ArraysFitFields fs → WithinFields (asFields fs)
  | [], _, _ => trivial
  | (k, v) :: fs, h, ha => by
    unfold WFFields at h; unfold ArraysFitFields at ha
    rw [asFields]; exact ⟨by omega, asJson_within v h.2.1 ha.1, asFields_within fs h.2.2 ha.2⟩
end

theorem asFields_names : ∀ fs : List (Bytes × Val), (asFields fs).map (·.1) = fs.map (·.1)
  | [] => rfl
  | (k, v) :: fs => by simp [asFields, asFields_names fs]

mutual
theorem asJson_distinct : ∀ (v : Val), v.WF → DistinctNames (asJson v)
  | .null, _ => trivial
  | .bool b, _ => trivial
  | .int i, _ => trivial
  | .dec _, _ => trivial
  | .str _, _ => trivial
  | .arr es, h => by
    unfold Val.WF at h
    rw [asJson]
    unfold DistinctNames
    exact asElems_distinct es h
  | .obj fs, h => by
    unfold Val.WF at h
    rw [asJson]
    unfold DistinctNames
    refine ⟨?_, asFields_distinct fs h.2⟩
    rw [asFields_names, List.Nodup, List.pairwise_map]
    refine List.Pairwise.imp (fun hlt he => ?_) h.1
    rw [he] at hlt
    rcases hlt with h | ⟨_, i, _, _, h, _⟩
    · exact Nat.lt_irrefl _ h
    · exact Nat.lt_irrefl _ h
theorem asElems_distinct : ∀ (es : List Val), WFElems es → DistinctElems (asElems es)
  | [], _ => trivial
  | v :: es, h => by
    unfold WFElems at h
    rw [asElems]; exact ⟨asJson_distinct v h.1, asElems_distinct es h.2⟩
theorem asFields_distinct : ∀ (fs : List (Bytes × Val)), WFFields fs → DistinctFields (asFields fs)
  | [], _ => trivial
  | (k, v) :: fs, h => by
    unfold WFFields at h
    rw [asFields]; exact ⟨asJson_distinct v h.2.1, asFields_distinct fs h.2.2⟩
end

/-! ### Nothing where a number should be -/

/-- An object that breaks off behind a name is no JSON. -/
theorem broken_object {q k : Bytes} (hq : StringText q k) (j : Json) : ¬ IsText .default (0x7b :: (q ++ [0x3a, 0x7d])) j := by
  rintro ⟨w, u, r, hw, hu, _, e⟩
  have e1 : ([] : Bytes) ++ (0x7b :: (q ++ [0x3a, 0x7d])) = w ++ (u ++ r) := e
  obtain ⟨_, e2⟩ := blank_unique .nil hw (StopsAt.cons rfl) (value_stops hu) e1
  obtain ⟨c, s, hc, hl⟩ := value_lead hu
  have hk : kindOf j = 6 := by
    rw [hc] at e2
    simp only [List.cons_append, List.cons.injEq] at e2
    rw [← hl, ← e2.1]; rfl
  obtain ⟨d, _, hq'⟩ := id hq
  cases hu with
  | obj0 h1 =>
    simp only [List.cons_append, List.append_assoc, List.nil_append, List.cons.injEq, true_and] at e2
    rw [hq'] at e2
    have e3 : ([] : Bytes) ++ (0x22 :: (d ++ [0x22] ++ [0x3a, 0x7d])) = _ ++ 0x7d :: r := e2
    obtain ⟨_, e4⟩ := blank_unique .nil h1 (StopsAt.cons rfl) (StopsAt.cons rfl) e3
    simp at e4
  | obj h1 =>
    obtain ⟨w₁, q', w₂, w₃, u, w₄, rest, k', j', fs', a1, a2, a3, a4, a5, a6, _, rfl, _⟩ := members_inv h1
    simp only [List.cons_append, List.append_assoc, List.nil_append, List.cons.injEq, true_and] at e2
    have qs : ∀ {q k r : Bytes}, StringText q k → StopsAt isWs (q ++ r) := by
      rintro q k r ⟨c, _, rfl⟩; exact StopsAt.cons rfl
    have e3 : ([] : Bytes) ++ (q ++ [0x3a, 0x7d]) = _ := e2
    obtain ⟨_, e4⟩ := blank_unique .nil a1 (qs hq) (qs a2) e3
    obtain ⟨_, _, e5⟩ := string_unique hq a2 e4
    have e6 : ([] : Bytes) ++ [0x3a, 0x7d] = _ := e5
    obtain ⟨_, e7⟩ := blank_unique .nil a3 (StopsAt.cons rfl) (StopsAt.cons rfl) e6
    simp only [List.cons.injEq, true_and] at e7
    have e8 : ([] : Bytes) ++ [0x7d] = _ := e7
    obtain ⟨_, e9⟩ := blank_unique .nil a4 (StopsAt.cons rfl) (value_stops a5) e8
    exact value_not a5 rfl e9.symm
  | nan _ hx _ => cases hx
  | null => cases hk
  | true => cases hk
  | false => cases hk
  | num _ _ _ => cases hk
  | big _ _ _ => cases hk
  | dbl _ _ _ _ _ => cases hk
  | str _ => cases hk
  | arr0 _ => cases hk
  | arr _ => cases hk

end Dart.JOut
