import Verif.Lemmas.Equal

/-
C21: comparing dynamic values. `v.eqOp same w` is `v == w`. The code takes a short cut where both sides
are the same object in memory; `same` says where that is so, and the only thing assumed about it is that
an object in memory has one value.
-/
namespace Dart.Props
open Spec

/-- Nothing is shared between the two values. -/
abbrev unshared : List Nat → Val → Val → Bool := fun _ _ _ => false

/-- Values without NULs in strings or keys, without NaN and without negative zero are equal exactly if
they are the same, whatever memory they share.
Missing for the full property: NULs, NaN and the negative zero, for which it is wrong (see below). -/
theorem C21_equal_iff_same_partial {v w : Val} (hv : Ordinary v) (hw : Ordinary w)
    {same : List Nat → Val → Val → Bool} (hs : ∀ p a b, same p a b = true → a = b) :
    v.eqOp same w = true ↔ v = w := by
  constructor
  · intro h
    exact eq_of_alike (alike_of_heapEq hs v [] w (.inl (noNaN_of_ordinary hv)) h) hv hw
  · rintro rfl
    exact heapEq_of_alike same (alike_refl v (noNaN_of_ordinary hv)) []

/-- What equality is for all values: the same structure with the same booleans and integers, with
decimals that are the same number, and with strings and keys that have the same length and do not
differ before the first NUL. -/
theorem C21_equal_iff_alike (v w : Val) : v.eqOp unshared w = true ↔ Alike UpToNul v w :=
  ⟨alike_of_heapEq (same := unshared) (fun _ _ _ h => by cases h) v [] w (.inr fun _ _ _ => rfl),
    fun h => heapEq_of_alike unshared h []⟩

/-- Sharing makes no difference for values without NaN. -/
theorem C21_sharing_irrelevant {v w : Val} (hv : NoNaN v)
    {same : List Nat → Val → Val → Bool} (hs : ∀ p a b, same p a b = true → a = b) :
    v.eqOp same w = v.eqOp unshared w := by
  rw [Bool.eq_iff_iff, C21_equal_iff_alike]
  exact ⟨alike_of_heapEq hs v [] w (.inl hv), fun h => heapEq_of_alike same h []⟩

/-- Symmetric, for all values and all sharing (swapping the sides swaps them in the question what is
shared). -/
theorem C21_symmetric (v w : Val) (same : List Nat → Val → Val → Bool) :
    v.eqOp same w = w.eqOp (fun p a b => same p b a) v := by
  rw [Bool.eq_iff_iff]
  exact ⟨heapEq_swap v [] w, fun h => heapEq_swap w [] v h⟩

/-- Transitive, for all values. -/
theorem C21_transitive {v w x : Val} (h : v.eqOp unshared w = true) (h' : w.eqOp unshared x = true) :
    v.eqOp unshared x = true := by
  rw [C21_equal_iff_alike] at h h' ⊢
  exact alike_trans h h'

/-- Transitive whatever is shared, if the first two are free of NaN. -/
theorem C21_transitive_shared {v w x : Val} (hv : NoNaN v) (hw : NoNaN w) {s1 s2 s3 : List Nat → Val → Val → Bool}
    (h1 : ∀ p a b, s1 p a b = true → a = b) (h2 : ∀ p a b, s2 p a b = true → a = b)
    (h : v.eqOp s1 w = true) (h' : w.eqOp s2 x = true) : v.eqOp s3 x = true :=
  heapEq_of_alike s3 (alike_trans (alike_of_heapEq h1 v [] w (.inl hv) h) (alike_of_heapEq h2 w [] x (.inl hw) h')) []

/-- A value equals itself (as another object) exactly if there is no NaN in it. -/
theorem C21_reflexive_iff (v : Val) : v.eqOp unshared v = true ↔ NoNaN v := by
  rw [C21_equal_iff_alike]
  exact ⟨alike_noNaN, alike_refl v⟩

/-- `!=` is the negation of `==`. -/
theorem C21_not_equal (v w : Val) (same : List Nat → Val → Val → Bool) :
    v.neOp same w = true ↔ v.eqOp same w = false := by
  unfold Val.neOp; simp

/-- The comparison of stored strings (C30), through the two memory layouts and `strcmp`, is the one used
above for strings: for all strings and whatever the memory contained before. -/
theorem C21_stored_strings {junk junk' s t : Bytes} (hj : junk.length = 24) (hj' : junk'.length = 24) :
    ∃ r r', StrRep.make junk s [] = some r ∧ StrRep.make junk' t [] = some r' ∧
      r.eq r' = some (Val.eqOp unshared (.str s) (.str t)) := by
  obtain ⟨r, h1, h2⟩ := StrRep.make_stores junk s [] hj
  obtain ⟨r', h1', h2'⟩ := StrRep.make_stores junk' t [] hj'
  refine ⟨r, r', h1, h1', ?_⟩
  simp only [List.append_nil] at h2 h2'
  rw [h2.eq h2']
  congr 1
  show decide (s.length = t.length ∧ StrRep.cstr s = StrRep.cstr t) = (false || strEq s t)
  rw [Bool.eq_iff_iff, decide_eq_true_iff, Bool.false_or, strEq_iff, upToNul_iff_strEq]
  rfl

/-- Not structural for all values: strings that differ after a NUL, keys that differ after a NUL, and
the two zeros are equal; NaN is not equal to itself. -/
theorem C21_not_structural :
    Val.eqOp unshared (.str [97, 0, 98]) (.str [97, 0, 99]) = true ∧
    Val.eqOp unshared (.obj [([97, 0, 98], .null)]) (.obj [([97, 0, 99], .null)]) = true ∧
    Val.eqOp unshared (.dec 0#64) (.dec 0x8000000000000000#64) = true ∧
    Val.eqOp unshared (.dec 0x7ff8000000000000#64) (.dec 0x7ff8000000000000#64) = false := by decide +kernel

/-- With NaN the answer depends on what is shared. -/
theorem C21_nan_depends_on_sharing :
    Val.eqOp (fun _ _ _ => true) (.dec 0x7ff8000000000000#64) (.dec 0x7ff8000000000000#64) = true ∧
    Val.eqOp unshared (.dec 0x7ff8000000000000#64) (.dec 0x7ff8000000000000#64) = false := by decide +kernel

/-! Concrete cases. -/

/-- `{"a": [1, "x"], "b": {"c": 1.5}}`. -/
def eqSample (n : Nat) : Val :=
  .obj [([97], .arr [.int (BitVec.ofNat 64 n), .str [120]]), ([98], .obj [([99], .dec 0x3ff8000000000000#64)])]

example : Ordinary (eqSample 1) := by
  refine .obj (by simp) ?_
  intro f hf
  simp only [List.mem_cons, List.not_mem_nil, or_false] at hf
  rcases hf with rfl | rfl
  · refine .arr ?_
    intro e he
    simp only [List.mem_cons, List.not_mem_nil, or_false] at he
    rcases he with rfl | rfl
    · exact .int _
    · exact .str (by decide)
  · refine .obj (by simp) ?_
    intro f hf
    simp only [List.mem_cons, List.not_mem_nil, or_false] at hf
    subst hf
    refine .dec ⟨?_, by decide⟩
    intro h
    cases h
example : (eqSample 1).eqOp unshared (eqSample 1) = true ∧ (eqSample 1).eqOp unshared (eqSample 2) = false ∧
    (eqSample 1).neOp unshared (eqSample 2) = true := by decide +kernel
/-- An oracle that meets the condition: the element "x" is shared. -/
example : (eqSample 1).eqOp (fun p a b => p == [1, 1] && match a, b with | .str s, .str t => s == t | _, _ => false)
    (eqSample 1) = true := by decide +kernel

end Dart.Props
