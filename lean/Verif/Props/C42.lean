import Verif.Lemmas.Json

/-
C42: what the JSON parser builds. `j.toHeap` is `dart::heap::from_json` of a text that parses to the document `j`.
-/
namespace Dart.Props
open Spec

/-- Every document whose root is an object or array gives the value it stands for: the last of several members with
the same name, in whatever order the members come. -/
theorem C42_parse {j : Json} (hm : Within j) (hr : (∃ fs, j = .obj fs) ∨ ∃ es, j = .arr es) :
    ∃ v, j.toHeap = .ok v ∧ Means j v := by
  have hl := lim_of_moderate j hm
  have ht := means_toVal j hm
  rcases hr with ⟨fs, rfl⟩ | ⟨es, rfl⟩
  · rw [Json.toVal] at ht; exact ⟨_, toHeap_obj hl, ht⟩
  · rw [Json.toVal] at ht; exact ⟨_, toHeap_arr hl, ht⟩

/-- There is only one such value. -/
theorem C42_unique {j : Json} {v w : Val} (hv : Means j v) (hw : Means j w) : v = w := by
  induction hv generalizing w with
  | null => cases hw; rfl
  | bool b => cases hw; rfl
  | num h => cases hw with | num h' => exact congrArg _ (BitVec.eq_of_toInt_eq (h.trans h'.symm))
  | dbl d => cases hw; rfl
  | str s => cases hw; rfl
  | arr hl _ ih =>
    cases hw with
    | arr hl' h' =>
      congr 1
      exact List.ext_getElem (hl.symm.trans hl') fun i h1 h2 => ih i (by omega) h1 (h' i (by omega) h2)
  | @obj fs gs hs hi _ ih =>
    cases hw with
    | obj hs' hi' h' =>
      congr 1
      refine sorted_ext (sorted_iff.1 hs) (sorted_iff.1 hs') (funext fun k => ?_)
      have h1 := hi k
      have h2 := hi' k
      cases hl : lastOf fs k with
      | none => simp only [hl, Option.isSome_none, Option.isSome_eq_false_iff, Option.isNone_iff_eq_none] at h1 h2; rw [h1, h2]
      | some j =>
        rw [hl] at h1 h2
        obtain ⟨a, ha⟩ := Option.isSome_iff_exists.1 h1
        obtain ⟨b, hb⟩ := Option.isSome_iff_exists.1 h2
        rw [ha, hb, ih k j a hl ha (h' k j b hl hb)]

/-- A name of more than 65535 bytes anywhere in the document makes the parser throw. -/
theorem C42_long_names {j : Json} (h : LongName j) (ho : OtherLimits j) : j.toHeap = .throw .invalidArgument := by
  unfold Json.toHeap; rw [run_long j _ ho h (.inr rfl)]; rfl

/-- A document that is neither object nor array makes the parser throw. -/
theorem C42_scalar_root {j : Json} (hr : (∀ fs, j ≠ .obj fs) ∧ ∀ es, j ≠ .arr es) (ho : OtherLimits j) :
    j.toHeap = .throw .typeError := by
  cases j with
  | obj fs => exact absurd rfl (hr.1 fs)
  | arr es => exact absurd rfl (hr.2 es)
  | num n =>
    unfold Json.toHeap
    simp only [Json.events]
    unfold OtherLimits at ho
    rw [run_single, intEvent_step _ ho.1 ho.2]
    rfl
  | _ => rfl

/-- A whole number of 2^63 or more (below 2^64) comes out as a negative one. -/
theorem C42_large_number_wrong {n : Int} (h1 : 2 ^ 63 ≤ n) (h2 : n < 2 ^ 64) :
    ∃ i, (Json.arr [.num n]).toHeap = .ok (.arr [.int i]) ∧ i.toInt = n - 2 ^ 64 := by
  refine ⟨wrapInt n, toHeap_arr ?_, ?_⟩
  · exact ⟨by simp, ⟨by omega, h2⟩, trivial⟩
  · rw [wrapInt, toInt_ofInt64, Int.bmod_def]
    simp only [Nat.reducePow, Int.reducePow] at *
    omega

/-! Concrete cases. -/

/-- `{"b": 1, "a": [true], "b": 2}` -/
def twice : Json := .obj [([98], .num 1), ([97], .arr [.bool true]), ([98], .num 2)]

example : Within twice := by simp [twice, Within, WithinFields, WithinElems]
example : lastOf [([98], Json.num 1), ([97], .null), ([98], .num 2)] [98] = some (.num 2) := rfl
example : ∃ v, twice.toHeap = .ok v ∧ v = .obj [([97], .arr [.bool true]), ([98], .int 2)] :=
  ⟨_, toHeap_obj (by simp [Json.Lim, LimFields, LimElems]), rfl⟩
example : LongName (.arr [.obj [(List.replicate 65536 97, .null)]]) := by
  simp only [LongName, LongNameElems, LongNameFields, List.length_replicate]; omega

end Dart.Props
