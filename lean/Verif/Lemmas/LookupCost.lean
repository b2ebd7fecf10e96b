import Verif.Model.LookupCost
import Verif.Lemmas.Search

namespace Dart

theorem searchKeyN_fst {signed : Bool} {m : Bytes} {base : Nat} {key : Bytes} :
    ∀ (fuel : Nat) (lo hi : Int),
    (searchKeyN signed m base key fuel lo hi).1 = searchKey signed m base key fuel lo hi := by
  intro fuel
  induction fuel with
  | zero => intro lo hi; rfl
  | succ fuel ih =>
    intro lo hi
    unfold searchKeyN searchKey
    split
    · rfl
    · simp only [Option.bind_eq_bind]
      cases searchCompare signed m base key ((lo + hi).tdiv 2).toNat with
      | none => rfl
      | some c =>
        simp only [Option.bind_some]
        split
        · rfl
        · split
          · exact ih _ _
          · exact ih _ _

theorem getKeyN_fst {signed : Bool} {m : Bytes} {base : Nat} {key : Bytes} :
    (getKeyN signed m base key).1 = getKey signed m base key := by
  unfold getKeyN getKey
  cases numElems m base with
  | none => rfl
  | some n => exact searchKeyN_fst _ _ _

/-- What is looked at in searching from `lo` to `hi`: entries in between, each once, at most
`log2 + 1` of them. -/
structure Looks (lo hi : Int) (l : List Nat) : Prop where
  range : ∀ i ∈ l, lo ≤ (i : Int) ∧ (i : Int) ≤ hi
  once : l.Nodup
  few : lo ≤ hi → ((2 ^ l.length : Nat) : Int) ≤ 2 * (hi - lo + 1)

theorem Looks.nil {lo hi : Int} : Looks lo hi [] :=
  ⟨by simp, List.nodup_nil, fun h => by simp; omega⟩

theorem Looks.empty {lo hi : Int} {l : List Nat} (h : Looks lo hi l) (hl : hi < lo) : l = [] := by
  cases l with
  | nil => rfl
  | cons a l => have := h.range a (by simp); omega

theorem Looks.one {lo hi : Int} {i : Nat} (h1 : lo ≤ (i : Int)) (h2 : (i : Int) ≤ hi) : Looks lo hi [i] :=
  ⟨by simp; omega, by simp, fun _ => by simp; omega⟩

theorem searchKeyN_looks {signed : Bool} {m : Bytes} {base : Nat} {key : Bytes} :
    ∀ (fuel : Nat) (lo hi : Int), 0 ≤ lo → Looks lo hi (searchKeyN signed m base key fuel lo hi).2 := by
  intro fuel
  induction fuel with
  | zero => intro lo hi _; exact Looks.nil
  | succ fuel ih =>
    intro lo hi h0
    unfold searchKeyN
    split
    · exact Looks.nil
    rename_i hlt
    have hlh : lo ≤ hi := by omega
    obtain ⟨hm1, hm2⟩ := tdiv2 h0 hlh
    have hd : (lo + hi).tdiv 2 = (lo + hi) / 2 := Int.tdiv_eq_ediv_of_nonneg (by omega)
    obtain ⟨mid, hmid⟩ : ∃ mid : Nat, (lo + hi).tdiv 2 = mid := ⟨((lo + hi).tdiv 2).toNat, by omega⟩
    simp only [hmid, Int.toNat_natCast]
    have hb : (mid : Int) = (lo + hi) / 2 := by omega
    cases searchCompare signed m base key mid with
    | none => exact Looks.one (by omega) (by omega)
    | some c =>
      simp only
      split
      · exact Looks.one (by omega) (by omega)
      · split
        · have h := ih ((mid : Int) + 1) hi (by omega)
          refine ⟨?_, ?_, ?_⟩
          · intro i hi'
            simp only [List.mem_cons] at hi'
            rcases hi' with rfl | hi'
            · omega
            · have := h.range i hi'; omega
          · exact List.nodup_cons.2 ⟨fun hm => by have := h.range _ hm; omega, h.once⟩
          · intro _
            simp only [List.length_cons, Nat.pow_succ]
            by_cases hs : (mid : Int) + 1 ≤ hi
            · have := h.few hs; omega
            · rw [h.empty (by omega)]; simp; omega
        · have h := ih lo ((mid : Int) - 1) (by omega)
          refine ⟨?_, ?_, ?_⟩
          · intro i hi'
            simp only [List.mem_cons] at hi'
            rcases hi' with rfl | hi'
            · omega
            · have := h.range i hi'; omega
          · exact List.nodup_cons.2 ⟨fun hm => by have := h.range _ hm; omega, h.once⟩
          · intro _
            simp only [List.length_cons, Nat.pow_succ]
            by_cases hs : lo ≤ (mid : Int) - 1
            · have := h.few hs; omega
            · rw [h.empty (by omega)]; simp; omega

theorem toInt32_le (n : Nat) : toInt32 n ≤ n := by
  unfold toInt32
  rw [BitVec.toInt_ofNat']
  simp only [Int.bmod]
  omega

end Dart
