import Verif.Model.Builder
import Verif.Lemmas.Heap

/-
Which fields merging, projecting and sorting select, and in which order.
-/
namespace Dart
open Dart.Spec

/-! ### The loops do not look at the payload -/

theorem passBase_map {α β : Type} (key : α → Bytes) (f : β → α) (ik : Bytes) (bs : List β) :
    passBase key ik (bs.map f) =
      ((passBase (key ∘ f) ik bs).1.map f, (passBase (key ∘ f) ik bs).2.map f) := by
  induction bs with
  | nil => rfl
  | cons b bs ih =>
    simp only [List.map_cons, passBase, Function.comp_apply, ih]
    split
    · rfl
    · split <;> rfl

theorem passIncoming_map {α β : Type} (key : α → Bytes) (f : β → α) (is : List β) : ∀ bs : List β,
    passIncoming key (is.map f) (bs.map f) =
      ((passIncoming (key ∘ f) is bs).1.map f, (passIncoming (key ∘ f) is bs).2.1.map f,
        (passIncoming (key ∘ f) is bs).2.2.map f) := by
  induction is with
  | nil => intro bs; simp [passIncoming]
  | cons i is ih =>
    intro bs
    cases bs with
    | nil =>
      have := ih []
      simp only [List.map_nil] at this
      simp [passIncoming, this]
    | cons b bs =>
      simp only [List.map_cons, passIncoming, Function.comp_apply]
      by_cases h1 : (!keyLt (key (f b)) (key (f i))) = true
      · simp only [h1, if_true]
        by_cases h2 : (!keyLt (key (f i)) (key (f b))) = true
        · simp only [h2, if_true, ih bs, List.map_cons]
        · have h3 := ih (b :: bs)
          simp only [List.map_cons] at h3
          simp only [h2, if_false, h3, List.map_cons, Bool.false_eq_true]
      · simp only [h1, if_false, List.map_cons, List.map_nil, Bool.false_eq_true]

theorem eachUniquePair_map {α β : Type} (key : α → Bytes) (f : β → α) (n : Nat) : ∀ bs is : List β,
    eachUniquePair key n (bs.map f) (is.map f) = (eachUniquePair (key ∘ f) n bs is).map f := by
  induction n with
  | zero => intro bs is; cases is <;> simp [eachUniquePair]
  | succ n ih =>
    intro bs is
    cases is with
    | nil => simp [eachUniquePair]
    | cons i is =>
      have h := passIncoming_map key f (i :: is)
      simp only [List.map_cons] at h
      simp only [List.map_cons, eachUniquePair, passBase_map, h, ih, List.map_append, Function.comp_apply]

theorem projectOne_map {α β : Type} (key : α → Bytes) (f : β → α) (k : Bytes) (bs : List β) :
    projectOne key k (bs.map f) =
      ((projectOne (key ∘ f) k bs).1.map f, (projectOne (key ∘ f) k bs).2.map f) := by
  induction bs with
  | nil => rfl
  | cons b bs ih =>
    simp only [List.map_cons, projectOne, Function.comp_apply, ih]
    split
    · rfl
    · split <;> rfl

theorem projectEachPair_map {α β : Type} (key : α → Bytes) (f : β → α) (ks : List Bytes) :
    ∀ bs : List β, projectEachPair key ks (bs.map f) = (projectEachPair (key ∘ f) ks bs).map f := by
  induction ks with
  | nil => intro bs; rfl
  | cons k ks ih => intro bs; simp [projectEachPair, projectOne_map, ih]

/-! ### Merging two sorted lists -/

/-- The standard merge of two sorted lists of fields in which incoming fields replace base fields. -/
def mergeFields : List (Bytes × Val) → List (Bytes × Val) → List (Bytes × Val)
  | bs, [] => bs
  | [], is => is
  | b :: bs, i :: is =>
    if keyLt b.1 i.1 then b :: mergeFields bs (i :: is)
    else if keyLt i.1 b.1 then i :: mergeFields (b :: bs) is
    else i :: mergeFields bs is

theorem mergeFields_nil_left (is : List (Bytes × Val)) : mergeFields [] is = is := by
  cases is <;> simp [mergeFields]

theorem mergeFields_nil_right (bs : List (Bytes × Val)) : mergeFields bs [] = bs := by
  cases bs <;> simp [mergeFields]

theorem mergeFields_above {i : Bytes × Val} {is bs : List (Bytes × Val)}
    (h : ∀ b ∈ bs, keyLt i.1 b.1 = true) : mergeFields bs (i :: is) = i :: mergeFields bs is := by
  cases bs with
  | nil => rw [mergeFields_nil_left, mergeFields_nil_left]
  | cons b bs =>
    have h1 := h b (by simp)
    have h2 : keyLt b.1 i.1 = false := keyLt_asymm h1
    rw [mergeFields]
    simp [h1, h2]

theorem passBase_spec (i : Bytes × Val) (is : List (Bytes × Val)) {bs : List (Bytes × Val)} (hs : Sorted bs) :
    mergeFields bs (i :: is) = (passBase Prod.fst i.1 bs).1 ++ mergeFields (passBase Prod.fst i.1 bs).2 (i :: is) ∧
    (∀ b ∈ (passBase Prod.fst i.1 bs).2, keyLt i.1 b.1 = true) ∧ Sorted (passBase Prod.fst i.1 bs).2 := by
  unfold Sorted at *
  induction bs with
  | nil => simp [passBase]
  | cons b bs ih =>
    rw [List.pairwise_cons] at hs
    obtain ⟨ih1, ih2, ih3⟩ := ih hs.2
    simp only [passBase]
    by_cases h1 : keyLt b.1 i.1 = true
    · simp only [h1, if_true, List.cons_append]
      refine ⟨?_, ih2, ih3⟩
      rw [mergeFields]
      simp only [h1, if_true]
      rw [ih1]
    · by_cases h2 : keyLt i.1 b.1 = true
      · simp only [h1, h2, if_false, Bool.not_true, List.nil_append, Bool.false_eq_true, true_and]
        refine ⟨?_, List.pairwise_cons.2 hs⟩
        intro c hc
        rcases List.mem_cons.1 hc with rfl | hc
        · exact h2
        · exact keyLt_trans h2 (hs.1 c hc)
      · have e : b.1 = i.1 := by
          have := equiv_iff i.1 b.1
          simpa [h1, h2] using this
        simp only [h1, h2, if_false, if_true, List.nil_append, Bool.false_eq_true, Bool.not_false]
        have h3 : ∀ c ∈ bs, keyLt i.1 c.1 = true := fun c hc => e ▸ hs.1 c hc
        refine ⟨?_, h3, hs.2⟩
        rw [mergeFields_above h3, mergeFields]
        simp [h1, h2]

theorem passIncoming_spec (is : List (Bytes × Val)) : ∀ bs : List (Bytes × Val),
    mergeFields bs is = (passIncoming Prod.fst is bs).1 ++
      mergeFields (passIncoming Prod.fst is bs).2.2 (passIncoming Prod.fst is bs).2.1 ∧
    (passIncoming Prod.fst is bs).2.1.length ≤ is.length ∧
    (passIncoming Prod.fst is bs).2.2.Sublist bs := by
  induction is with
  | nil => intro bs; simp [passIncoming]
  | cons i is ih =>
    intro bs
    cases bs with
    | nil =>
      obtain ⟨h1, h2, h3⟩ := ih []
      simp only [passIncoming]
      refine ⟨?_, ?_, h3⟩
      · rw [mergeFields_nil_left, List.cons_append, ← h1, mergeFields_nil_left]
      · simp only [List.length_cons]; omega
    | cons b bs =>
      simp only [passIncoming]
      by_cases h1 : keyLt b.1 i.1 = true
      · simp [h1]
      · simp only [h1, Bool.not_false, if_true]
        by_cases h2 : keyLt i.1 b.1 = true
        · obtain ⟨e1, e2, e3⟩ := ih (b :: bs)
          simp only [h2, Bool.not_true, if_false, Bool.false_eq_true]
          refine ⟨?_, ?_, e3⟩
          · rw [mergeFields]; simp only [h1, h2, if_true, if_false, Bool.false_eq_true]; rw [e1]; rfl
          · simp only [List.length_cons]; omega
        · obtain ⟨e1, e2, e3⟩ := ih bs
          simp only [h2, Bool.not_false, if_true]
          refine ⟨?_, ?_, e3.trans (List.sublist_cons_self _ _)⟩
          · rw [mergeFields]; simp only [h1, h2, if_false, Bool.false_eq_true]; rw [e1]; rfl
          · simp only [List.length_cons]; omega

/-- `each_unique_pair` is the right-biased merge. -/
theorem eachUniquePair_eq (n : Nat) : ∀ {bs is : List (Bytes × Val)}, Sorted bs → is.length ≤ n →
    eachUniquePair Prod.fst n bs is = mergeFields bs is := by
  induction n with
  | zero =>
    intro bs is hs hn
    have : is = [] := List.length_eq_zero_iff.1 (by omega)
    subst this
    rw [mergeFields_nil_right]; rfl
  | succ n ih =>
    intro bs is hs hn
    cases is with
    | nil => rw [mergeFields_nil_right]; rfl
    | cons i is =>
      obtain ⟨h1, h2, h3⟩ := passBase_spec i is hs
      obtain ⟨h4, h5, h6⟩ := passIncoming_spec (i :: is) (passBase Prod.fst i.1 bs).2
      simp only [eachUniquePair]
      have hlt : (passIncoming Prod.fst (i :: is) (passBase Prod.fst i.1 bs).2).2.1.length ≤ n := by
        generalize hr : (passBase Prod.fst i.1 bs).2 = r at *
        have hle := fun bs => (passIncoming_spec is bs).2.1
        simp only [List.length_cons] at hn
        cases r with
        | nil => simp only [passIncoming]; exact Nat.le_trans (hle []) (by omega)
        | cons b r =>
          have := keyLt_asymm (h2 b (by simp))
          simp only [passIncoming, this, Bool.not_false, if_true]
          exact Nat.le_trans (hle _) (by omega)
      rw [ih (h3.sublist h6) hlt, h1, h4]

theorem mem_mergeFields (bs : List (Bytes × Val)) : ∀ {is : List (Bytes × Val)} {f : Bytes × Val},
    f ∈ mergeFields bs is → f ∈ bs ∨ f ∈ is := by
  intro is f
  fun_induction mergeFields bs is with
  | case1 bs => exact fun h => .inl h
  | case2 is h => exact fun h => .inr h
  | case3 b bs i is h ih =>
    intro hm
    rcases List.mem_cons.1 hm with rfl | hm
    · simp
    · rcases ih hm with h | h <;> simp_all
  | case4 b bs i is h h2 ih =>
    intro hm
    rcases List.mem_cons.1 hm with rfl | hm
    · simp
    · rcases ih hm with h | h <;> simp_all
  | case5 b bs i is h h2 ih =>
    intro hm
    rcases List.mem_cons.1 hm with rfl | hm
    · simp
    · rcases ih hm with h | h <;> simp_all

theorem mergeFields_sorted {bs is : List (Bytes × Val)} (hb : Sorted bs) (hi : Sorted is) :
    Sorted (mergeFields bs is) := by
  unfold Sorted at *
  fun_induction mergeFields bs is with
  | case1 bs => exact hb
  | case2 is h => exact hi
  | case3 b bs i is h ih =>
    rw [List.pairwise_cons] at hb hi ⊢
    refine ⟨fun f hf => ?_, ih hb.2 (List.pairwise_cons.2 hi)⟩
    rcases mem_mergeFields _ hf with hf | hf
    · exact hb.1 f hf
    · rcases List.mem_cons.1 hf with rfl | hf
      · exact h
      · exact keyLt_trans h (hi.1 f hf)
  | case4 b bs i is h h2 ih =>
    rw [List.pairwise_cons] at hb hi ⊢
    refine ⟨fun f hf => ?_, ih (List.pairwise_cons.2 hb) hi.2⟩
    rcases mem_mergeFields _ hf with hf | hf
    · rcases List.mem_cons.1 hf with rfl | hf
      · exact h2
      · exact keyLt_trans h2 (hb.1 f hf)
    · exact hi.1 f hf
  | case5 b bs i is h h2 ih =>
    have e : b.1 = i.1 := by
      have := equiv_iff i.1 b.1
      simpa [h, h2] using this
    rw [List.pairwise_cons] at hb hi ⊢
    refine ⟨fun f hf => ?_, ih hb.2 hi.2⟩
    rcases mem_mergeFields _ hf with hf | hf
    · exact e ▸ hb.1 f hf
    · exact hi.1 f hf

theorem lookup_mergeFields {bs is : List (Bytes × Val)} (hb : Sorted bs) (hi : Sorted is) (k : Bytes) :
    lookup (mergeFields bs is) k = (lookup is k).or (lookup bs k) := by
  unfold Sorted at *
  fun_induction mergeFields bs is with
  | case1 bs => simp [lookup_nil]
  | case2 is h => simp [lookup_nil]
  | case3 b bs i is h ih =>
    obtain ⟨bk, bv⟩ := b
    rw [List.pairwise_cons] at hb
    rw [lookup_cons bk, lookup_cons bk, ih hb.2 hi]
    by_cases hk : k = bk
    · subst hk
      have : lookup (i :: is) k = none := lookup_none_of_lt fun f hf => by
        rcases List.mem_cons.1 hf with rfl | hf
        · exact h
        · exact keyLt_trans h ((List.pairwise_cons.1 hi).1 f hf)
      simp [this]
    · simp [hk]
  | case4 b bs i is h h2 ih =>
    obtain ⟨ik, iv⟩ := i
    rw [List.pairwise_cons] at hi
    rw [lookup_cons ik, lookup_cons ik, ih hb hi.2]
    by_cases hk : k = ik <;> simp [hk]
  | case5 b bs i is h h2 ih =>
    have e : b.1 = i.1 := by
      have := equiv_iff i.1 b.1
      simpa [h, h2] using this
    obtain ⟨ik, iv⟩ := i
    obtain ⟨bk, bv⟩ := b
    simp only at e
    subst e
    rw [List.pairwise_cons] at hb hi
    rw [lookup_cons, lookup_cons, lookup_cons, ih hb.2 hi.2]
    by_cases hk : k = bk <;> simp [hk]

theorem mergeFields_length (bs is : List (Bytes × Val)) :
    (mergeFields bs is).length ≤ bs.length + is.length := by
  fun_induction mergeFields bs is <;> simp_all <;> omega

/-! ### Sorting -/

theorem mem_insertSorted {α : Type} (key : α → Bytes) (x y : α) (l : List α) :
    y ∈ insertSorted key x l ↔ y = x ∨ y ∈ l := by
  induction l with
  | nil => simp [insertSorted]
  | cons z l ih =>
    simp only [insertSorted]
    split
    · simp only [List.mem_cons, ih]
      constructor
      · rintro (h | h | h) <;> simp [h]
      · rintro (h | h | h) <;> simp [h]
    · simp

theorem insertSorted_perm {α : Type} (key : α → Bytes) (x : α) (l : List α) :
    (insertSorted key x l).Perm (x :: l) := by
  induction l with
  | nil => exact .refl _
  | cons z l ih =>
    simp only [insertSorted]
    split
    · exact (ih.cons z).trans (List.Perm.swap x z l)
    · exact .refl _

theorem sortByKey_perm {α : Type} (key : α → Bytes) (l : List α) : (sortByKey key l).Perm l := by
  induction l with
  | nil => exact .refl _
  | cons x l ih => exact (insertSorted_perm key x _).trans (ih.cons x)

theorem insertSorted_sorted {α : Type} (key : α → Bytes) (x : α) {l : List α}
    (h : l.Pairwise fun a b => keyLt (key b) (key a) = false) :
    (insertSorted key x l).Pairwise fun a b => keyLt (key b) (key a) = false := by
  induction l with
  | nil => simp [insertSorted]
  | cons z l ih =>
    rw [List.pairwise_cons] at h
    simp only [insertSorted]
    split
    · rename_i hz
      rw [List.pairwise_cons]
      refine ⟨fun y hy => ?_, ih h.2⟩
      rcases (mem_insertSorted key x y l).1 hy with rfl | hy
      · exact keyLt_asymm hz
      · exact h.1 y hy
    · rename_i hz
      rw [List.pairwise_cons]
      refine ⟨fun y hy => ?_, List.pairwise_cons.2 h⟩
      rcases List.mem_cons.1 hy with rfl | hy
      · simpa using hz
      · cases hc : keyLt (key y) (key x)
        · rfl
        · exfalso
          have h1 := h.1 y hy
          have hz' : keyLt (key z) (key x) = false := by simpa using hz
          -- y < x, ¬ y < z, ¬ z < x
          cases h3 : keyLt (key z) (key y)
          · rw [← keyLt_total h3 h1, hz'] at hc; cases hc
          · rw [keyLt_trans h3 hc] at hz'; cases hz'

theorem sortByKey_sorted {α : Type} (key : α → Bytes) (l : List α) :
    (sortByKey key l).Pairwise fun a b => keyLt (key b) (key a) = false := by
  induction l with
  | nil => exact .nil
  | cons x l ih => exact insertSorted_sorted key x ih

/-! ### Projection -/

theorem projectOne_above (k : Bytes) {bs : List (Bytes × Val)} (h : ∀ b ∈ bs, keyLt k b.1 = true) :
    projectOne Prod.fst k bs = ([], bs) := by
  cases bs with
  | nil => rfl
  | cons b bs =>
    have h1 := h b (by simp)
    simp [projectOne, h1, keyLt_asymm h1]

theorem projectEachPair_eq (ks : List Bytes) : ∀ {bs : List (Bytes × Val)}, Sorted bs →
    ks.Pairwise (fun a b => keyLt b a = false) →
    projectEachPair Prod.fst ks bs = bs.filter fun f => decide (f.1 ∈ ks) := by
  induction ks with
  | nil => intro bs _ _; simp [projectEachPair]
  | cons k ks ih =>
    intro bs hs hk
    rw [List.pairwise_cons] at hk
    simp only [projectEachPair]
    unfold Sorted at hs
    induction bs with
    | nil => simp [projectOne, ih (bs := []) (by simp [Sorted]) hk.2]
    | cons b bs ihb =>
      have hs' := List.pairwise_cons.1 hs
      by_cases h1 : keyLt b.1 k = true
      · have hn : b.1 ∉ k :: ks := by
          intro hm
          rcases List.mem_cons.1 hm with h | h
          · rw [h, keyLt_irrefl] at h1; cases h1
          · rw [hk.1 _ h] at h1; cases h1
        simp only [projectOne, h1, if_true]
        rw [ihb hs'.2, List.filter_cons]
        simp [hn]
      · by_cases h2 : keyLt k b.1 = true
        · have ha : ∀ c ∈ b :: bs, keyLt k c.1 = true := fun c hc => by
            rcases List.mem_cons.1 hc with rfl | hc
            · exact h2
            · exact keyLt_trans h2 (hs'.1 c hc)
          rw [projectOne_above k ha, ih hs hk.2, List.nil_append]
          apply List.filter_congr
          intro c hc
          have : c.1 ≠ k := by
            intro e
            have := ha c hc
            rw [e, keyLt_irrefl] at this; cases this
          simp [this]
        · have e : b.1 = k := by
            have := equiv_iff k b.1
            simpa [h1, h2] using this
          have ha : ∀ c ∈ bs, keyLt k c.1 = true := fun c hc => e ▸ hs'.1 c hc
          simp only [projectOne, h1, h2, if_false, Bool.not_false, if_true, Bool.false_eq_true]
          rw [projectOne_above k ha]
          simp only [List.cons_append, List.nil_append]
          rw [ih hs'.2 hk.2, List.filter_cons]
          simp only [e, List.mem_cons, true_or, decide_true, if_true]
          congr 1
          apply List.filter_congr
          intro c hc
          have : c.1 ≠ k := by
            intro e'
            have := ha c hc
            rw [e', keyLt_irrefl] at this; cases this
          simp [this]

theorem filter_sorted {fs : List (Bytes × Val)} (h : Sorted fs) (p : Bytes × Val → Bool) :
    Sorted (fs.filter p) := List.Pairwise.filter p h

theorem lookup_filter (fs : List (Bytes × Val)) (ks : List Bytes) (k : Bytes) :
    lookup (fs.filter fun f => decide (f.1 ∈ ks)) k = if k ∈ ks then lookup fs k else none := by
  induction fs with
  | nil => simp [lookup_nil]
  | cons f fs ih =>
    obtain ⟨k', v⟩ := f
    rw [List.filter_cons]
    by_cases h1 : k' ∈ ks
    · simp only [h1, decide_true, if_true, lookup_cons, ih]
      by_cases h2 : k = k'
      · simp [h2, h1]
      · simp [h2]
    · simp only [h1, decide_false, lookup_cons, ih, if_false, Bool.false_eq_true]
      by_cases h2 : k = k'
      · simp [h2, h1]
      · simp [h2]

end Dart
