import Verif.Spec.Heap
import Verif.Lemmas.Key
import Verif.Lemmas.Shows

namespace Dart
open Spec

/-- Sortedness with the model's own comparison. -/
def Sorted (fs : List (Bytes × Val)) : Prop := fs.Pairwise fun a b => keyLt a.1 b.1 = true

theorem sorted_iff {fs : List (Bytes × Val)} :
    fs.Pairwise (fun a b => KeyBefore a.1 b.1) ↔ Sorted fs := by
  unfold Sorted; constructor <;> intro h
  · exact h.imp fun h => keyLt_iff_spec.2 h
  · exact h.imp fun h => keyLt_iff_spec.1 h

theorem equiv_iff (a b : Bytes) : (!keyLt a b && !keyLt b a) = decide (b = a) := by
  by_cases h : b = a
  · subst h; simp [keyLt_irrefl]
  · simp only [h, decide_false, Bool.and_eq_false_iff, Bool.not_eq_false']
    by_cases h1 : keyLt a b = true
    · exact Or.inl h1
    · right
      cases h2 : keyLt b a with
      | true => rfl
      | false => exact absurd (keyLt_total (by simpa using h1) h2).symm h

theorem lookup_nil (k : Bytes) : lookup [] k = none := rfl

theorem lookup_cons (k' : Bytes) (v : Val) (fs : List (Bytes × Val)) (k : Bytes) :
    lookup ((k', v) :: fs) k = if k = k' then some v else lookup fs k := by
  unfold lookup
  by_cases h : k = k'
  · simp [h]
  · have : (k' == k) = false := by simpa using fun e => h e.symm
    simp [this, h]

theorem mapFind_eq (k : Bytes) (fs : List (Bytes × Val)) : mapFind k fs = lookup fs k := by
  induction fs with
  | nil => rfl
  | cons f fs ih =>
    obtain ⟨k', v⟩ := f
    rw [mapFind, lookup_cons, equiv_iff, ih]
    by_cases h : k' = k
    · simp [h]
    · simp [h, Ne.symm h]

theorem lookup_mapInsert (k : Bytes) (v : Val) (fs : List (Bytes × Val)) :
    lookup (mapInsert k v fs) = put (lookup fs) k (some v) := by
  funext x
  unfold put
  induction fs with
  | nil => simp [mapInsert, lookup_cons, lookup_nil]
  | cons f fs ih =>
    obtain ⟨k', v'⟩ := f
    rw [mapInsert]
    by_cases h1 : keyLt k k' = true
    · rw [if_pos h1, lookup_cons]
    · rw [if_neg h1]
      by_cases h2 : keyLt k' k = true
      · rw [if_pos h2, lookup_cons, ih, lookup_cons]
        by_cases hx : x = k'
        · have := keyLt_ne h2
          subst hx; simp [this]
        · simp [hx]
      · rw [if_neg h2]
        have : k = k' := keyLt_total (by simpa using h1) (by simpa using h2)
        subst this
        rw [lookup_cons, lookup_cons]
        by_cases hx : x = k <;> simp [hx]

theorem mem_mapInsert {k : Bytes} {v : Val} {fs : List (Bytes × Val)} {f : Bytes × Val}
    (h : f ∈ mapInsert k v fs) : f = (k, v) ∨ f ∈ fs := by
  induction fs with
  | nil => simpa [mapInsert] using h
  | cons g fs ih =>
    obtain ⟨k', v'⟩ := g
    rw [mapInsert] at h
    by_cases h1 : keyLt k k' = true
    · rw [if_pos h1] at h; simpa using h
    · rw [if_neg h1] at h
      by_cases h2 : keyLt k' k = true
      · rw [if_pos h2] at h
        rcases List.mem_cons.1 h with h | h
        · exact Or.inr (by simp [h])
        · rcases ih h with h | h
          · exact Or.inl h
          · exact Or.inr (by simp [h])
      · rw [if_neg h2] at h
        have : k = k' := keyLt_total (by simpa using h1) (by simpa using h2)
        subst this
        rcases List.mem_cons.1 h with h | h
        · exact Or.inl h
        · exact Or.inr (by simp [h])

theorem mapInsert_sorted {k : Bytes} {v : Val} {fs : List (Bytes × Val)} (h : Sorted fs) :
    Sorted (mapInsert k v fs) := by
  unfold Sorted at *
  induction fs with
  | nil => simp [mapInsert]
  | cons g fs ih =>
    obtain ⟨k', v'⟩ := g
    obtain ⟨hg, hs⟩ := List.pairwise_cons.1 h
    rw [mapInsert]
    by_cases h1 : keyLt k k' = true
    · rw [if_pos h1, List.pairwise_cons]
      refine ⟨?_, h⟩
      intro b hb
      rcases List.mem_cons.1 hb with rfl | hb
      · exact h1
      · exact keyLt_trans h1 (hg b hb)
    · rw [if_neg h1]
      by_cases h2 : keyLt k' k = true
      · rw [if_pos h2, List.pairwise_cons]
        refine ⟨?_, ih hs⟩
        intro b hb
        rcases mem_mapInsert hb with rfl | hb
        · exact h2
        · exact hg b hb
      · rw [if_neg h2, List.pairwise_cons]
        exact ⟨hg, hs⟩

theorem lookup_none_of_lt {k : Bytes} {fs : List (Bytes × Val)}
    (h : ∀ f ∈ fs, keyLt k f.1 = true) : lookup fs k = none := by
  induction fs with
  | nil => rfl
  | cons g fs ih =>
    obtain ⟨k', v'⟩ := g
    rw [lookup_cons, if_neg (keyLt_ne (h (k', v') (by simp)))]
    exact ih fun f hf => h f (by simp [hf])

theorem lookup_mapErase (k : Bytes) {fs : List (Bytes × Val)} (h : Sorted fs) :
    lookup (mapErase k fs) = put (lookup fs) k none := by
  funext x
  unfold put
  induction fs with
  | nil => simp [mapErase, lookup_nil]
  | cons g fs ih =>
    obtain ⟨k', v'⟩ := g
    obtain ⟨hg, hs⟩ := List.pairwise_cons.1 h
    rw [mapErase, equiv_iff]
    by_cases hk : k' = k
    · subst hk
      simp only [decide_true, if_true]
      rw [lookup_cons]
      by_cases hx : x = k'
      · subst hx; rw [if_pos rfl]; exact lookup_none_of_lt hg
      · simp [hx]
    · simp only [hk, decide_false, Bool.false_eq_true, if_false]
      rw [lookup_cons, lookup_cons, ih hs]
      by_cases hx : x = k'
      · subst hx; simp [hk]
      · simp [hx]

theorem mem_mapErase {k : Bytes} {fs : List (Bytes × Val)} {f : Bytes × Val}
    (h : f ∈ mapErase k fs) : f ∈ fs := by
  induction fs with
  | nil => simp [mapErase] at h
  | cons g fs ih =>
    obtain ⟨k', v'⟩ := g
    rw [mapErase] at h
    split at h
    · simp [h]
    · rcases List.mem_cons.1 h with h | h
      · simp [h]
      · simp [ih h]

theorem mapErase_sorted {k : Bytes} {fs : List (Bytes × Val)} (h : Sorted fs) :
    Sorted (mapErase k fs) := by
  unfold Sorted at *
  induction fs with
  | nil => simp [mapErase]
  | cons g fs ih =>
    obtain ⟨k', v'⟩ := g
    obtain ⟨hg, hs⟩ := List.pairwise_cons.1 h
    rw [mapErase]
    split
    · exact hs
    · rw [List.pairwise_cons]
      exact ⟨fun b hb => hg b (mem_mapErase hb), ih hs⟩

theorem lookup_some_mem {fs : List (Bytes × Val)} {k : Bytes} {v : Val} (h : lookup fs k = some v) :
    (k, v) ∈ fs := by
  induction fs with
  | nil => simp [lookup_nil] at h
  | cons g fs ih =>
    obtain ⟨k', v'⟩ := g
    rw [lookup_cons] at h
    by_cases hk : k = k'
    · rw [if_pos hk] at h; cases h; simp [hk]
    · rw [if_neg hk] at h; simp [ih h]

theorem lookup_of_mem {fs : List (Bytes × Val)} {k : Bytes} {v : Val} (hs : Sorted fs)
    (h : (k, v) ∈ fs) : lookup fs k = some v := by
  unfold Sorted at hs
  induction fs with
  | nil => simp at h
  | cons g fs ih =>
    obtain ⟨k', v'⟩ := g
    obtain ⟨hg, hs⟩ := List.pairwise_cons.1 hs
    rw [lookup_cons]
    rcases List.mem_cons.1 h with h | h
    · cases h; simp
    · rw [if_neg (Ne.symm (keyLt_ne (hg _ h)))]; exact ih hs h

theorem lookup_isSome_iff {fs : List (Bytes × Val)} {k : Bytes} :
    (lookup fs k).isSome ↔ k ∈ fs.map (·.1) := by
  induction fs with
  | nil => simp [lookup_nil]
  | cons g fs ih =>
    obtain ⟨k', v'⟩ := g
    rw [lookup_cons]
    by_cases hk : k = k'
    · simp [hk]
    · simp only [hk, if_false, ih, List.map_cons, List.mem_cons, false_or]

/-- A sorted field list is determined by its lookup function. -/
theorem sorted_ext {fs gs : List (Bytes × Val)} (hf : Sorted fs) (hg : Sorted gs)
    (h : lookup fs = lookup gs) : fs = gs := by
  unfold Sorted at hf hg
  induction fs generalizing gs with
  | nil =>
    cases gs with
    | nil => rfl
    | cons g gs =>
      obtain ⟨k, v⟩ := g
      have := congrFun h k
      rw [lookup_nil, lookup_cons, if_pos rfl] at this
      cases this
  | cons f fs ih =>
    obtain ⟨k, v⟩ := f
    obtain ⟨hf1, hf2⟩ := List.pairwise_cons.1 hf
    cases gs with
    | nil =>
      have := congrFun h k
      rw [lookup_nil, lookup_cons, if_pos rfl] at this
      cases this
    | cons g gs =>
      obtain ⟨k', v'⟩ := g
      obtain ⟨hg1, hg2⟩ := List.pairwise_cons.1 hg
      have hk : k = k' := by
        refine keyLt_total (Bool.eq_false_iff.2 fun hc => ?_) (Bool.eq_false_iff.2 fun hc => ?_)
        · have := congrFun h k
          rw [lookup_cons, if_pos rfl, lookup_none_of_lt] at this
          · cases this
          · intro b hb
            rcases List.mem_cons.1 hb with rfl | hb
            · exact hc
            · exact keyLt_trans hc (hg1 _ hb)
        · have := congrFun h k'
          rw [lookup_cons (fs := gs), if_pos rfl, lookup_none_of_lt] at this
          · cases this
          · intro b hb
            rcases List.mem_cons.1 hb with rfl | hb
            · exact hc
            · exact keyLt_trans hc (hf1 _ hb)
      subst hk
      have hv := congrFun h k
      rw [lookup_cons, lookup_cons, if_pos rfl, if_pos rfl] at hv
      cases hv
      rw [ih hf2 hg2]
      funext x
      have hx := congrFun h x
      rw [lookup_cons, lookup_cons] at hx
      by_cases e : x = k
      · subst e
        rw [lookup_none_of_lt hf1, lookup_none_of_lt hg1]
      · simpa [e] using hx

theorem proper_obj {fs : List (Bytes × Val)} :
    Proper (.obj fs) ↔ Sorted fs ∧ ∀ f ∈ fs, f.1.length ≤ 65535 := by
  rw [← sorted_iff]; rfl

theorem proper_mapInsert {fs : List (Bytes × Val)} {k : Bytes} {v : Val} (h : Proper (.obj fs))
    (hk : k.length ≤ 65535) : Proper (.obj (mapInsert k v fs)) := by
  rw [proper_obj] at *
  refine ⟨mapInsert_sorted h.1, fun f hf => ?_⟩
  rcases mem_mapInsert hf with rfl | hf
  · exact hk
  · exact h.2 f hf

theorem proper_mapErase {fs : List (Bytes × Val)} {k : Bytes} (h : Proper (.obj fs)) :
    Proper (.obj (mapErase k fs)) := by
  rw [proper_obj] at *
  exact ⟨mapErase_sorted h.1, fun f hf => h.2 f (mem_mapErase hf)⟩

/-- The model's outcome `r` is what the specification demands. -/
def Refines (r : Res Val) (s : Except Exc Shape) : Prop :=
  match s with
  | .ok s' => ∃ v, r = .ok v ∧ shape v = s' ∧ Proper v
  | .error e => r = .throw e

theorem shape_obj (fs : List (Bytes × Val)) : shape (.obj fs) = .map (lookup fs) := rfl
theorem shape_arr (es : List Val) : shape (.arr es) = .seq es := rfl

theorem wf_obj_iff {fs : List (Bytes × Val)} : WFFields fs ↔ ∀ f ∈ fs, f.1.length ≤ 65535 ∧ f.2.WF := by
  induction fs with
  | nil => simp [WFFields]
  | cons f fs ih => obtain ⟨k, v⟩ := f; simp [WFFields, ih, and_assoc]

theorem wf_arr_iff {es : List Val} : WFElems es ↔ ∀ v ∈ es, v.WF := by
  induction es with
  | nil => simp [WFElems]
  | cons v es ih => simp [WFElems, ih]

/-! ### indices -/

theorem idx_nonneg (i : BitVec 64) (n : Nat) (hn : n ≤ maxElems) :
    (i.toNat ≤ n ↔ 0 ≤ i.toInt ∧ i.toInt ≤ n) ∧ (i.toNat < n ↔ 0 ≤ i.toInt ∧ i.toInt < n) ∧
    (i.toNat ≤ n → i.toInt.toNat = i.toNat) := by
  have := i.isLt
  have hm : maxElems = 2 ^ 58 := rfl
  rw [BitVec.toInt_eq_toNat_cond]
  split <;> refine ⟨?_, ?_, ?_⟩ <;> omega

theorem take_cons_drop {α : Type} (l : List α) (i : Nat) (x : α) (h : i ≤ l.length) :
    l.take i ++ x :: l.drop i = l.insertIdx i x := by
  induction l generalizing i with
  | nil => simp at h; subst h; rfl
  | cons a l ih =>
    cases i with
    | zero => rfl
    | succ i => simp [List.insertIdx_succ_cons, ← ih i (by simpa using h)]

theorem take_append_replicate {α : Type} (l : List α) (n : Nat) (d : α) :
    l.take n ++ List.replicate (n - l.length) d = (l ++ List.replicate (n - l.length) d).take n := by
  rw [List.take_append]
  congr 1
  rw [List.take_of_length_le]
  simp

/-! ### each operation -/

theorem insert_str_refines {v : Val} (hv : Proper v) (k : Bytes) (x : Val) :
    Refines (v.insert (.str k) x) (step (shape v) (.insert (.str k) x)) := by
  by_cases hk : k.length ≤ 65535
  · cases v <;> simp only [Val.insert, shape, step, hk, show ¬ k.length > 65535 by omega, if_true, if_false] <;> try exact rfl
    exact ⟨_, rfl, by rw [shape_obj, lookup_mapInsert], proper_mapInsert hv hk⟩
  · cases v <;> simp only [Val.insert, shape, step, hk, show k.length > 65535 by omega, if_true, if_false] <;> exact rfl

theorem insert_int_refines {v : Val} (hv : Proper v) (i : BitVec 64) (x : Val) :
    Refines (v.insert (.int i) x) (step (shape v) (.insert (.int i) x)) := by
  cases v <;> try exact rfl
  rename_i es
  have hl : es.length ≤ maxElems := hv
  obtain ⟨h1, h2, h3⟩ := idx_nonneg i es.length hl
  simp only [Val.insert, shape, step]
  by_cases h : i.toNat ≤ es.length
  · rw [if_neg (by omega), if_pos (h1.1 h)]
    by_cases hm : es.length < maxElems
    · rw [if_neg (by omega), if_pos hm]
      refine ⟨_, rfl, ?_, ?_⟩
      · rw [shape_arr, take_cons_drop _ _ _ h, h3 h]
      · show _ ≤ _; simp; omega
    · rw [if_pos (by omega), if_neg hm]; rfl
  · rw [if_pos (by omega), if_neg (mt h1.2 h)]; rfl

theorem insert_refines {v : Val} (hv : Proper v) (k x : Val) :
    Refines (v.insert k x) (step (shape v) (.insert k x)) := by
  cases k with
  | str k => exact insert_str_refines hv k x
  | int i => exact insert_int_refines hv i x
  | _ => cases v <;> exact rfl

theorem set_refines {v : Val} (hv : Proper v) (k x : Val) :
    Refines (v.set k x) (step (shape v) (.set k x)) := by
  cases k with
  | str k =>
    by_cases hk : k.length ≤ 65535
    · cases v <;> simp only [Val.set, shape, step, hk, show ¬ k.length > 65535 by omega, if_true, if_false] <;> try exact rfl
      rename_i fs
      rw [mapFind_eq]
      by_cases h : (lookup fs k).isSome = true
      · rw [if_pos h, if_pos h]
        exact ⟨_, rfl, by rw [shape_obj, lookup_mapInsert], proper_mapInsert hv hk⟩
      · rw [if_neg h, if_neg h]; rfl
    · cases v <;> simp only [Val.set, shape, step, hk, show k.length > 65535 by omega, if_true, if_false] <;> exact rfl
  | int i =>
    cases v <;> try exact rfl
    rename_i es
    have hl : es.length ≤ maxElems := hv
    obtain ⟨h1, h2, h3⟩ := idx_nonneg i es.length hl
    simp only [Val.set, shape, step]
    by_cases h : i.toNat < es.length
    · rw [if_neg (by omega), if_pos (h2.1 h)]
      refine ⟨_, rfl, ?_, ?_⟩
      · rw [shape_arr, h3 (by omega)]
      · show _ ≤ _; simpa using hl
    · rw [if_pos (by omega), if_neg (mt h2.2 h)]; rfl
  | _ => cases v <;> exact rfl

theorem eraseKey_refines {v : Val} (hv : Proper v) (k : Bytes) :
    Refines (v.eraseKey k) (step (shape v) (.eraseKey k)) := by
  cases v <;> try exact rfl
  exact ⟨_, rfl, by rw [shape_obj, lookup_mapErase _ (proper_obj.1 hv).1], proper_mapErase hv⟩

theorem eraseIdx_refines {v : Val} (hv : Proper v) (i : Nat) :
    Refines (v.eraseIdx i) (step (shape v) (.eraseIdx i)) := by
  cases v <;> try exact rfl
  rename_i es
  have hl : es.length ≤ maxElems := hv
  simp only [Val.eraseIdx, shape, step]
  by_cases h : i ≥ es.length
  · rw [if_pos h]
    exact ⟨_, rfl, by rw [shape_arr, List.eraseIdx_of_length_le h], hl⟩
  · rw [if_neg h]
    refine ⟨_, rfl, rfl, ?_⟩
    show _ ≤ _
    have := List.length_eraseIdx_le es i
    omega

theorem erase_refines {v : Val} (hv : Proper v) (k : Val) :
    Refines (v.erase k) (step (shape v) (.erase k)) := by
  cases k with
  | str k =>
    have h := eraseKey_refines hv k
    cases v <;> exact h
  | int i =>
    have h := eraseIdx_refines hv i.toNat
    cases v <;> try exact h
    rename_i es
    have hl : es.length ≤ maxElems := hv
    obtain ⟨h1, h2, h3⟩ := idx_nonneg i es.length hl
    simp only [shape, step] at h ⊢
    by_cases hi : i.toNat < es.length
    · rw [if_pos (h2.1 hi), h3 (by omega)]; exact h
    · rw [if_neg (mt h2.2 hi)]
      rw [List.eraseIdx_of_length_le (by omega)] at h
      exact h
  | _ => cases v <;> exact rfl

theorem pushFront_refines {v : Val} (hv : Proper v) (x : Val) :
    Refines (v.pushFront x) (step (shape v) (.pushFront x)) := by
  have h := insert_int_refines hv 0 x
  cases v <;> exact h

theorem pushBack_refines {v : Val} (hv : Proper v) (x : Val) :
    Refines (v.pushBack x) (step (shape v) (.pushBack x)) := by
  cases v <;> try exact rfl
  rename_i es
  have hl : es.length ≤ maxElems := hv
  have hm : maxElems = 2 ^ 58 := rfl
  have h := insert_int_refines hv (BitVec.ofNat 64 es.length) x
  obtain ⟨h1, h2, h3⟩ := idx_nonneg (BitVec.ofNat 64 es.length) es.length hl
  have ht : (BitVec.ofNat 64 es.length).toNat = es.length := by
    rw [BitVec.toNat_ofNat]; omega
  show Refines (Val.insert (.arr es) (.int (BitVec.ofNat 64 es.length)) x) _
  simp only [shape, step] at h ⊢
  rw [if_pos (h1.1 (by omega)), h3 (by omega), ht] at h
  simpa using h

theorem popFront_refines {v : Val} (hv : Proper v) :
    Refines v.popFront (step (shape v) .popFront) := by
  have h := eraseIdx_refines hv 0
  cases v <;> try exact h
  simp only [shape, step, List.eraseIdx_zero] at h ⊢
  exact h

theorem popBack_refines {v : Val} (hv : Proper v) :
    Refines v.popBack (step (shape v) .popBack) := by
  cases v <;> try exact rfl
  rename_i es
  have hl : es.length ≤ maxElems := hv
  have hm : maxElems = 2 ^ 58 := rfl
  have h := eraseIdx_refines hv ((es.length + (2 ^ 64 - 1)) % 2 ^ 64)
  show Refines (Val.eraseIdx (.arr es) ((es.length + (2 ^ 64 - 1)) % 2 ^ 64)) _
  simp only [shape, step] at h ⊢
  have : es.eraseIdx ((es.length + (2 ^ 64 - 1)) % 2 ^ 64) = es.dropLast := by
    by_cases he : es = []
    · subst he; rfl
    · have := List.length_pos_iff.2 he
      rw [show (es.length + (2 ^ 64 - 1)) % 2 ^ 64 = es.length - 1 by omega]
      rw [List.eraseIdx_length_sub_one]
  rwa [this] at h

theorem clear_refines {v : Val} : Refines v.clear (step (shape v) .clear) := by
  cases v <;> try exact rfl
  · exact ⟨_, rfl, rfl, Nat.zero_le _⟩
  · exact ⟨_, rfl, rfl, by simp [Proper]⟩

theorem resize_refines {v : Val} (n : Nat) (d : Val) :
    Refines (v.resize n d) (step (shape v) (.resize n d)) := by
  cases v <;> try exact rfl
  rename_i es
  simp only [Val.resize, shape, step]
  by_cases h : n ≤ maxElems
  · rw [if_neg (by omega), if_pos h]
    refine ⟨_, rfl, by rw [shape_arr, take_append_replicate], ?_⟩
    show _ ≤ _; rw [take_append_replicate]; simp; omega
  · rw [if_pos (by omega), if_neg h]; rfl

theorem lastPair_cons (k : Bytes) (x : Val) (ps : List (Val × Val)) (j : Bytes) :
    lastPair ((.str k, x) :: ps) j = (lastPair ps j).or (if j = k then some x else none) := by
  unfold lastPair
  rw [List.reverse_cons, List.find?_append]
  cases hf : (ps.reverse.find? fun p => match p.1 with | .str k' => k' == j | _ => false) with
  | some p => simp
  | none =>
    by_cases h : k = j
    · simp [h]
    · simp [h, Ne.symm h]

theorem keyError_str (k : Bytes) :
    keyError (.str k) = if k.length ≤ 65535 then none else some .invalidArgument := rfl

theorem injectLoop_refines (ps : List (Val × Val)) : ∀ {fs : List (Bytes × Val)}, Proper (.obj fs) →
    Refines (Val.injectLoop (.obj fs) (ps.flatMap fun p => [p.1, p.2])) (step (shape (.obj fs)) (.inject ps)) := by
  induction ps with
  | nil =>
    intro fs h
    exact ⟨_, rfl, by simp [shape, lastPair], h⟩
  | cons p ps ih =>
    intro fs h
    obtain ⟨k, x⟩ := p
    have hl : Val.injectLoop (.obj fs) (((k, x) :: ps).flatMap fun p => [p.1, p.2]) =
        (Val.insert (.obj fs) k x).bind fun v => Val.injectLoop v (ps.flatMap fun p => [p.1, p.2]) := by
      simp [Val.injectLoop]
    rw [hl]
    simp only [step, shape, List.findSome?_cons]
    cases k with
    | str k =>
      simp only [keyError_str, Val.insert]
      by_cases hk : k.length ≤ 65535
      · rw [if_pos hk, if_neg (by omega)]
        simp only [Res.bind]
        have hi := ih (fs := mapInsert k x fs) (proper_mapInsert h hk)
        simp only [step, shape, lookup_mapInsert] at hi
        cases he : (ps.findSome? fun p => keyError p.1) with
        | some e => rw [he] at hi; exact hi
        | none =>
          rw [he] at hi
          obtain ⟨v, h1, h2, h3⟩ := hi
          refine ⟨v, h1, ?_, h3⟩
          rw [h2]
          congr 1
          funext j
          rw [lastPair_cons, put, Option.or_assoc]
          congr 1
          by_cases hj : j = k
          · subst hj; simp
          · simp [hj]
      · rw [if_neg hk, if_pos (by omega)]; rfl
    | _ => rfl

theorem projectLoop_spec (fs : List (Bytes × Val)) (hf : Proper (.obj fs)) (ks : List Bytes) :
    ∀ gs, Proper (.obj gs) → ∃ rs, Val.projectLoop (.obj fs) (.obj gs) ks = .ok (.obj rs) ∧
      Proper (.obj rs) ∧ (lookup rs = fun k => if k ∈ ks then (lookup fs k).or (lookup gs k) else lookup gs k) := by
  induction ks with
  | nil => intro gs hg; exact ⟨gs, rfl, hg, by simp⟩
  | cons k ks ih =>
    intro gs hg
    simp only [Val.projectLoop, Val.hasKey, Val.get, Res.bind, mapFind_eq]
    by_cases h : (lookup fs k).isSome = true
    · rw [if_pos h]
      obtain ⟨x, hx⟩ := Option.isSome_iff_exists.1 h
      have hk : k.length ≤ 65535 := (proper_obj.1 hf).2 _ (lookup_some_mem hx)
      simp only [Val.insert, show ¬ k.length > 65535 by omega, if_false]
      obtain ⟨rs, h1, h2, h3⟩ := ih (mapInsert k ((lookup fs k).getD .null) gs) (proper_mapInsert hg hk)
      refine ⟨rs, h1, h2, ?_⟩
      rw [h3, lookup_mapInsert]
      funext j
      simp only [put, hx, Option.getD_some, List.mem_cons]
      by_cases hj : j = k
      · subst hj; simp [hx]
      · simp [hj]
    · rw [if_neg h]
      obtain ⟨rs, h1, h2, h3⟩ := ih gs hg
      refine ⟨rs, h1, h2, ?_⟩
      rw [h3]
      funext j
      by_cases hj : j = k
      · subst hj
        have : lookup fs j = none := by simpa using h
        simp [this]
      · simp [hj]

theorem project_refines {v : Val} (hv : Proper v) (ks : List Bytes) :
    Refines (v.project ks) (step (shape v) (.project ks)) := by
  cases v <;> try exact rfl
  rename_i fs
  obtain ⟨rs, h1, h2, h3⟩ := projectLoop_spec fs hv ks [] (by simp [Proper])
  refine ⟨_, h1, ?_, h2⟩
  rw [shape_obj, h3]; simp [lookup_nil]

/-- Every operation does what the specification says. -/
theorem run_refines {v : Val} (hv : Proper v) (op : HOp) : Refines (op.run v) (step (shape v) op) := by
  cases op with
  | insert k x => exact insert_refines hv k x
  | set k x => exact set_refines hv k x
  | erase k => exact erase_refines hv k
  | eraseKey k => exact eraseKey_refines hv k
  | eraseIdx i => exact eraseIdx_refines hv i
  | pushFront x => exact pushFront_refines hv x
  | pushBack x => exact pushBack_refines hv x
  | popFront => exact popFront_refines hv
  | popBack => exact popBack_refines hv
  | clear => exact clear_refines
  | resize n d => exact resize_refines n d
  | inject ps =>
    cases v <;> try exact rfl
    exact injectLoop_refines ps hv
  | project ks => exact project_refines hv ks

theorem history_refines (ops : List HOp) : ∀ {v : Val}, Proper v →
    shape (runHistory v ops).1 = (history (shape v) ops).1 ∧
    (runHistory v ops).2 = (history (shape v) ops).2 ∧ Proper (runHistory v ops).1 := by
  induction ops with
  | nil => intro v hv; exact ⟨rfl, rfl, hv⟩
  | cons op ops ih =>
    intro v hv
    have h := run_refines hv op
    unfold Refines at h
    simp only [runHistory, history]
    cases hs : step (shape v) op with
    | ok s' =>
      rw [hs] at h
      obtain ⟨w, h1, h2, h3⟩ := h
      obtain ⟨i1, i2, i3⟩ := ih h3
      simp only [h1]
      subst h2
      exact ⟨i1, by rw [i2], i3⟩
    | error e =>
      rw [hs] at h
      simp only at h
      obtain ⟨i1, i2, i3⟩ := ih hv
      simp only [h]
      exact ⟨i1, by rw [i2], i3⟩


/-! ### nested well-formedness is preserved -/

theorem wf_obj {fs : List (Bytes × Val)} :
    (Val.obj fs).WF ↔ Sorted fs ∧ ∀ f ∈ fs, f.1.length ≤ 65535 ∧ f.2.WF := by
  rw [Val.WF, sorted_iff, wf_obj_iff]

theorem wf_arr {es : List Val} : (Val.arr es).WF ↔ ∀ v ∈ es, v.WF := by
  rw [Val.WF, wf_arr_iff]

theorem wf_mapInsert {fs : List (Bytes × Val)} {k : Bytes} {x : Val} (h : (Val.obj fs).WF)
    (hx : x.WF) (hk : k.length ≤ 65535) : (Val.obj (mapInsert k x fs)).WF := by
  rw [wf_obj] at *
  refine ⟨mapInsert_sorted h.1, fun f hf => ?_⟩
  rcases mem_mapInsert hf with rfl | hf
  · exact ⟨hk, hx⟩
  · exact h.2 f hf

theorem wf_mapErase {fs : List (Bytes × Val)} {k : Bytes} (h : (Val.obj fs).WF) :
    (Val.obj (mapErase k fs)).WF := by
  rw [wf_obj] at *
  exact ⟨mapErase_sorted h.1, fun f hf => h.2 f (mem_mapErase hf)⟩

theorem wf_insert {v k x w : Val} (h : v.WF) (hx : x.WF) (hr : v.insert k x = .ok w) : w.WF := by
  cases k <;> simp only [Val.insert, reduceCtorEq] at hr
  · cases v <;> simp only [reduceCtorEq] at hr
    rename_i es
    split at hr
    · cases hr
    · split at hr
      · cases hr
      · cases hr
        rw [wf_arr] at *
        intro y hy
        rcases List.mem_append.1 hy with hy | hy
        · exact h y (List.mem_of_mem_take hy)
        · rcases List.mem_cons.1 hy with rfl | hy
          · exact hx
          · exact h y (List.mem_of_mem_drop hy)
  · split at hr
    · cases hr
    · rename_i hk
      cases v <;> simp only [reduceCtorEq] at hr
      cases hr
      exact wf_mapInsert h hx (by omega)

theorem wf_set {v k x w : Val} (h : v.WF) (hx : x.WF) (hr : v.set k x = .ok w) : w.WF := by
  cases k <;> simp only [Val.set, reduceCtorEq] at hr
  · cases v <;> simp only [reduceCtorEq] at hr
    split at hr
    · cases hr
    · cases hr
      rw [wf_arr] at *
      intro y hy
      rcases List.mem_or_eq_of_mem_set hy with hy | rfl
      · exact h y hy
      · exact hx
  · split at hr
    · cases hr
    · rename_i hk
      cases v <;> simp only [reduceCtorEq] at hr
      split at hr
      · cases hr
        exact wf_mapInsert h hx (by omega)
      · cases hr

theorem wf_eraseKey {v w : Val} {k : Bytes} (h : v.WF) (hr : v.eraseKey k = .ok w) : w.WF := by
  cases v <;> simp only [Val.eraseKey, reduceCtorEq] at hr
  cases hr; exact wf_mapErase h

theorem wf_eraseIdx {v w : Val} {i : Nat} (h : v.WF) (hr : v.eraseIdx i = .ok w) : w.WF := by
  cases v <;> simp only [Val.eraseIdx, reduceCtorEq] at hr
  split at hr
  · cases hr; exact h
  · cases hr
    rw [wf_arr] at *
    exact fun y hy => h y (List.mem_of_mem_eraseIdx hy)

theorem wf_injectLoop (ps : List (Val × Val)) : ∀ {v w : Val}, v.WF → (∀ p ∈ ps, p.2.WF) →
    v.injectLoop (ps.flatMap fun p => [p.1, p.2]) = .ok w → w.WF := by
  induction ps with
  | nil => intro v w h _ hr; cases hr; exact h
  | cons p ps ih =>
    intro v w h hp hr
    have hl : Val.injectLoop v ((p :: ps).flatMap fun p => [p.1, p.2]) =
        (v.insert p.1 p.2).bind fun v => Val.injectLoop v (ps.flatMap fun p => [p.1, p.2]) := by
      simp [Val.injectLoop]
    rw [hl] at hr
    obtain ⟨u, h1, h2⟩ := Res.bind_eq_ok.1 hr
    exact ih (wf_insert h (hp p (by simp)) h1) (fun q hq => hp q (by simp [hq])) h2

theorem wf_projectLoop (fs : List (Bytes × Val)) (hf : (Val.obj fs).WF) (ks : List Bytes) : ∀ {v w : Val},
    v.WF → Val.projectLoop (.obj fs) v ks = .ok w → w.WF := by
  induction ks with
  | nil => intro v w h hr; cases hr; exact h
  | cons k ks ih =>
    intro v w h hr
    simp only [Val.projectLoop, Val.hasKey, Val.get, Res.bind] at hr
    split at hr
    · rename_i hk
      obtain ⟨u, h1, h2⟩ := Res.bind_eq_ok.1 hr
      refine ih (wf_insert h ?_ h1) h2
      rw [mapFind_eq] at hk ⊢
      obtain ⟨x, hx⟩ := Option.isSome_iff_exists.1 hk
      rw [hx]
      exact ((wf_obj.1 hf).2 _ (lookup_some_mem hx)).2
    · exact ih h hr

theorem wf_run {v w : Val} (h : v.WF) {op : HOp} (ha : argsWF op) (hr : op.run v = .ok w) : w.WF := by
  cases op with
  | insert k x => exact wf_insert h ha hr
  | set k x => exact wf_set h ha hr
  | erase k =>
    cases k <;> simp only [HOp.run, Val.erase, reduceCtorEq] at hr
    · exact wf_eraseIdx h hr
    · exact wf_eraseKey h hr
  | eraseKey k => exact wf_eraseKey h hr
  | eraseIdx i => exact wf_eraseIdx h hr
  | pushFront x => exact wf_insert (k := .int 0) h ha hr
  | pushBack x =>
    obtain ⟨n, _, h2⟩ := Res.bind_eq_ok.1 hr
    exact wf_insert h ha h2
  | popFront => exact wf_eraseIdx h hr
  | popBack =>
    obtain ⟨n, _, h2⟩ := Res.bind_eq_ok.1 hr
    exact wf_eraseIdx h h2
  | clear =>
    cases v <;> simp only [HOp.run, Val.clear, reduceCtorEq] at hr <;> cases hr
    · simp [wf_arr]
    · simp [wf_obj, Sorted]
  | resize n d =>
    cases v <;> simp only [HOp.run, Val.resize, reduceCtorEq] at hr
    split at hr
    · cases hr
    · cases hr
      rw [wf_arr] at *
      intro y hy
      rcases List.mem_append.1 hy with hy | hy
      · exact h y (List.mem_of_mem_take hy)
      · rw [(List.mem_replicate.1 hy).2]; exact ha
  | inject ps =>
    cases v <;> simp only [HOp.run, Val.inject, reduceCtorEq] at hr
    exact wf_injectLoop ps h ha hr
  | project ks =>
    cases v <;> simp only [HOp.run, Val.project, reduceCtorEq] at hr
    exact wf_projectLoop _ h ks (by simp [wf_obj, Sorted]) hr

theorem wf_history (ops : List HOp) : ∀ {v : Val}, v.WF → (∀ op ∈ ops, argsWF op) →
    (runHistory v ops).1.WF := by
  induction ops with
  | nil => intro v h _; exact h
  | cons op ops ih =>
    intro v h ha
    have ha' : ∀ op ∈ ops, argsWF op := fun o ho => ha o (by simp [ho])
    simp only [runHistory]
    cases hr : op.run v with
    | ok w => exact ih (wf_run h (ha op (by simp)) hr) ha'
    | throw e => exact ih h ha'
    | ub => exact h

theorem mapPos_present {fs : List (Bytes × Val)} {k : Bytes} {x : Val} (h : lookup fs k = some x) :
    ∃ hi : mapPos k fs < fs.length, fs[mapPos k fs] = (k, x) := by
  induction fs with
  | nil => simp [lookup_nil] at h
  | cons f fs ih =>
    obtain ⟨k', v'⟩ := f
    rw [lookup_cons] at h
    simp only [mapPos, equiv_iff]
    by_cases hk : k = k'
    · subst hk; rw [if_pos rfl] at h; cases h; simp
    · rw [if_neg hk] at h
      obtain ⟨hi, he⟩ := ih h
      simp [Ne.symm hk, he, hi]

theorem mapPos_absent {fs : List (Bytes × Val)} {k : Bytes} (h : lookup fs k = none) :
    mapPos k fs = fs.length := by
  induction fs with
  | nil => rfl
  | cons f fs ih =>
    obtain ⟨k', v'⟩ := f
    rw [lookup_cons] at h
    simp only [mapPos, equiv_iff]
    by_cases hk : k = k'
    · rw [if_pos hk] at h; cases h
    · rw [if_neg hk] at h
      simp [Ne.symm hk, ih h]

end Dart
