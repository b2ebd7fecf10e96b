import Verif.Spec.Variant

namespace Dart.Vrt
open Dart.Opt (Obj Fate)
open Dart.Spec.Vrt

variable {α : Type}

theorem dispatch_eq (n b i : Nat) (hb : b ≤ i) : dispatch n b i = if i < n then some i else none := by
  induction h : n - b using Nat.strongRecOn generalizing b with
  | _ m ih =>
    rw [dispatch]
    by_cases h1 : n ≤ b
    · rw [if_pos h1, if_neg (by omega)]
    · rw [if_neg h1]
      by_cases h2 : b ≤ i ∧ i < b + 32
      · rw [if_pos h2]
      · rw [if_neg h2]
        exact ih (n - (b + 32)) (by omega) (b + 32) (by omega) rfl

theorem dispatch_zero {n i : Nat} (h : i < n) : dispatch n 0 i = some i := by
  rw [dispatch_eq n 0 i (Nat.zero_le _), if_pos h]

/-- The memory that goes with a content. -/
def conc : Content α → Cell α
  | none => ⟨npos32, none⟩
  | some (k, x) => ⟨k, some (k, x)⟩

/-- The alternative exists, and there are not too many. -/
def Fits (t : Traits) (c : Content α) : Prop := ∀ k x, c = some (k, x) → k < t.count

theorem fits_none (t : Traits) : Fits t (none : Content α) := by intro k x h; simp at h

theorem fits_some {t : Traits} {k : Nat} (h : k < t.count) (x : Obj α) : Fits t (some (k, x)) := by
  intro l y he
  simp only [Option.some.injEq, Prod.mk.injEq] at he
  omega

theorem fits_lt {t : Traits} {k : Nat} {x : Obj α} (h : Fits t (some (k, x))) : k < t.count := h k x rfl

theorem empty_conc : (Cell.empty : Cell α) = conc none := rfl

theorem valueless_none : (conc (none : Content α)).valueless = true := by simp [conc, Cell.valueless]

theorem valueless_some {t : Traits} (ht : t.count ≤ npos32) {k : Nat} {x : Obj α} (h : k < t.count) :
    (conc (some (k, x))).valueless = false := by
  simp only [conc, Cell.valueless, beq_eq_false_iff_ne, ne_eq]
  omega

theorem index_some {t : Traits} (ht : t.count ≤ npos32) {k : Nat} {x : Obj α} (h : k < t.count) :
    (conc (some (k, x))).indexOf = k := by
  simp only [Cell.indexOf, valueless_some ht h, Bool.false_eq_true, if_false]
  rfl

theorem index_none : (conc (none : Content α)).indexOf = npos64 := by
  simp only [Cell.indexOf, valueless_none, if_true]

theorem npos_lt : npos32 < npos64 := by decide

theorem index_eq {t : Traits} (ht : t.count ≤ npos32) {c : Content α} (hc : Fits t c) {k : Nat} (hk : k < t.count) :
    (conc c).indexOf = k ↔ c.map (·.1) = some k := by
  cases c with
  | none =>
    rw [index_none]
    have := npos_lt
    simp only [Option.map_none, reduceCtorEq, iff_false]
    omega
  | some p =>
    obtain ⟨l, x⟩ := p
    rw [index_some ht (fits_lt hc)]
    simp

theorem getAlt_some (k : Nat) (x : Obj α) : (conc (some (k, x))).getAlt k = some x := by simp [conc, Cell.getAlt]

theorem destroy_conc {t : Traits} (ht : t.count ≤ npos32) {c : Content α} (hc : Fits t c) :
    t.destroy (conc c) = some (conc none) := by
  cases c with
  | none =>
    simp only [Traits.destroy, valueless_none, if_true]
    rfl
  | some p =>
    obtain ⟨k, x⟩ := p
    have hk := fits_lt hc
    simp only [Traits.destroy, valueless_some ht hk, Bool.false_eq_true, if_false, index_some ht hk, dispatch_zero hk,
      Option.bind_some, getAlt_some, Option.map_some]
    rfl

theorem spill_none : (conc (none : Content α)).spill = 0 := rfl

theorem ends_eq (t : Traits) (m : Mode) (k : Nat) (f : Fate) : ends t m k f = t.fate m k f := by cases m <;> rfl

theorem used_conc (m : Mode) (k : Nat) (x : Obj α) (e : Fate) :
    (conc (some (k, x))).used m k e = conc (remains m (some (k, x)) e) := by
  cases m <;> cases e <;> rfl

/-- What `generic_construct` amounts to. -/
def construct (t : Traits) (m : Mode) (b : Content α) (f : Fate) : Content α × Content α × Bool :=
  match b with
  | none => (none, none, true)
  | some (k, x) => match t.fate m k f with
    | .returns => (some (k, x), remains m (some (k, x)) .returns, true)
    | .throws p q => (none, remains m (some (k, x)) (.throws p q), false)

theorem genericConstruct_conc {t : Traits} (ht : t.count ≤ npos32) (m : Mode) {a b : Content α} (ha : Fits t a)
    (hb : Fits t b) (f : Fate) :
    t.genericConstruct m (conc a) (conc b) f =
      some (conc (construct t m b f).1, conc (construct t m b f).2.1, (construct t m b f).2.2) := by
  simp only [Traits.genericConstruct, destroy_conc ht ha, Option.bind_some]
  cases b with
  | none => simp [valueless_none, construct]
  | some p =>
    obtain ⟨k, x⟩ := p
    have hk := fits_lt hb
    simp only [valueless_some ht hk, Bool.false_eq_true, if_false, index_some ht hk, dispatch_zero hk, Option.bind_some,
      getAlt_some, construct, used_conc]
    cases t.fate m k f <;> rfl

theorem fits_construct {t : Traits} (m : Mode) {b : Content α} (hb : Fits t b) (f : Fate) :
    Fits t (construct t m b f).1 ∧ Fits t (construct t m b f).2.1 := by
  cases b with
  | none => exact ⟨fits_none t, fits_none t⟩
  | some p =>
    obtain ⟨k, x⟩ := p
    have hk := fits_lt hb
    have hr : ∀ e, Fits t (remains m (some (k, x)) e) := by
      intro e
      cases m with
      | copy => exact hb
      | move => exact fits_some hk _
    simp only [construct]
    cases t.fate m k f with
    | returns => exact ⟨hb, hr .returns⟩
    | throws p q => exact ⟨fits_none t, hr (.throws p q)⟩

theorem fits_remains {t : Traits} (m : Mode) {b : Content α} (hb : Fits t b) (f : Fate) : Fits t (remains m b f) := by
  cases m with
  | copy => exact hb
  | move => cases b with
    | none => exact fits_none t
    | some p => exact fits_some (fits_lt (k := p.1) (x := p.2) hb) _

theorem emplace_conc {t : Traits} (ht : t.count ≤ npos32) {c : Content α} (hc : Fits t c) (k : Nat) (x : Obj α) (e : Fate) :
    t.emplace (conc c) k x e =
      some (match e with | .returns => (conc (some (k, x)), true) | .throws _ _ => (conc none, false)) := by
  simp only [Traits.emplace, destroy_conc ht hc, Option.bind_some]
  cases e <;> rfl

theorem assignAlt_conc {t : Traits} (ht : t.count ≤ npos32) {c : Content α} (hc : Fits t c) {k : Nat} (hk : k < t.count)
    (x : Obj α) (safe : Bool) (f g : Fate) :
    t.assignAlt (conc c) k x safe f g = some (conc (give t c k x safe f).1, (give t c k x safe f).2) := by
  simp only [Traits.assignAlt, give]
  by_cases h : c.map (·.1) = some k
  · rw [if_pos ((index_eq ht hc hk).mpr h), if_pos h]
    cases c with
    | none => simp at h
    | some p =>
      obtain ⟨l, y⟩ := p
      simp only [Option.map_some, Option.some.injEq] at h
      subst h
      rw [getAlt_some]
      cases f <;> rfl
  · rw [if_neg (fun h' => h ((index_eq ht hc hk).mp h')), if_neg h]
    cases safe with
    | true => simp only [Bool.true_or, if_true, emplace_conc ht hc]
    | false =>
      cases hm : t.moveSafe k with
      | true =>
        cases f with
        | returns =>
          simp only [Bool.not_true, Bool.or_false, Bool.false_eq_true, if_false, Traits.fate, Traits.safe, hm, if_true,
            emplace_conc ht hc]
        | throws p q => simp
      | false => cases f <;> simp [emplace_conc ht hc]

theorem fits_give {t : Traits} {c : Content α} (hc : Fits t c) {k : Nat} (hk : k < t.count) (x : Obj α) (safe : Bool)
    (f : Fate) : Fits t (give t c k x safe f).1 := by
  simp only [give]
  split
  · cases f <;> exact fits_some hk _
  · split
    · exact fits_some hk _
    · cases f with
      | returns => exact fits_some hk _
      | throws p q =>
        dsimp only
        split
        · exact hc
        · exact fits_none t

theorem moveNothrow_conc {t : Traits} (ht : t.count ≤ npos32) {c : Content α} (hc : Fits t c) :
    t.moveNothrow (conc c) = some (movable t c) := by
  cases c with
  | none => simp [Traits.moveNothrow, valueless_none, movable]
  | some p =>
    obtain ⟨k, x⟩ := p
    have hk := fits_lt hc
    simp [Traits.moveNothrow, valueless_some ht hk, index_some ht hk, movable, hk]

theorem construct_move (t : Traits) (b : Content α) (f : Fate) :
    construct t .move b f = match moving t b f with
      | .returns => (b, remains .move b .returns, true)
      | .throws p q => (none, remains .move b (.throws p q), false) := by
  cases b with
  | none => simp [construct, moving, movable, remains]
  | some p =>
    obtain ⟨k, x⟩ := p
    simp only [construct, moving, movable, Option.all_some, Traits.fate, Traits.safe]
    by_cases h : t.moveSafe k = true
    · simp [h]
    · simp only [h, Bool.false_eq_true, if_false]

theorem exchange_conc {t : Traits} (ht : t.count ≤ npos32) {a b : Content α} (ha : Fits t a) (hb : Fits t b)
    (f g h : Fate) :
    t.exchange (conc a) (conc b) f g h =
      some ((conc (exchanged t a b f g h).1.1, conc (exchanged t a b f g h).1.2), 0, (exchanged t a b f g h).2) := by
  have hra := fun e => fits_remains .move ha e
  have hrb := fun e => fits_remains .move hb e
  simp only [Traits.exchange, empty_conc, genericConstruct_conc ht .move (fits_none t) hb, Option.bind_some]
  rw [construct_move]
  simp only [exchanged]
  cases hf : moving t b f with
  | throws p q => simp [destroy_conc ht (fits_none t), spill_none]
  | returns =>
    simp only [Bool.not_true, Bool.false_eq_true, if_false, genericConstruct_conc ht .move (hrb _) ha, Option.bind_some]
    rw [construct_move]
    cases hg : moving t a g with
    | throws p q =>
      simp only [Bool.not_false, if_true, moveNothrow_conc ht hb, Option.bind_some]
      cases hm : movable t b with
      | true =>
        simp only [if_true, genericConstruct_conc ht .move (fits_none t) hb, Option.map_some, Option.bind_some]
        rw [construct_move]
        simp [moving, hm, destroy_conc ht (hrb _), spill_none]
      | false => simp [destroy_conc ht hb, spill_none]
    | returns =>
      simp only [Bool.not_true, Bool.false_eq_true, if_false, genericConstruct_conc ht .move (hra _) hb, Option.bind_some]
      rw [construct_move]
      cases hh : moving t b h with
      | throws p q => simp [destroy_conc ht (hrb _), spill_none]
      | returns => simp [destroy_conc ht (hrb _), spill_none]

theorem fits_exchanged {t : Traits} {a b : Content α} (ha : Fits t a) (hb : Fits t b) (f g h : Fate) :
    Fits t (exchanged t a b f g h).1.1 ∧ Fits t (exchanged t a b f g h).1.2 := by
  simp only [exchanged]
  split
  · dsimp only
    exact ⟨ha, fits_remains .move hb _⟩
  · dsimp only
    refine ⟨fits_remains .move ha _, ?_⟩
    split
    · exact hb
    · exact fits_none t
  · exact ⟨fits_none t, ha⟩
  · exact ⟨hb, ha⟩

theorem flip_conc {t : Traits} (ht : t.count ≤ npos32) {a b : Content α} (ha : Fits t a) (hb : Fits t b) (f g h : Fate) :
    ((t.moveNothrow (conc a)).bind fun p => (t.moveNothrow (conc b)).bind fun q =>
      if p && !q then (t.exchange (conc b) (conc a) f g h).map fun r => ((r.1.2, r.1.1), r.2)
      else t.exchange (conc a) (conc b) f g h) =
    some ((conc (swapped.flip t a b f g h).1.1, conc (swapped.flip t a b f g h).1.2), 0, (swapped.flip t a b f g h).2) := by
  simp only [moveNothrow_conc ht ha, moveNothrow_conc ht hb, Option.bind_some, swapped.flip]
  cases movable t a && !movable t b with
  | true => simp [exchange_conc ht hb ha]
  | false => simp [exchange_conc ht ha hb]

theorem swap_conc {t : Traits} (ht : t.count ≤ npos32) {a b : Content α} (ha : Fits t a) (hb : Fits t b) (f g h : Fate) :
    t.swap (conc a) (conc b) f g h =
      some ((conc (swapped t a b f g h).1.1, conc (swapped t a b f g h).1.2), 0, (swapped t a b f g h).2) := by
  have hfl := flip_conc ht ha hb f g h
  have hn := npos_lt
  cases a with
  | none =>
    cases b with
    | none => simp [Traits.swap, valueless_none, swapped]
    | some q =>
      obtain ⟨l, y⟩ := q
      have hl := fits_lt hb
      have hne : npos64 ≠ l := by omega
      simp only [Traits.swap, valueless_some ht hl, Bool.and_false, Bool.false_eq_true, if_false, index_none,
        index_some ht hl, if_neg hne, swapped]
      exact hfl
  | some p =>
    obtain ⟨k, x⟩ := p
    have hk := fits_lt ha
    cases b with
    | none =>
      have hne : k ≠ npos64 := by omega
      simp only [Traits.swap, valueless_some ht hk, Bool.false_and, Bool.false_eq_true, if_false, index_none,
        index_some ht hk, if_neg hne, swapped]
      exact hfl
    | some q =>
      obtain ⟨l, y⟩ := q
      have hl := fits_lt hb
      simp only [Traits.swap, valueless_some ht hk, Bool.false_and, Bool.false_eq_true, if_false, index_some ht hl,
        index_some ht hk, swapped]
      by_cases he : k = l
      · subst he
        simp only [if_true, dispatch_zero hk, Option.bind_some, getAlt_some, Option.map_some]
        cases f <;> rfl
      · rw [if_neg he, if_neg he]
        exact hfl

theorem fits_flip {t : Traits} {a b : Content α} (ha : Fits t a) (hb : Fits t b) (f g h : Fate) :
    Fits t (swapped.flip t a b f g h).1.1 ∧ Fits t (swapped.flip t a b f g h).1.2 := by
  simp only [swapped.flip]
  split
  · exact ⟨(fits_exchanged hb ha f g h).2, (fits_exchanged hb ha f g h).1⟩
  · exact fits_exchanged ha hb f g h

theorem fits_swapped {t : Traits} {a b : Content α} (ha : Fits t a) (hb : Fits t b) (f g h : Fate) :
    Fits t (swapped t a b f g h).1.1 ∧ Fits t (swapped t a b f g h).1.2 := by
  have hfl := fits_flip ha hb f g h
  cases a with
  | none =>
    cases b with
    | none => exact ⟨fits_none t, fits_none t⟩
    | some q => exact hfl
  | some p =>
    cases b with
    | none => exact hfl
    | some q =>
      simp only [swapped]
      split
      · have hk := fits_lt (k := p.1) (x := p.2) ha
        cases f <;> exact ⟨fits_some hk _, fits_some hk _⟩
      · exact hfl

/-! ### Programs -/

/-- The world that goes with the contents of the variables. -/
def lift (s : Vars α) : World α := ⟨s.map (Option.map conc), 0⟩

theorem var_lift (s : Vars α) (i : Nat) : (lift s).var i = (s[i]?).join.map conc := by
  simp only [lift, World.var, List.getElem?_map]
  cases s[i]? with
  | none => rfl
  | some o => cases o <;> rfl

theorem put_lift (s : Vars α) (i : Nat) (c : Content α) : (lift s).put i (conc c) = lift (s.set i (some c)) := by
  simp [lift, World.put, List.map_set]

/-- All alternatives exist. -/
def AllFit (t : Traits) (s : Vars α) : Prop := ∀ c, some c ∈ s → Fits t c

theorem get_of_join {s : Vars α} {i : Nat} {c : Content α} (h : (s[i]?).join = some c) : s[i]? = some (some c) := by
  cases hs : s[i]? with
  | none => rw [hs] at h; simp at h
  | some v => rw [hs] at h; simp only [Option.join_some] at h; rw [h]

theorem AllFit.get {t : Traits} {s : Vars α} (hs : AllFit t s) {i : Nat} {c : Content α} (h : (s[i]?).join = some c) :
    Fits t c := hs c (List.mem_of_getElem? (get_of_join h))

theorem AllFit.set {t : Traits} {s : Vars α} (hs : AllFit t s) (i : Nat) {c : Content α} (hc : Fits t c) :
    AllFit t (s.set i (some c)) := by
  intro d hd
  rcases List.mem_or_eq_of_mem_set hd with h | h
  · exact hs d h
  · simp only [Option.some.injEq] at h
    rw [h]; exact hc

theorem AllFit.setNone {t : Traits} {s : Vars α} (hs : AllFit t s) (i : Nat) : AllFit t (s.set i none) := by
  intro d hd
  rcases List.mem_or_eq_of_mem_set hd with h | h
  · exact hs d h
  · simp at h

theorem AllFit.snoc {t : Traits} {s : Vars α} (hs : AllFit t s) {c : Content α} (hc : Fits t c) :
    AllFit t (s ++ [some c]) := by
  intro d hd
  simp only [List.mem_append, List.mem_singleton, Option.some.injEq] at hd
  rcases hd with h | h
  · exact hs d h
  · rw [h]; exact hc

theorem AllFit.snocNone {t : Traits} {s : Vars α} (hs : AllFit t s) : AllFit t (s ++ [none]) := by
  intro d hd
  simp only [List.mem_append, List.mem_singleton, reduceCtorEq, or_false] at hd
  exact hs d hd

theorem set_same {s : Vars α} {i : Nat} {c : Content α} (h : (s[i]?).join = some c) : s.set i (some c) = s := by
  have := get_of_join h
  obtain ⟨hi, he⟩ := List.getElem?_eq_some_iff.mp this
  rw [← he]
  exact List.set_getElem_self hi

/-- What a call of the standard's machine amounts to in memory. -/
def Follows (t : Traits) (r : Option (World α × Answer α)) (q : Option (Vars α × Answer α)) : Prop :=
  match q with
  | none => r = none
  | some (s', a) => r = some (lift s', a) ∧ AllFit t s'

theorem told_eq (b : Bool) : (Vrt.told b : Answer α) = if b then .done else .failed := rfl

theorem mapM_var (s : Vars α) (is : List Nat) :
    is.mapM (lift s).var = (is.mapM fun i => (s[i]?).join).map (List.map conc) := by
  induction is with
  | nil => rfl
  | cons i is ih =>
    simp only [List.mapM_cons, var_lift, ih]
    cases (s[i]?).join with
    | none => rfl
    | some c => cases is.mapM fun i => (s[i]?).join <;> rfl

theorem mapM_mem {s : Vars α} {is : List Nat} {cs : List (Content α)} (h : (is.mapM fun i => (s[i]?).join) = some cs) :
    ∀ c ∈ cs, some c ∈ s := by
  induction is generalizing cs with
  | nil =>
    simp only [List.mapM_nil, Option.pure_def, Option.some.injEq] at h
    rw [← h]; simp
  | cons i is ih =>
    simp only [List.mapM_cons] at h
    cases hi : (s[i]?).join with
    | none => rw [hi] at h; simp at h
    | some c =>
      rw [hi] at h
      cases hr : is.mapM fun i => (s[i]?).join with
      | none => rw [hr] at h; simp at h
      | some ds =>
        rw [hr] at h
        simp only [Option.bind_eq_bind, Option.bind_some, Option.pure_def, Option.some.injEq] at h
        rw [← h]
        intro d hd
        rcases List.mem_cons.mp hd with h1 | h1
        · rw [h1]; exact List.mem_of_getElem? (get_of_join hi)
        · exact ih hr d h1

theorem visit_conc {t : Traits} (ht : t.count ≤ npos32) (cs : List (Content α)) (hc : ∀ c ∈ cs, Fits t c) :
    t.visit (cs.map conc) =
      some (match cs.mapM (m := Option) (fun (c : Option (Nat × Obj α)) => c) with
        | some xs => .called xs
        | none => .badAccess) := by
  have h1 : ((cs.map conc).any Cell.valueless = true → cs.mapM (m := Option) (fun (c : Option (Nat × Obj α)) => c) = none) ∧
      ((cs.map conc).any Cell.valueless = false →
        (cs.map conc).mapM (fun c => (dispatch t.count 0 c.indexOf).bind fun k => (c.getAlt k).map fun x => (k, x)) =
          cs.mapM (m := Option) (fun (c : Option (Nat × Obj α)) => c) ∧
        (cs.mapM (m := Option) (fun (c : Option (Nat × Obj α)) => c)).isSome) := by
    induction cs with
    | nil => simp
    | cons c cs ih =>
      have ih := ih (fun d hd => hc d (List.mem_cons_of_mem _ hd))
      have hf := hc c List.mem_cons_self
      cases c with
      | none => simp [valueless_none, List.mapM_cons]
      | some p =>
        obtain ⟨k, x⟩ := p
        have hk := fits_lt hf
        simp only [List.map_cons, List.any_cons, valueless_some ht hk, Bool.false_or, List.mapM_cons, index_some ht hk,
          dispatch_zero hk, getAlt_some, Option.bind_some, Option.map_some, Option.bind_eq_bind, Option.pure_def]
        constructor
        · intro hv; rw [ih.1 hv]; rfl
        · intro hv
          obtain ⟨h2, h3⟩ := ih.2 hv
          rw [h2]
          refine ⟨rfl, ?_⟩
          cases hm : cs.mapM (m := Option) (fun (c : Option (Nat × Obj α)) => c) with
          | none => rw [hm] at h3; simp at h3
          | some xs => simp
  simp only [Traits.visit]
  cases hv : (cs.map conc).any Cell.valueless with
  | true => rw [h1.1 hv]; rfl
  | false =>
    obtain ⟨h2, h3⟩ := h1.2 hv
    simp only [Bool.false_eq_true, if_false]
    rw [h2]
    cases hm : cs.mapM (m := Option) (fun (c : Option (Nat × Obj α)) => c) with
    | none => rw [hm] at h3; simp at h3
    | some xs => rfl

theorem genericAssign_conc {t : Traits} (ht : t.count ≤ npos32) (m : Mode) {c : Content α} (hc : Fits t c) {k : Nat}
    {x : Obj α} (hk : k < t.count) (f g : Fate) :
    t.genericAssign m (conc c) (conc (some (k, x))) f g =
      some (conc (give t c k x (t.safe m k) f).1,
        conc (remains m (some (k, x)) (if c.map (·.1) = some k then f else t.fate m k f)),
        (give t c k x (t.safe m k) f).2) := by
  simp only [Traits.genericAssign, valueless_some ht hk, Bool.and_false, Bool.false_eq_true, if_false, index_some ht hk,
    dispatch_zero hk, Option.bind_some, getAlt_some, assignAlt_conc ht hc hk, Option.map_some, used_conc,
    index_eq ht hc hk]

theorem genericAssign_none {t : Traits} (ht : t.count ≤ npos32) (m : Mode) {c : Content α} (hc : Fits t c) (f g : Fate) :
    t.genericAssign m (conc c) (conc none) f g = some (conc none, conc none, true) := by
  cases c with
  | none => simp [Traits.genericAssign, valueless_none]
  | some p =>
    obtain ⟨k, x⟩ := p
    have hk := fits_lt hc
    simp [Traits.genericAssign, valueless_none, valueless_some ht hk, destroy_conc ht hc]

theorem step_lift {t : Traits} (ht : t.count ≤ npos32) {s : Vars α} (hs : AllFit t s) (op : Op α)
    (ho : ∀ k, alternative op = some k → k < t.count) : Follows t ((lift s).step t op) (Vars.next t s op) := by
  cases op with
  | makeFrom k a f =>
    cases f with
    | returns => exact ⟨by simp [World.step, lift, conc], hs.snoc (fits_some (ho k rfl) _)⟩
    | throws p q => exact ⟨by simp [World.step, lift], hs.snocNone⟩
  | make m j f =>
    simp only [World.step, Vars.next, var_lift]
    cases hj : (s[j]?).join with
    | none => rfl
    | some o =>
      have ho := hs.get hj
      simp only [Option.map_some, Option.bind_some, empty_conc, genericConstruct_conc ht m (fits_none t) ho, put_lift]
      cases o with
      | none =>
        refine ⟨?_, hs.snoc (fits_none t)⟩
        simp only [construct, if_true]
        rw [set_same hj]
        simp [lift]
      | some p =>
        obtain ⟨k, x⟩ := p
        have he : ∃ e, t.fate m k f = e := ⟨_, rfl⟩
        obtain ⟨e, he⟩ := he
        simp only [construct, ends_eq, he]
        cases e with
        | returns => exact ⟨by simp [lift], (hs.set j (fits_remains m ho _)).snoc ho⟩
        | throws p q =>
          refine ⟨?_, (hs.set j (fits_remains m ho _)).snocNone⟩
          simp [destroy_conc ht (fits_none t), spill_none, lift]
  | drop i =>
    simp only [World.step, Vars.next, var_lift]
    cases hi : (s[i]?).join with
    | none => rfl
    | some c =>
      refine ⟨?_, hs.setNone i⟩
      simp [destroy_conc ht (hs.get hi), spill_none, lift, List.map_set]
  | assign m i j f g =>
    simp only [World.step, Vars.next, var_lift]
    cases hi : (s[i]?).join with
    | none => rfl
    | some c =>
      have hc := hs.get hi
      cases hj : (s[j]?).join with
      | none => rfl
      | some o =>
        have ho := hs.get hj
        cases o with
        | none =>
          refine ⟨?_, hs.set i (fits_none t)⟩
          simp only [Option.map_some, Option.bind_some, genericAssign_none ht m hc]
          by_cases hij : i = j
          · subst hij
            cases m <;> simp [put_lift, told_eq]
          · simp only [if_neg hij, put_lift, told_eq, if_true, set_same hj]
        | some p =>
          obtain ⟨k, x⟩ := p
          have hk := fits_lt ho
          simp only [Option.map_some, Option.bind_some, genericAssign_conc ht m hc hk, put_lift, told_eq, ends_eq]
          have hg := fits_give hc hk x (t.safe m k) f
          have hr := fits_remains m ho (if c.map (·.1) = some k then f else t.fate m k f)
          by_cases hij : i = j
          · subst hij
            cases m with
            | copy =>
              refine ⟨?_, by simpa [Traits.safe] using (hs.set i hr).set i hg⟩
              simp [put_lift, Traits.safe]
              rfl
            | move =>
              refine ⟨?_, by simpa using hs.set i hr⟩
              simp [put_lift, Traits.safe]
              rfl
          · simp only [if_neg hij, hij, false_and, if_false]
            cases m <;> exact ⟨rfl, (hs.set j hr).set i hg⟩
  | assignFrom i k a safe f g =>
    simp only [World.step, Vars.next, var_lift]
    cases hi : (s[i]?).join with
    | none => rfl
    | some c =>
      have hc := hs.get hi
      have hk := ho k rfl
      simp only [Option.map_some, Option.bind_some, assignAlt_conc ht hc hk, put_lift, told_eq]
      exact ⟨rfl, hs.set i (fits_give hc hk _ safe f)⟩
  | assignOwn i k safe f g =>
    simp only [World.step, Vars.next, var_lift]
    cases hi : (s[i]?).join with
    | none => rfl
    | some c =>
      have hc := hs.get hi
      have hk := ho k rfl
      cases c with
      | none => rfl
      | some p =>
        obtain ⟨l, x⟩ := p
        have hl := fits_lt hc
        simp only [Option.map_some, Option.bind_some, index_some ht hl, getAlt_some]
        by_cases hx : l ≠ k ∧ (safe = true ∨ t.moveSafe k = false)
        · rw [if_pos (by simpa using hx), if_pos hx]; rfl
        · rw [if_neg (by simpa using hx), if_neg hx]
          simp only [assignAlt_conc ht hc hk, Option.map_some, put_lift, told_eq]
          exact ⟨rfl, hs.set i (fits_give hc hk _ safe f)⟩
  | emplace i k a f =>
    simp only [World.step, Vars.next, var_lift]
    cases hi : (s[i]?).join with
    | none => rfl
    | some c =>
      have hc := hs.get hi
      have hk := ho k rfl
      simp only [Option.map_some, Option.bind_some, emplace_conc ht hc]
      cases f with
      | returns => exact ⟨by simp [put_lift, told_eq], hs.set i (fits_some hk _)⟩
      | throws p q => exact ⟨by simp [put_lift, told_eq], hs.set i (fits_none t)⟩
  | swap i j f g h =>
    simp only [World.step, Vars.next, var_lift]
    cases hi : (s[i]?).join with
    | none => rfl
    | some a =>
      have ha := hs.get hi
      cases hj : (s[j]?).join with
      | none => rfl
      | some b =>
        have hb := hs.get hj
        have hsw := fits_swapped ha hb f g h
        simp only [Option.map_some, Option.bind_some, swap_conc ht ha hb, put_lift, told_eq]
        exact ⟨rfl, (hs.set j hsw.2).set i hsw.1⟩
  | index i =>
    simp only [World.step, Vars.next, var_lift]
    cases hi : (s[i]?).join with
    | none => rfl
    | some c =>
      refine ⟨?_, hs⟩
      cases c with
      | none => simp [index_none, Spec.Vrt.told]
      | some p => simp [index_some ht (fits_lt (k := p.1) (x := p.2) (hs.get hi)), Spec.Vrt.told]
  | valueless i =>
    simp only [World.step, Vars.next, var_lift]
    cases hi : (s[i]?).join with
    | none => rfl
    | some c =>
      refine ⟨?_, hs⟩
      cases c with
      | none => simp [valueless_none]
      | some p => simp [valueless_some ht (fits_lt (k := p.1) (x := p.2) (hs.get hi))]
  | holds i k =>
    simp only [World.step, Vars.next, var_lift]
    cases hi : (s[i]?).join with
    | none => rfl
    | some c =>
      refine ⟨?_, hs⟩
      have := index_eq ht (hs.get hi) (ho k rfl)
      simp only [Option.map_some, Option.some.injEq, Prod.mk.injEq, Answer.flag.injEq, true_and]
      rw [Bool.eq_iff_iff]
      simpa using this
  | get i k =>
    simp only [World.step, Vars.next, var_lift]
    cases hi : (s[i]?).join with
    | none => rfl
    | some c =>
      have hc := hs.get hi
      have hx := index_eq ht hc (ho k rfl)
      cases c with
      | none => exact ⟨by simp [hx], hs⟩
      | some p =>
        obtain ⟨l, x⟩ := p
        refine ⟨?_, hs⟩
        simp only [Option.map_some, Option.bind_some, hx, Option.some.injEq]
        by_cases h : l = k
        · subst h; simp [getAlt_some]
        · simp [h]
  | getIf i k =>
    simp only [World.step, Vars.next, var_lift]
    cases hi : (s[i]?).join with
    | none => rfl
    | some c =>
      have hc := hs.get hi
      have hx := index_eq ht hc (ho k rfl)
      cases c with
      | none => exact ⟨by simp [hx], hs⟩
      | some p =>
        obtain ⟨l, x⟩ := p
        refine ⟨?_, hs⟩
        simp only [Option.map_some, Option.bind_some, hx, Option.some.injEq]
        by_cases h : l = k
        · subst h; simp [getAlt_some]
        · simp [h]
  | visit is =>
    simp only [World.step, Vars.next, mapM_var]
    cases hm : is.mapM fun i => (s[i]?).join with
    | none => rfl
    | some cs =>
      refine ⟨?_, hs⟩
      simp only [Option.map_some, Option.bind_some, visit_conc ht cs (fun c hc => hs c (mapM_mem hm c hc))]
      rfl

theorem run_lift {t : Traits} (ht : t.count ≤ npos32) {s : Vars α} (hs : AllFit t s) (ops : List (Op α))
    (ho : ∀ op ∈ ops, ∀ k, alternative op = some k → k < t.count) :
    match Vars.exec t s ops with
    | none => (lift s).run t ops = none
    | some (s', as) => (lift s).run t ops = some (lift s', as) ∧ AllFit t s' := by
  induction ops generalizing s with
  | nil => exact ⟨rfl, hs⟩
  | cons op ops ih =>
    have h1 := step_lift ht hs op (ho op List.mem_cons_self)
    simp only [Vars.exec, World.run]
    cases hq : Vars.next t s op with
    | none =>
      rw [hq] at h1
      simp only [Follows] at h1
      simp [h1]
    | some q =>
      obtain ⟨s', a⟩ := q
      rw [hq] at h1
      obtain ⟨hr, hf⟩ := h1
      have h2 := ih hf (fun o h => ho o (List.mem_cons_of_mem _ h))
      simp only [Option.bind_some, hr]
      cases hx : Vars.exec t s' ops with
      | none => rw [hx] at h2; simp only at h2; simp [h2]
      | some z =>
        rw [hx] at h2
        exact ⟨by simp [h2.1], h2.2⟩

end Dart.Vrt
