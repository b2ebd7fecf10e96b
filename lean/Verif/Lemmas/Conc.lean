import Verif.Spec.Conc

/-
Threads sharing packets, helpers: counting references, values in changing memory.
-/
namespace Dart.Conc

/-! ### counting -/

/-- References to a block among packets. -/
def refs (a : Nat) (l : List Hd) : Nat := l.count (.ref a)

theorem refs_append (a : Nat) (k l : List Hd) : refs a (k ++ l) = refs a k + refs a l := List.count_append ..
theorem refs_nil (a : Nat) : refs a [] = 0 := rfl
theorem refs_cons (a : Nat) (h : Hd) (l : List Hd) : refs a (h :: l) = (if h = .ref a then 1 else 0) + refs a l := by
  unfold refs; rw [List.count_cons]
  by_cases hh : h = .ref a
  · simp [hh, Nat.add_comm]
  · simp [hh]

theorem refs_pos {a : Nat} {l : List Hd} : 0 < refs a l ↔ .ref a ∈ l := List.count_pos_iff

theorem refs_set (a : Nat) {l : List Hd} {i : Nat} {h : Hd} (hi : l[i]? = some h) (h' : Hd) :
    refs a (l.set i h') + refs a [h] = refs a l + refs a [h'] := by
  induction l generalizing i with
  | nil => simp at hi
  | cons x l ih =>
    cases i with
    | zero =>
      simp only [List.getElem?_cons_zero, Option.some.injEq] at hi
      subst hi
      simp only [List.set_cons_zero, refs_cons, refs_nil]; omega
    | succ i =>
      simp only [List.getElem?_cons_succ] at hi
      have := ih hi
      simp only [List.set_cons_succ, refs_cons (l := List.set l i h'), refs_cons (l := l)] at this ⊢
      omega

/-- References in a list of things that contain packets. -/
def refsIn {α : Type} (f : α → List Hd) (a : Nat) (l : List α) : Nat := refs a (l.flatMap f)

theorem refsIn_cons {α : Type} (f : α → List Hd) (a : Nat) (x : α) (l : List α) :
    refsIn f a (x :: l) = refs a (f x) + refsIn f a l := by
  simp only [refsIn, List.flatMap_cons, refs_append]

theorem refsIn_erase {α : Type} (f : α → List Hd) (a : Nat) {l : List α} {i : Nat} {x : α} (hi : l[i]? = some x) :
    refsIn f a l = refsIn f a (l.eraseIdx i) + refs a (f x) := by
  induction l generalizing i with
  | nil => simp at hi
  | cons y l ih =>
    cases i with
    | zero =>
      simp only [List.getElem?_cons_zero, Option.some.injEq] at hi
      subst hi
      simp only [List.eraseIdx_cons_zero, refsIn_cons]; omega
    | succ i =>
      simp only [List.getElem?_cons_succ] at hi
      have := ih hi
      simp only [List.eraseIdx_cons_succ, refsIn_cons]; omega

theorem refsIn_set {α : Type} (f : α → List Hd) (a : Nat) {l : List α} {i : Nat} {x : α} (hi : l[i]? = some x) (y : α) :
    refsIn f a (l.set i y) + refs a (f x) = refsIn f a l + refs a (f y) := by
  have hlt : i < l.length := (List.getElem?_eq_some_iff.1 hi).1
  rw [refsIn_erase f a hi, refsIn_erase f a (l := l.set i y) (i := i) (x := y) (by simp [hlt]), List.eraseIdx_set_eq]
  omega

theorem refsIn_other {α : Type} (f : α → List Hd) (a : Nat) {l : List α} {i j : Nat} {y : α} (hij : j ≠ i) (hj : l[j]? = some y) :
    refs a (f y) ≤ refsIn f a (l.eraseIdx i) := by
  induction l generalizing i j with
  | nil => simp at hj
  | cons z l ih =>
    cases i with
    | zero =>
      cases j with
      | zero => exact absurd rfl hij
      | succ j =>
        simp only [List.getElem?_cons_succ] at hj
        simp only [List.eraseIdx_cons_zero]
        rw [refsIn_erase f a hj]; omega
    | succ i =>
      simp only [List.eraseIdx_cons_succ, refsIn_cons]
      cases j with
      | zero => simp only [List.getElem?_cons_zero, Option.some.injEq] at hj; subst hj; omega
      | succ j =>
        simp only [List.getElem?_cons_succ] at hj
        have := ih (i := i) (by omega) hj
        omega

theorem refsIn_append {α : Type} (f : α → List Hd) (a : Nat) (k l : List α) : refsIn f a (k ++ l) = refsIn f a k + refsIn f a l := by
  simp only [refsIn, List.flatMap_append, refs_append]

def Th.token (a : Nat) (th : Th) : Nat := if th.dying = some a then 1 else 0

def tokens (a : Nat) (l : List Th) : Nat := (l.map (Th.token a)).sum

theorem tokens_erase (a : Nat) {l : List Th} {i : Nat} {x : Th} (hi : l[i]? = some x) :
    tokens a l = tokens a (l.eraseIdx i) + x.token a := by
  induction l generalizing i with
  | nil => simp at hi
  | cons y l ih =>
    cases i with
    | zero =>
      simp only [List.getElem?_cons_zero, Option.some.injEq] at hi
      subst hi
      simp only [List.eraseIdx_cons_zero, tokens, List.map_cons, List.sum_cons]; omega
    | succ i =>
      simp only [List.getElem?_cons_succ] at hi
      have := ih hi
      simp only [tokens] at this
      simp only [List.eraseIdx_cons_succ, tokens, List.map_cons, List.sum_cons]; omega

theorem tokens_other (a : Nat) {l : List Th} {i j : Nat} {y : Th} (hij : j ≠ i) (hj : l[j]? = some y) :
    y.token a ≤ tokens a (l.eraseIdx i) := by
  induction l generalizing i j with
  | nil => simp at hj
  | cons z l ih =>
    cases i with
    | zero =>
      cases j with
      | zero => exact absurd rfl hij
      | succ j =>
        simp only [List.getElem?_cons_succ] at hj
        simp only [List.eraseIdx_cons_zero]
        rw [tokens_erase a hj]; omega
    | succ i =>
      simp only [List.eraseIdx_cons_succ, tokens, List.map_cons, List.sum_cons]
      cases j with
      | zero => simp only [List.getElem?_cons_zero, Option.some.injEq] at hj; subst hj; omega
      | succ j =>
        simp only [List.getElem?_cons_succ] at hj
        have := ih (i := i) (by omega) hj
        unfold tokens at this
        omega

/-- The counters are right, given the references and tokens outside. -/
def Loc (ro to : Nat → Nat) (bs : List (Option Blk)) (cs : List (List Hd)) (th : Th) : Prop := ∀ a,
  match blkAt bs a with
  | some b => b.count = ro a + refs a th.handles + refsIn id a cs + refsIn kidsOf a bs ∧
      to a + th.token a = if b.count = 0 then 1 else 0
  | none => ro a + refs a th.handles + refsIn id a cs + refsIn kidsOf a bs = 0 ∧ to a + th.token a = 0

/-- The counters are right. -/
def Counted (m : M) : Prop := ∀ a,
  match blkAt m.blocks a with
  | some b => b.count = refsIn Th.handles a m.threads + refsIn id a m.chans + refsIn kidsOf a m.blocks ∧
      tokens a m.threads = if b.count = 0 then 1 else 0
  | none => refsIn Th.handles a m.threads + refsIn id a m.chans + refsIn kidsOf a m.blocks = 0 ∧ tokens a m.threads = 0

theorem counted_iff {m : M} {t : Nat} {th : Th} (h : m.threads[t]? = some th) :
    Counted m ↔ Loc (fun a => refsIn Th.handles a (m.threads.eraseIdx t)) (fun a => tokens a (m.threads.eraseIdx t)) m.blocks m.chans th := by
  unfold Counted Loc
  refine forall_congr' fun a => ?_
  rw [refsIn_erase Th.handles a h, tokens_erase a h]

/-! ### memory -/

theorem blkAt_eq {bs : List (Option Blk)} {a : Nat} {b : Blk} : blkAt bs a = some b ↔ bs[a]? = some (some b) := by
  unfold blkAt
  cases bs[a]? with
  | none => simp
  | some o => cases o <;> simp

theorem blkAt_lt {bs : List (Option Blk)} {a : Nat} {b : Blk} (h : blkAt bs a = some b) : a < bs.length :=
  (List.getElem?_eq_some_iff.1 (blkAt_eq.1 h)).1

theorem blkAt_set {bs : List (Option Blk)} {a : Nat} (h : a < bs.length) (o : Option Blk) (c : Nat) :
    blkAt (bs.set a o) c = if c = a then o else blkAt bs c := by
  unfold blkAt
  by_cases hc : c = a
  · subst hc; simp [h]
  · simp [hc, List.getElem?_set, Ne.symm hc]

theorem blkAt_append (bs : List (Option Blk)) (b : Blk) (c : Nat) :
    blkAt (bs ++ [some b]) c = if c = bs.length then some b else blkAt bs c := by
  unfold blkAt
  by_cases hc : c = bs.length
  · subst hc; simp
  · by_cases hl : c < bs.length
    · simp [hc, List.getElem?_append_left hl]
    · have : bs.length < c := by omega
      rw [if_neg hc, List.getElem?_eq_none (by simp; omega), List.getElem?_eq_none (by omega)]

theorem blkAt_length (bs : List (Option Blk)) : blkAt bs bs.length = none := by simp [blkAt]

theorem refsIn_blocks_set (c : Nat) {bs : List (Option Blk)} {a : Nat} {b : Blk} (h : blkAt bs a = some b) (o : Option Blk) :
    refsIn kidsOf c (bs.set a o) + refs c b.kids = refsIn kidsOf c bs + refs c (kidsOf o) :=
  refsIn_set kidsOf c (blkAt_eq.1 h) o

theorem refsIn_blocks_append (c : Nat) (bs : List (Option Blk)) (b : Blk) :
    refsIn kidsOf c (bs ++ [some b]) = refsIn kidsOf c bs + refs c b.kids := by
  rw [refsIn_append]; simp [refsIn, kidsOf]

theorem refsIn_blocks_le (c : Nat) {bs : List (Option Blk)} {a : Nat} {b : Blk} (h : blkAt bs a = some b) :
    refs c b.kids ≤ refsIn kidsOf c bs := by
  rw [refsIn_erase kidsOf c (blkAt_eq.1 h)]; simp [kidsOf]

/-! ### values -/

/-! Memory changes, but not what is reached from a set of blocks. -/
mutual
theorem Holds.frame {bs bs' : List (Option Blk)} {P : Nat → Prop}
    (hb : ∀ a b, P a → blkAt bs a = some b → ∃ b', blkAt bs' a = some b' ∧ b'.kids = b.kids)
    (hc : ∀ a b c, P a → blkAt bs a = some b → .ref c ∈ b.kids → P c) :
    ∀ (v : PV) (h : Hd), (∀ a, h = .ref a → P a) → Holds bs h v → Holds bs' h v
  | .leaf n, h, hp, hh => by cases hh; exact .leaf n
  | .node vs, h, hp, hh => by
    cases hh with
    | @ref a b _ h1 h2 =>
      obtain ⟨b', h3, h4⟩ := hb a b (hp a rfl) (blkAt_eq.2 h1)
      refine .ref (blkAt_eq.1 h3) ?_
      rw [h4]
      exact HoldsAll.frame hb hc vs b.kids (fun c hm => hc a b c (hp a rfl) (blkAt_eq.2 h1) hm) h2
theorem HoldsAll.frame {bs bs' : List (Option Blk)} {P : Nat → Prop}
    (hb : ∀ a b, P a → blkAt bs a = some b → ∃ b', blkAt bs' a = some b' ∧ b'.kids = b.kids)
    (hc : ∀ a b c, P a → blkAt bs a = some b → .ref c ∈ b.kids → P c) :
    ∀ (vs : List PV) (hs : List Hd), (∀ a, .ref a ∈ hs → P a) → HoldsAll bs hs vs → HoldsAll bs' hs vs
  | [], hs, hp, hh => by cases hh; exact .nil
  | v :: vs, hs, hp, hh => by
    cases hh with
    | @cons h _ hs _ h1 h2 =>
      exact .cons (Holds.frame hb hc v h (fun a ha => hp a (by simp [ha])) h1)
        (HoldsAll.frame hb hc vs hs (fun a ha => hp a (List.mem_cons_of_mem _ ha)) h2)
end

/-- The elements of all live blocks stay. -/
def KidsKept (bs bs' : List (Option Blk)) : Prop :=
  ∀ a b, blkAt bs a = some b → ∃ b', blkAt bs' a = some b' ∧ b'.kids = b.kids

theorem Holds.mono {bs bs' : List (Option Blk)} (hb : KidsKept bs bs') {h : Hd} {v : PV} (hh : Holds bs h v) : Holds bs' h v :=
  hh.frame (P := fun _ => True) (fun a b _ => hb a b) (fun _ _ _ _ _ _ => trivial) v h fun _ _ => trivial

theorem HoldsAll.length {bs : List (Option Blk)} : ∀ {hs : List Hd} {vs : List PV}, HoldsAll bs hs vs → hs.length = vs.length
  | [], _, h => by cases h; rfl
  | _ :: _, _, h => by cases h with | cons h1 h2 => simp [h2.length]

theorem holdsAll_iff {bs : List (Option Blk)} : ∀ {hs : List Hd} {vs : List PV}, HoldsAll bs hs vs ↔
    hs.length = vs.length ∧ ∀ (i : Nat) (h : Hd) (v : PV), hs[i]? = some h → vs[i]? = some v → Holds bs h v
  | [], vs => by
    constructor
    · intro h; cases h; exact ⟨rfl, fun i h v h1 => by simp at h1⟩
    · rintro ⟨h1, _⟩
      cases vs with
      | nil => exact .nil
      | cons v vs => simp at h1
  | h :: hs, vs => by
    constructor
    · intro hh
      cases hh with
      | @cons _ v _ vs h1 h2 =>
        obtain ⟨g1, g2⟩ := holdsAll_iff.1 h2
        refine ⟨by simp [g1], fun i x y hx hy => ?_⟩
        cases i with
        | zero => simp only [List.getElem?_cons_zero, Option.some.injEq] at hx hy; subst hx hy; exact h1
        | succ i => exact g2 i x y (by simpa using hx) (by simpa using hy)
    · rintro ⟨h1, h2⟩
      cases vs with
      | nil => simp at h1
      | cons v vs =>
        refine .cons (h2 0 h v rfl rfl) (holdsAll_iff.2 ⟨by simpa using h1, fun i x y hx hy => h2 (i + 1) x y ?_ ?_⟩)
        · simpa using hx
        · simpa using hy

theorem HoldsAll.set {bs : List (Option Blk)} {hs : List Hd} {vs : List PV} (hh : HoldsAll bs hs vs) {h : Hd} {v : PV}
    (hv : Holds bs h v) (i : Nat) : HoldsAll bs (hs.set i h) (vs.set i v) := by
  obtain ⟨h1, h2⟩ := holdsAll_iff.1 hh
  refine holdsAll_iff.2 ⟨by simpa using h1, fun j x y hx hy => ?_⟩
  rw [List.getElem?_set] at hx hy
  by_cases hij : i = j
  · subst hij
    simp only [if_true] at hx hy
    split at hx
    · split at hy
      · cases hx; cases hy; exact hv
      · cases hy
    · cases hx
  · simp only [if_neg hij] at hx hy; exact h2 j x y hx hy

theorem HoldsAll.append {bs : List (Option Blk)} : ∀ {hs : List Hd} {vs : List PV} (_ : HoldsAll bs hs vs) {h : Hd} {v : PV}
    (_ : Holds bs h v), HoldsAll bs (hs ++ [h]) (vs ++ [v])
  | [], _, hh, h, v, hv => by cases hh; exact .cons hv .nil
  | _ :: _, _, hh, h, v, hv => by cases hh with | cons h1 h2 => exact .cons h1 (h2.append hv)

theorem HoldsAll.dropLast {bs : List (Option Blk)} : ∀ {hs : List Hd} {vs : List PV} (_ : HoldsAll bs hs vs),
    HoldsAll bs hs.dropLast vs.dropLast
  | [], _, hh => by cases hh; exact .nil
  | [_], _, hh => by
    cases hh with | cons h1 h2 => cases h2; exact .nil
  | _ :: h' :: hs, _, hh => by
    cases hh with
    | cons h1 h2 =>
      have := h2.dropLast
      cases h2 with | cons h2 h3 => exact .cons h1 this

theorem HoldsAll.getD {bs : List (Option Blk)} {hs : List Hd} {vs : List PV} (hh : HoldsAll bs hs vs) (i : Nat) :
    Holds bs (hs[i]?.getD (.leaf none)) (vs[i]?.getD (.leaf none)) := by
  obtain ⟨h1, h2⟩ := holdsAll_iff.1 hh
  by_cases hi : i < hs.length
  · have hi' : i < vs.length := by omega
    rw [List.getElem?_eq_getElem hi, List.getElem?_eq_getElem hi']
    exact h2 i _ _ (List.getElem?_eq_getElem hi) (List.getElem?_eq_getElem hi')
  · rw [List.getElem?_eq_none (by omega), List.getElem?_eq_none (by omega)]
    exact .leaf none

end Dart.Conc
