import Verif.Spec.Ptr

/-
Reference-counted pointers: counting owners.
-/
namespace Dart.Ptr
open Dart.Spec.Ptr

/-! ### Counting -/

/-- Number of pointers in `l` to `a`. -/
def occ (a : Nat) (l : List (Option Nat)) : Nat := l.countP (· == some a)

@[simp] theorem occ_nil (a : Nat) : occ a [] = 0 := rfl
theorem occ_append (a : Nat) (l m : List (Option Nat)) : occ a (l ++ m) = occ a l + occ a m := by simp [occ]
theorem occ_cons (a : Nat) (p : Option Nat) (l : List (Option Nat)) : occ a (p :: l) = occ a [p] + occ a l := by
  rw [← occ_append]; rfl
theorem occ_one (a : Nat) : occ a [some a] = 1 := by simp [occ]
theorem occ_none (a : Nat) : occ a [none] = 0 := by simp [occ]
theorem occ_ne {a b : Nat} (h : a ≠ b) : occ b [some a] = 0 := by simp [occ, h]
theorem occ_pos {a : Nat} {l : List (Option Nat)} (h : some a ∈ l) : 0 < occ a l := by
  rw [occ, List.countP_pos_iff]; exact ⟨_, h, by simp⟩
theorem mem_of_occ {a : Nat} {l : List (Option Nat)} (h : 0 < occ a l) : some a ∈ l := by
  rw [occ, List.countP_pos_iff] at h
  obtain ⟨p, hp, e⟩ := h
  have : p = some a := by simpa using e
  exact this ▸ hp

theorem occ_set (a : Nat) (p : Option Nat) : ∀ {l : List (Option Nat)} {i : Nat} (h : i < l.length),
    occ a (l.set i p) + occ a [l[i]] = occ a l + occ a [p]
  | q :: l, 0, _ => by
    simp only [List.set_cons_zero, List.getElem_cons_zero]
    rw [occ_cons a p, occ_cons a q l]; omega
  | q :: l, i + 1, h => by
    have := occ_set a p (l := l) (i := i) (by simpa using h)
    simp only [List.set_cons_succ, List.getElem_cons_succ]
    rw [occ_cons a q (l.set i p), occ_cons a q l]; omega

def optSlots : Option Block → List (Option Nat)
  | some b => b.slots
  | none => []

theorem slots_eq (m : Mem) : m.slots = m.blocks.flatMap optSlots := by
  unfold Mem.slots
  congr 1

/-- The count at `a`. -/
def cnt (m : Mem) (a : Nat) : Nat := ((m.at a).map (·.count)).getD 0

/-- Every count is the number of owners, in `own` or members of live objects, and not zero. -/
structure Counted (m : Mem) (own : List (Option Nat)) : Prop where
  eq : ∀ a, occ a own + occ a m.slots = cnt m a
  pos : ∀ a b, m.at a = some b → 0 < b.count

/-- The deleter was called exactly for the deleted blocks, once each. -/
structure LogOk (m : Mem) : Prop where
  nodup : m.log.Nodup
  iff : ∀ a, a ∈ m.log ↔ a < m.blocks.length ∧ m.at a = none

theorem at_lt {m : Mem} {a : Nat} {b : Block} (h : m.at a = some b) : a < m.blocks.length := by
  simp only [Mem.at, Option.join_eq_some_iff] at h
  obtain ⟨h1, _⟩ := List.getElem?_eq_some_iff.1 h
  exact h1

theorem at_set (m : Mem) (a a' : Nat) (x : Option Block) (l : List Nat) (h : a < m.blocks.length) :
    (⟨m.blocks.set a x, l⟩ : Mem).at a' = if a = a' then x else m.at a' := by
  simp only [Mem.at]
  by_cases e : a = a'
  · subst e; simp [h]
  · rw [List.getElem?_set_ne e, if_neg e]

theorem at_log (m : Mem) (l : List Nat) (a : Nat) : (⟨m.blocks, l⟩ : Mem).at a = m.at a := rfl

theorem occ_slots_set (m : Mem) (l : List Nat) {a : Nat} {b : Block} (x : Option Block) (h : m.at a = some b) (c : Nat) :
    occ c (⟨m.blocks.set a x, l⟩ : Mem).slots + occ c b.slots = occ c m.slots + occ c (optSlots x) := by
  rw [slots_eq, slots_eq]
  simp only
  have : ∀ (bs : List (Option Block)) a, bs[a]? = some (some b) →
      occ c ((bs.set a x).flatMap optSlots) + occ c b.slots = occ c (bs.flatMap optSlots) + occ c (optSlots x) := by
    intro bs
    induction bs with
    | nil => intro a h; simp at h
    | cons y bs ih =>
      intro a h
      cases a with
      | zero =>
        simp only [List.getElem?_cons_zero, Option.some.injEq] at h
        subst h
        simp only [List.set_cons_zero, List.flatMap_cons, occ_append, optSlots]
        omega
      | succ a =>
        simp only [List.getElem?_cons_succ] at h
        have := ih a h
        simp only [List.set_cons_succ, List.flatMap_cons, occ_append]
        omega
  refine this m.blocks a ?_
  simp only [Mem.at, Option.join_eq_some_iff] at h
  exact h

theorem slots_length_set (m : Mem) (l : List Nat) {a : Nat} {b : Block} (x : Option Block) (h : m.at a = some b) :
    (⟨m.blocks.set a x, l⟩ : Mem).slots.length + b.slots.length = m.slots.length + (optSlots x).length := by
  rw [slots_eq, slots_eq]
  simp only
  have : ∀ (bs : List (Option Block)) a, bs[a]? = some (some b) →
      ((bs.set a x).flatMap optSlots).length + b.slots.length = (bs.flatMap optSlots).length + (optSlots x).length := by
    intro bs
    induction bs with
    | nil => intro a h; simp at h
    | cons y bs ih =>
      intro a h
      cases a with
      | zero =>
        simp only [List.getElem?_cons_zero, Option.some.injEq] at h
        subst h
        simp only [List.set_cons_zero, List.flatMap_cons, List.length_append, optSlots]
        omega
      | succ a =>
        simp only [List.getElem?_cons_succ] at h
        have := ih a h
        simp only [List.set_cons_succ, List.flatMap_cons, List.length_append]
        omega
  refine this m.blocks a ?_
  simp only [Mem.at, Option.join_eq_some_iff] at h
  exact h

theorem mem_slots {m : Mem} {a : Nat} {b : Block} (h : m.at a = some b) {p : Option Nat} (hp : p ∈ b.slots) : p ∈ m.slots := by
  rw [slots_eq, List.mem_flatMap]
  simp only [Mem.at, Option.join_eq_some_iff] at h
  exact ⟨some b, List.mem_of_getElem? h, hp⟩

theorem slots_mem {m : Mem} {p : Option Nat} (h : p ∈ m.slots) : ∃ a b, m.at a = some b ∧ p ∈ b.slots := by
  rw [slots_eq, List.mem_flatMap] at h
  obtain ⟨o, ho, hp⟩ := h
  obtain ⟨a, ha⟩ := List.mem_iff_getElem?.1 ho
  cases o with
  | none => simp [optSlots] at hp
  | some b => exact ⟨a, b, by simp [Mem.at, ha], hp⟩

theorem cnt_some {m : Mem} {a : Nat} {b : Block} (h : m.at a = some b) : cnt m a = b.count := by simp [cnt, h]

theorem Counted.live {m : Mem} {own : List (Option Nat)} (h : Counted m own) {a : Nat} (ho : some a ∈ own ∨ some a ∈ m.slots) :
    ∃ b, m.at a = some b := by
  have h1 := h.eq a
  have : 0 < occ a own + occ a m.slots := by
    rcases ho with ho | ho <;> have := occ_pos ho <;> omega
  cases hx : m.at a with
  | none => simp [cnt, hx] at h1; omega
  | some b => exact ⟨b, rfl⟩

theorem Counted.perm {m : Mem} {own own' : List (Option Nat)} (h : Counted m own) (he : ∀ a, occ a own = occ a own') :
    Counted m own' := ⟨fun a => by rw [← he a]; exact h.eq a, h.pos⟩

/-- Live objects of `m'` are live in `m` with the same members. -/
def Sub (m' m : Mem) : Prop := ∀ a b', m'.at a = some b' → ∃ b, m.at a = some b ∧ b.slots = b'.slots

theorem Sub.refl (m : Mem) : Sub m m := fun _ b h => ⟨b, h, rfl⟩
theorem Sub.trans {m'' m' m : Mem} (h : Sub m'' m') (h' : Sub m' m) : Sub m'' m := by
  intro a b hb
  obtain ⟨b1, h1, e1⟩ := h a b hb
  obtain ⟨b2, h2, e2⟩ := h' a b1 h1
  exact ⟨b2, h2, e2.trans e1⟩

theorem sub_set {m : Mem} {l : List Nat} {a : Nat} {b : Block} {x : Option Block} (h : m.at a = some b)
    (hx : ∀ y, x = some y → y.slots = b.slots) : Sub ⟨m.blocks.set a x, l⟩ m := by
  intro c b' hb'
  rw [at_set _ _ _ _ _ (at_lt h)] at hb'
  split at hb'
  · rename_i e; subst e; exact ⟨b, h, (hx b' hb').symm⟩
  · exact ⟨b', hb', rfl⟩

theorem release_ok : ∀ (n : Nat) {m : Mem} {w own : List (Option Nat)}, Counted m (w ++ own) → LogOk m →
    w.length + m.slots.length ≤ n →
    ∃ m', release n w m = some m' ∧ Counted m' own ∧ LogOk m' ∧ m'.blocks.length = m.blocks.length ∧ Sub m' m := by
  intro n
  induction n with
  | zero =>
    intro m w own h hl hn
    have : w = [] := List.length_eq_zero_iff.1 (by omega)
    subst this
    exact ⟨m, rfl, h, hl, rfl, Sub.refl m⟩
  | succ n ih =>
    intro m w own h hl hn
    cases w with
    | nil => exact ⟨m, rfl, h, hl, rfl, Sub.refl m⟩
    | cons p w =>
      simp only [List.length_cons] at hn
      cases p with
      | none =>
        simp only [release]
        refine ih (h.perm fun a => ?_) hl (by omega)
        rw [List.cons_append, occ_cons, occ_none]; omega
      | some a =>
        obtain ⟨b, hb⟩ := h.live (a := a) (.inl (by simp))
        have hcnt := h.eq a
        rw [cnt_some hb, List.cons_append, occ_cons, occ_one] at hcnt
        simp only [release, hb]
        split
        · rename_i hgt
          suffices hC : Counted { m with blocks := m.blocks.set a (some { b with count := b.count - 1 }) } (w ++ own) ∧
              LogOk { m with blocks := m.blocks.set a (some { b with count := b.count - 1 }) } by
            obtain ⟨m', h1, h2, h3, h4, h5⟩ := ih hC.1 hC.2 (by
              have := slots_length_set m m.log (some { b with count := b.count - 1 }) hb
              simp only [optSlots] at this
              omega)
            exact ⟨m', h1, h2, h3, by simpa using h4, h5.trans (sub_set hb (fun y hy => by cases hy; rfl))⟩
          refine ⟨⟨fun c => ?_, fun c y hy => ?_⟩, hl.nodup, fun c => ?_⟩
          · have h1 := h.eq c
            have h2 := occ_slots_set m m.log (some { b with count := b.count - 1 }) hb c
            rw [List.cons_append, occ_cons] at h1
            simp only [optSlots] at h2
            simp only [cnt] at h1 ⊢
            rw [at_set _ _ _ _ _ (at_lt hb)]
            by_cases e : a = c
            · subst e
              rw [occ_one, hb] at h1
              simp only [if_true, Option.map_some, Option.getD_some] at h1 ⊢
              omega
            · rw [occ_ne e] at h1
              rw [if_neg e]
              omega
          · rw [at_set _ _ _ _ _ (at_lt hb)] at hy
            split at hy
            · cases hy; simp only; omega
            · exact h.pos c y hy
          · rw [at_set _ _ _ _ _ (at_lt hb)]
            rw [show (c ∈ ({ m with blocks := m.blocks.set a (some { b with count := b.count - 1 }) } : Mem).log) = (c ∈ m.log) from rfl,
              hl.iff c]
            simp only [List.length_set]
            by_cases e : a = c
            · subst e; simp [hb]
            · rw [if_neg e]
        · rename_i hle
          have hone := h.pos a b hb
          suffices hC : Counted ⟨m.blocks.set a none, a :: m.log⟩ ((b.slots ++ w) ++ own) ∧
              LogOk ⟨m.blocks.set a none, a :: m.log⟩ by
            obtain ⟨m', h1, h2, h3, h4, h5⟩ := ih hC.1 hC.2 (by
              have := slots_length_set m (a :: m.log) none hb
              simp only [optSlots, List.length_nil, List.length_append] at this ⊢
              omega)
            exact ⟨m', h1, h2, h3, by simpa using h4, h5.trans (sub_set hb (fun y hy => by cases hy))⟩
          refine ⟨⟨fun c => ?_, fun c y hy => ?_⟩, ?_, fun c => ?_⟩
          · have h1 := h.eq c
            have h2 := occ_slots_set m (a :: m.log) none hb c
            rw [List.cons_append, occ_cons, occ_append] at h1
            simp only [optSlots, occ_nil] at h2
            simp only [cnt] at h1 ⊢
            rw [at_set _ _ _ _ _ (at_lt hb), occ_append, occ_append]
            by_cases e : a = c
            · subst e
              rw [occ_append] at hcnt
              simp only [if_true, Option.map_none, Option.getD_none]
              omega
            · rw [occ_ne e] at h1
              rw [if_neg e]
              omega
          · rw [at_set _ _ _ _ _ (at_lt hb)] at hy
            split at hy
            · cases hy
            · exact h.pos c y hy
          · refine List.nodup_cons.2 ⟨fun hm => ?_, hl.nodup⟩
            have := ((hl.iff a).1 hm).2
            rw [hb] at this
            cases this
          · rw [at_set _ _ _ _ _ (at_lt hb)]
            simp only [List.mem_cons, List.length_set, hl.iff c]
            by_cases e : a = c
            · subst e
              simp [at_lt hb]
            · rw [if_neg e]
              simp [Ne.symm e]

/-! ### Locations -/

/-- Overwriting a member. -/
def setSlot (m : Mem) (a j : Nat) (p : Option Nat) : Mem :=
  match m.at a with
  | some b => { m with blocks := m.blocks.set a (some { b with slots := b.slots.set j p }) }
  | none => m

theorem setSlot_some {m : Mem} {a j : Nat} {p : Option Nat} {b : Block} (h : m.at a = some b) :
    setSlot m a j p = { m with blocks := m.blocks.set a (some { b with slots := b.slots.set j p }) } := by
  simp [setSlot, h]

theorem setSlot_at {m : Mem} {a j : Nat} {p : Option Nat} {b : Block} (h : m.at a = some b) (c : Nat) :
    (setSlot m a j p).at c = if a = c then some { b with slots := b.slots.set j p } else m.at c := by
  rw [setSlot_some h, at_set _ _ _ _ _ (at_lt h)]

theorem release_sub : ∀ (n : Nat) {m m' : Mem} {w : List (Option Nat)}, release n w m = some m' → Sub m' m := by
  intro n
  induction n with
  | zero =>
    intro m m' w h
    cases w with
    | nil => simp only [release] at h; cases h; exact Sub.refl m
    | cons p w => simp [release] at h
  | succ n ih =>
    intro m m' w h
    cases w with
    | nil => simp only [release] at h; cases h; exact Sub.refl m
    | cons p w =>
      cases p with
      | none => simp only [release] at h; exact ih h
      | some a =>
        simp only [release] at h
        split at h
        · cases h
        · rename_i b hb
          split at h
          · exact (ih h).trans (sub_set hb (fun y hy => by cases hy; rfl))
          · exact (ih h).trans (sub_set hb (fun y hy => by cases hy))

/-- The value of a member of a surviving object does not influence the release. -/
theorem release_stale (a j : Nat) (v : Option Nat) : ∀ (n : Nat) {m m' : Mem} {w : List (Option Nat)} {b : Block},
    release n w m = some m' → m'.at a = some b → release n w (setSlot m a j v) = some (setSlot m' a j v) := by
  intro n
  induction n with
  | zero =>
    intro m m' w b h hb
    cases w with
    | nil => simp only [release] at h ⊢; cases h; rfl
    | cons p w => simp [release] at h
  | succ n ih =>
    intro m m' w b h hb
    cases w with
    | nil => simp only [release] at h ⊢; cases h; rfl
    | cons p w =>
      cases p with
      | none => simp only [release] at h ⊢; exact ih h hb
      | some c =>
        obtain ⟨ba, hba, _⟩ := release_sub _ h a b hb
        simp only [release] at h ⊢
        rw [setSlot_at hba]
        by_cases e : a = c
        · subst e
          rw [hba] at h
          simp only [if_true] at h ⊢
          split at h
          · rename_i hgt
            rw [if_pos hgt]
            have := ih h hb
            rw [setSlot_some (b := { ba with count := ba.count - 1 }) (by rw [at_set _ _ _ _ _ (at_lt hba), if_pos rfl])] at this
            rw [setSlot_some hba]
            simp only [List.set_set] at this ⊢
            exact this
          · exfalso
            obtain ⟨b', hb', _⟩ := release_sub _ h a b hb
            rw [at_set _ _ _ _ _ (at_lt hba), if_pos rfl] at hb'
            cases hb'
        · rw [if_neg e]
          cases hc : m.at c with
          | none => rw [hc] at h; cases h
          | some bc =>
            rw [hc] at h
            simp only at h ⊢
            split at h
            · rename_i hgt
              rw [if_pos hgt]
              have := ih h hb
              rw [setSlot_some (b := ba) (by rw [at_set _ _ _ _ _ (at_lt hc), if_neg (Ne.symm e)]; exact hba)] at this
              rw [setSlot_some hba]
              simp only at this ⊢
              rw [List.set_comm _ _ (Ne.symm e)] at this
              exact this
            · rename_i hgt
              rw [if_neg hgt]
              have := ih h hb
              rw [setSlot_some (b := ba) (by rw [at_set _ _ _ _ _ (at_lt hc), if_neg (Ne.symm e)]; exact hba)] at this
              rw [setSlot_some hba]
              simp only at this ⊢
              rw [List.set_comm _ _ (Ne.symm e)] at this
              exact this

theorem release_log : ∀ (n : Nat) {m m' : Mem} {w : List (Option Nat)}, release n w m = some m' → ∃ l, m'.log = l ++ m.log := by
  intro n
  induction n with
  | zero =>
    intro m m' w h
    cases w with
    | nil => simp only [release] at h; cases h; exact ⟨[], rfl⟩
    | cons p w => simp [release] at h
  | succ n ih =>
    intro m m' w h
    cases w with
    | nil => simp only [release] at h; cases h; exact ⟨[], rfl⟩
    | cons p w =>
      cases p with
      | none => simp only [release] at h; exact ih h
      | some a =>
        simp only [release] at h
        split at h
        · cases h
        · split at h
          · have := ih h
            exact this
          · obtain ⟨l, hl⟩ := ih h
            exact ⟨l ++ [a], by rw [hl]; simp⟩

/-- All owners: variables and members. -/
def occs (s : State) (c : Nat) : Nat := occ c s.vars + occ c s.mem.slots

theorem write_ok {s : State} {l : Loc} {q : Option Nat} (h : s.read l = some q) (p : Option Nat) :
    ∃ s', s.write l p = some s' ∧ s'.read l = some p ∧ (∀ o, o ≠ l → s'.read o = s.read o) ∧
      (∀ c, occs s' c + occ c [q] = occs s c + occ c [p]) ∧
      (∀ c, (s'.mem.at c).map (·.count) = (s.mem.at c).map (·.count)) ∧
      s'.mem.log = s.mem.log ∧ s'.mem.blocks.length = s.mem.blocks.length := by
  cases l with
  | var x =>
    simp only [State.read] at h
    obtain ⟨hx, hq⟩ := List.getElem?_eq_some_iff.1 h
    refine ⟨{ s with vars := s.vars.set x p }, by simp only [State.write, if_pos hx], by simp [State.read, hx], fun o ho => ?_, fun c => ?_, fun _ => rfl, rfl, rfl⟩
    · cases o with
      | var y =>
        have : x ≠ y := fun e => ho (by rw [e])
        simp only [State.read, List.getElem?_set_ne this]
      | field a j => rfl
    · have := occ_set c p hx
      rw [hq] at this
      simp only [occs]
      omega
  | field a j =>
    simp only [State.read, Option.bind_eq_some_iff] at h
    obtain ⟨b, hb, hj⟩ := h
    obtain ⟨hx, hq⟩ := List.getElem?_eq_some_iff.1 hj
    refine ⟨{ s with mem := { s.mem with blocks := s.mem.blocks.set a (some { b with slots := b.slots.set j p }) } },
      by simp only [State.write, hb, Option.bind_some, if_pos hx], ?_, fun o ho => ?_, fun c => ?_, fun c => ?_, rfl, by simp⟩
    · simp only [State.read]
      rw [at_set _ _ _ _ _ (at_lt hb), if_pos rfl]
      simp [hx]
    · cases o with
      | var y => rfl
      | field a' j' =>
        simp only [State.read]
        rw [at_set _ _ _ _ _ (at_lt hb)]
        by_cases e : a = a'
        · subst e
          have : j ≠ j' := fun e => ho (by rw [e])
          rw [if_pos rfl, hb]
          simp [List.getElem?_set_ne this]
        · rw [if_neg e]
    · have h1 := occ_slots_set s.mem s.mem.log (some { b with slots := b.slots.set j p }) hb c
      have h2 := occ_set c p hx
      rw [hq] at h2
      simp only [optSlots] at h1
      simp only [occs]
      omega
    · rw [at_set _ _ _ _ _ (at_lt hb)]
      by_cases e : a = c
      · subst e; rw [if_pos rfl, hb]; rfl
      · rw [if_neg e]

theorem reach_mono {s s' : State} (hr : ∀ l p, s.read l = some p → s'.read l = some p) {a : Nat} (h : Reach s a) : Reach s' a := by
  induction h with
  | @var x a h => exact .var (x := x) (hr (.var x) _ h)
  | field _ h ih => exact .field ih (hr _ _ h)

theorem usable_mono {s s' : State} (hr : ∀ l p, s.read l = some p → s'.read l = some p) {l : Loc} (h : Usable s l) : Usable s' l := by
  cases l with
  | var x =>
    have : s.read (.var x) = some (s.vars[x]'h) := List.getElem?_eq_getElem h
    exact (List.getElem?_eq_some_iff.1 (hr _ _ this)).1
  | field a j =>
    refine ⟨reach_mono hr h.1, ?_⟩
    obtain ⟨p, hp⟩ := Option.isSome_iff_exists.1 h.2
    rw [hr _ _ hp]; rfl

theorem usable_read {s : State} {l : Loc} (h : Usable s l) : ∃ p, s.read l = some p := by
  cases l with
  | var x => exact ⟨_, List.getElem?_eq_getElem h⟩
  | field a j => exact Option.isSome_iff_exists.1 h.2

theorem survive {s0 : State} {m1 : Mem} {own : List (Option Nat)} (hc : Counted m1 own) (hv : ∀ p ∈ s0.vars, p ∈ own)
    (hs : Sub m1 s0.mem) {a : Nat} (h : Reach s0 a) : ∃ b, m1.at a = some b := by
  induction h with
  | var h => exact hc.live (.inl (hv _ (List.mem_of_getElem? h)))
  | @field a j a' h hr ih =>
    obtain ⟨b1, hb1⟩ := ih
    obtain ⟨b, hb, e⟩ := hs a b1 hb1
    simp only [State.read, hb, Option.bind_some] at hr
    exact hc.live (.inr (mem_slots hb1 (e ▸ List.mem_of_getElem? hr)))

theorem survive_read {s0 : State} {m1 : Mem} {own : List (Option Nat)} (hc : Counted m1 own) (hv : ∀ p ∈ s0.vars, p ∈ own)
    (hs : Sub m1 s0.mem) {l : Loc} (h : Usable s0 l) : State.read { s0 with mem := m1 } l = s0.read l := by
  cases l with
  | var x => rfl
  | field a j =>
    obtain ⟨b1, hb1⟩ := survive hc hv hs h.1
    obtain ⟨b, hb, e⟩ := hs a b1 hb1
    simp only [State.read, hb, hb1, Option.bind_some, e]

theorem sub_read {s0 : State} {m1 : Mem} (hs : Sub m1 s0.mem) {l : Loc} {p : Option Nat}
    (h : State.read { s0 with mem := m1 } l = some p) : s0.read l = some p := by
  cases l with
  | var x => exact h
  | field a j =>
    simp only [State.read, Option.bind_eq_some_iff] at h
    obtain ⟨b1, hb1, h⟩ := h
    obtain ⟨b, hb, e⟩ := hs a b1 hb1
    simp only [State.read, hb, Option.bind_some, e, h]

/-- Destroying a pointer at a location that does not depend on it: as if it had been made null first. -/
theorem destroy_ok {s s0 : State} {l : Loc} {extra : List (Option Nat)} (hc : Counted s.mem (extra ++ s.vars)) (hl : LogOk s.mem)
    (hu : Usable s l) (hw : s.write l none = some s0) (hu0 : Usable s0 l) :
    ∃ m1 sd, s.destroy l = some sd ∧ Counted m1 (extra ++ s0.vars) ∧ LogOk m1 ∧ m1.blocks.length = s.mem.blocks.length ∧
      Sub m1 s0.mem ∧ (∃ k, m1.log = k ++ s.mem.log) ∧
      (∀ p, sd.write l p = State.write { s0 with mem := m1 } l p) ∧
      (∀ o, o ≠ l → sd.read o = State.read { s0 with mem := m1 } o) := by
  obtain ⟨q, hq⟩ := usable_read hu
  cases l with
  | var x =>
    simp only [State.read] at hq
    obtain ⟨hx, hxq⟩ := List.getElem?_eq_some_iff.1 hq
    simp only [State.write, if_pos hx, Option.some.injEq] at hw
    subst hw
    have hc' : Counted s.mem ([q] ++ (extra ++ s.vars.set x none)) := hc.perm fun c => by
      have := occ_set c none hx
      rw [hxq, occ_none] at this
      simp only [occ_append]
      omega
    obtain ⟨m1, h1, h2, h3, h4, h5⟩ := release_ok (s.mem.slots.length + 1) hc' hl (by simp; omega)
    refine ⟨m1, { s with mem := m1 }, ?_, h2, h3, h4, h5, release_log _ h1, fun p => ?_, fun o ho => ?_⟩
    · simp only [State.destroy, State.read, hq, Option.bind_some, h1, Option.map_some]
    · simp [State.write, List.set_set]
    · cases o with
      | var y =>
        have : x ≠ y := fun e => ho (by rw [e])
        simp only [State.read, List.getElem?_set_ne this]
      | field a j => rfl
  | field a j =>
    have hq' := hq
    simp only [State.read, Option.bind_eq_some_iff] at hq
    obtain ⟨b, hb, hj⟩ := hq
    obtain ⟨hx, hxq⟩ := List.getElem?_eq_some_iff.1 hj
    have hs0 : s0 = { s with mem := setSlot s.mem a j none } := by
      simp only [State.write, hb, Option.bind_some, if_pos hx, Option.some.injEq] at hw
      rw [← hw, setSlot_some hb]
    have hat0 : s0.mem.at a = some { b with slots := b.slots.set j none } := by
      rw [hs0]; simp only [setSlot_at hb, if_pos]
    have hback : setSlot s0.mem a j q = s.mem := by
      rw [setSlot_some hat0, hs0, setSlot_some hb]
      simp only [List.set_set]
      have e1 : b.slots.set j q = b.slots := by rw [← hxq]; exact List.set_getElem_self hx
      rw [e1]
      have e2 : s.mem.blocks.set a (some b) = s.mem.blocks := by
        simp only [Mem.at, Option.join_eq_some_iff] at hb
        obtain ⟨h1, h2⟩ := List.getElem?_eq_some_iff.1 hb
        rw [← h2]; exact List.set_getElem_self h1
      rw [show ({ count := b.count, slots := b.slots } : Block) = b from rfl, e2]
    obtain ⟨s0', hw', hr1, hr2, hocc, hcount, hlog, hlen⟩ := write_ok hq' none
    have : s0' = s0 := by rw [hw] at hw'; exact (Option.some.inj hw').symm
    subst this
    have hcnt : ∀ c, cnt s0'.mem c = cnt s.mem c := fun c => by simp only [cnt, hcount c]
    have hvars : s0'.vars = s.vars := by rw [hs0]
    have hc0 : Counted s0'.mem ([q] ++ (extra ++ s0'.vars)) := by
      refine ⟨fun c => ?_, fun c y hy => ?_⟩
      · have h1 := hc.eq c
        have h2 := hocc c
        rw [occ_none] at h2
        rw [hcnt, hvars]
        simp only [occs, hvars, occ_append] at h1 h2 ⊢
        omega
      · have h1 := hcount c
        rw [hy, Option.map_some] at h1
        obtain ⟨z, hz, e⟩ := Option.map_eq_some_iff.1 h1.symm
        rw [← e]
        exact hc.pos c z hz
    have hl0 : LogOk s0'.mem := by
      refine ⟨hlog ▸ hl.nodup, fun c => ?_⟩
      rw [hlog, hl.iff c, hlen]
      have h1 := hcount c
      refine and_congr_right fun _ => ?_
      constructor
      · intro h; rw [h] at h1; exact Option.map_eq_none_iff.1 h1
      · intro h; rw [h] at h1; exact Option.map_eq_none_iff.1 h1.symm
    have hfuel : s0'.mem.slots.length = s.mem.slots.length := by
      have h1 := slots_length_set s.mem s.mem.log (some { b with slots := b.slots.set j none }) hb
      rw [hs0, setSlot_some hb]
      simp only [optSlots, List.length_set] at h1 ⊢
      omega
    obtain ⟨m1, h1, h2, h3, h4, h5⟩ := release_ok (s.mem.slots.length + 1) hc0 hl0 (by rw [hfuel]; simp; omega)
    obtain ⟨b1, hb1⟩ := survive h2 (fun p hp => by simp [hp]) h5 hu0.1
    have h6 := release_stale a j q _ h1 hb1
    rw [hback] at h6
    refine ⟨m1, { s with mem := setSlot m1 a j q }, ?_, h2, h3, by omega, h5, hlog ▸ release_log _ h1, fun p => ?_, fun o ho => ?_⟩
    · simp only [State.destroy, hq', Option.bind_some, h6, Option.map_some]
    · simp only [State.write, setSlot_at hb1, if_pos, Option.bind_some, hb1, List.length_set, hvars]
      simp only [setSlot_some hb1, List.set_set]
    · cases o with
      | var y => simp only [State.read, hvars]
      | field a' j' =>
        simp only [State.read, setSlot_at hb1]
        by_cases e : a = a'
        · subst e
          have : j ≠ j' := fun e => ho (by rw [e])
          simp [hb1, List.getElem?_set_ne this]
        · rw [if_neg e]

/-! ### Statements -/

/-- The invariant. -/
structure Inv (s : State) : Prop where
  counted : Counted s.mem s.vars
  log : LogOk s.mem

/-- What a statement does. -/
structure Effect (s : State) (op : Op) (s' : State) : Prop where
  result : s'.read (dest op) = result s op
  others : ∀ o p p', o ≠ dest op → source op ≠ some o → s.read o = some p → s'.read o = some p' → p' = p
  survive : ∀ s0 o, s.write (dest op) none = some s0 → Usable s0 o → (s'.read o).isSome
  log : ∃ k, s'.mem.log = k ++ s.mem.log
  grow : s.mem.blocks.length ≤ s'.mem.blocks.length

theorem logOk_count {m m' : Mem} (h : LogOk m) (hc : ∀ c, (m'.at c).map (·.count) = (m.at c).map (·.count))
    (hl : m'.log = m.log) (hn : m'.blocks.length = m.blocks.length) : LogOk m' := by
  refine ⟨hl ▸ h.nodup, fun c => ?_⟩
  rw [hl, h.iff c, hn]
  have h1 := hc c
  refine and_congr_right fun _ => ?_
  constructor
  · intro h; rw [h] at h1; exact Option.map_eq_none_iff.1 h1
  · intro h; rw [h] at h1; exact Option.map_eq_none_iff.1 h1.symm

theorem counted_count {m m' : Mem} {own own' : List (Option Nat)} (h : Counted m own)
    (hc : ∀ c, (m'.at c).map (·.count) = (m.at c).map (·.count))
    (ho : ∀ c, occ c own' + occ c m'.slots = occ c own + occ c m.slots) : Counted m' own' := by
  refine ⟨fun c => ?_, fun c y hy => ?_⟩
  · rw [ho c, h.eq c]; simp only [cnt, hc c]
  · have h1 := hc c
    rw [hy, Option.map_some] at h1
    obtain ⟨z, hz, e⟩ := Option.map_eq_some_iff.1 h1.symm
    rw [← e]
    exact h.pos c z hz

/-- Moving a temporary in. -/
theorem moveIn_ok {s s0 : State} {l : Loc} {p : Option Nat} (hc : Counted s.mem ([p] ++ s.vars)) (hl : LogOk s.mem)
    (hu : Usable s l) (hw : s.write l none = some s0) (hu0 : Usable s0 l) :
    ∃ s', s.moveIn l p = some s' ∧ Inv s' ∧ s'.read l = some p ∧
      (∀ o q q', o ≠ l → s.read o = some q → s'.read o = some q' → q' = q) ∧
      (∀ o, Usable s0 o → (s'.read o).isSome) ∧
      (∃ k, s'.mem.log = k ++ s.mem.log) ∧ s'.mem.blocks.length = s.mem.blocks.length := by
  obtain ⟨m1, sd, h1, h2, h3, h4, h5, h6, h7, h8⟩ := destroy_ok hc hl hu hw hu0
  have hr1 := survive_read h2 (fun p hp => by simp [hp]) h5 hu0
  obtain ⟨v, hv⟩ := usable_read hu
  obtain ⟨s0', hw', k1, k2, -⟩ := write_ok hv none
  have : s0' = s0 := by rw [hw] at hw'; exact (Option.some.inj hw').symm
  subst this
  rw [k1] at hr1
  obtain ⟨s2, g1, g2, g3, g4, g5, g6, g7⟩ := write_ok hr1 p
  refine ⟨s2, ?_, ⟨?_, ?_⟩, g2, fun o q q' ho hq hq' => ?_, fun o ho => ?_, ?_, ?_⟩
  · simp only [State.moveIn, h1, Option.bind_some, h7, g1]
  · refine counted_count h2 g5 fun c => ?_
    have := g4 c
    simp only [occs, occ_none] at this
    rw [occ_append]
    omega
  · exact logOk_count h3 g5 g6 g7
  · rw [g3 o ho] at hq'
    have := sub_read h5 hq'
    rw [k2 o ho, hq] at this
    exact (Option.some.inj this).symm
  · by_cases e : o = l
    · rw [e, g2]; rfl
    · rw [g3 o e, survive_read h2 (fun p hp => by simp [hp]) h5 ho]
      obtain ⟨p, hp⟩ := usable_read ho
      rw [hp]; rfl
  · rw [g6]; exact h6
  · rw [g7]; exact h4

theorem reset_ok {s s0 : State} {l : Loc} (hi : Inv s)
    (hu : Usable s l) (hw : s.write l none = some s0) (hu0 : Usable s0 l) :
    ∃ s', s.reset l = some s' ∧ Inv s' ∧ Effect s (.reset l) s' := by
  obtain ⟨s', h1, h2, h3, h4, h5, h6, h7⟩ := moveIn_ok (p := none)
    (hi.counted.perm fun c => by rw [List.singleton_append, occ_cons c none, occ_none]; omega) hi.log hu hw hu0
  exact ⟨s', h1, h2, h3, fun o p p' ho _ => h4 o p p' ho, fun s0' o hw' ho => h5 o (by
    rw [show Dart.Spec.Ptr.dest (.reset l) = l from rfl, hw] at hw'; exact Option.some.inj hw' ▸ ho), h6, by omega⟩

/-- Counting one more owner. -/
theorem incr_ok {s : State} (hi : Inv s) {p : Option Nat} (hp : ∃ l, s.read l = some p) :
    ∃ m, s.mem.incr p = some m ∧ Counted m ([p] ++ s.vars) ∧ LogOk m ∧ (∀ l, State.read { s with mem := m } l = s.read l) ∧
      m.log = s.mem.log ∧ m.blocks.length = s.mem.blocks.length := by
  cases p with
  | none =>
    exact ⟨_, rfl, hi.counted.perm fun c => by rw [List.singleton_append, occ_cons c none, occ_none]; omega, hi.log, fun _ => rfl, rfl, rfl⟩
  | some a =>
    have hlive : ∃ b, s.mem.at a = some b := by
      obtain ⟨l, hl⟩ := hp
      refine hi.counted.live ?_
      cases l with
      | var x => exact .inl (List.mem_of_getElem? hl)
      | field c j =>
        simp only [State.read, Option.bind_eq_some_iff] at hl
        obtain ⟨b, hb, hj⟩ := hl
        exact .inr (mem_slots hb (List.mem_of_getElem? hj))
    obtain ⟨b, hb⟩ := hlive
    refine ⟨{ s.mem with blocks := s.mem.blocks.set a (some { b with count := b.count + 1 }) }, by simp only [Mem.incr, hb, Option.map_some], ⟨fun c => ?_, fun c y hy => ?_⟩, ⟨hi.log.nodup, fun c => ?_⟩, fun l => ?_, rfl, by simp⟩
    · have h1 := hi.counted.eq c
      have h2 := occ_slots_set s.mem s.mem.log (some { b with count := b.count + 1 }) hb c
      simp only [optSlots] at h2
      simp only [cnt, occ_append] at h1 ⊢
      rw [at_set _ _ _ _ _ (at_lt hb)]
      by_cases e : a = c
      · subst e
        rw [hb] at h1
        simp only [if_true, Option.map_some, Option.getD_some, occ_one] at h1 ⊢
        omega
      · rw [if_neg e, occ_ne e]; omega
    · rw [at_set _ _ _ _ _ (at_lt hb)] at hy
      split at hy
      · cases hy; simp
      · exact hi.counted.pos c y hy
    · rw [at_set _ _ _ _ _ (at_lt hb)]
      simp only [List.length_set]
      rw [hi.log.iff c]
      by_cases e : a = c
      · subst e; simp [hb]
      · rw [if_neg e]
    · cases l with
      | var x => rfl
      | field c j =>
        simp only [State.read]
        rw [at_set _ _ _ _ _ (at_lt hb)]
        by_cases e : a = c
        · subst e; rw [if_pos rfl, hb]; rfl
        · rw [if_neg e]

/-- Copying from `o`, when the pointers differ. -/
theorem copyIn_ok {s s0 : State} {d o : Loc} {p : Option Nat} (hi : Inv s) (hp : s.read o = some p)
    (hu : Usable s d) (hw : s.write d none = some s0) (hu0 : Usable s0 d) :
    ∃ m s', s.mem.incr p = some m ∧ State.moveIn { s with mem := m } d p = some s' ∧ Inv s' ∧ s'.read d = some p ∧
      (∀ o q q', o ≠ d → s.read o = some q → s'.read o = some q' → q' = q) ∧
      (∀ o, Usable s0 o → (s'.read o).isSome) ∧
      (∃ k, s'.mem.log = k ++ s.mem.log) ∧ s'.mem.blocks.length = s.mem.blocks.length := by
  obtain ⟨m, h1, h2, h3, h4, h5, h6⟩ := incr_ok hi ⟨o, hp⟩
  obtain ⟨v, hv⟩ := usable_read hu
  obtain ⟨s0', hw', k1, k2, -⟩ := write_ok hv none
  have : s0' = s0 := by rw [hw] at hw'; exact (Option.some.inj hw').symm
  subst this
  have hv' : State.read { s with mem := m } d = some v := by rw [h4]; exact hv
  obtain ⟨t0, hw2, j1, j2, -⟩ := write_ok hv' none
  have hmono : ∀ l p, s0'.read l = some p → t0.read l = some p := by
    intro l p hl
    by_cases e : l = d
    · rw [e, j1]; rw [e, k1] at hl; exact hl
    · rw [j2 l e, h4, ← k2 l e]; exact hl
  obtain ⟨s', g1, g2, g3, g4, g5, g6, g7⟩ := moveIn_ok (s := { s with mem := m }) h2 h3
    (usable_mono (fun l p hl => by rw [h4]; exact hl) hu) hw2 (usable_mono hmono hu0)
  refine ⟨m, s', h1, g1, g2, g3, fun o q q' ho hq => g4 o q q' ho (by rw [h4]; exact hq), fun o ho => g5 o (usable_mono hmono ho), ?_, ?_⟩
  · simp only [h5] at g6; exact g6
  · simp only [h6] at g7; exact g7

theorem make_ok {s s0 : State} {l : Loc} {k : Nat} (hi : Inv s)
    (hu : Usable s l) (hw : s.write l none = some s0) (hu0 : Usable s0 l) :
    ∃ s', s.make l k = some s' ∧ Inv s' ∧ Effect s (.make l k) s' := by
  let m : Mem := { s.mem with blocks := s.mem.blocks ++ [some ⟨1, List.replicate k none⟩] }
  have hat : ∀ c, m.at c = if c = s.mem.blocks.length then some ⟨1, List.replicate k none⟩ else s.mem.at c := by
    intro c
    simp only [m, Mem.at]
    by_cases e : c = s.mem.blocks.length
    · subst e; simp
    · rw [if_neg e]
      by_cases e' : c < s.mem.blocks.length
      · rw [List.getElem?_append_left e']
      · rw [List.getElem?_eq_none (by simp; omega), List.getElem?_eq_none (by omega)]
  have hnew : s.mem.at s.mem.blocks.length = none := by simp [Mem.at]
  have hrep : ∀ c, occ c (List.replicate k none) = 0 := fun c => by
    rw [occ, List.countP_eq_zero]; intro x hx; rw [List.eq_of_mem_replicate hx]; simp
  have hslots : ∀ c, occ c m.slots = occ c s.mem.slots := by
    intro c
    rw [slots_eq, slots_eq]
    simp only [m, List.flatMap_append, occ_append]
    simp [optSlots, hrep]
  have hc : Counted m ([some s.mem.blocks.length] ++ s.vars) := by
    refine ⟨fun c => ?_, fun c y hy => ?_⟩
    · have h1 := hi.counted.eq c
      rw [occ_append, hslots]
      simp only [cnt, hat] at h1 ⊢
      by_cases e : c = s.mem.blocks.length
      · rw [if_pos e]
        rw [e, hnew] at h1
        rw [e, occ_one]
        simp only [Option.map_none, Option.getD_none, Option.map_some, Option.getD_some] at h1 ⊢
        omega
      · rw [if_neg e, occ_ne (Ne.symm e)]; omega
    · rw [hat] at hy
      split at hy
      · cases hy; simp
      · exact hi.counted.pos c y hy
  have hlog : LogOk m := by
    refine ⟨hi.log.nodup, fun c => ?_⟩
    rw [show (c ∈ m.log) = (c ∈ s.mem.log) from rfl, hi.log.iff c, hat]
    simp only [m, List.length_append, List.length_singleton]
    by_cases e : c = s.mem.blocks.length
    · subst e; simp
    · rw [if_neg e]
      refine and_congr_left fun _ => ?_
      omega
  have hread : ∀ l p, s.read l = some p → State.read { s with mem := m } l = some p := by
    intro l p hl
    cases l with
    | var x => exact hl
    | field a j =>
      simp only [State.read, Option.bind_eq_some_iff] at hl ⊢
      obtain ⟨b, hb, hj⟩ := hl
      refine ⟨b, ?_, hj⟩
      rw [hat, if_neg (fun e => by rw [e, hnew] at hb; cases hb)]
      exact hb
  obtain ⟨v, hv⟩ := usable_read hu
  obtain ⟨s0', hw', k1, k2, -⟩ := write_ok hv none
  have : s0' = s0 := by rw [hw] at hw'; exact (Option.some.inj hw').symm
  subst this
  obtain ⟨t0, hw2, j1, j2, -⟩ := write_ok (hread _ _ hv) none
  have hmono : ∀ l p, s0'.read l = some p → t0.read l = some p := by
    intro o p hl
    by_cases e : o = l
    · rw [e, j1]; rw [e, k1] at hl; exact hl
    · rw [j2 o e]; exact hread _ _ (by rw [← k2 o e]; exact hl)
  obtain ⟨s', g1, g2, g3, g4, g5, g6, g7⟩ := moveIn_ok (s := { s with mem := m }) hc hlog
    (usable_mono hread hu) hw2 (usable_mono hmono hu0)
  refine ⟨s', g1, g2, g3, fun o p p' ho _ hp => g4 o p p' ho (hread _ _ hp), fun s0 o hw' ho => g5 o (usable_mono hmono ?_), g6, ?_⟩
  · rw [show Dart.Spec.Ptr.dest (.make l k) = l from rfl, hw] at hw'; exact Option.some.inj hw' ▸ ho
  · rw [g7]; simp [m]

/-- Move assignment from a location that does not depend on the destination. -/
theorem moveOver_ok {s s0 : State} {d o : Loc} {p : Option Nat} (hi : Inv s) (hne : d ≠ o) (hp : s.read o = some p)
    (hu : Usable s d) (hw : s.write d none = some s0) (hu0 : Usable s0 d) (ho0 : Usable s0 o) :
    ∃ s', ((s.destroy d).bind fun s => (s.read o).bind fun p => (s.write d p).bind fun s => s.write o none) = some s' ∧
      Inv s' ∧ s'.read d = some p ∧ s'.read o = some none ∧
      (∀ l q q', l ≠ d → l ≠ o → s.read l = some q → s'.read l = some q' → q' = q) ∧
      (∀ l, Usable s0 l → (s'.read l).isSome) ∧
      (∃ k, s'.mem.log = k ++ s.mem.log) ∧ s'.mem.blocks.length = s.mem.blocks.length := by
  obtain ⟨m1, sd, h1, h2, h3, h4, h5, h6, h7, h8⟩ := destroy_ok (extra := []) hi.counted hi.log hu hw hu0
  have hr1 := survive_read h2 (fun p hp => by simp [hp]) h5 hu0
  have hro := survive_read h2 (fun p hp => by simp [hp]) h5 ho0
  obtain ⟨v, hv⟩ := usable_read hu
  obtain ⟨s0', hw', k1, k2, -⟩ := write_ok hv none
  have : s0' = s0 := by rw [hw] at hw'; exact (Option.some.inj hw').symm
  subst this
  rw [k1] at hr1
  rw [k2 o hne.symm, hp] at hro
  obtain ⟨s2, g1, g2, g3, g4, g5, g6, g7⟩ := write_ok hr1 p
  have hro2 : s2.read o = some p := by rw [g3 o hne.symm]; exact hro
  obtain ⟨s3, f1, f2, f3, f4, f5, f6, f7⟩ := write_ok hro2 none
  refine ⟨s3, ?_, ⟨?_, ?_⟩, ?_, f2, fun l q q' hl1 hl2 hq hq' => ?_, fun l hl => ?_, ?_, ?_⟩
  · simp only [h1, Option.bind_some, h8 o hne.symm, hro, h7, g1, f1]
  · refine counted_count h2 (fun c => (f5 c).trans (g5 c)) fun c => ?_
    have e1 := g4 c
    have e2 := f4 c
    simp only [occs, occ_none] at e1 e2
    simp only [List.nil_append]
    omega
  · exact logOk_count h3 (fun c => (f5 c).trans (g5 c)) (f6.trans g6) (f7.trans g7)
  · rw [f3 d hne]; exact g2
  · rw [f3 l hl2, g3 l hl1] at hq'
    have := sub_read h5 hq'
    rw [k2 l hl1, hq] at this
    exact (Option.some.inj this).symm
  · by_cases e : l = o
    · rw [e, f2]; rfl
    · rw [f3 l e]
      by_cases e' : l = d
      · rw [e', g2]; rfl
      · rw [g3 l e', survive_read h2 (fun p hp => by simp [hp]) h5 hl]
        obtain ⟨p, hp⟩ := usable_read hl
        rw [hp]; rfl
  · rw [f6, g6]; exact h6
  · rw [f7, g7]; exact h4

theorem effect_refl {s : State} {op : Op} (hr : s.read (dest op) = result s op)
    (hs : ∀ s0 o, s.write (dest op) none = some s0 → Usable s0 o → (s.read o).isSome) : Effect s op s :=
  ⟨hr, fun o p p' _ _ h h' => by rw [h] at h'; exact (Option.some.inj h').symm, hs, ⟨[], rfl⟩, Nat.le_refl _⟩

theorem usable_write {s s0 : State} {d o : Loc} (hw : s.write d none = some s0) (hu : Usable s d) (ho : Usable s0 o) : (s.read o).isSome := by
  obtain ⟨v, hv⟩ := usable_read hu
  obtain ⟨s0', hw', k1, k2, -⟩ := write_ok hv none
  have : s0' = s0 := by rw [hw] at hw'; exact (Option.some.inj hw').symm
  subst this
  by_cases e : o = d
  · rw [e, hv]; rfl
  · rw [← k2 o e]
    obtain ⟨p, hp⟩ := usable_read ho
    rw [hp]; rfl

theorem step_ok {s : State} {op : Op} (hi : Inv s) (hs : Sound s op) : ∃ s', s.step op = some s' ∧ Inv s' ∧ Effect s op s' ∧
    (∀ o, source op = some o → o ≠ dest op → (∀ d, op = .convMove d o → s.read d ≠ s.read o) → s'.read o = some none) := by
  have hw0 : ∀ d, Usable s d → ∃ s0, s.write d none = some s0 := fun d hu => by
    obtain ⟨v, hv⟩ := usable_read hu
    obtain ⟨s0, h, _⟩ := write_ok hv none
    exact ⟨s0, h⟩
  cases op with
  | make d k =>
    obtain ⟨hu, hs⟩ := hs
    obtain ⟨s0, hw⟩ := hw0 d hu
    obtain ⟨s', h1, h2, h3⟩ := make_ok (k := k) hi hu hw (hs s0 hw)
    exact ⟨s', h1, h2, h3, fun o ho => by cases ho⟩
  | reset d =>
    obtain ⟨hu, hs⟩ := hs
    obtain ⟨s0, hw⟩ := hw0 d hu
    obtain ⟨s', h1, h2, h3⟩ := reset_ok hi hu hw (hs s0 hw)
    exact ⟨s', h1, h2, h3, fun o ho => by cases ho⟩
  | copy d o =>
    obtain ⟨hu, huo, hs⟩ := hs
    obtain ⟨s0, hw⟩ := hw0 d hu
    obtain ⟨p, hp⟩ := usable_read huo
    simp only [State.step, State.copy]
    split
    · rename_i e
      subst e
      exact ⟨s, rfl, hi, effect_refl rfl fun s0 o hw ho => usable_write hw hu ho, fun o ho => by cases ho⟩
    · obtain ⟨m, s', h1, h2, h3, h4, h5, h6, h7, h8⟩ := copyIn_ok hi hp hu hw (hs s0 hw)
      refine ⟨s', ?_, h3, ⟨h4.trans hp.symm, fun o p p' ho _ => h5 o p p' ho, fun s0' o hw' ho => ?_, h7, by omega⟩, fun o ho => by cases ho⟩
      · simp only [hp, Option.bind_some, h1, h2]
      · rw [show dest (.copy d _) = d from rfl, hw] at hw'; exact h6 o (Option.some.inj hw' ▸ ho)
  | convCopy d o =>
    obtain ⟨hu, huo, hs⟩ := hs
    obtain ⟨s0, hw⟩ := hw0 d hu
    obtain ⟨p, hp⟩ := usable_read huo
    obtain ⟨q, hq⟩ := usable_read hu
    simp only [State.step, State.convCopy, hp, hq, Option.bind_some]
    split
    · rename_i e
      subst e
      exact ⟨s, rfl, hi, effect_refl (hq.trans hp.symm) fun s0 o hw ho => usable_write hw hu ho, fun o ho => by cases ho⟩
    · obtain ⟨m, s', h1, h2, h3, h4, h5, h6, h7, h8⟩ := copyIn_ok hi hp hu hw (hs s0 hw)
      refine ⟨s', ?_, h3, ⟨h4.trans hp.symm, fun o p p' ho _ => h5 o p p' ho, fun s0' o hw' ho => ?_, h7, by omega⟩, fun o ho => by cases ho⟩
      · simp only [h1, Option.bind_some, h2]
      · rw [show dest (.convCopy d _) = d from rfl, hw] at hw'; exact h6 o (Option.some.inj hw' ▸ ho)
  | move d o =>
    obtain ⟨hu, huo, hs⟩ := hs
    obtain ⟨s0, hw⟩ := hw0 d hu
    obtain ⟨p, hp⟩ := usable_read huo
    simp only [State.step, State.move]
    split
    · rename_i e
      subst e
      refine ⟨s, rfl, hi, effect_refl rfl fun s0 o hw ho => usable_write hw hu ho, fun o ho hne => ?_⟩
      cases ho; exact absurd rfl hne
    · rename_i hne
      obtain ⟨s', h1, h2, h3, h4, h5, h6, h7, h8⟩ := moveOver_ok hi hne hp hu hw (hs s0 hw).1 (hs s0 hw).2
      refine ⟨s', h1, h2, ⟨h3.trans hp.symm, fun l p p' hl hl' => h5 l p p' hl (fun e => hl' (by rw [e]; rfl)), fun s0' l hw' hl => ?_, h7, by omega⟩, fun l hl _ _ => ?_⟩
      · rw [show dest (.move d _) = d from rfl, hw] at hw'; exact h6 l (Option.some.inj hw' ▸ hl)
      · cases hl; exact h4
  | convMove d o =>
    obtain ⟨hu, huo, hs⟩ := hs
    obtain ⟨s0, hw⟩ := hw0 d hu
    obtain ⟨p, hp⟩ := usable_read huo
    obtain ⟨q, hq⟩ := usable_read hu
    simp only [State.step, State.convMove, hp, hq, Option.bind_some]
    split
    · rename_i e
      subst e
      refine ⟨s, rfl, hi, effect_refl (hq.trans hp.symm) fun s0 o hw ho => usable_write hw hu ho, fun l hl _ h => ?_⟩
      cases hl
      exact absurd (hq.trans hp.symm) (h d rfl)
    · rename_i hpq
      have hne : d ≠ o := fun e => hpq (by rw [e, hp] at hq; exact (Option.some.inj hq).symm)
      obtain ⟨s', h1, h2, h3, h4, h5, h6, h7, h8⟩ := moveOver_ok hi hne hp hu hw (hs s0 hw).1 (hs s0 hw).2
      refine ⟨s', h1, h2, ⟨h3.trans hp.symm, fun l p p' hl hl' => h5 l p p' hl (fun e => hl' (by rw [e]; rfl)), fun s0' l hw' hl => ?_, h7, by omega⟩, fun l hl _ _ => ?_⟩
      · rw [show dest (.convMove d _) = d from rfl, hw] at hw'; exact h6 l (Option.some.inj hw' ▸ hl)
      · cases hl; exact h4

theorem inv_init (n : Nat) : Inv (init n) := by
  refine ⟨⟨fun a => ?_, fun a b h => ?_⟩, ⟨List.nodup_nil, fun a => ?_⟩⟩
  · have : occ a (List.replicate n none) = 0 := by
      rw [occ, List.countP_eq_zero]; intro x hx; rw [List.eq_of_mem_replicate hx]; simp
    simp [init, this, cnt, Mem.at, Mem.slots]
  · simp [init, Mem.at] at h
  · simp [init]

theorem reached_inv {n : Nat} {s : State} (h : Reached n s) : Inv s := by
  induction h with
  | init => exact inv_init n
  | step _ hs hstep ih =>
    obtain ⟨s', h1, h2, _⟩ := step_ok ih hs
    rw [h1] at hstep
    cases hstep
    exact h2

theorem owners_eq (s : State) (a : Nat) : owners s a = occs s a := by
  simp only [owners, occs, occ, List.countP_eq_length_filter]

theorem exists_bound (f : Nat → Nat) : ∀ n, ∃ M, ∀ a, a < n → f a ≤ M
  | 0 => ⟨0, fun _ h => absurd h (Nat.not_lt_zero _)⟩
  | n + 1 => by
    obtain ⟨M, hM⟩ := exists_bound f n
    refine ⟨max M (f n), fun a ha => ?_⟩
    by_cases e : a = n
    · subst e; omega
    · have := hM a (by omega); omega

theorem no_leak {s : State} (hi : Inv s) (hv : ∀ p ∈ s.vars, p = none) (ha : Acyclic s) (a : Nat) : s.mem.at a = none := by
  obtain ⟨rank, hrank⟩ := ha
  obtain ⟨M, hM⟩ := exists_bound rank s.mem.blocks.length
  have key : ∀ k a b, s.mem.at a = some b → M - rank a < k → False := by
    intro k
    induction k with
    | zero => intro a b _ h; omega
    | succ k ih =>
      intro a b hb hk
      have h1 := hi.counted.eq a
      rw [cnt_some hb] at h1
      have h2 := hi.counted.pos a b hb
      have h3 : occ a s.vars = 0 := by
        rw [occ, List.countP_eq_zero]; intro x hx; rw [hv x hx]; simp
      obtain ⟨c, bc, hc, hm⟩ := slots_mem (mem_of_occ (a := a) (l := s.mem.slots) (by omega))
      obtain ⟨j, hj⟩ := List.mem_iff_getElem?.1 hm
      have h4 := hrank c j a (by simp only [State.read, hc, Option.bind_some, hj])
      have h5 := hM c (at_lt hc)
      exact ih c bc hc (by omega)
  cases hb : s.mem.at a with
  | none => rfl
  | some b => exact absurd (key _ a b hb (Nat.lt_succ_self _)) id

end Dart.Ptr
