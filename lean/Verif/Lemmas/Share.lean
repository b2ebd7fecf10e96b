import Verif.Spec.Share

/-
Lemmas about shared ownership: the counters count the pointers, and every object is either held or deleted.
-/
namespace Dart.Share
open Dart.Spec.Share

/-- One for the pointer to `x`. -/
def ind (p : Option Nat) (x : Nat) : Nat := if p = some x then 1 else 0

theorem countP_put {α : Type} {P : α → Bool} : ∀ {l : List α} {d : Nat} {q : α} (_ : l[d]? = some q) (p : α),
    (l.set d p).countP P + (if P q then 1 else 0) = l.countP P + (if P p then 1 else 0)
  | [], d, q, h, p => by simp at h
  | x :: l, 0, q, h, p => by
    simp only [List.getElem?_cons_zero, Option.some.injEq] at h
    subst h
    simp only [List.set_cons_zero, List.countP_cons]
    omega
  | x :: l, d + 1, q, h, p => by
    simp only [List.getElem?_cons_succ] at h
    have := countP_put (P := P) h p
    simp only [List.set_cons_succ, List.countP_cons]
    omega

theorem count_put {l : List (Option Nat)} {d : Nat} {q : Option Nat} (h : l[d]? = some q) (p : Option Nat) (x : Nat) :
    (l.set d p).count (some x) + ind q x = l.count (some x) + ind p x := by
  have := countP_put (P := (· == some x)) h p
  simp only [beq_iff_eq] at this
  exact this

/-- The number of owners a block believes in. -/
def Mem.cnt (m : Mem) (a : Nat) : Nat := match m.at' a with | some b => b.count | none => 0

/-- The object of a block. -/
def Mem.objAt (m : Mem) (a : Nat) : Option Nat := (m.at' a).bind (·.obj)

/-- Does the block hold object `o`? -/
def holds (o : Nat) : Option Block → Bool
  | some b => b.obj == some o
  | none => false

/-- The number of blocks that hold `o`. -/
def Mem.holders (m : Mem) (o : Nat) : Nat := m.blocks.countP (holds o)

/-- `f` is the number of pointers to each block, `g` the number of other owners of each object. -/
structure MInv (m : Mem) (n : Nat) (f g : Nat → Nat) : Prop where
  cnt : ∀ a, m.cnt a = f a
  pos : ∀ a b, m.at' a = some b → 0 < b.count
  objs : ∀ o, m.log.count o + g o + m.holders o = if o < n then 1 else 0

theorem at'_some {m : Mem} {a : Nat} {b : Block} (h : m.at' a = some b) : m.blocks[a]? = some (some b) := by
  simp only [Mem.at', Option.join_eq_some_iff] at h
  exact h

theorem at'_set {m : Mem} {a : Nat} {b : Block} (h : m.at' a = some b) (c : Option Block) (m' : Mem)
    (hm : m'.blocks = m.blocks.set a c) (x : Nat) : m'.at' x = if x = a then c else m.at' x := by
  have hlt := (List.getElem?_eq_some_iff.1 (at'_some h)).1
  simp only [Mem.at', hm, List.getElem?_set]
  by_cases hx : a = x
  · subst hx
    simp [hlt]
  · rw [if_neg hx, if_neg (fun e => hx e.symm)]

theorem Mem.live_of {m : Mem} {a : Nat} (h : 0 < m.cnt a) : ∃ b, m.at' a = some b := by
  simp only [Mem.cnt] at h
  split at h
  · exact ⟨_, ‹_›⟩
  · omega

theorem inc_ok {m : Mem} {n : Nat} {f g : Nat → Nat} (h : MInv m n f g) {p : Option Nat} (hp : ∀ a, p = some a → 0 < f a) :
    ∃ m', m.inc p = some m' ∧ MInv m' n (fun x => f x + ind p x) g ∧ (∀ a, m'.objAt a = m.objAt a) ∧
      m'.blocks.length = m.blocks.length := by
  cases p with
  | none => exact ⟨m, rfl, ⟨fun a => by simp [ind, h.cnt], h.pos, h.objs⟩, fun _ => rfl, rfl⟩
  | some a =>
    obtain ⟨b, hb⟩ := Mem.live_of (by rw [h.cnt]; exact hp a rfl)
    have hat := at'_set hb (some { b with count := b.count + 1 })
      { m with blocks := m.blocks.set a (some { b with count := b.count + 1 }) } rfl
    simp only [Mem.inc, hb, Option.map_some]
    refine ⟨_, rfl, ⟨fun x => ?_, fun x c hc => ?_, fun o => ?_⟩, fun x => ?_, by simp⟩
    · have h0 := h.cnt x
      simp only [Mem.cnt, hat x, ind, Option.some.injEq]
      by_cases hx : x = a
      · subst hx
        simp only [Mem.cnt, hb] at h0
        simp [h0]
      · rw [if_neg hx, if_neg (fun e => hx e.symm)]
        simpa [Mem.cnt] using h0
    · rw [hat x] at hc
      split at hc
      · cases hc; simp
      · exact h.pos x c hc
    · have := countP_put (P := holds o) (at'_some hb) (some { b with count := b.count + 1 })
      have e : holds o (some { b with count := b.count + 1 }) = holds o (some b) := rfl
      rw [e] at this
      have h0 := h.objs o
      simp only [Mem.holders] at h0 ⊢
      omega
    · simp only [Mem.objAt, hat x]
      split
      · subst_vars; simp [hb]
      · rfl

theorem dec_ok {m : Mem} {n : Nat} {f f' g : Nat → Nat} (h : MInv m n f g) {q : Option Nat} (hf : ∀ x, f x = f' x + ind q x) :
    ∃ m', m.dec q = some m' ∧ MInv m' n f' g ∧ (∀ a, 0 < f' a → m'.objAt a = m.objAt a) ∧ m'.blocks.length = m.blocks.length := by
  cases q with
  | none => exact ⟨m, rfl, ⟨fun a => by rw [h.cnt, hf]; simp [ind], h.pos, h.objs⟩, fun _ _ => rfl, rfl⟩
  | some a =>
    have hfa : f a = f' a + 1 := by rw [hf]; simp [ind]
    obtain ⟨b, hb⟩ := Mem.live_of (m := m) (a := a) (by rw [h.cnt]; omega)
    have hcb : b.count = f' a + 1 := by
      have := h.cnt a
      simp only [Mem.cnt, hb] at this
      omega
    simp only [Mem.dec, hb, Option.map_some]
    by_cases h1 : b.count - 1 = 0
    · rw [if_pos h1]
      have hb' : (Mem.del { m with blocks := m.blocks.set a none } b.obj).blocks = m.blocks.set a none := by
        cases b.obj <;> rfl
      have hat := at'_set hb none _ hb'
      refine ⟨_, rfl, ⟨fun x => ?_, fun x c hc => ?_, fun o => ?_⟩, fun x hx => ?_, by simp [hb']⟩
      · have h0 := h.cnt x
        have h2 := hf x
        simp only [Mem.cnt, hat x]
        by_cases hx : x = a
        · subst hx
          simp only [if_true]
          omega
        · rw [if_neg hx]
          simp only [ind, Option.some.injEq, if_neg (fun e => hx e.symm : ¬ a = x)] at h2
          simp only [Mem.cnt] at h0
          omega
      · rw [hat x] at hc
        split at hc
        · cases hc
        · exact h.pos x c hc
      · have := countP_put (P := holds o) (at'_some hb) none
        have h0 := h.objs o
        simp only [Mem.holders, hb'] at h0 ⊢
        simp only [holds, Bool.false_eq_true, if_false, Nat.add_zero] at this
        cases hob : b.obj with
        | none =>
          simp only [hob, Mem.del] at this ⊢
          simp at this
          omega
        | some y =>
          simp only [hob, Mem.del, List.count_cons] at this ⊢
          simp only [beq_iff_eq, Option.some.injEq] at this ⊢
          omega
      · have hxa : x ≠ a := by
          rintro rfl
          omega
        simp only [Mem.objAt, hat x, if_neg hxa]
    · rw [if_neg h1]
      have hat := at'_set hb (some { b with count := b.count - 1 })
        { m with blocks := m.blocks.set a (some { b with count := b.count - 1 }) } rfl
      refine ⟨_, rfl, ⟨fun x => ?_, fun x c hc => ?_, fun o => ?_⟩, fun x hx => ?_, by simp⟩
      · have h0 := h.cnt x
        have h2 := hf x
        simp only [Mem.cnt, hat x]
        by_cases hx : x = a
        · subst hx
          simp only [if_true]
          omega
        · rw [if_neg hx]
          simp only [ind, Option.some.injEq, if_neg (fun e => hx e.symm : ¬ a = x)] at h2
          simp only [Mem.cnt] at h0
          omega
      · rw [hat x] at hc
        split at hc
        · cases hc; simp only; omega
        · exact h.pos x c hc
      · have := countP_put (P := holds o) (at'_some hb) (some { b with count := b.count - 1 })
        have e : holds o (some { b with count := b.count - 1 }) = holds o (some b) := rfl
        rw [e] at this
        have h0 := h.objs o
        simp only [Mem.holders] at h0 ⊢
        omega
      · simp only [Mem.objAt, hat x]
        split
        · subst_vars; simp [hb]
        · rfl

theorem push_at (m : Mem) (b : Block) (m' : Mem) (hm : m'.blocks = m.blocks ++ [some b]) (x : Nat) :
    m'.at' x = if x = m.blocks.length then some b else m.at' x := by
  simp only [Mem.at', hm]
  by_cases hx : x = m.blocks.length
  · subst hx; simp
  · rw [if_neg hx]
    by_cases h : x < m.blocks.length
    · rw [List.getElem?_append_left h]
    · rw [List.getElem?_eq_none (by simp; omega), List.getElem?_eq_none (by omega)]

theorem push_ok {m : Mem} {n : Nat} {f g g' : Nat → Nat} (h : MInv m n f g) {o : Option Nat} (hg : ∀ x, g x = g' x + ind o x) :
    MInv { m with blocks := m.blocks ++ [some ⟨o, 1⟩] } n (fun x => f x + ind (some m.blocks.length) x) g' := by
  have hat := push_at m ⟨o, 1⟩ { m with blocks := m.blocks ++ [some ⟨o, 1⟩] } rfl
  refine ⟨fun x => ?_, fun x c hc => ?_, fun y => ?_⟩
  · have h0 := h.cnt x
    simp only [Mem.cnt, hat x, ind, Option.some.injEq]
    by_cases hx : x = m.blocks.length
    · subst hx
      simp only [Mem.cnt, Mem.at', List.getElem?_eq_none (Nat.le_refl _), Option.join_none] at h0
      simp [← h0]
    · rw [if_neg hx, if_neg (fun e => hx e.symm)]
      simpa [Mem.cnt] using h0
  · rw [hat x] at hc
    split at hc
    · cases hc; simp
    · exact h.pos x c hc
  · have h0 := h.objs y
    have h1 := hg y
    simp only [Mem.holders, List.countP_append, List.countP_singleton, holds, beq_iff_eq, ind] at h0 h1 ⊢
    omega

theorem MInv.newObj {m : Mem} {n : Nat} {f g : Nat → Nat} (h : MInv m n f g) :
    MInv m (n + 1) f (fun x => g x + ind (some n) x) := by
  refine ⟨h.cnt, h.pos, fun o => ?_⟩
  have h0 := h.objs o
  simp only [ind, Option.some.injEq]
  by_cases ho : n = o
  · subst ho
    simp only [Nat.lt_irrefl, if_false] at h0
    simp only [if_true, Nat.lt_succ_self]
    omega
  · rw [if_neg ho]
    by_cases h1 : o < n
    · rw [if_pos h1] at h0
      rw [if_pos (by omega)]
      omega
    · rw [if_neg h1] at h0
      rw [if_neg (by omega)]
      omega

/-- An owner outside the pointers calls the deleter. -/
theorem del_ok {m : Mem} {n : Nat} {f g g' : Nat → Nat} (h : MInv m n f g) {o : Option Nat} (hg : ∀ x, g x = g' x + ind o x) :
    MInv (m.del o) n f g' := by
  have hb : (m.del o).blocks = m.blocks := by cases o <;> rfl
  refine ⟨fun a => ?_, fun a b hc => ?_, fun x => ?_⟩
  · have := h.cnt a
    simpa [Mem.cnt, Mem.at', hb] using this
  · have := h.pos a b
    simp only [Mem.at', hb] at hc this
    exact this hc
  · have h0 := h.objs x
    have h1 := hg x
    simp only [Mem.holders, hb] at h0 ⊢
    cases o with
    | none => simp only [Mem.del, ind] at h1 ⊢; simp at h1; omega
    | some y =>
      simp only [Mem.del, ind, Option.some.injEq, List.count_cons, beq_iff_eq] at h1 ⊢
      omega

theorem MInv.congr {m : Mem} {n : Nat} {f f' g g' : Nat → Nat} (h : MInv m n f g) (hf : ∀ x, f x = f' x) (hg : ∀ x, g x = g' x) :
    MInv m n f' g' := by
  rw [← funext hf, ← funext hg]
  exact h

/-- The group a pointer is in. -/
def groupOf (m : Mem) (p : Option Nat) : Option Group := p.map fun a => (a, m.objAt a)

/-- A state and the ownership it stands for. -/
structure Rel (s : State) (w : Owners) : Prop where
  inv : MInv s.mem s.objs (fun a => s.cells.count (some a)) (fun o => s.uniqs.count (some o))
  groups : w.groups = s.mem.blocks.length
  objs : w.objs = s.objs
  cells : w.cells = s.cells.map (groupOf s.mem)
  uniqs : w.uniqs = s.uniqs
  views : w.views = s.views

theorem mem_of_count {l : List (Option Nat)} {a : Nat} : some a ∈ l ↔ 0 < l.count (some a) := by
  rw [List.count_pos_iff]

theorem map_group {m m' : Mem} {l : List (Option Nat)} (h : ∀ a, some a ∈ l → m'.objAt a = m.objAt a) :
    l.map (groupOf m') = l.map (groupOf m) := by
  refine List.map_congr_left fun p hp => ?_
  cases p with
  | none => rfl
  | some a => simp [groupOf, h a hp]

/-- Move-assignment of a temporary. -/
theorem moveIn_ok {s : State} {d : Nat} {p q : Option Nat} {n : Nat} (hd : s.cells[d]? = some q)
    (h : MInv s.mem n (fun a => s.cells.count (some a) + ind p a) (fun o => s.uniqs.count (some o))) :
    ∃ s', s.moveIn d p = some s' ∧ MInv s'.mem n (fun a => s'.cells.count (some a)) (fun o => s'.uniqs.count (some o)) ∧
      s'.cells = s.cells.set d p ∧ s'.cells.map (groupOf s'.mem) = (s.cells.set d p).map (groupOf s.mem) ∧
      s'.uniqs = s.uniqs ∧ s'.views = s.views ∧ s'.objs = s.objs ∧ s'.mem.blocks.length = s.mem.blocks.length := by
  obtain ⟨m', h1, h2, h3, h4⟩ := dec_ok (q := q) (f' := fun a => (s.cells.set d p).count (some a)) h
    (fun x => by have := count_put hd p x; omega)
  refine ⟨{ s with mem := m', cells := s.cells.set d p }, ?_, h2, rfl, ?_, rfl, rfl, rfl, h4⟩
  · simp only [State.moveIn, hd, h1, Option.bind_some]
  · exact map_group fun a ha => h3 a (mem_of_count.1 ha)

theorem set_self {α : Type} : ∀ {l : List α} {d : Nat} {q : α} (_ : l[d]? = some q), l.set d q = l
  | [], _, _, h => by simp at h
  | x :: l, 0, q, h => by simp at h; simp [h]
  | x :: l, d + 1, q, h => by simp at h; simp [set_self h]

theorem getCell {s : State} {w : Owners} (h : Rel s w) {d : Nat} (hd : d < s.cells.length) :
    ∃ q, s.cells[d]? = some q ∧ w.cells[d]? = some (groupOf s.mem q) := by
  refine ⟨s.cells[d], List.getElem?_eq_getElem hd, ?_⟩
  rw [h.cells]
  simp [hd]

/-- Joining a group. -/
theorem join_ok {s : State} {w : Owners} (h : Rel s w) {d o : Nat} (hd : d < s.cells.length) (ho : o < s.cells.length) :
    ∃ s', s.copyIn d o = some s' ∧ Rel s' (w.join d o) := by
  obtain ⟨q, hq, _⟩ := getCell h hd
  obtain ⟨p, hp, hp'⟩ := getCell h ho
  obtain ⟨m, h1, h2, h3, h4⟩ := inc_ok h.inv (p := p) (fun a e => by
    subst e
    exact mem_of_count.1 (List.mem_of_getElem? hp))
  obtain ⟨s', g1, g2, _, g4, g5, g6, g7, g8⟩ := moveIn_ok (s := { s with mem := m }) (p := p) hq h2
  refine ⟨s', by simp only [State.copyIn, hp, h1, g1, Option.bind_some], ⟨?_, ?_, ?_, ?_, ?_, ?_⟩⟩
  · rw [g7]; exact g2
  · rw [g8]; exact h.groups.trans h4.symm
  · rw [g7]; exact h.objs
  · rw [g4, map_group (fun a _ => h3 a)]
    simp only [Owners.join, hp', Option.getD_some]
    rw [h.cells, List.map_set]
  · rw [g5]; exact h.uniqs
  · rw [g6]; exact h.views

/-- Taking the place of another pointer. -/
theorem replace_ok {s : State} {w : Owners} (h : Rel s w) {d o : Nat} (hd : d < s.cells.length) (ho : o < s.cells.length)
    (hne : d ≠ o) : ∃ s', s.moveFrom d o = some s' ∧ Rel s' (w.replace d o) := by
  obtain ⟨q, hq, _⟩ := getCell h hd
  obtain ⟨p, hp, hp'⟩ := getCell h ho
  have e1 := fun x => count_put hq p x
  have ho' : (s.cells.set d p)[o]? = some p := by rw [List.getElem?_set_ne hne, hp]
  have e2 := fun x => count_put ho' none x
  obtain ⟨m, h1, h2, h3, h4⟩ := dec_ok (q := q) (f' := fun a => ((s.cells.set d p).set o none).count (some a)) h.inv
    (fun x => by have := e1 x; have := e2 x; have : ind none x = 0 := rfl; omega)
  refine ⟨{ s with mem := m, cells := (s.cells.set d p).set o none }, ?_, ⟨h2, ?_, ?_, ?_, ?_, ?_⟩⟩
  · simp only [State.moveFrom, if_neg hne, hq, hp, h1, Option.bind_some]
  · simp only [Owners.replace, if_neg hne]; exact h.groups.trans h4.symm
  · simp only [Owners.replace, if_neg hne]; exact h.objs
  · simp only
    rw [map_group fun a ha => h3 a (mem_of_count.1 ha)]
    simp only [Owners.replace, if_neg hne, hp', Option.getD_some]
    rw [h.cells, List.map_set, List.map_set]
    rfl
  · simp only [Owners.replace, if_neg hne]; exact h.uniqs
  · simp only [Owners.replace, if_neg hne]; exact h.views

/-- Founding a group: `o` comes from the other owners. -/
theorem found_ok {s : State} {w : Owners} {d : Nat} {o : Option Nat} {g : Nat → Nat} (hd : d < s.cells.length)
    (inv : MInv s.mem s.objs (fun a => s.cells.count (some a)) g) (hg : ∀ x, g x = s.uniqs.count (some x) + ind o x)
    (h1 : w.groups = s.mem.blocks.length) (h2 : w.objs = s.objs) (h3 : w.cells = s.cells.map (groupOf s.mem))
    (h4 : w.uniqs = s.uniqs) (h5 : w.views = s.views) :
    ∃ s', State.moveIn { s with mem := { s.mem with blocks := s.mem.blocks ++ [some ⟨o, 1⟩] } } d (some s.mem.blocks.length) = some s' ∧
      Rel s' (w.found d o) := by
  have hq := List.getElem?_eq_getElem hd
  obtain ⟨s', g1, g2, _, g4, g5, g6, g7, g8⟩ := moveIn_ok
    (s := { s with mem := { s.mem with blocks := s.mem.blocks ++ [some ⟨o, 1⟩] } }) hq (push_ok inv hg)
  have hat := push_at s.mem ⟨o, 1⟩ { s.mem with blocks := s.mem.blocks ++ [some ⟨o, 1⟩] } rfl
  refine ⟨s', g1, ⟨?_, ?_, ?_, ?_, ?_, ?_⟩⟩
  · rw [g7]; exact g2
  · rw [g8]; simp [Owners.found, h1]
  · rw [g7]; exact h2
  · rw [g4, List.map_set]
    simp only [Owners.found, h3, h1]
    have : groupOf { s.mem with blocks := s.mem.blocks ++ [some ⟨o, 1⟩] } (some s.mem.blocks.length) = some (s.mem.blocks.length, o) := by
      simp [groupOf, Mem.objAt, hat]
    rw [this]
    congr 1
    refine (map_group fun a ha => ?_).symm
    have : a ≠ s.mem.blocks.length := by
      rintro rfl
      have h0 := inv.cnt s.mem.blocks.length
      simp only [Mem.cnt, Mem.at', List.getElem?_eq_none (Nat.le_refl _), Option.join_none] at h0
      have := mem_of_count.1 ha
      omega
    simp only [Mem.objAt, hat a, if_neg this]
  · rw [g5]; exact h4
  · rw [g6]; exact h5

/-- Leaving a group. -/
theorem leave_ok {s : State} {w : Owners} (h : Rel s w) {d : Nat} (hd : d < s.cells.length) :
    ∃ s', s.moveIn d none = some s' ∧ Rel s' { w with cells := w.cells.set d none } := by
  have hq := List.getElem?_eq_getElem hd
  obtain ⟨s', g1, g2, _, g4, g5, g6, g7, g8⟩ := moveIn_ok (p := none) hq (h.inv.congr (fun x => by simp [ind]) (fun _ => rfl))
  refine ⟨s', g1, ⟨?_, ?_, ?_, ?_, ?_, ?_⟩⟩
  · rw [g7]; exact g2
  · rw [g8]; exact h.groups
  · rw [g7]; exact h.objs
  · rw [g4, List.map_set]; simp only [h.cells]; rfl
  · rw [g5]; exact h.uniqs
  · rw [g6]; exact h.views

theorem ite_del {m : Mem} {o : Option Nat} {n : Nat} {f g g' : Nat → Nat} (h : MInv m n f g) (hg : ∀ x, g x = g' x + ind o x) :
    MInv (if o.isSome then m.del o else m) n f g' ∧ (if o.isSome then m.del o else m).blocks = m.blocks := by
  cases o with
  | none => exact ⟨h.congr (fun _ => rfl) (fun x => by simp [hg, ind]), rfl⟩
  | some a => exact ⟨del_ok h hg, rfl⟩

theorem objAt_blocks {m m' : Mem} (h : m'.blocks = m.blocks) (a : Nat) : m'.objAt a = m.objAt a := by
  simp [Mem.objAt, Mem.at', h]

theorem length_cells {s : State} {w : Owners} (h : Rel s w) : w.cells.length = s.cells.length := by rw [h.cells]; simp

/-- One statement. -/
theorem step_share {k : Kind} {s : State} {w : Owners} (h : Rel s w) {op : Op} (hr : InRange s.cells.length s.uniqs.length s.views.length op)
    (ha : Avoids k op) : ∃ s', s.step k op = some (s', (step w op).2) ∧ Rel s' (step w op).1 := by
  have lift : ∀ {r : Option State} {w' : Owners}, (∃ s', r = some s' ∧ Rel s' w') →
      ∃ s', r.map (fun s => (s, false)) = some (s', false) ∧ Rel s' w' := by
    rintro r w' ⟨s', rfl, hs⟩
    exact ⟨s', rfl, hs⟩
  cases op with
  | uniq u =>
    obtain ⟨o, hu⟩ : ∃ o, s.uniqs[u]? = some o := ⟨_, List.getElem?_eq_getElem (show u < s.uniqs.length from hr)⟩
    have hc := fun x => count_put hu (some s.objs) x
    obtain ⟨i1, i2⟩ := ite_del (o := o) h.inv.newObj (g' := fun x => (s.uniqs.set u (some s.objs)).count (some x))
      (fun x => by have := hc x; omega)
    simp only [State.step, hu, Option.bind_some, step]
    refine ⟨_, rfl, ⟨i1, ?_, ?_, ?_, ?_, h.views⟩⟩
    · simp only [i2]; exact h.groups
    · simp only [h.objs]
    · simp only; rw [map_group fun a _ => objAt_blocks i2 a]; exact h.cells
    · simp only [h.uniqs, h.objs]
  | dropUniq u =>
    obtain ⟨o, hu⟩ : ∃ o, s.uniqs[u]? = some o := ⟨_, List.getElem?_eq_getElem (show u < s.uniqs.length from hr)⟩
    have hc := fun x => count_put hu none x
    obtain ⟨i1, i2⟩ := ite_del (o := o) h.inv (g' := fun x => (s.uniqs.set u none).count (some x))
      (fun x => by have := hc x; have : ind none x = 0 := rfl; omega)
    simp only [State.step, hu, Option.bind_some, step]
    refine ⟨_, rfl, ⟨i1, ?_, h.objs, ?_, ?_, h.views⟩⟩
    · simp only [i2]; exact h.groups
    · simp only; rw [map_group fun a _ => objAt_blocks i2 a]; exact h.cells
    · simp only [h.uniqs]
  | takeUniq d u fail =>
    obtain ⟨hd, hu⟩ := hr
    have hd' := List.getElem?_eq_getElem hd
    have hu' := List.getElem?_eq_getElem hu
    cases fail with
    | true =>
      have hk : k = .own := ha rfl
      subst hk
      exact ⟨s, by simp [State.step, step, hd', hu', Mem.take], by simpa [step] using h⟩
    | false =>
      have hc := fun x => count_put hu' none x
      have := found_ok (s := { s with uniqs := s.uniqs.set u none }) (w := { w with uniqs := w.uniqs.set u none })
        (o := s.uniqs[u]) hd h.inv (fun x => by have := hc x; have : ind none x = 0 := rfl; simp only; omega) h.groups h.objs h.cells
        (by simp [h.uniqs]) h.views
      simp only [State.step, step, hd', hu', Mem.take, Option.bind_some, Bool.false_eq_true, if_false, h.uniqs, Option.getD_some]
      rw [h.uniqs] at this
      exact lift this
  | takeNew d fail =>
    have hd' := List.getElem?_eq_getElem (show d < s.cells.length from hr)
    cases fail with
    | true =>
      have hk : k = .std := ha rfl
      subst hk
      refine ⟨{ s with mem := s.mem.del (some s.objs), objs := s.objs + 1 }, by simp [State.step, step, hd', Mem.take], ?_⟩
      simp only [step, if_true]
      exact ⟨del_ok h.inv.newObj (fun x => rfl), h.groups, by simp [h.objs], by rw [h.cells]; rfl, h.uniqs, h.views⟩
    | false =>
      have := found_ok (s := { s with objs := s.objs + 1 }) (w := { w with objs := w.objs + 1 })
        (o := some s.objs) hr h.inv.newObj (fun x => rfl) h.groups (by simp [h.objs]) h.cells h.uniqs h.views
      simp only [State.step, step, hd', Mem.take, Option.bind_some, Bool.false_eq_true, if_false, h.objs]
      rw [h.objs] at this
      exact lift this
  | make d fail =>
    cases fail with
    | true => cases ha
    | false =>
      have := found_ok (s := { s with objs := s.objs + 1 }) (w := { w with objs := w.objs + 1 })
        (o := some s.objs) hr h.inv.newObj (fun x => rfl) h.groups (by simp [h.objs]) h.cells h.uniqs h.views
      simp only [State.step, step, Bool.false_eq_true, if_false, h.objs]
      rw [h.objs] at this
      exact lift this
  | null d => exact lift (leave_ok h hr)
  | reset d => exact lift (leave_ok h hr)
  | copy d o =>
    obtain ⟨hd, ho⟩ := hr
    simp only [State.step, step]
    by_cases e : d = o
    · subst e
      obtain ⟨q, hq, hq'⟩ := getCell h hd
      refine ⟨s, by simp [hq], ?_⟩
      have : w.join d d = w := by
        simp only [Owners.join, hq', Option.getD_some, set_self hq']
      rw [this]
      exact h
    · rw [if_neg e]; exact lift (join_ok h hd ho)
  | move d o =>
    obtain ⟨hd, ho⟩ := hr
    simp only [State.step, step]
    by_cases e : d = o
    · subst e
      obtain ⟨q, hq, hq'⟩ := getCell h hd
      exact ⟨s, by simp [hq], by simpa [Owners.replace] using h⟩
    · rw [if_neg e]; exact lift (replace_ok h hd ho e)
  | copyRaw d o => exact lift (join_ok h hr.1 hr.2)
  | moveRaw d o => exact lift (replace_ok h hr.1 hr.2 ha)
  | share o p => exact lift (join_ok h hr.2 hr.1)
  | transfer o p => exact lift (replace_ok h hr.2 hr.1 (fun e => ha e.symm))
  | view v d =>
    have hr : v < s.views.length ∧ d < s.cells.length := hr
    refine ⟨{ s with views := s.views.set v (some d) }, by simp only [State.step, if_pos hr, step], ⟨h.inv, h.groups, h.objs, h.cells, h.uniqs, ?_⟩⟩
    simp only [step, h.views]
  | viewCopy v x =>
    have hx := List.getElem?_eq_getElem (show x < s.views.length from hr.2)
    refine ⟨{ s with views := s.views.set v (s.views[x]'hr.2) }, by simp only [State.step, hx, Option.bind_some, if_pos hr.1, step],
      ⟨h.inv, h.groups, h.objs, h.cells, h.uniqs, ?_⟩⟩
    simp only [step, h.views, hx, Option.getD_some]
  | viewMove v x =>
    have hx := List.getElem?_eq_getElem (show x < s.views.length from hr.2)
    by_cases e : v = x
    · exact ⟨s, by simp only [State.step, hx, Option.bind_some, if_pos hr.1, if_pos e, step], by simpa [step, e] using h⟩
    · refine ⟨{ s with views := (s.views.set v (s.views[x]'hr.2)).set x none },
        by simp only [State.step, hx, Option.bind_some, if_pos hr.1, if_neg e, step], ?_⟩
      simp only [step, if_neg e]
      exact ⟨h.inv, h.groups, h.objs, h.cells, h.uniqs, by simp only [h.views, hx, Option.getD_some]⟩
  | viewReset v =>
    refine ⟨{ s with views := s.views.set v none }, ?_, ⟨h.inv, h.groups, h.objs, h.cells, h.uniqs, ?_⟩⟩
    · have hv : v < s.views.length := hr
      simp only [State.step, if_pos hv, step]
    · simp only [step, h.views]

theorem groupOf_inj {m : Mem} {p : Option Nat} {a : Nat} : groupOf m p = some (a, m.objAt a) ↔ p = some a := by
  cases p with
  | none => simp [groupOf]
  | some b =>
    simp only [groupOf, Option.map_some, Option.some.injEq, Prod.mk.injEq]
    exact ⟨fun h => h.1, fun h => ⟨h, by rw [h]⟩⟩

theorem count_group {m : Mem} {a : Nat} : ∀ (l : List (Option Nat)), (l.map (groupOf m)).count (some (a, m.objAt a)) = l.count (some a)
  | [] => rfl
  | p :: l => by
    have ih := count_group (m := m) (a := a) l
    simp only [List.map_cons, List.count_cons, beq_iff_eq, groupOf_inj, ih]

/-- A pointer and its block. -/
theorem cell_ok {s : State} {w : Owners} (h : Rel s w) {d : Nat} {c : Option Group} (hc : w.cells[d]? = some c) :
    ∃ p, s.cells[d]? = some p ∧ c = groupOf s.mem p ∧ s.get d = some (c.bind (·.2)) ∧
      s.useCount d = some (w.number c) := by
  rw [h.cells, List.getElem?_map, Option.map_eq_some_iff] at hc
  obtain ⟨p, hp, rfl⟩ := hc
  refine ⟨p, hp, rfl, ?_, ?_⟩
  · cases p with
    | none => simp [State.get, hp, groupOf]
    | some a =>
      obtain ⟨b, hb⟩ := Mem.live_of (m := s.mem) (a := a) (by rw [h.inv.cnt]; exact mem_of_count.1 (List.mem_of_getElem? hp))
      simp [State.get, hp, groupOf, Mem.objAt, hb]
  · cases p with
    | none => simp [State.useCount, hp, groupOf, Owners.number]
    | some a =>
      have hn := h.inv.cnt a
      obtain ⟨b, hb⟩ := Mem.live_of (m := s.mem) (a := a) (by rw [hn]; exact mem_of_count.1 (List.mem_of_getElem? hp))
      simp only [Mem.cnt, hb] at hn
      simp only [State.useCount, hp, groupOf, Option.map_some, Option.bind_some, Owners.number, Owners.size, h.cells]
      rw [count_group, hb, ← hn]
      rfl

theorem size_pos {s : State} {w : Owners} {d : Nat} {g : Group} (hc : w.cells[d]? = some (some g)) : w.size g ≠ 0 := by
  have := List.count_pos_iff.2 (List.mem_of_getElem? hc)
  simp only [Owners.size]
  omega

theorem Rel.shows {s : State} {w : Owners} (h : Rel s w) : Shows s w where
  get d c hc := (cell_ok h hc).choose_spec.2.2.1
  useCount d c hc := (cell_ok h hc).choose_spec.2.2.2
  unique d c hc := by
    obtain ⟨_, _, _, _, h4⟩ := cell_ok h hc
    simp [State.unique, h4]
  ask d c hc := by
    obtain ⟨_, _, _, h3, _⟩ := cell_ok h hc
    simp only [State.ask, h3, Option.map_some]
  askOwn d c hc := by
    obtain ⟨p, h1, h2, _, _⟩ := cell_ok h hc
    subst h2
    cases p <;> simp [State.askOwn, h1, groupOf]
  eq d o c e hc he := by
    obtain ⟨_, _, _, h3, _⟩ := cell_ok h hc
    obtain ⟨_, _, _, h3', _⟩ := cell_ok h he
    simp only [State.eq, h3, h3', Option.map_some, Option.bind_some]
  viewNull v hv := by
    rw [h.views] at hv
    simp [State.viewGet, State.viewCount, hv]
  view v d c hv hc := by
    rw [h.views] at hv
    obtain ⟨_, _, _, h3, h4⟩ := cell_ok h hc
    refine ⟨by simp only [State.viewGet, hv, Option.bind_some, h3], ?_⟩
    simp only [State.viewCount, hv, Option.bind_some, h4, Option.map_some]
    cases c with
    | none => rfl
    | some g =>
      have := size_pos (s := s) hc
      simp [Owners.number, this]
  uniqs := h.uniqs.symm

theorem owned_iff {s : State} {w : Owners} (h : Rel s w) (o : Nat) :
    w.owned o ↔ 0 < s.uniqs.count (some o) + s.mem.holders o := by
  constructor
  · rintro (hu | ⟨g, hg⟩)
    · rw [h.uniqs] at hu
      have := mem_of_count.1 hu
      omega
    · rw [h.cells, List.mem_map] at hg
      obtain ⟨p, hp, e⟩ := hg
      cases p with
      | none => cases e
      | some a =>
        simp only [groupOf, Option.map_some, Option.some.injEq, Prod.mk.injEq] at e
        obtain ⟨b, hb⟩ := Mem.live_of (m := s.mem) (a := a) (by rw [h.inv.cnt]; exact mem_of_count.1 hp)
        have : 0 < s.mem.holders o := by
          rw [Mem.holders, List.countP_pos_iff]
          exact ⟨some b, List.mem_of_getElem? (at'_some hb), by simpa [holds, Mem.objAt, hb] using e.2⟩
        omega
  · intro hp
    by_cases hu : 0 < s.uniqs.count (some o)
    · exact .inl (by rw [h.uniqs]; exact mem_of_count.2 hu)
    · have : 0 < s.mem.holders o := by omega
      rw [Mem.holders, List.countP_pos_iff] at this
      obtain ⟨x, hx, hb⟩ := this
      cases x with
      | none => cases hb
      | some b =>
        obtain ⟨a, ha⟩ := List.mem_iff_getElem?.1 hx
        have hat : s.mem.at' a = some b := by simp [Mem.at', ha]
        have h1 := h.inv.pos a b hat
        have h2 := h.inv.cnt a
        simp only [Mem.cnt, hat] at h2
        refine .inr ⟨a, ?_⟩
        rw [h.cells, List.mem_map]
        refine ⟨some a, mem_of_count.2 (by omega), ?_⟩
        simp only [holds, beq_iff_eq] at hb
        simp [groupOf, Mem.objAt, hat, hb]

theorem Rel.deleted {s : State} {w : Owners} (h : Rel s w) : Deleted s w := by
  intro o ho
  have h0 := h.inv.objs o
  rw [h.objs] at ho
  rw [if_pos ho] at h0
  rw [owned_iff h]
  refine ⟨fun hp hm => ?_, fun hn => by omega⟩
  have := List.count_pos_iff.2 hm
  omega

theorem rel_init (c u v : Nat) : Rel (init c u v) (start c u v) where
  inv := ⟨fun a => by simp [Mem.cnt, Mem.at', init, List.count_replicate], fun a b h => by simp [Mem.at', init] at h,
    fun o => by simp [init, Mem.holders, List.count_replicate]⟩
  groups := rfl
  objs := rfl
  cells := by simp [start, init, groupOf]
  uniqs := rfl
  views := rfl

theorem step_sizes {w : Owners} {op : Op} : (step w op).1.cells.length = w.cells.length ∧ (step w op).1.uniqs.length = w.uniqs.length ∧
    (step w op).1.views.length = w.views.length := by
  cases op <;> simp only [step, Owners.join, Owners.replace, Owners.found] <;> (try split) <;> simp

theorem run_share {k : Kind} : ∀ (ops : List Op) {s : State} {w : Owners}, Rel s w →
    (∀ op ∈ ops, InRange s.cells.length s.uniqs.length s.views.length op ∧ Avoids k op) →
    ∃ s', s.run k ops = some (s', (run w ops).2) ∧ Rel s' (run w ops).1
  | [], s, w, h, _ => ⟨s, rfl, h⟩
  | op :: ops, s, w, h, ho => by
    obtain ⟨s1, h1, h2⟩ := step_share h (ho op (by simp)).1 (ho op (by simp)).2
    obtain ⟨z1, z2, z3⟩ := step_sizes (w := w) (op := op)
    have e1 : s1.cells.length = s.cells.length := by rw [← length_cells h2, z1, length_cells h]
    have e2 : s1.uniqs.length = s.uniqs.length := by rw [← h2.uniqs, z2, h.uniqs]
    have e3 : s1.views.length = s.views.length := by rw [← h2.views, z3, h.views]
    obtain ⟨s2, h3, h4⟩ := run_share ops h2 (by rw [e1, e2, e3]; exact fun o ho' => ho o (by simp [ho']))
    exact ⟨s2, by simp only [State.run, h1, Option.bind_some, h3]; rfl, h4⟩

end Dart.Share
