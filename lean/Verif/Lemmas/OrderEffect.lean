import Verif.Lemmas.OrderFrame

/-
What steps do, helpers: steps change what they say they change.
-/
namespace Dart.Conc

/-- What has to hold after a step that is described by `e`. -/
structure Effect (m m' : M) (e : Sync × List (Nat × Bool)) : Prop where
  kids : ∀ a, (a, true) ∉ e.2 → (blkAt m'.blocks a).map Blk.kids = (blkAt m.blocks a).map Blk.kids
  chans : match e.1 with
    | .put c => ∃ (q : List Hd) (h : Hd), m.chans[c]? = some q ∧ m'.chans = m.chans.set c (q ++ [h])
    | .take c => ∃ (h : Hd) (q : List Hd), m.chans[c]? = some (h :: q) ∧ m'.chans = m.chans.set c q
    | _ => m'.chans = m.chans
  count : match e.1 with
    | .inc a => ∃ b : Blk, blkAt m.blocks a = some b ∧ m'.blocks = m.blocks.set a (some { b with count := b.count + 1 })
    | .dec a => ∃ (b : Blk) (n : Nat), blkAt m.blocks a = some b ∧ b.count = n + 1 ∧ m'.blocks = m.blocks.set a (some { b with count := n })
    | _ => ∀ (a : Nat) (b b' : Blk), blkAt m.blocks a = some b → blkAt m'.blocks a = some b' → b'.count = b.count

section
variable {m m' : M} {t : Nat} {e : Sync × List (Nat × Bool)}

theorem setCount_kids {bs : List (Option Blk)} {a n : Nat} {b : Blk} (h : blkAt bs a = some b) (c : Nat) :
    (blkAt (bs.set a (some { b with count := n })) c).map Blk.kids = (blkAt bs c).map Blk.kids := by
  rw [blkAt, List.getElem?_set]
  by_cases hc : a = c
  · subst hc
    have hl : a < bs.length := by
      rcases Nat.lt_or_ge a bs.length with hl | hl
      · exact hl
      · simp [blkAt, List.getElem?_eq_none hl] at h
    simp [hl, h]
  · simp [hc, blkAt]

theorem blkAt_set_ne {bs : List (Option Blk)} {a c : Nat} {o : Option Blk} (h : a ≠ c) : blkAt (bs.set a o) c = blkAt bs c := by
  simp [blkAt, List.getElem?_set, h]

theorem blkAt_snoc {bs : List (Option Blk)} {c : Nat} {o : Option Blk} (h : c ≠ bs.length) : blkAt (bs ++ [o]) c = blkAt bs c := by
  rcases Nat.lt_or_ge c bs.length with hl | hl
  · simp [blkAt, List.getElem?_append_left hl]
  · have : ¬ c - bs.length = 0 := by omega
    simp [blkAt, List.getElem?_append_right hl, this, List.getElem?_eq_none hl]

/-- Blocks and channels are the same. -/
theorem Effect.same {acc : List (Nat × Bool)} {s : Sync} (h1 : m'.blocks = m.blocks) (h2 : m'.chans = m.chans) (hs : s = .none ∨ ∃ a, s = .load a) :
    Effect m m' (s, acc) := by
  refine ⟨fun a _ => by rw [h1], ?_, ?_⟩
  · rcases hs with rfl | ⟨a, rfl⟩ <;> exact h2
  · have : ∀ (a : Nat) (b b' : Blk), blkAt m.blocks a = some b → blkAt m'.blocks a = some b' → b'.count = b.count := by
      intro a b b' hb hb'
      rw [h1, hb] at hb'
      cases hb'; rfl
    rcases hs with rfl | ⟨a, rfl⟩ <;> exact this

theorem Effect.put (th : Th) (acc : List (Nat × Bool)) : Effect m (m.put t th) (.none, acc) := .same rfl rfl (.inl rfl)

/-- The elements at one address are others. -/
theorem Effect.change {a : Nat} {b : Blk} {ks : List Hd} {acc : List (Nat × Bool)} {th : Th} (hb : blkAt m.blocks a = some b) (h : (a, true) ∈ acc) :
    Effect m ((m.setBlk a (some { b with kids := ks })).put t th) (.none, acc) := by
  refine ⟨fun c hc => ?_, rfl, fun c b1 b2 h1 h2 => ?_⟩
  · have : a ≠ c := by rintro rfl; exact hc h
    exact congrArg _ (blkAt_set_ne this)
  · by_cases hac : a = c
    · subst hac
      rw [hb] at h1
      cases h1
      have hl : a < m.blocks.length := by
        rcases Nat.lt_or_ge a m.blocks.length with hl | hl
        · exact hl
        · simp [blkAt, List.getElem?_eq_none hl] at hb
      simp only [M.setBlk, M.put, blkAt, List.getElem?_set, hl, if_true, Option.join_some, Option.some.injEq] at h2
      rw [← h2]
    · simp only [M.setBlk, M.put, blkAt_set_ne hac, h1, Option.some.injEq] at h2
      rw [← h2]

theorem Effect.gone {a : Nat} {acc : List (Nat × Bool)} {th : Th} (h : (a, true) ∈ acc) :
    Effect m ((m.setBlk a none).put t th) (.none, acc) := by
  refine ⟨fun c hc => ?_, rfl, fun c b1 b2 h1 h2 => ?_⟩
  · have : a ≠ c := by rintro rfl; exact hc h
    exact congrArg _ (blkAt_set_ne this)
  · by_cases hac : a = c
    · subst hac
      simp only [M.setBlk, M.put, blkAt, List.getElem?_set] at h2
      by_cases hl : a < m.blocks.length <;> simp [hl] at h2
    · simp only [M.setBlk, M.put, blkAt_set_ne hac, h1, Option.some.injEq] at h2
      rw [← h2]

theorem Effect.fresh {o : Option Blk} {acc : List (Nat × Bool)} {th : Th} (h : (m.blocks.length, true) ∈ acc) :
    Effect m ({ m with blocks := m.blocks ++ [o] }.put t th) (.none, acc) := by
  refine ⟨fun c hc => ?_, rfl, fun c b1 b2 h1 h2 => ?_⟩
  · have : c ≠ m.blocks.length := by rintro rfl; exact hc h
    exact congrArg _ (blkAt_snoc this)
  · have : c ≠ m.blocks.length := by
      rintro rfl
      simp [blkAt] at h1
    simp only [M.put, blkAt_snoc this, h1, Option.some.injEq] at h2
    rw [← h2]

theorem Effect.inc {h : Hd} {th : Th} {acc : List (Nat × Bool)} (hm : incr true m t h th = some m') : Effect m m' (h.sync .inc, acc) := by
  cases h with
  | leaf n => cases hm; exact .put ..
  | ref a =>
    obtain ⟨b, hb, rfl⟩ := Option.map_eq_some_iff.1 hm
    exact ⟨fun c _ => setCount_kids hb c, rfl, b, hb, rfl⟩

theorem Effect.dec {h : Hd} {th : Th} {acc : List (Nat × Bool)} (hm : decr true m t h th = some m') : Effect m m' (h.sync .dec, acc) := by
  cases h with
  | leaf n => cases hm; exact .put ..
  | ref a =>
    obtain ⟨b, hb, h1⟩ := Option.bind_eq_some_iff.1 hm
    cases hn : b.count with
    | zero => simp [hn] at h1
    | succ n =>
      simp only [hn, Option.some.injEq] at h1
      subst h1
      exact ⟨fun c _ => setCount_kids hb c, rfl, b, n, hb, hn, rfl⟩

/-- Every step does what its description says. -/
theorem Effect.step (hp : ∀ th, m.threads[t]? = some th → th.pending = none) (hm : Conc.step true m t = some m') :
    Effect m m' (stepEvent m t) := by
  unfold stepEvent
  unfold Conc.step at hm
  cases ht : m.threads[t]? with
  | none => simp only [ht] at hm ⊢; cases hm; exact .same rfl rfl (.inl rfl)
  | some th =>
  have hp := hp th ht
  simp only [ht, hp] at hm ⊢
  cases hd : th.dying with
  | some c =>
    simp only [hd] at hm ⊢
    obtain ⟨b, hb, rfl⟩ := Option.map_eq_some_iff.1 hm
    exact .gone List.mem_cons_self
  | none =>
  simp only [hd] at hm ⊢
  cases hj : th.junk with
  | cons h w => simp only [hj] at hm ⊢; exact .dec hm
  | nil =>
  simp only [hj] at hm ⊢
  cases hop : th.prog with
  | nil => simp only [hop] at hm ⊢; cases hm; exact .same rfl rfl (.inl rfl)
  | cons op rest =>
  simp only [hop] at hm ⊢
  unfold stmtStep at hm
  unfold stmtEvent
  cases hs : th.stage with
  | start =>
    simp only [hs] at hm ⊢
    cases op with
    | leaf x n => cases hm; exact .put ..
    | make x => cases hm; exact .fresh List.mem_cons_self
    | copy x y => cases hm; exact .put ..
    | get x y i =>
      simp only [begin, beginEvent] at hm ⊢
      cases hy : th.var y with
      | leaf n => simp only [hy] at hm; cases hm; exact .put ..
      | ref c =>
        simp only [hy] at hm
        obtain ⟨b, hb, rfl⟩ := Option.map_eq_some_iff.1 hm
        cases b.kids[i]? <;> exact .put ..
    | push x y =>
      simp only [begin] at hm
      cases hy : th.var x <;> simp only [hy] at hm <;> cases hm <;> exact .put ..
    | pop x =>
      simp only [begin] at hm
      cases hy : th.var x <;> simp only [hy] at hm <;> cases hm <;> exact .put ..
    | clear x =>
      simp only [begin, beginEvent] at hm ⊢
      cases hy : th.var x with
      | leaf n => simp only [hy] at hm; cases hm; exact .put ..
      | ref c =>
        simp only [hy] at hm
        obtain ⟨b, hb, rfl⟩ := Option.map_eq_some_iff.1 hm
        exact .change hb List.mem_cons_self
    | send c x =>
      simp only [begin, beginEvent] at hm ⊢
      cases hc : m.chans[c]? with
      | none => simp only [hc] at hm ⊢; cases hm; exact .put ..
      | some q =>
        simp only [hc] at hm ⊢
        cases hm
        exact ⟨fun _ _ => rfl, ⟨q, th.var x, hc, rfl⟩, fun a b b' h1 h2 => by simp only [M.put, h1] at h2; cases h2; rfl⟩
    | recv c x =>
      simp only [begin, beginEvent] at hm ⊢
      cases hc : m.chans[c]? with
      | none => simp only [hc] at hm ⊢; cases hm; exact .same rfl rfl (.inl rfl)
      | some q =>
        cases q with
        | nil => simp only [hc] at hm ⊢; cases hm; exact .same rfl rfl (.inl rfl)
        | cons h q =>
          simp only [hc] at hm ⊢
          cases hm
          exact ⟨fun _ _ => rfl, ⟨h, q, hc, rfl⟩, fun a b b' h1 h2 => by simp only [M.put, h1] at h2; cases h2; rfl⟩
  | read h => simp only [hs] at hm ⊢; exact .inc hm
  | store h => simp only [hs] at hm ⊢; cases hm; exact .put ..
  | cow =>
    simp only [hs] at hm ⊢
    cases hv : th.var op.target with
    | leaf n => simp only [hv] at hm; cases hm
    | ref c =>
      simp only [hv] at hm
      obtain ⟨b, hb, rfl⟩ := Option.map_eq_some_iff.1 hm
      split <;> exact .same rfl rfl (.inr ⟨c, rfl⟩)
  | copying done =>
    simp only [hs] at hm ⊢
    cases hv : th.var op.target with
    | leaf n => simp only [hv] at hm; cases hm
    | ref c =>
      simp only [hv] at hm ⊢
      obtain ⟨b, hb, rfl⟩ := Option.map_eq_some_iff.1 hm
      simp only [hb]
      cases hk : b.kids[done.length]? with
      | some h => exact .put ..
      | none => exact .fresh (by simp)
  | copyInc done h => simp only [hs] at hm ⊢; exact .inc hm
  | ready =>
    simp only [hs] at hm ⊢
    have key : ∀ {m'}, (match th.var op.target with
          | .leaf _ => none
          | .ref c => (blkAt m.blocks c).map fun b => (m.setBlk c (some { b with kids := b.kids.dropLast })).put t
            { th with junk := b.kids.getLast?.toList, prog := rest, stage := .start }) = some m' →
        Effect m m' (.none, (th.var op.target).touch true) := by
      intro m' hm
      cases hv : th.var op.target with
      | leaf n => simp only [hv] at hm; cases hm
      | ref c =>
        simp only [hv] at hm
        obtain ⟨b, hb, rfl⟩ := Option.map_eq_some_iff.1 hm
        exact .change hb List.mem_cons_self
    cases op with
    | push x y => cases hm; exact .put ..
    | _ => exact key hm
  | arg h => simp only [hs] at hm ⊢; exact .inc hm
  | mutate h =>
    simp only [hs] at hm ⊢
    cases hv : th.var op.target with
    | leaf n => simp only [hv] at hm; cases hm
    | ref c =>
      simp only [hv] at hm
      obtain ⟨b, hb, rfl⟩ := Option.map_eq_some_iff.1 hm
      exact .change hb List.mem_cons_self
end

end Dart.Conc
