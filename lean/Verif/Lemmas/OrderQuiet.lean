import Verif.Lemmas.OrderStep

/-
Which steps happen before which others, helpers: steps that do not change elements.
-/
namespace Dart.Conc
variable {o : Orders} {tr : List Ev} {m : M} {s : S}

theorem take_same {x : Ev} {c : Nat} (h : x.sync ≠ .take c) :
    earlier (tr ++ [x]) (.take c) (tr ++ [x]).length = earlier tr (.take c) tr.length := by
  rw [earlier_snoc, if_neg h]; rfl

theorem put_same {x : Ev} {c : Nat} (h : x.sync ≠ .put c) :
    earlier (tr ++ [x]) (.put c) (tr ++ [x]).length = earlier tr (.put c) tr.length := by
  rw [earlier_snoc, if_neg h]; rfl

theorem holder_msg {x : Ev} {bs' : List (Option Blk)} {ths : List Th} {c n a : Nat} (h : x.sync ≠ .take c) :
    Holder ⟨bs', m.chans, ths⟩ (tr ++ [x]) (.msg c n) a ↔ Holder m tr (.msg c n) a := by
  simp only [Holder, take_same h]

theorem holder_set {x : Ev} {bs' : List (Option Blk)} {cs' : List (List Hd)} {t u a : Nat} {th th' : Th} (ht : m.threads[t]? = some th) :
    Holder ⟨bs', cs', m.threads.set t th'⟩ (tr ++ [x]) (.thr u) a ↔
      (u = t ∧ .ref a ∈ th'.handles) ∨ (u ≠ t ∧ Holder m tr (.thr u) a) := by
  have hlt := (List.getElem?_eq_some_iff.1 ht).1
  simp only [Holder, List.getElem?_set]
  by_cases hu : t = u
  · subst hu
    simp [hlt]
  · have hu' : ¬ u = t := fun e => hu e.symm
    simp [hu, hu']

/-- Nothing happens. -/
theorem Ordered.skip (ho : Ordered o m tr) {x : Ev} (h1 : x.sync = .none) (h2 : x.accesses = []) : Ordered o m (tr ++ [x]) := by
  have hW : ∀ {a e : Nat}, KnowW o (tr ++ [x]) a e → KnowW o tr a e := by
    intro a e h
    rcases h.snoc with h | ⟨h, _⟩
    · exact h
    · rw [h2] at h; cases h
  have hH : ∀ {pl : Place} {a : Nat}, Holder m (tr ++ [x]) pl a ↔ Holder m tr pl a := by
    intro pl a
    cases pl with
    | thr t => exact Iff.rfl
    | elem b => exact Iff.rfl
    | msg c n => exact holder_msg (m := m) (bs' := m.blocks) (ths := m.threads) (by rw [h1]; nofun)
  have hacc : ∀ {i : Nat} {y : Ev} {a : Nat} {w : Bool}, (tr ++ [x])[i]? = some y → (a, w) ∈ y.accesses → tr[i]? = some y := by
    intro i y a w h3 h4
    rcases get_snoc h3 with h3 | ⟨_, rfl⟩
    · exact h3
    · rw [h2] at h4; cases h4
  refine ⟨?_, ?_, ?_, ?_, ?_, ?_, ?_⟩
  · intro i y a h3 h4
    rcases get_snoc h3 with h3 | ⟨_, rfl⟩
    · exact ho.fresh i y a h3 h4
    · rw [h1, h2] at h4
      rcases h4 with h4 | ⟨w, h4⟩ <;> cases h4
  · intro c q hq
    rw [put_same (by rw [h1]; nofun), take_same (by rw [h1]; nofun)]
    exact ho.queue c q hq
  · intro pl a e h3 h4
    exact (ho.seen pl a e (hH.1 h3) (hW h4)).mono x
  · intro i y a w b h3 h4 h5
    rcases ho.used i y a w b (hacc h3 h4) h4 h5 with h6 | ⟨pl, h6, h7⟩ | h6
    · exact .inl (h6.mono x)
    · exact .inr (.inl ⟨pl, hH.2 h6, h7.mono x⟩)
    · exact .inr (.inr h6)
  · intro t th a h3 h4
    obtain ⟨h5, h6⟩ := ho.dying t th a h3 h4
    exact ⟨fun e he => (h5 e (hW he)).mono x, fun i y w hy hw => (h6 i y w (hacc hy hw) hw).mono x⟩
  · intro t th op rest a e h3 h4 h5 h6 h7
    rcases h7.snoc with h7 | ⟨h7, _⟩
    · exact (ho.sole t th op rest a e h3 h4 h5 h6 h7).mono x
    · rw [h1] at h7; cases h7
  · intro i j hij hc
    obtain ⟨y, z, a, w, w', h3, h4, h5, h6, h7, h8⟩ := hc
    exact (ho.ordered i j hij ⟨y, z, a, w, w', hacc h3 h6, hacc h4 h7, h5, h6, h7, h8⟩).append _

/-- Elements stay as they are. -/
structure Quiet (o : Orders) (m : M) (tr : List Ev) (t : Nat) (th : Th) (x : Ev) (bs' : List (Option Blk)) (th' : Th) : Prop where
  thread : x.thread = t
  thr : m.threads[t]? = some th
  length : bs'.length = m.blocks.length
  kids : ∀ b, (blkAt bs' b).map Blk.kids = (blkAt m.blocks b).map Blk.kids
  sync : ∀ c, x.sync ≠ .put c ∧ x.sync ≠ .take c
  access : ∀ a w, (a, w) ∈ x.accesses → w = false ∧ .ref a ∈ th.handles ∧ .ref a ∈ th'.handles
  origin : ∀ a, .ref a ∈ th'.handles → .ref a ∈ th.handles ∨ ∃ b blk, .ref b ∈ th.handles ∧ blkAt m.blocks b = some blk ∧ .ref a ∈ blk.kids
  stays : ∀ a, .ref a ∈ th.handles → .ref a ∈ th'.handles ∨ o.releases a x.sync = true
  counts : ∀ a, o.releases a x.sync = true → .ref a ∈ th.handles ∨ 0 < refsIn kidsOf a m.blocks
  alive : th.dying = none
  dies : ∀ a, th'.dying = some a → (∀ e, KnowW o tr a e → KnowT o (tr ++ [x]) t e) ∧ (∀ w, (a, w) ∉ x.accesses) ∧
    ∀ (i : Nat) (y : Ev) (w : Bool), tr[i]? = some y → (a, w) ∈ y.accesses → KnowT o (tr ++ [x]) t i
  sole : ∀ (op : Op) (rest : List Op) (a e : Nat), th'.prog = op :: rest → th'.stage.sole → th'.var op.target = .ref a →
    KnowC o tr a e → KnowT o (tr ++ [x]) t e

theorem Inv.live (hi : Inv m s) {t a : Nat} {th : Th} (ht : m.threads[t]? = some th) (h : .ref a ∈ th.handles ∨ 0 < refsIn kidsOf a m.blocks) :
    ∃ b, blkAt m.blocks a = some b := by
  obtain ⟨b, hb, _⟩ := (hi.counted.loc ht).live (a := a) (h.imp refs_pos.2 id)
  exact ⟨b, hb⟩

theorem Quiet.grows (ho : Ordered o m tr) (hi : Inv m s) {t : Nat} {th th' : Th} {x : Ev} {bs' : List (Option Blk)}
    (g : Quiet o m tr t th x bs' th') : Grows o m tr t th x bs' m.chans th' := by
  have helem : ∀ {b a : Nat}, Holder ⟨bs', m.chans, m.threads.set t th'⟩ (tr ++ [x]) (.elem b) a ↔ Holder m tr (.elem b) a := by
    intro b a
    have := g.kids b
    simp only [Holder]
    constructor
    · rintro ⟨blk, h1, h2⟩
      rw [h1] at this
      cases h3 : blkAt m.blocks b with
      | none => rw [h3] at this; cases this
      | some blk' =>
        rw [h3] at this
        simp only [Option.map_some, Option.some.injEq] at this
        exact ⟨blk', rfl, this ▸ h2⟩
    · rintro ⟨blk, h1, h2⟩
      rw [h1] at this
      cases h3 : blkAt bs' b with
      | none => rw [h3] at this; cases this
      | some blk' =>
        rw [h3] at this
        simp only [Option.map_some, Option.some.injEq] at this
        exact ⟨blk', rfl, this ▸ h2⟩
  have hmsg : ∀ {c n a : Nat}, Holder ⟨bs', m.chans, m.threads.set t th'⟩ (tr ++ [x]) (.msg c n) a ↔ Holder m tr (.msg c n) a :=
    holder_msg (g.sync _).2
  have hlive : ∀ {a : Nat}, .ref a ∈ th.handles ∨ 0 < refsIn kidsOf a m.blocks → a < m.blocks.length := by
    intro a h
    obtain ⟨b, hb⟩ := hi.live g.thr h
    exact blkAt_lt hb
  refine ⟨g.thread, g.thr, by rw [g.length]; exact Nat.le_refl _, ?_, ?_, ?_, ?_, ?_, ?_, ?_, ?_, ?_, ?_, g.sole, g.counts⟩
  · intro a h
    rw [g.length]
    rcases h with h | ⟨w, h⟩
    · exact hlive (g.counts a h)
    · exact hlive (.inl (g.access a w h).2.1)
  · intro c q hq
    rw [put_same (g.sync c).1, take_same (g.sync c).2]
    exact ho.queue c q hq
  · intro a h
    have := (g.access a true h).1
    cases this
  · intro a h
    exact (g.access a false h).2.1
  · intro a w h
    exact ⟨.inl (g.access a w h).2.2, .inl (g.access a w h).2.1⟩
  · intro pl a h
    cases pl with
    | elem b => exact .inl (helem.1 h)
    | msg c n => exact .inl (hmsg.1 h)
    | thr u =>
      rcases (holder_set g.thr).1 h with ⟨rfl, h'⟩ | ⟨_, h⟩
      · rcases g.origin a h' with h | ⟨b, blk, h1, h2, h3⟩
        · exact .inl ⟨th, g.thr, h⟩
        · refine .inr (.inl ⟨.elem b, ⟨blk, h2, h3⟩, fun e he => ?_⟩)
          exact KnowT.mono (ho.seen (.thr u) b e ⟨th, g.thr, h1⟩ he) x
      · exact .inl h
  · intro pl a h _
    cases pl with
    | elem b => exact .inl (helem.2 h)
    | msg c n => exact .inl (hmsg.2 h)
    | thr u =>
      by_cases hu : u = t
      · subst hu
        rcases g.stays a ((holder_thr g.thr).1 h) with h1 | h1
        · exact .inl ((holder_set g.thr).2 (.inl ⟨rfl, h1⟩))
        · exact .inr (.inr ⟨h1, rfl⟩)
      · exact .inl ((holder_set g.thr).2 (.inr ⟨hu, h⟩))
  · intro a b' h
    have := g.kids a
    rw [h] at this
    cases h3 : blkAt m.blocks a with
    | none => rw [h3] at this; cases this
    | some b => exact .inl ⟨b, rfl⟩
  · intro a h
    obtain ⟨h1, h2, h3⟩ := g.dies a h
    exact ⟨h2, h1, h3⟩
  · intro a h
    rw [g.alive] at h; cases h

end Dart.Conc
