import Verif.Lemmas.Order

/-
Which steps happen before which others, helpers: one step keeps the invariant.
-/
namespace Dart.Conc
variable {o : Orders} {tr : List Ev} {m : M} {s : S}

theorem holder_thr {t a : Nat} {th : Th} (ht : m.threads[t]? = some th) : Holder m tr (.thr t) a ↔ .ref a ∈ th.handles := by
  constructor
  · rintro ⟨th', h1, h2⟩
    rw [ht] at h1; cases h1; exact h2
  · exact fun h => ⟨th, ht, h⟩

/-- Nobody refers to elements that are being deleted, and only one thread deletes them. -/
theorem Inv.dying_alone (hi : Inv m s) {u a : Nat} {uh : Th} (hu : m.threads[u]? = some uh) (hd : uh.dying = some a) :
    (∃ b, blkAt m.blocks a = some b ∧ b.count = 0) ∧ refsIn Th.handles a m.threads = 0 ∧ refsIn id a m.chans = 0 ∧
    refsIn kidsOf a m.blocks = 0 ∧ tokens a (m.threads.eraseIdx u) = 0 := by
  have h1 := hi.counted a
  rw [tokens_erase a hu] at h1
  have htk : uh.token a = 1 := by simp only [Th.token, hd, if_true]
  cases hb : blkAt m.blocks a with
  | none => rw [hb] at h1; simp only at h1; omega
  | some b =>
    rw [hb] at h1
    simp only at h1
    obtain ⟨h1, h2⟩ := h1
    split at h2
    · exact ⟨⟨b, rfl, by omega⟩, by omega, by omega, by omega, by omega⟩
    · omega

theorem refsIn_thr {t a : Nat} {th : Th} (ht : m.threads[t]? = some th) (h : .ref a ∈ th.handles) : 0 < refsIn Th.handles a m.threads :=
  refsIn_mem.2 ⟨th, List.mem_of_getElem? ht, h⟩

/-- Between the check and the change nobody else refers to the elements. -/
theorem Inv.sole_alone (hi : Inv m s) {u a : Nat} {uh : Th} {op : Op} {rest : List Op} (hu : m.threads[u]? = some uh)
    (hp : uh.prog = op :: rest) (hs : uh.stage.sole) (hv : uh.var op.target = .ref a) :
    (∃ b, blkAt m.blocks a = some b ∧ b.count = 1) ∧
    refsIn Th.handles a (m.threads.eraseIdx u) = 0 ∧ refsIn id a m.chans = 0 ∧ refsIn kidsOf a m.blocks = 0 ∧
    tokens a m.threads = 0 ∧ refs a uh.handles = 1 := by
  obtain ⟨sth, hsu⟩ := hi.sth hu
  have hR := (hi.threads u uh sth hu hsu).1
  have hst : StageOk m.blocks uh.vars sth op uh.stage := by
    have h' : ∀ {ops : List Op}, Rel m.blocks uh.vars ops uh.stage sth → ops = op :: rest → StageOk m.blocks uh.vars sth op uh.stage := by
      intro ops h e; subst e; exact h.stage
    exact h' hR hp
  have hex : Excl m.blocks uh.vars op.target := by
    cases hstage : uh.stage <;> rw [hstage] at hst hs <;> try exact hs.elim
    · exact hst.2
    · obtain ⟨x, y, h1, _, h3⟩ := hst; subst h1; exact h3
    · obtain ⟨x, y, h1, _, h3⟩ := hst; subst h1; exact h3
  obtain ⟨a', b, h1, h2, h3⟩ := hex
  have hv' : a = a' := by rw [th_var, h1] at hv; cases hv; rfl
  subst hv'
  have h4 := hi.counted a
  rw [h2] at h4
  simp only [h3] at h4
  rw [refsIn_erase Th.handles a hu] at h4
  have h5 := refs_var h1
  have h6 : refs a uh.handles = refs a uh.vars + (refs a uh.stage.handles + refs a uh.junk) := by
    simp only [Th.handles, refs_append]
  simp only [Nat.one_ne_zero, if_false] at h4
  exact ⟨⟨b, h2, h3⟩, by omega, by omega, by omega, by omega, by omega⟩

/-- What has to be shown of a step. -/
structure Grows (o : Orders) (m : M) (tr : List Ev) (t : Nat) (th : Th) (x : Ev) (bs' : List (Option Blk)) (cs' : List (List Hd)) (th' : Th) :
    Prop where
  thread : x.thread = t
  thr : m.threads[t]? = some th
  length : m.blocks.length ≤ bs'.length
  fresh : ∀ a, o.releases a x.sync = true ∨ (∃ w, (a, w) ∈ x.accesses) → a < bs'.length
  queue : ∀ (c : Nat) (q : List Hd), cs'[c]? = some q → earlier (tr ++ [x]) (.put c) (tr ++ [x]).length = earlier (tr ++ [x]) (.take c) (tr ++ [x]).length + q.length
  write : ∀ a, (a, true) ∈ x.accesses → (∀ pl, Holder ⟨bs', cs', m.threads.set t th'⟩ (tr ++ [x]) pl a → pl = .thr t) ∧
    ∀ (i : Nat) (y : Ev) (w : Bool), tr[i]? = some y → (a, w) ∈ y.accesses → KnowT o tr t i
  read : ∀ a, (a, false) ∈ x.accesses → .ref a ∈ th.handles
  access : ∀ a w, (a, w) ∈ x.accesses → (.ref a ∈ th'.handles ∨ blkAt bs' a = none) ∧
    (.ref a ∈ th.handles ∨ a = m.blocks.length ∨ th.dying = some a)
  origin : ∀ pl a, Holder ⟨bs', cs', m.threads.set t th'⟩ (tr ++ [x]) pl a → Holder m tr pl a ∨
    (∃ pl0, Holder m tr pl0 a ∧ ∀ e, Known o tr pl0 e → Known o (tr ++ [x]) pl e) ∨ a = m.blocks.length
  stays : ∀ pl a, Holder m tr pl a → blkAt bs' a ≠ none → Holder ⟨bs', cs', m.threads.set t th'⟩ (tr ++ [x]) pl a ∨
    (∃ pl', Holder ⟨bs', cs', m.threads.set t th'⟩ (tr ++ [x]) pl' a ∧ ∀ e, Known o tr pl e → Known o (tr ++ [x]) pl' e) ∨
    o.releases a x.sync = true ∧ pl = .thr t
  live : ∀ a b', blkAt bs' a = some b' → (∃ b, blkAt m.blocks a = some b) ∨ m.blocks.length ≤ a
  dies : ∀ a, th'.dying = some a → (∀ w, (a, w) ∉ x.accesses) ∧ (∀ e, KnowW o tr a e → KnowT o (tr ++ [x]) t e) ∧
    ∀ (i : Nat) (y : Ev) (w : Bool), tr[i]? = some y → (a, w) ∈ y.accesses → KnowT o (tr ++ [x]) t i
  died : ∀ a, th.dying = some a → blkAt bs' a = none
  sole : ∀ (op : Op) (rest : List Op) (a e : Nat), th'.prog = op :: rest → th'.stage.sole → th'.var op.target = .ref a →
    KnowC o tr a e → KnowT o (tr ++ [x]) t e
  counts : ∀ a, o.releases a x.sync = true → .ref a ∈ th.handles ∨ 0 < refsIn kidsOf a m.blocks

theorem Ordered.grow (ho : Ordered o m tr) (hi : Inv m s) {t : Nat} {th th' : Th} {x : Ev} {bs' : List (Option Blk)} {cs' : List (List Hd)}
    (g : Grows o m tr t th x bs' cs' th') : Ordered o ⟨bs', cs', m.threads.set t th'⟩ (tr ++ [x]) := by
  have hxt := g.thread
  have hlt := (List.getElem?_eq_some_iff.1 g.thr).1
  have hset : ∀ {u : Nat} {uh : Th}, (m.threads.set t th')[u]? = some uh → (u = t ∧ uh = th') ∨ (u ≠ t ∧ m.threads[u]? = some uh) := by
    intro u uh h
    rw [List.getElem?_set] at h
    by_cases hu : t = u
    · rw [if_pos hu, if_pos hlt] at h; cases h; exact .inl ⟨hu.symm, rfl⟩
    · rw [if_neg hu] at h; exact .inr ⟨fun e => hu e.symm, h⟩
  have hmine : (m.threads.set t th')[t]? = some th' := by simp [hlt]
  -- another thread's deletion is not interfered with
  have hother : ∀ {u : Nat} {uh : Th} {a : Nat}, u ≠ t → m.threads[u]? = some uh → uh.dying = some a → ∀ w, (a, w) ∉ x.accesses := by
    intro u uh a hut hu hd w hw
    obtain ⟨⟨b, hb, _⟩, h2, _, _, h3⟩ := hi.dying_alone hu hd
    rcases (g.access a w hw).2 with h | h | h
    · have := refsIn_thr g.thr h; omega
    · subst h; rw [blkAt_length] at hb; cases hb
    · have := tokens_other a (fun e => hut e.symm) g.thr
      have htk : th.token a = 1 := by simp only [Th.token, h, if_true]
      omega
  refine ⟨?_, g.queue, ?_, ?_, ?_, ?_, ?_⟩
  · intro i y a h1 h2
    rcases get_snoc h1 with h1 | ⟨_, rfl⟩
    · exact Nat.lt_of_lt_of_le (ho.fresh i y a h1 h2) g.length
    · exact g.fresh a h2
  · intro pl a e h1 h2
    rcases h2.snoc with h2 | ⟨h2, h3⟩
    · rcases g.origin pl a h1 with h4 | ⟨pl0, h4, h5⟩ | h4
      · exact (ho.seen pl a e h4 h2).mono x
      · exact h5 e (ho.seen pl0 a e h4 h2)
      · obtain ⟨i, y, h5, h6, _⟩ := h2
        have := ho.fresh i y a h5 (.inr ⟨_, h6⟩)
        omega
    · rw [(g.write a h2).1 pl h1]
      exact hxt ▸ h3
  · intro i y a w b h1 h2 h3
    rcases get_snoc h1 with h1 | ⟨rfl, rfl⟩
    · have halt := ho.fresh i y a h1 (.inr ⟨w, h2⟩)
      obtain ⟨b0, hb0⟩ : ∃ b, blkAt m.blocks a = some b := by
        rcases g.live a b h3 with h | h
        · exact h
        · omega
      rcases ho.used i y a w b0 h1 h2 hb0 with h4 | ⟨pl, h4, h5⟩ | ⟨u, uh, h4, h5⟩
      · exact .inl (h4.mono x)
      · rcases g.stays pl a h4 (by rw [h3]; nofun) with h6 | ⟨pl', h6, h7⟩ | ⟨h6, h7⟩
        · exact .inr (.inl ⟨pl, h6, h5.mono x⟩)
        · exact .inr (.inl ⟨pl', h6, h7 i h5⟩)
        · subst h7
          have h8 : KnowT o (tr ++ [x]) t i := KnowT.mono h5 x
          exact .inl (KnowT.release (hxt ▸ h8) h6)
      · by_cases hut : u = t
        · subst hut
          rw [g.thr] at h4; cases h4
          rw [g.died a h5] at h3; cases h3
        · exact .inr (.inr ⟨u, uh, by show (m.threads.set t th')[u]? = _; rw [List.getElem?_set, if_neg (fun e => hut e.symm)]; exact h4, h5⟩)
    · rcases (g.access a w h2).1 with h4 | h4
      · exact .inr (.inl ⟨.thr t, ⟨th', hmine, h4⟩, hxt ▸ knows_self⟩)
      · rw [h4] at h3; cases h3
  · intro u uh a h1 h2
    rcases hset h1 with ⟨rfl, rfl⟩ | ⟨hut, h1⟩
    · obtain ⟨h3, h4, h5⟩ := g.dies a h2
      refine ⟨fun e he => ?_, fun i y w hy hw => ?_⟩
      · rcases he.snoc with he | ⟨he, _⟩
        · exact h4 e he
        · exact (h3 _ he).elim
      · rcases get_snoc hy with hy | ⟨_, rfl⟩
        · exact h5 i y w hy hw
        · exact (h3 _ hw).elim
    · obtain ⟨h4, h5⟩ := ho.dying u uh a h1 h2
      refine ⟨fun e he => ?_, fun i y w hy hw => ?_⟩
      · rcases he.snoc with he | ⟨he, _⟩
        · exact (h4 e he).mono x
        · exact (hother hut h1 h2 _ he).elim
      · rcases get_snoc hy with hy | ⟨_, rfl⟩
        · exact (h5 i y w hy hw).mono x
        · exact (hother hut h1 h2 _ hw).elim
  · intro u uh op rest a e h1 h2 h3 h4 h5
    rcases hset h1 with ⟨rfl, rfl⟩ | ⟨hut, h1⟩
    · rcases h5.snoc with h5 | ⟨_, h5⟩
      · exact g.sole op rest a e h2 h3 h4 h5
      · exact hxt ▸ h5
    · rcases h5.snoc with h5 | ⟨h5, _⟩
      · exact (ho.sole u uh op rest a e h1 h2 h3 h4 h5).mono x
      · obtain ⟨_, k1, _, k3, _, _⟩ := hi.sole_alone h1 h2 h3 h4
        rcases g.counts a h5 with h6 | h6
        · have := refsIn_other Th.handles a (fun e => hut e.symm) g.thr
          have := refs_pos.2 h6
          omega
        · omega
  · intro i j hij hc
    obtain ⟨y, z, a, w, w', h1, h2, h3, h4, h5, h6⟩ := hc
    rcases get_snoc h2 with h2 | ⟨hj, hz⟩
    · have hj := (List.getElem?_eq_some_iff.1 h2).1
      exact (ho.ordered i j hij ⟨y, z, a, w, w', get_prefix h1 (by omega), h2, h3, h4, h5, h6⟩).append _
    · have hx : z = x := hz
      subst hx
      subst hj
      have h1 := get_prefix h1 hij
      have : KnowT o tr t i := by
        cases w' with
        | true => exact (g.write a h5).2 i y w h1 h4
        | false =>
          have hw : w = true := by simpa using h6
          subst hw
          exact ho.seen (.thr t) a i ⟨th, g.thr, g.read a h5⟩ ⟨i, y, h1, h4, .inl rfl⟩
      exact KnowT.before (hxt ▸ this)

end Dart.Conc
