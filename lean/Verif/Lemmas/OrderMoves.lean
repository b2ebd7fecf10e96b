import Verif.Lemmas.OrderQuiet

/-
Which steps happen before which others, helpers: steps that construct, change or destroy elements, and messages.
-/
namespace Dart.Conc
variable {o : Orders} {tr : List Ev} {m : M} {s : S}

theorem elem_refs {b a : Nat} : Holder m tr (.elem b) a → 0 < refsIn kidsOf a m.blocks := by
  rintro ⟨blk, h1, h2⟩
  have := refsIn_blocks_le a h1
  have := refs_pos.2 h2
  omega

theorem msg_refs {c n a : Nat} : Holder m tr (.msg c n) a → 0 < refsIn id a m.chans := by
  rintro ⟨q, p, h1, h2, _⟩
  exact refsIn_mem.2 ⟨q, List.mem_of_getElem? h1, List.mem_of_getElem? h2⟩

theorem thr_refs {u a : Nat} : Holder m tr (.thr u) a → 0 < refsIn Th.handles a m.threads := by
  rintro ⟨th, h1, h2⟩
  exact refsIn_thr h1 h2

/-- Nobody refers to an address that is not in use. -/
theorem Inv.unused (hi : Inv m s) {pl : Place} {a : Nat} (h : Holder m tr pl a) : ∃ b, blkAt m.blocks a = some b := by
  have h1 := hi.counted a
  cases hb : blkAt m.blocks a with
  | some b => exact ⟨b, rfl⟩
  | none =>
    rw [hb] at h1
    simp only at h1
    cases pl with
    | thr u => have := thr_refs h; omega
    | msg c n => have := msg_refs h; omega
    | elem b => have := elem_refs h; omega

/-- Elements are constructed. -/
theorem Ordered.alloc (ho : Ordered o m tr) (hi : Inv m s) {t : Nat} {th th' : Th} {x : Ev} {n : Nat} {ks : List Hd}
    (thread : x.thread = t) (thr : m.threads[t]? = some th) (sync : x.sync = .none)
    (new : (m.blocks.length, true) ∈ x.accesses)
    (others : ∀ a w, (a, w) ∈ x.accesses → (a = m.blocks.length ∧ w = true) ∨ (w = false ∧ .ref a ∈ th.handles ∧ .ref a ∈ th'.handles))
    (hnew : .ref m.blocks.length ∈ th'.handles)
    (hks : ∀ a, .ref a ∈ ks → .ref a ∈ th.handles)
    (origin : ∀ a, .ref a ∈ th'.handles → .ref a ∈ th.handles ∨ a = m.blocks.length)
    (stays : ∀ a, .ref a ∈ th.handles → .ref a ∈ th'.handles ∨ .ref a ∈ ks)
    (alive : th.dying = none) (alive' : th'.dying = none)
    (sole : ∀ op rest, th'.prog = op :: rest → th'.stage.sole → th'.var op.target = .ref m.blocks.length) :
    Ordered o ⟨m.blocks ++ [some ⟨n, ks⟩], m.chans, m.threads.set t th'⟩ (tr ++ [x]) := by
  refine ho.grow hi (th := th) (x := x) ?_
  have hunused : ∀ {pl : Place}, ¬ Holder m tr pl m.blocks.length := by
    intro pl h
    obtain ⟨b, hb⟩ := hi.unused h
    rw [blkAt_length] at hb; cases hb
  have hnever : ∀ {i : Nat} {y : Ev}, tr[i]? = some y → o.releases m.blocks.length y.sync = true ∨ (∃ w, (m.blocks.length, w) ∈ y.accesses) → False := by
    intro i y h1 h2
    have := ho.fresh i y _ h1 h2
    omega
  have hrel : ∀ {a : Nat}, o.releases a x.sync = true → False := by
    intro a h; rw [sync] at h; cases h
  have hmsg : ∀ {c k a : Nat}, Holder ⟨m.blocks ++ [some ⟨n, ks⟩], m.chans, m.threads.set t th'⟩ (tr ++ [x]) (.msg c k) a ↔ Holder m tr (.msg c k) a :=
    holder_msg (by rw [sync]; nofun)
  have helem : ∀ {b a : Nat}, Holder ⟨m.blocks ++ [some ⟨n, ks⟩], m.chans, m.threads.set t th'⟩ (tr ++ [x]) (.elem b) a ↔
      Holder m tr (.elem b) a ∨ (b = m.blocks.length ∧ .ref a ∈ ks) := by
    intro b a
    simp only [Holder, blkAt_append]
    by_cases hb : b = m.blocks.length
    · subst hb
      simp [blkAt_length]
    · simp [hb]
  refine ⟨thread, thr, by simp, ?_, ?_, ?_, ?_, ?_, ?_, ?_, ?_, ?_, ?_, ?_, fun a h => (hrel h).elim⟩
  · intro a h
    simp only [List.length_append, List.length_singleton]
    rcases h with h | ⟨w, h⟩
    · exact (hrel h).elim
    · rcases others a w h with ⟨h, _⟩ | ⟨_, h, _⟩
      · omega
      · obtain ⟨b, hb⟩ := hi.live thr (.inl h)
        have := blkAt_lt hb
        omega
  · intro c q hq
    rw [put_same (by rw [sync]; nofun), take_same (by rw [sync]; nofun)]
    exact ho.queue c q hq
  · intro a h
    rcases others a true h with ⟨rfl, _⟩ | ⟨h, _⟩
    · refine ⟨fun pl hp => ?_, fun i y w hy hw => (hnever hy (.inr ⟨w, hw⟩)).elim⟩
      cases pl with
      | msg c k => exact (hunused (hmsg.1 hp)).elim
      | elem b =>
        rcases helem.1 hp with hp | ⟨_, hp⟩
        · exact (hunused hp).elim
        · exact (hunused (pl := .thr t) ⟨th, thr, hks _ hp⟩).elim
      | thr u =>
        rcases (holder_set thr).1 hp with ⟨rfl, _⟩ | ⟨_, hp⟩
        · rfl
        · exact (hunused hp).elim
    · cases h
  · intro a h
    rcases others a false h with ⟨_, h⟩ | ⟨_, h, _⟩
    · cases h
    · exact h
  · intro a w h
    rcases others a w h with ⟨rfl, _⟩ | ⟨_, h1, h2⟩
    · exact ⟨.inl hnew, .inr (.inl rfl)⟩
    · exact ⟨.inl h2, .inl h1⟩
  · intro pl a h
    cases pl with
    | msg c k => exact .inl (hmsg.1 h)
    | elem b =>
      rcases helem.1 h with h | ⟨rfl, h'⟩
      · exact .inl h
      · refine .inr (.inl ⟨.thr t, ⟨th, thr, hks a h'⟩, fun e he => ?_⟩)
        exact KnowT.write (thread ▸ KnowT.mono he x) new
    | thr u =>
      rcases (holder_set thr).1 h with ⟨rfl, h'⟩ | ⟨_, h⟩
      · rcases origin a h' with h | h
        · exact .inl ⟨th, thr, h⟩
        · exact .inr (.inr h)
      · exact .inl h
  · intro pl a h _
    cases pl with
    | msg c k => exact .inl (hmsg.2 h)
    | elem b => exact .inl (helem.2 (.inl h))
    | thr u =>
      by_cases hu : u = t
      · subst hu
        rcases stays a ((holder_thr thr).1 h) with h1 | h1
        · exact .inl ((holder_set thr).2 (.inl ⟨rfl, h1⟩))
        · refine .inr (.inl ⟨.elem m.blocks.length, helem.2 (.inr ⟨rfl, h1⟩), fun e he => ?_⟩)
          exact KnowT.write (thread ▸ KnowT.mono he x) new
      · exact .inl ((holder_set thr).2 (.inr ⟨hu, h⟩))
  · intro a b' h
    rw [blkAt_append] at h
    by_cases ha : a = m.blocks.length
    · right; omega
    · rw [if_neg ha] at h; exact .inl ⟨b', h⟩
  · intro a h
    rw [alive'] at h; cases h
  · intro a h
    rw [alive] at h; cases h
  · intro op rest a e h1 h2 h3 h4
    rw [sole op rest h1 h2] at h3
    cases h3
    obtain ⟨i, y, h5, h6, _⟩ := h4
    exact (hnever h5 (.inl h6)).elim

/-- Elements nobody else refers to are changed. -/
theorem Ordered.change (ho : Ordered o m tr) (hi : Inv m s) {t : Nat} {th th' : Th} {x : Ev} {a : Nat} {b : Blk} {ks : List Hd} {op : Op}
    {rest : List Op} (thread : x.thread = t) (thr : m.threads[t]? = some th) (sync : x.sync = .none)
    (acc : x.accesses = [(a, true)]) (hb : blkAt m.blocks a = some b)
    (hprog : th.prog = op :: rest) (hsole : th.stage.sole) (hvar : th.var op.target = .ref a)
    (hka : .ref a ∉ ks) (hmine : .ref a ∈ th'.handles)
    (to1 : ∀ c, .ref c ∈ ks → .ref c ∈ b.kids ∨ .ref c ∈ th.handles)
    (to2 : ∀ c, .ref c ∈ th'.handles → .ref c ∈ th.handles ∨ .ref c ∈ b.kids)
    (from1 : ∀ c, .ref c ∈ th.handles → .ref c ∈ th'.handles ∨ .ref c ∈ ks)
    (from2 : ∀ c, .ref c ∈ b.kids → .ref c ∈ ks ∨ .ref c ∈ th'.handles)
    (alive : th.dying = none) (alive' : th'.dying = none) (stage : th'.stage = .start) :
    Ordered o ⟨m.blocks.set a (some { b with kids := ks }), m.chans, m.threads.set t th'⟩ (tr ++ [x]) := by
  refine ho.grow hi (th := th) (x := x) ?_
  obtain ⟨_, k1, k2, k3, k4, k5⟩ := hi.sole_alone thr hprog hsole hvar
  have halt := blkAt_lt hb
  have hown : .ref a ∈ th.handles := refs_pos.1 (by omega)
  have hrel : ∀ {a : Nat}, o.releases a x.sync = true → False := by
    intro a h; rw [sync] at h; cases h
  have hacc : ∀ {c : Nat} {w : Bool}, (c, w) ∈ x.accesses → c = a ∧ w = true := by
    intro c w h
    rw [acc] at h
    simpa using h
  have hW : (a, true) ∈ x.accesses := by rw [acc]; exact List.mem_cons_self
  have hmsg : ∀ {c k d : Nat}, Holder ⟨m.blocks.set a (some { b with kids := ks }), m.chans, m.threads.set t th'⟩ (tr ++ [x]) (.msg c k) d ↔
      Holder m tr (.msg c k) d :=
    holder_msg (by rw [sync]; nofun)
  have helem : ∀ {c d : Nat}, Holder ⟨m.blocks.set a (some { b with kids := ks }), m.chans, m.threads.set t th'⟩ (tr ++ [x]) (.elem c) d ↔
      (c ≠ a ∧ Holder m tr (.elem c) d) ∨ (c = a ∧ .ref d ∈ ks) := by
    intro c d
    simp only [Holder, blkAt_set halt]
    by_cases hc : c = a
    · subst hc
      simp
    · simp [hc]
  have hother : ∀ {pl : Place}, Holder m tr pl a → pl = .thr t := by
    intro pl h
    cases pl with
    | msg c k => have := msg_refs h; omega
    | elem c => have := elem_refs h; omega
    | thr u =>
      by_cases hu : u = t
      · rw [hu]
      · obtain ⟨uh, h1, h2⟩ := h
        have := refsIn_other Th.handles a hu h1
        have := refs_pos.2 h2
        omega
  refine ⟨thread, thr, by simp, ?_, ?_, ?_, ?_, ?_, ?_, ?_, ?_, ?_, ?_, ?_, fun a h => (hrel h).elim⟩
  · intro c h
    simp only [List.length_set]
    rcases h with h | ⟨w, h⟩
    · exact (hrel h).elim
    · rw [(hacc h).1]; exact halt
  · intro c q hq
    rw [put_same (by rw [sync]; nofun), take_same (by rw [sync]; nofun)]
    exact ho.queue c q hq
  · intro c h
    obtain ⟨rfl, _⟩ := hacc h
    refine ⟨fun pl hp => ?_, fun i y w hy hw => ?_⟩
    · cases pl with
      | msg d k => exact hother (hmsg.1 hp)
      | elem d =>
        rcases helem.1 hp with ⟨_, hp⟩ | ⟨_, hp⟩
        · exact hother hp
        · exact (hka hp).elim
      | thr u =>
        rcases (holder_set thr).1 hp with ⟨rfl, _⟩ | ⟨_, hp⟩
        · rfl
        · exact hother hp
    · rcases ho.used i y c w b hy hw hb with h1 | ⟨pl, h1, h2⟩ | ⟨u, uh, h1, h2⟩
      · exact ho.sole t th op rest c i thr hprog hsole hvar h1
      · rw [hother h1] at h2; exact h2
      · rw [tokens_erase c h1] at k4
        have htk : uh.token c = 1 := by simp only [Th.token, h2, if_true]
        omega
  · intro c h
    have := (hacc h).2
    cases this
  · intro c w h
    obtain ⟨rfl, _⟩ := hacc h
    exact ⟨.inl hmine, .inl hown⟩
  · intro pl c h
    cases pl with
    | msg d k => exact .inl (hmsg.1 h)
    | elem d =>
      rcases helem.1 h with ⟨_, h⟩ | ⟨rfl, h'⟩
      · exact .inl h
      · rcases to1 c h' with h | h
        · exact .inl ⟨b, hb, h⟩
        · refine .inr (.inl ⟨.thr t, ⟨th, thr, h⟩, fun e he => ?_⟩)
          exact KnowT.write (thread ▸ KnowT.mono he x) hW
    | thr u =>
      rcases (holder_set thr).1 h with ⟨rfl, h'⟩ | ⟨_, h⟩
      · rcases to2 c h' with h | h
        · exact .inl ⟨th, thr, h⟩
        · refine .inr (.inl ⟨.elem a, ⟨b, hb, h⟩, fun e he => ?_⟩)
          exact KnowT.mono (ho.seen (.thr u) a e ⟨th, thr, hown⟩ he) x
      · exact .inl h
  · intro pl c h _
    cases pl with
    | msg d k => exact .inl (hmsg.2 h)
    | elem d =>
      by_cases hd : d = a
      · subst hd
        obtain ⟨b', h1, h2⟩ := h
        rw [hb] at h1; cases h1
        rcases from2 c h2 with h2 | h2
        · exact .inl (helem.2 (.inr ⟨rfl, h2⟩))
        · refine .inr (.inl ⟨.thr t, (holder_set thr).2 (.inl ⟨rfl, h2⟩), fun e he => ?_⟩)
          exact KnowT.mono (ho.seen (.thr t) d e ⟨th, thr, hown⟩ he) x
      · exact .inl (helem.2 (.inl ⟨hd, h⟩))
    | thr u =>
      by_cases hu : u = t
      · subst hu
        rcases from1 c ((holder_thr thr).1 h) with h1 | h1
        · exact .inl ((holder_set thr).2 (.inl ⟨rfl, h1⟩))
        · refine .inr (.inl ⟨.elem a, helem.2 (.inr ⟨rfl, h1⟩), fun e he => ?_⟩)
          exact KnowT.write (thread ▸ KnowT.mono he x) hW
      · exact .inl ((holder_set thr).2 (.inr ⟨hu, h⟩))
  · intro c b' h
    rw [blkAt_set halt] at h
    by_cases hc : c = a
    · subst hc; exact .inl ⟨b, hb⟩
    · rw [if_neg hc] at h; exact .inl ⟨b', h⟩
  · intro c h
    rw [alive'] at h; cases h
  · intro c h
    rw [alive] at h; cases h
  · intro op rest c e _ h2 _ _
    rw [stage] at h2; exact h2.elim

/-- Elements are destroyed. -/
theorem Ordered.destroyed (ho : Ordered o m tr) (hi : Inv m s) {t : Nat} {th : Th} {x : Ev} {a : Nat} {b : Blk}
    (thread : x.thread = t) (thr : m.threads[t]? = some th) (sync : x.sync = .none)
    (acc : x.accesses = [(a, true)]) (hb : blkAt m.blocks a = some b) (hd : th.dying = some a) :
    Ordered o ⟨m.blocks.set a none, m.chans, m.threads.set t { th with dying := none, junk := b.kids ++ th.junk }⟩ (tr ++ [x]) := by
  refine ho.grow hi (th := th) (x := x) ?_
  obtain ⟨_, k1, k2, k3, k4⟩ := hi.dying_alone thr hd
  obtain ⟨d1, d2⟩ := ho.dying t th a thr hd
  have halt := blkAt_lt hb
  have hrel : ∀ {a : Nat}, o.releases a x.sync = true → False := by
    intro a h; rw [sync] at h; cases h
  have hacc : ∀ {c : Nat} {w : Bool}, (c, w) ∈ x.accesses → c = a ∧ w = true := by
    intro c w h
    rw [acc] at h
    simpa using h
  have hother : ∀ {pl : Place}, ¬ Holder m tr pl a := by
    intro pl h
    cases pl with
    | msg c k => have := msg_refs h; omega
    | elem c => have := elem_refs h; omega
    | thr u => have := thr_refs h; omega
  have hmem : ∀ c, .ref c ∈ ({ th with dying := none, junk := b.kids ++ th.junk } : Th).handles ↔ .ref c ∈ th.handles ∨ .ref c ∈ b.kids := by
    intro c
    simp only [Th.handles, List.mem_append]
    constructor
    · rintro (h | h | h | h) <;> simp [h]
    · rintro ((h | h | h) | h) <;> simp [h]
  have hmsg : ∀ {c k d : Nat}, Holder ⟨m.blocks.set a none, m.chans, m.threads.set t { th with dying := none, junk := b.kids ++ th.junk }⟩
      (tr ++ [x]) (.msg c k) d ↔ Holder m tr (.msg c k) d :=
    holder_msg (by rw [sync]; nofun)
  have helem : ∀ {c d : Nat}, Holder ⟨m.blocks.set a none, m.chans, m.threads.set t { th with dying := none, junk := b.kids ++ th.junk }⟩
      (tr ++ [x]) (.elem c) d ↔ (c ≠ a ∧ Holder m tr (.elem c) d) := by
    intro c d
    simp only [Holder, blkAt_set halt]
    by_cases hc : c = a
    · subst hc
      simp
    · simp [hc]
  refine ⟨thread, thr, by simp, ?_, ?_, ?_, ?_, ?_, ?_, ?_, ?_, ?_, ?_, ?_, fun a h => (hrel h).elim⟩
  · intro c h
    simp only [List.length_set]
    rcases h with h | ⟨w, h⟩
    · exact (hrel h).elim
    · rw [(hacc h).1]; exact halt
  · intro c q hq
    rw [put_same (by rw [sync]; nofun), take_same (by rw [sync]; nofun)]
    exact ho.queue c q hq
  · intro c h
    obtain ⟨rfl, _⟩ := hacc h
    refine ⟨fun pl hp => ?_, fun i y w hy hw => d2 i y w hy hw⟩
    cases pl with
    | msg d k => exact (hother (hmsg.1 hp)).elim
    | elem d => exact (hother (helem.1 hp).2).elim
    | thr u =>
      rcases (holder_set thr).1 hp with ⟨rfl, _⟩ | ⟨_, hp⟩
      · rfl
      · exact (hother hp).elim
  · intro c h
    have := (hacc h).2
    cases this
  · intro c w h
    obtain ⟨rfl, _⟩ := hacc h
    exact ⟨.inr (by rw [blkAt_set halt, if_pos rfl]), .inr (.inr hd)⟩
  · intro pl c h
    cases pl with
    | msg d k => exact .inl (hmsg.1 h)
    | elem d => exact .inl (helem.1 h).2
    | thr u =>
      rcases (holder_set thr).1 h with ⟨rfl, h'⟩ | ⟨_, h⟩
      · rcases (hmem c).1 h' with h | h
        · exact .inl ⟨th, thr, h⟩
        · exact .inr (.inl ⟨.elem a, ⟨b, hb, h⟩, fun e he => KnowT.mono (d1 e he) x⟩)
      · exact .inl h
  · intro pl c h _
    cases pl with
    | msg d k => exact .inl (hmsg.2 h)
    | elem d =>
      by_cases hd : d = a
      · subst hd
        obtain ⟨b', h1, h2⟩ := h
        rw [hb] at h1; cases h1
        exact .inr (.inl ⟨.thr t, (holder_set thr).2 (.inl ⟨rfl, (hmem c).2 (.inr h2)⟩), fun e he => KnowT.mono (d1 e he) x⟩)
      · exact .inl (helem.2 ⟨hd, h⟩)
    | thr u =>
      by_cases hu : u = t
      · subst hu
        exact .inl ((holder_set thr).2 (.inl ⟨rfl, (hmem c).2 (.inl ((holder_thr thr).1 h))⟩))
      · exact .inl ((holder_set thr).2 (.inr ⟨hu, h⟩))
  · intro c b' h
    rw [blkAt_set halt] at h
    by_cases hc : c = a
    · rw [if_pos hc] at h; cases h
    · rw [if_neg hc] at h; exact .inl ⟨b', h⟩
  · intro c h
    cases h
  · intro c h
    rw [hd] at h; cases h
    rw [blkAt_set halt, if_pos rfl]
  · intro op rest c e h1 h2 h3 h4
    exact KnowT.mono (ho.sole t th op rest c e thr h1 h2 h3 h4) x

/-- A packet is sent. -/
theorem Ordered.sent (ho : Ordered o m tr) (hi : Inv m s) {t : Nat} {th th' : Th} {x : Ev} {c : Nat} {q : List Hd} {h : Hd}
    (thread : x.thread = t) (thr : m.threads[t]? = some th) (sync : x.sync = .put c) (acc : x.accesses = [])
    (hq : m.chans[c]? = some q)
    (hh : ∀ a, h = .ref a → .ref a ∈ th.handles)
    (origin : ∀ a, .ref a ∈ th'.handles → .ref a ∈ th.handles)
    (stays : ∀ a, .ref a ∈ th.handles → .ref a ∈ th'.handles ∨ h = .ref a)
    (alive : th.dying = none) (alive' : th'.dying = none) (stage : th'.stage = .start) :
    Ordered o ⟨m.blocks, m.chans.set c (q ++ [h]), m.threads.set t th'⟩ (tr ++ [x]) := by
  refine ho.grow hi (th := th) (x := x) ?_
  have hclt := (List.getElem?_eq_some_iff.1 hq).1
  have hrel : ∀ {a : Nat}, o.releases a x.sync = true → False := by
    intro a h; rw [sync] at h; cases h
  have hacc : ∀ {d : Nat} {w : Bool}, (d, w) ∈ x.accesses → False := by
    intro d w h; rw [acc] at h; cases h
  have htake : ∀ d, earlier (tr ++ [x]) (.take d) (tr ++ [x]).length = earlier tr (.take d) tr.length :=
    fun d => take_same (by rw [sync]; nofun)
  have hmsg : ∀ {d k a : Nat}, Holder ⟨m.blocks, m.chans.set c (q ++ [h]), m.threads.set t th'⟩ (tr ++ [x]) (.msg d k) a ↔
      Holder m tr (.msg d k) a ∨ (d = c ∧ k = earlier tr (.put c) tr.length ∧ h = .ref a) := by
    intro d k a
    simp only [Holder, htake]
    by_cases hd : d = c
    · subst hd
      have hlen := ho.queue d q hq
      simp only [List.getElem?_set_self hclt]
      constructor
      · rintro ⟨q', p, h1, h2, h3⟩
        cases h1
        rw [List.getElem?_append] at h2
        split at h2
        · exact .inl ⟨q, p, hq, h2, h3⟩
        · rw [List.getElem?_singleton] at h2
          split at h2
          · cases h2; exact .inr ⟨trivial, by omega, rfl⟩
          · cases h2
      · rintro (⟨q', p, h1, h2, h3⟩ | ⟨_, h1, h2⟩)
        · rw [hq] at h1; cases h1
          have := (List.getElem?_eq_some_iff.1 h2).1
          exact ⟨_, p, rfl, by rw [List.getElem?_append_left this]; exact h2, h3⟩
        · exact ⟨_, q.length, rfl, by simp [h2], by omega⟩
    · rw [List.getElem?_set_ne (fun e => hd e.symm)]
      simp [hd]
  refine ⟨thread, thr, Nat.le_refl _, ?_, ?_, fun a h => (hacc h).elim, fun a h => (hacc h).elim, fun a w h => (hacc h).elim, ?_, ?_,
    fun a b' h => .inl ⟨b', h⟩, ?_, ?_, ?_, fun a h => (hrel h).elim⟩
  · intro d h
    rcases h with h | ⟨w, h⟩
    · exact (hrel h).elim
    · exact (hacc h).elim
  · intro d q' hq'
    rw [htake, earlier_snoc, sync]
    by_cases hd : d = c
    · subst hd
      rw [List.getElem?_set_self hclt] at hq'
      cases hq'
      have := ho.queue d q hq
      simp only [if_true, List.length_append, List.length_singleton]
      omega
    · rw [List.getElem?_set_ne (fun e => hd e.symm)] at hq'
      rw [if_neg (by simpa using fun e => hd e.symm)]
      exact ho.queue d q' hq'
  · intro pl a h1
    cases pl with
    | elem d => exact .inl h1
    | msg d k =>
      rcases hmsg.1 h1 with h1 | ⟨rfl, rfl, h2⟩
      · exact .inl h1
      · refine .inr (.inl ⟨.thr t, ⟨th, thr, hh a h2⟩, fun e he => ?_⟩)
        exact KnowT.put (thread ▸ KnowT.mono he x) sync
    | thr u =>
      rcases (holder_set thr).1 h1 with ⟨rfl, h'⟩ | ⟨_, h1⟩
      · exact .inl ⟨th, thr, origin a h'⟩
      · exact .inl h1
  · intro pl a h1 _
    cases pl with
    | elem d => exact .inl h1
    | msg d k => exact .inl (hmsg.2 (.inl h1))
    | thr u =>
      by_cases hu : u = t
      · subst hu
        rcases stays a ((holder_thr thr).1 h1) with h2 | h2
        · exact .inl ((holder_set thr).2 (.inl ⟨rfl, h2⟩))
        · refine .inr (.inl ⟨.msg c (earlier tr (.put c) tr.length), hmsg.2 (.inr ⟨rfl, rfl, h2⟩), fun e he => ?_⟩)
          exact KnowT.put (thread ▸ KnowT.mono he x) sync
      · exact .inl ((holder_set thr).2 (.inr ⟨hu, h1⟩))
  · intro c h
    rw [alive'] at h; cases h
  · intro c h
    rw [alive] at h; cases h
  · intro op rest c e _ h2 _ _
    rw [stage] at h2; exact h2.elim

/-- A packet is received. -/
theorem Ordered.received (ho : Ordered o m tr) (hi : Inv m s) {t : Nat} {th th' : Th} {x : Ev} {c : Nat} {q : List Hd} {h : Hd}
    (thread : x.thread = t) (thr : m.threads[t]? = some th) (sync : x.sync = .take c) (acc : x.accesses = [])
    (hq : m.chans[c]? = some (h :: q))
    (origin : ∀ a, .ref a ∈ th'.handles → .ref a ∈ th.handles ∨ h = .ref a)
    (hh : ∀ a, h = .ref a → .ref a ∈ th'.handles)
    (stays : ∀ a, .ref a ∈ th.handles → .ref a ∈ th'.handles)
    (alive : th.dying = none) (alive' : th'.dying = none) (stage : th'.stage = .start) :
    Ordered o ⟨m.blocks, m.chans.set c q, m.threads.set t th'⟩ (tr ++ [x]) := by
  refine ho.grow hi (th := th) (x := x) ?_
  have hclt := (List.getElem?_eq_some_iff.1 hq).1
  have hrel : ∀ {a : Nat}, o.releases a x.sync = true → False := by
    intro a h; rw [sync] at h; cases h
  have hacc : ∀ {d : Nat} {w : Bool}, (d, w) ∈ x.accesses → False := by
    intro d w h; rw [acc] at h; cases h
  have htake : ∀ d, earlier (tr ++ [x]) (.take d) (tr ++ [x]).length = earlier tr (.take d) tr.length + if c = d then 1 else 0 := by
    intro d
    rw [earlier_snoc, sync]
    by_cases hd : c = d
    · simp [hd]
    · rw [if_neg (by simpa using hd), if_neg hd]
  have hmsg : ∀ {d k a : Nat}, Holder m tr (.msg d k) a ↔
      Holder ⟨m.blocks, m.chans.set c q, m.threads.set t th'⟩ (tr ++ [x]) (.msg d k) a ∨
        (d = c ∧ k = earlier tr (.take c) tr.length ∧ h = .ref a) := by
    intro d k a
    simp only [Holder, htake]
    by_cases hd : d = c
    · subst hd
      simp only [List.getElem?_set_self hclt, if_true]
      constructor
      · rintro ⟨q', p, h1, h2, h3⟩
        rw [hq] at h1; cases h1
        cases p with
        | zero =>
          simp only [List.getElem?_cons_zero, Option.some.injEq] at h2
          exact .inr ⟨trivial, by omega, h2⟩
        | succ p =>
          simp only [List.getElem?_cons_succ] at h2
          exact .inl ⟨q, p, rfl, h2, by omega⟩
      · rintro (⟨q', p, h1, h2, h3⟩ | ⟨_, h1, h2⟩)
        · cases h1
          exact ⟨_, p + 1, hq, by simpa using h2, by omega⟩
        · exact ⟨_, 0, hq, by simp [h2], by omega⟩
    · rw [List.getElem?_set_ne (fun e => hd e.symm), if_neg (fun e => hd e.symm)]
      simp [hd]
  refine ⟨thread, thr, Nat.le_refl _, ?_, ?_, fun a h => (hacc h).elim, fun a h => (hacc h).elim, fun a w h => (hacc h).elim, ?_, ?_,
    fun a b' h => .inl ⟨b', h⟩, ?_, ?_, ?_, fun a h => (hrel h).elim⟩
  · intro d h
    rcases h with h | ⟨w, h⟩
    · exact (hrel h).elim
    · exact (hacc h).elim
  · intro d q' hq'
    rw [htake, put_same (by rw [sync]; nofun)]
    by_cases hd : d = c
    · subst hd
      rw [List.getElem?_set_self hclt] at hq'
      cases hq'
      have := ho.queue d _ hq
      simp only [List.length_cons] at this
      simp only [if_true]
      omega
    · rw [List.getElem?_set_ne (fun e => hd e.symm)] at hq'
      rw [if_neg (fun e => hd e.symm)]
      exact ho.queue d q' hq'
  · intro pl a h1
    cases pl with
    | elem d => exact .inl h1
    | msg d k => exact .inl (hmsg.2 (.inl h1))
    | thr u =>
      rcases (holder_set thr).1 h1 with ⟨rfl, h'⟩ | ⟨_, h1⟩
      · rcases origin a h' with h2 | h2
        · exact .inl ⟨th, thr, h2⟩
        · refine .inr (.inl ⟨.msg c (earlier tr (.take c) tr.length), hmsg.2 (.inr ⟨rfl, rfl, h2⟩), fun e he => ?_⟩)
          exact thread ▸ KnowM.take he sync
      · exact .inl h1
  · intro pl a h1 _
    cases pl with
    | elem d => exact .inl h1
    | msg d k =>
      rcases hmsg.1 h1 with h1 | ⟨rfl, rfl, h2⟩
      · exact .inl h1
      · exact .inr (.inl ⟨.thr t, (holder_set thr).2 (.inl ⟨rfl, hh a h2⟩), fun e he => thread ▸ KnowM.take he sync⟩)
    | thr u =>
      by_cases hu : u = t
      · subst hu
        exact .inl ((holder_set thr).2 (.inl ⟨rfl, stays a ((holder_thr thr).1 h1)⟩))
      · exact .inl ((holder_set thr).2 (.inr ⟨hu, h1⟩))
  · intro c h
    rw [alive'] at h; cases h
  · intro c h
    rw [alive] at h; cases h
  · intro op rest c e _ h2 _ _
    rw [stage] at h2; exact h2.elim

end Dart.Conc
