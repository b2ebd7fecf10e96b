import Verif.Lemmas.Variant

/-
C71: the bundled `variant` behaves like the standard's, whichever element operations throw, and destroys what it creates.
-/
namespace Dart.Props
open Dart.Opt (Obj Fate)
open Dart.Vrt Dart.Spec.Vrt

variable {α : Type}

/-- The variables a call uses. -/
def vrtUses : Op α → List Nat
  | .makeFrom _ _ _ => []
  | .make _ j _ => [j]
  | .drop i | .index i | .valueless i | .holds i _ | .get i _ | .getIf i _ => [i]
  | .assignFrom i _ _ _ _ _ | .assignOwn i _ _ _ _ | .emplace i _ _ _ => [i]
  | .assign _ i j _ _ | .swap i j _ _ _ => [i, j]
  | .visit is => is

/-- The program mentions only alternatives that exist, and there are fewer than 2³²-1. -/
structure Sane (t : Traits) (ops : List (Op α)) : Prop where
  few : t.count ≤ 2 ^ 32 - 1
  known : ∀ op ∈ ops, ∀ k, alternative op = some k → k < t.count

theorem vrt_run {t : Traits} {ops : List (Op α)} (h : Sane t ops) :
    match Vars.exec t [] ops with
    | none => World.start.run t ops = none
    | some (s', as) => World.start.run t ops = some (lift s', as) ∧ AllFit t s' :=
  run_lift (s := []) h.few (by intro c hc; simp at hc) ops h.known

theorem vrt_start {t : Traits} {ops : List (Op α)} (h : Sane t ops) {w : World α} {as : List (Answer α)}
    (hr : World.start.run t ops = some (w, as)) : ∃ s, Vars.exec t [] ops = some (s, as) ∧ w = lift s ∧ AllFit t s := by
  have hx := vrt_run h
  cases he : Vars.exec t [] ops with
  | none => rw [he] at hx; simp only at hx; rw [hx] at hr; simp at hr
  | some z =>
    rw [he] at hx
    rw [hx.1] at hr
    simp only [Option.some.injEq, Prod.mk.injEq] at hr
    exact ⟨z.1, by rw [← hr.2], hr.1.symm, hx.2⟩

theorem holds_conc {c : Cell α} {o : Content α} : holds c o ↔ c = conc o := by
  obtain ⟨i, st⟩ := c
  cases o with
  | none => simp [holds, conc]
  | some p => simp [holds, conc]

/-- Visiting by `switch` and by table reach the same alternative, the one with the given number, however many there are. -/
theorem C71_dispatch (n i : Nat) : dispatch n 0 i = table n i ∧ (i < n → table n i = some i) := by
  rw [dispatch_eq n 0 i (Nat.zero_le i)]
  by_cases h : i < n
  · simp [h, table]
  · simp [h, table]

/-- Every program over variants, with constructors, assignments and swaps of the alternatives that throw wherever they like,
gets the answers of the standard's `variant`, and is undefined exactly where the standard leaves it undefined. -/
theorem C71_answers (t : Traits) (ops : List (Op α)) (h : Sane t ops) :
    (World.start.run t ops).map (·.2) = (Vars.exec t [] ops).map (·.2) := by
  have hx := vrt_run h
  cases he : Vars.exec t [] ops with
  | none => rw [he] at hx; simp only at hx; rw [hx]; rfl
  | some z => rw [he] at hx; rw [hx.1]; rfl

/-- After every such program each variable that is alive holds what the standard says it contains: the index is the number
of the alternative whose object lives in the storage. And no object was left behind by a variant or a temporary. -/
theorem C71_memory (t : Traits) (ops : List (Op α)) (h : Sane t ops) (w : World α) (as : List (Answer α))
    (hr : World.start.run t ops = some (w, as)) :
    w.lost = 0 ∧ ∃ s, Vars.exec t [] ops = some (s, as) ∧ w.vars.length = s.length ∧
      ∀ i : Nat, (∀ c, w.var i = some c → ∃ o, s[i]? = some (some o) ∧ holds c o) ∧
        (∀ o, s[i]? = some (some o) → ∃ c, w.var i = some c) := by
  obtain ⟨s, he, hw, _⟩ := vrt_start h hr
  subst hw
  refine ⟨rfl, s, he, by simp [lift], ?_⟩
  intro i
  constructor
  · intro c hc
    rw [var_lift] at hc
    cases hj : (s[i]?).join with
    | none => rw [hj] at hc; simp at hc
    | some o =>
      rw [hj] at hc
      simp only [Option.map_some, Option.some.injEq] at hc
      exact ⟨o, get_of_join hj, holds_conc.mpr hc.symm⟩
  · intro o ho
    exact ⟨conc o, by rw [var_lift, ho]; rfl⟩

theorem vrt_mapM_none (s : Vars α) (is : List Nat) :
    (is.mapM fun i => (s[i]?).join) = none ↔ ∃ i ∈ is, (s[i]?).join = none := by
  induction is with
  | nil => simp
  | cons i is ih =>
    simp only [List.mapM_cons, List.mem_cons, exists_eq_or_imp]
    cases hi : (s[i]?).join with
    | none => simp
    | some c =>
      cases hr : is.mapM fun i => (s[i]?).join with
      | none => simpa using ih.mp hr
      | some cs =>
        rw [hr] at ih
        simpa using ih

/-- A call after any program is undefined exactly if it uses a variable that is not alive, or assigns to a variant its own
object as another alternative that is created in place, after the object was destroyed (or there is no such object). -/
theorem C71_undefined (t : Traits) (ops : List (Op α)) (w : World α) (as : List (Answer α)) (op : Op α)
    (h : Sane t (ops ++ [op])) (hr : World.start.run t ops = some (w, as)) :
    w.step t op = none ↔ (∃ i ∈ vrtUses op, w.var i = none) ∨
      ∃ i k safe f g c, op = .assignOwn i k safe f g ∧ w.var i = some c ∧
        (c.valueless = true ∨ (c.index ≠ k ∧ (safe = true ∨ t.moveSafe k = false))) := by
  have h' : Sane t ops := ⟨h.few, fun o ho => h.known o (List.mem_append_left _ ho)⟩
  have hop : ∀ k, alternative op = some k → k < t.count := h.known op (by simp)
  obtain ⟨s, _, hw, hs⟩ := vrt_start h' hr
  subst hw
  have ht : t.count ≤ npos32 := h.few
  have hf : (lift s).step t op = none ↔ Vars.next t s op = none := by
    have := step_lift ht hs op hop
    cases hq : Vars.next t s op with
    | none => rw [hq] at this; simpa [Follows] using this
    | some q => rw [hq] at this; simp [this.1]
  rw [hf]
  cases op with
  | makeFrom k a f => cases f <;> simp [Vars.next, vrtUses]
  | make m j f => simp [vrtUses, Vars.next, var_lift]
  | drop i => simp [vrtUses, Vars.next, var_lift]
  | assign m i j f g =>
    simp only [vrtUses, Vars.next, List.mem_cons, List.not_mem_nil, or_false, reduceCtorEq, false_and, exists_false]
    cases hi : (s[i]?).join with
    | none => simp [var_lift, hi]
    | some c => cases hj : (s[j]?).join <;> simp [var_lift, hi, hj]
  | assignFrom i k a safe f g => simp [vrtUses, Vars.next, var_lift]
  | assignOwn i k safe f g =>
    simp only [vrtUses, Vars.next, List.mem_singleton, exists_eq_left, var_lift]
    cases hi : (s[i]?).join with
    | none => simp
    | some c =>
      cases c with
      | none =>
        simp only [Option.bind_some, Option.map_some, reduceCtorEq, false_or, true_iff]
        exact ⟨i, k, safe, f, g, conc none, rfl, by rw [hi]; rfl, Or.inl valueless_none⟩
      | some p =>
        obtain ⟨l, x⟩ := p
        have hl := fits_lt (hs.get hi)
        simp only [Option.bind_some, Option.map_some, reduceCtorEq, false_or]
        by_cases hx : l ≠ k ∧ (safe = true ∨ t.moveSafe k = false)
        · rw [if_pos hx]
          simp only [true_iff]
          exact ⟨i, k, safe, f, g, conc (some (l, x)), rfl, by rw [hi]; rfl, Or.inr hx⟩
        · rw [if_neg hx]
          simp only [reduceCtorEq, false_iff]
          rintro ⟨i', k', safe', f', g', c, he, hc, hd⟩
          simp only [Op.assignOwn.injEq] at he
          obtain ⟨rfl, rfl, rfl, rfl, rfl⟩ := he
          rw [hi] at hc
          simp only [Option.map_some, Option.some.injEq] at hc
          rw [← hc] at hd
          rw [valueless_some ht hl] at hd
          simp only [Bool.false_eq_true, false_or] at hd
          exact hx hd
  | emplace i k a f => simp [vrtUses, Vars.next, var_lift]
  | swap i j f g h =>
    simp only [vrtUses, Vars.next, List.mem_cons, List.not_mem_nil, or_false, reduceCtorEq, false_and, exists_false]
    cases hi : (s[i]?).join with
    | none => simp [var_lift, hi]
    | some c => cases hj : (s[j]?).join <;> simp [var_lift, hi, hj]
  | index i => simp [vrtUses, Vars.next, var_lift]
  | valueless i => simp [vrtUses, Vars.next, var_lift]
  | holds i k => simp [vrtUses, Vars.next, var_lift]
  | get i k => simp [vrtUses, Vars.next, var_lift]
  | getIf i k => simp [vrtUses, Vars.next, var_lift]
  | visit is => simp [vrtUses, Vars.next, var_lift, vrt_mapM_none]

/-! ### What exceptions leave -/

theorem full_set {s : Vars α} (hs : ∀ c, some c ∈ s → c ≠ none) (i : Nat) {c : Content α} (hc : c ≠ none) :
    ∀ d, some d ∈ s.set i (some c) → d ≠ none := by
  intro d hd
  rcases List.mem_or_eq_of_mem_set hd with h | h
  · exact hs d h
  · simp only [Option.some.injEq] at h
    rw [h]; exact hc

theorem give_full {t : Traits} (hm : ∀ k, t.moveSafe k = true) {c : Content α} (hc : c ≠ none) (k : Nat) (x : Obj α)
    (safe : Bool) (f : Fate) : (give t c k x safe f).1 ≠ none := by
  simp only [give]
  split
  · cases f <;> simp
  · split
    · simp
    · cases f with
      | returns => simp
      | throws p q => simp [hm k, hc]

theorem movable_all {t : Traits} (hm : ∀ k, t.moveSafe k = true) (c : Content α) : movable t c = true := by
  cases c <;> simp [movable, hm]

theorem exchanged_safe {t : Traits} {a b : Content α} (ha : movable t a = true) (hb : movable t b = true) (f g h : Fate) :
    exchanged t a b f g h = ((b, a), true) := by
  simp [exchanged, moving, ha, hb]

theorem swapped_safe {t : Traits} {a b : Content α} (ha : movable t a = true) (hb : movable t b = true)
    (hd : a.map (·.1) ≠ b.map (·.1)) (f g h : Fate) : swapped t a b f g h = ((b, a), true) := by
  have hfl : swapped.flip t a b f g h = ((b, a), true) := by
    simp [swapped.flip, ha, hb, exchanged_safe ha hb]
  cases a with
  | none => cases b with
    | none => simp at hd
    | some q => exact hfl
  | some p => cases b with
    | none => exact hfl
    | some q =>
      have hne : p.1 ≠ q.1 := by simpa using hd
      simp only [swapped, if_neg hne]
      exact hfl

theorem next_full {t : Traits} (hm : ∀ k, t.moveSafe k = true) {s : Vars α} (hs : ∀ c, some c ∈ s → c ≠ none) (op : Op α)
    (he : ∀ i k a p q, op ≠ .emplace i k a (.throws p q)) {s' : Vars α} {a : Answer α}
    (h : Vars.next t s op = some (s', a)) : ∀ c, some c ∈ s' → c ≠ none := by
  have hg : ∀ {i c}, (s[i]?).join = some c → c ≠ none := fun hi => hs _ (List.mem_of_getElem? (get_of_join hi))
  have hrem : ∀ (m : Mode) (p : Nat × Obj α) f, remains m (some p) f ≠ none := by
    intro m p f; cases m <;> simp [remains]
  have hsnoc : ∀ {s : Vars α} {v : Option (Content α)}, (∀ c, some c ∈ s → c ≠ none) → (∀ c, v = some c → c ≠ none) →
      ∀ c, some c ∈ s ++ [v] → c ≠ none := by
    intro s v h1 h2 c hc
    simp only [List.mem_append, List.mem_singleton] at hc
    rcases hc with h3 | h3
    · exact h1 c h3
    · exact h2 c h3.symm
  cases op with
  | makeFrom k x f =>
    cases f <;> simp only [Vars.next, Option.some.injEq, Prod.mk.injEq] at h <;> rw [← h.1] <;>
      exact hsnoc hs (by intro c hc; first | (simp at hc; done) | (simp only [Option.some.injEq] at hc; rw [← hc]; simp))
  | make m j f =>
    simp only [Vars.next] at h
    cases hj : (s[j]?).join with
    | none => rw [hj] at h; simp at h
    | some o =>
      rw [hj] at h
      have ho := hg hj
      cases o with
      | none => exact absurd rfl ho
      | some p =>
        obtain ⟨k, x⟩ := p
        simp only [Option.map_some, Option.some.injEq] at h
        cases hf : ends t m k f with
        | returns =>
          rw [hf] at h
          simp only [Prod.mk.injEq] at h
          rw [← h.1]
          exact hsnoc (full_set hs j (hrem m _ _)) (by intro c hc; simp only [Option.some.injEq] at hc; rw [← hc]; simp)
        | throws p q =>
          rw [hf] at h
          simp only [Prod.mk.injEq] at h
          rw [← h.1]
          exact hsnoc (full_set hs j (hrem m _ _)) (by intro c hc; simp at hc)
  | drop i =>
    simp only [Vars.next] at h
    cases hi : (s[i]?).join with
    | none => rw [hi] at h; simp at h
    | some c =>
      rw [hi] at h
      simp only [Option.map_some, Option.some.injEq, Prod.mk.injEq] at h
      rw [← h.1]
      intro d hd
      rcases List.mem_or_eq_of_mem_set hd with h1 | h1
      · exact hs d h1
      · simp at h1
  | assign m i j f g =>
    simp only [Vars.next] at h
    cases hi : (s[i]?).join with
    | none => rw [hi] at h; simp at h
    | some c =>
      cases hj : (s[j]?).join with
      | none => rw [hi, hj] at h; simp at h
      | some o =>
        rw [hi, hj] at h
        have ho := hg hj
        cases o with
        | none => exact absurd rfl ho
        | some p =>
          obtain ⟨k, x⟩ := p
          simp only [Option.map_some, Option.bind_some, Option.some.injEq, Prod.mk.injEq] at h
          rw [← h.1]
          split
          · exact full_set hs j (hrem m _ _)
          · exact full_set (full_set hs j (hrem m _ _)) i (give_full hm (hg hi) _ _ _ _)
  | assignFrom i k x safe f g =>
    simp only [Vars.next] at h
    cases hi : (s[i]?).join with
    | none => rw [hi] at h; simp at h
    | some c =>
      rw [hi] at h
      simp only [Option.map_some, Option.some.injEq, Prod.mk.injEq] at h
      rw [← h.1]
      exact full_set hs i (give_full hm (hg hi) _ _ _ _)
  | assignOwn i k safe f g =>
    simp only [Vars.next] at h
    cases hi : (s[i]?).join with
    | none => rw [hi] at h; simp at h
    | some c =>
      rw [hi] at h
      have hc := hg hi
      cases c with
      | none => exact absurd rfl hc
      | some p =>
        obtain ⟨l, x⟩ := p
        simp only [Option.bind_some] at h
        split at h
        · simp at h
        · simp only [Option.some.injEq, Prod.mk.injEq] at h
          rw [← h.1]
          exact full_set hs i (give_full hm hc _ _ _ _)
  | emplace i k x f =>
    simp only [Vars.next] at h
    cases hi : (s[i]?).join with
    | none => rw [hi] at h; simp at h
    | some c =>
      rw [hi] at h
      cases f with
      | returns =>
        simp only [Option.map_some, Option.some.injEq, Prod.mk.injEq] at h
        rw [← h.1]
        exact full_set hs i (by simp)
      | throws p q => exact absurd rfl (he i k x p q)
  | swap i j f g h' =>
    simp only [Vars.next] at h
    cases hi : (s[i]?).join with
    | none => rw [hi] at h; simp at h
    | some c =>
      cases hj : (s[j]?).join with
      | none => rw [hi, hj] at h; simp at h
      | some d =>
        rw [hi, hj] at h
        simp only [Option.map_some, Option.bind_some, Option.some.injEq, Prod.mk.injEq] at h
        rw [← h.1]
        have hc := hg hi
        have hd := hg hj
        have : (swapped t c d f g h').1.1 ≠ none ∧ (swapped t c d f g h').1.2 ≠ none := by
          by_cases hne : c.map (·.1) = d.map (·.1)
          · cases c with
            | none => exact absurd rfl hc
            | some p => cases d with
              | none => exact absurd rfl hd
              | some q =>
                have hpq : p.1 = q.1 := by simpa using hne
                simp only [swapped, if_pos hpq]
                cases f <;> simp
          · rw [swapped_safe (movable_all hm c) (movable_all hm d) hne]
            exact ⟨hd, hc⟩
        exact full_set (full_set hs j this.2) i this.1
  | index i =>
    simp only [Vars.next] at h
    cases hi : (s[i]?).join <;> rw [hi] at h <;> simp at h
    rw [← h.1]; exact hs
  | valueless i =>
    simp only [Vars.next] at h
    cases hi : (s[i]?).join <;> rw [hi] at h <;> simp at h
    rw [← h.1]; exact hs
  | holds i k =>
    simp only [Vars.next] at h
    cases hi : (s[i]?).join <;> rw [hi] at h <;> simp at h
    rw [← h.1]; exact hs
  | get i k =>
    simp only [Vars.next] at h
    cases hi : (s[i]?).join with
    | none => rw [hi] at h; simp at h
    | some c =>
      rw [hi] at h
      cases c <;> simp at h <;> rw [← h.1] <;> exact hs
  | getIf i k =>
    simp only [Vars.next] at h
    cases hi : (s[i]?).join with
    | none => rw [hi] at h; simp at h
    | some c =>
      rw [hi] at h
      cases c <;> simp at h <;> rw [← h.1] <;> exact hs
  | visit is =>
    simp only [Vars.next] at h
    cases hi : is.mapM fun i => (s[i]?).join with
    | none => rw [hi] at h; simp at h
    | some cs =>
      rw [hi] at h
      simp only [Option.map_some, Option.some.injEq, Prod.mk.injEq] at h
      rw [← h.1]; exact hs

theorem exec_full {t : Traits} (hm : ∀ k, t.moveSafe k = true) {s : Vars α} (hs : ∀ c, some c ∈ s → c ≠ none)
    (ops : List (Op α)) (he : ∀ i k a p q, Op.emplace i k a (.throws p q) ∉ ops) {s' : Vars α} {as : List (Answer α)}
    (h : Vars.exec t s ops = some (s', as)) : ∀ c, some c ∈ s' → c ≠ none := by
  induction ops generalizing s as with
  | nil =>
    simp only [Vars.exec, Option.some.injEq, Prod.mk.injEq] at h
    rw [← h.1]; exact hs
  | cons op ops ih =>
    simp only [Vars.exec] at h
    cases hn : Vars.next t s op with
    | none => rw [hn] at h; simp at h
    | some q =>
      rw [hn] at h
      simp only [Option.bind_some] at h
      cases hx : Vars.exec t q.1 ops with
      | none => rw [hx] at h; simp at h
      | some z =>
        rw [hx] at h
        simp only [Option.map_some, Option.some.injEq, Prod.mk.injEq] at h
        have hq := next_full hm hs op (fun i k a p r e => he i k a p r (by rw [e]; exact List.mem_cons_self)) hn
        exact ih hq (fun i k a p r e => he i k a p r (List.mem_cons_of_mem _ e)) (by rw [hx, ← h.1])

/-- If moving never throws, a variant is without value only after a failed `emplace`: no other call, whatever it throws,
leaves one so. -/
theorem C71_never_valueless (t : Traits) (ops : List (Op α)) (h : Sane t ops) (hm : ∀ k, t.moveSafe k = true)
    (he : ∀ i k a p q, Op.emplace i k a (.throws p q) ∉ ops) (w : World α) (as : List (Answer α))
    (hr : World.start.run t ops = some (w, as)) (i : Nat) (c : Cell α) (hc : w.var i = some c) : c.valueless = false := by
  obtain ⟨s, hx, hw, hs⟩ := vrt_start h hr
  subst hw
  have hf := exec_full hm (by intro c hc; simp at hc) ops he hx
  rw [var_lift] at hc
  cases hj : (s[i]?).join with
  | none => rw [hj] at hc; simp at hc
  | some o =>
    rw [hj] at hc
    simp only [Option.map_some, Option.some.injEq] at hc
    have ho := hf o (List.mem_of_getElem? (get_of_join hj))
    cases o with
    | none => exact absurd rfl ho
    | some p =>
      rw [← hc]
      exact valueless_some (k := p.1) (x := p.2) h.few (fits_lt (k := p.1) (x := p.2) (hs.get hj))

/-- An assignment of a value of another alternative that throws changes nothing at all, if moving that alternative cannot
throw. -/
theorem C71_strong (t : Traits) (ops : List (Op α)) (w w' : World α) (as : List (Answer α)) (i k : Nat) (a : α)
    (safe : Bool) (f g : Fate) (c : Cell α) (h : Sane t (ops ++ [.assignFrom i k a safe f g]))
    (hr : World.start.run t ops = some (w, as)) (hc : w.var i = some c) (hk : c.index ≠ k) (hm : t.moveSafe k = true)
    (hs : w.step t (.assignFrom i k a safe f g) = some (w', .failed)) : w' = w := by
  have h' : Sane t ops := ⟨h.few, fun o ho => h.known o (List.mem_append_left _ ho)⟩
  obtain ⟨s, _, hw, hfit⟩ := vrt_start h' hr
  subst hw
  have hst := step_lift h.few hfit (.assignFrom i k a safe f g) (h.known _ (by simp))
  rw [var_lift] at hc
  simp only [Vars.next] at hst
  cases hi : (s[i]?).join with
  | none => rw [hi] at hc; simp at hc
  | some o =>
    rw [hi] at hc hst
    simp only [Option.map_some, Option.some.injEq] at hc
    simp only [Option.map_some, Follows] at hst
    rw [hst.1] at hs
    simp only [Option.some.injEq, Prod.mk.injEq] at hs
    obtain ⟨h1, h2⟩ := hs
    have hne : o.map (·.1) ≠ some k := by
      intro he
      apply hk
      rw [← hc]
      cases o with
      | none => simp at he
      | some p => simpa [conc] using he
    rw [← h1]
    simp only [give, if_neg hne] at h2 ⊢
    cases safe with
    | true => simp at h2
    | false =>
      cases f with
      | returns => simp at h2
      | throws p q => simp [hm, set_same hi]

/-- The same for copying another variant. -/
theorem C71_strong_copy (t : Traits) (ops : List (Op α)) (w w' : World α) (as : List (Answer α)) (i j : Nat)
    (f g : Fate) (c o : Cell α) (h : Sane t ops)
    (hr : World.start.run t ops = some (w, as)) (hc : w.var i = some c) (ho : w.var j = some o) (hk : c.index ≠ o.index)
    (hm : t.moveSafe o.index = true)
    (hs : w.step t (.assign .copy i j f g) = some (w', .failed)) : w' = w := by
  obtain ⟨s, _, hw, hfit⟩ := vrt_start h hr
  subst hw
  have hst := step_lift h.few hfit (.assign .copy i j f g) (by intro k hk; simp [alternative] at hk)
  rw [var_lift] at hc ho
  simp only [Vars.next] at hst
  cases hi : (s[i]?).join with
  | none => rw [hi] at hc; simp at hc
  | some x =>
    cases hj : (s[j]?).join with
    | none => rw [hj] at ho; simp at ho
    | some y =>
      rw [hi] at hc hst
      rw [hj] at ho hst
      simp only [Option.map_some, Option.some.injEq] at hc ho
      simp only [Option.map_some, Option.bind_some, Follows] at hst
      cases y with
      | none =>
        rw [hst.1] at hs
        simp at hs
      | some p =>
        obtain ⟨k, z⟩ := p
        rw [hst.1] at hs
        simp only [Option.some.injEq, Prod.mk.injEq] at hs
        obtain ⟨h1, h2⟩ := hs
        have hne : x.map (·.1) ≠ some k := by
          intro he
          apply hk
          rw [← hc, ← ho]
          cases x with
          | none => simp at he
          | some p => simpa [conc] using he
        have hm' : t.moveSafe k = true := by rw [← ho] at hm; exact hm
        rw [← h1]
        simp only [give, if_neg hne] at h2 ⊢
        cases hsf : t.copySafe k with
        | true => simp [hsf] at h2
        | false =>
          cases f with
          | returns => simp [hsf] at h2
          | throws p q => simp [hm', remains, set_same hj, set_same hi]

theorem exchanged_done {t : Traits} {a b : Content α} {f g h : Fate} (hd : (exchanged t a b f g h).2 = true) :
    (exchanged t a b f g h).1 = (b, a) := by
  simp only [exchanged] at hd ⊢
  split at hd <;> first | (simp at hd; done) | rfl

theorem exchanged_failed {t : Traits} {a b : Content α} {f g h : Fate} (hd : (exchanged t a b f g h).2 = false) :
    (movable t a = false ∨ movable t b = false) ∧ (movable t b = true → (exchanged t a b f g h).1.2 = b) ∧
    (movable t a = true → movable t b = false →
      (exchanged t a b f g h).1.1 = a ∨ (exchanged t a b f g h).1 = (none, a)) := by
  cases ha : movable t a <;> cases hb : movable t b <;> cases f <;> cases g <;> cases h <;>
    simp_all [exchanged, moving]

theorem swapped_done {t : Traits} {a b : Content α} {f g h : Fate} (hd : (swapped t a b f g h).2 = true) :
    (swapped t a b f g h).1 = (b, a) := by
  have hfl : (swapped.flip t a b f g h).2 = true → (swapped.flip t a b f g h).1 = (b, a) := by
    intro hx
    simp only [swapped.flip] at hx ⊢
    split at hx
    · rename_i hc
      have := exchanged_done hx
      rw [if_pos hc, this]
    · rename_i hc
      rw [if_neg hc]
      exact exchanged_done hx
  cases a with
  | none => cases b with
    | none => rfl
    | some q => exact hfl hd
  | some p => cases b with
    | none => exact hfl hd
    | some q =>
      obtain ⟨k, x⟩ := p
      obtain ⟨l, y⟩ := q
      by_cases he : k = l
      · subst he
        cases f with
        | returns => simp [swapped]
        | throws p q => simp [swapped] at hd
      · simp only [swapped, if_neg he] at hd ⊢
        exact hfl hd

theorem swapped_failed {t : Traits} {a b : Content α} {f g h : Fate} (hne : a.map (·.1) ≠ b.map (·.1))
    (hd : (swapped t a b f g h).2 = false) :
    (movable t a = true → (swapped t a b f g h).1.1 = a) ∧ (movable t b = true → (swapped t a b f g h).1.2 = b) := by
  have hsw : swapped t a b f g h = swapped.flip t a b f g h := by
    cases a with
    | none => cases b with
      | none => simp at hne
      | some q => rfl
    | some p => cases b with
      | none => rfl
      | some q =>
        have : p.1 ≠ q.1 := by simpa using hne
        simp only [swapped, if_neg this]
  rw [hsw] at hd ⊢
  simp only [swapped.flip] at hd ⊢
  split at hd
  · rename_i hc
    rw [if_pos hc]
    have hx := exchanged_failed hd
    simp only [Bool.and_eq_true, Bool.not_eq_true'] at hc
    refine ⟨fun h1 => hx.2.1 h1, fun h1 => ?_⟩
    rw [hc.2] at h1; simp at h1
  · rename_i hc
    rw [if_neg hc]
    have hx := exchanged_failed hd
    refine ⟨fun h1 => ?_, fun h1 => hx.2.1 h1⟩
    rcases hx.1 with h2 | h2
    · rw [h2] at h1; simp at h1
    · simp [h1, h2] at hc

/-- Moving what is in this variant cannot throw. -/
def calm (t : Traits) (c : Cell α) : Prop := c.valueless = true ∨ t.moveSafe c.index = true

/-- A `swap` that returns has exchanged the two; between different alternatives it returns if neither move can throw, and if
it throws, a variant whose own move cannot throw is as it was. -/
theorem C71_swap (t : Traits) (ops : List (Op α)) (w w' : World α) (as : List (Answer α)) (i j : Nat) (f g h : Fate)
    (c d : Cell α) (ans : Answer α) (hsane : Sane t ops) (hr : World.start.run t ops = some (w, as)) (hij : i ≠ j)
    (hc : w.var i = some c) (hd : w.var j = some d) (hs : w.step t (.swap i j f g h) = some (w', ans)) :
    (ans = .done ∨ ans = .failed) ∧
    (ans = .done → w'.var i = some d ∧ w'.var j = some c) ∧
    (c.index ≠ d.index → calm t c → calm t d → ans = .done) ∧
    (c.index ≠ d.index → ans = .failed →
      (calm t c → w'.var i = some c) ∧ (calm t d → w'.var j = some d)) := by
  obtain ⟨s, _, hw, hfit⟩ := vrt_start hsane hr
  subst hw
  have hst := step_lift hsane.few hfit (.swap i j f g h) (by intro k hk; simp [alternative] at hk)
  rw [var_lift] at hc hd
  simp only [Vars.next] at hst
  cases hi : (s[i]?).join with
  | none => rw [hi] at hc; simp at hc
  | some a =>
    cases hj : (s[j]?).join with
    | none => rw [hj] at hd; simp at hd
    | some b =>
      rw [hi] at hc hst
      rw [hj] at hd hst
      simp only [Option.map_some, Option.some.injEq] at hc hd
      simp only [Option.map_some, Option.bind_some, Follows] at hst
      rw [hst.1] at hs
      simp only [Option.some.injEq, Prod.mk.injEq] at hs
      obtain ⟨h1, h2⟩ := hs
      have hli : i < s.length := by
        obtain ⟨hl, _⟩ := List.getElem?_eq_some_iff.mp (get_of_join hi); exact hl
      have hlj : j < s.length := by
        obtain ⟨hl, _⟩ := List.getElem?_eq_some_iff.mp (get_of_join hj); exact hl
      have hvi : w'.var i = some (conc (swapped t a b f g h).1.1) := by
        rw [← h1, var_lift, List.getElem?_set_self (by simpa using hli)]; rfl
      have hvj : w'.var j = some (conc (swapped t a b f g h).1.2) := by
        rw [← h1, var_lift, List.getElem?_set_ne hij, List.getElem?_set_self hlj]; rfl
      have hcalm : ∀ {o : Content α}, Fits t o → calm t (conc o) → movable t o = true := by
        intro o ho hcm
        cases o with
        | none => rfl
        | some p =>
          rcases hcm with h3 | h3
          · rw [valueless_some (k := p.1) (x := p.2) hsane.few (fits_lt (k := p.1) (x := p.2) ho)] at h3
            simp at h3
          · exact h3
      have hidx : (conc a).index ≠ (conc b).index → a.map (·.1) ≠ b.map (·.1) := by
        intro hne he
        cases a with
        | none => cases b with
          | none => exact hne rfl
          | some q => simp at he
        | some p => cases b with
          | none => simp at he
          | some q => exact hne (by simpa [conc] using he)
      have hfa := hfit.get hi
      have hfb := hfit.get hj
      refine ⟨?_, ?_, ?_, ?_⟩
      · rw [← h2]; split <;> simp
      · intro hdn
        have : (swapped t a b f g h).2 = true := by
          cases hx : (swapped t a b f g h).2 with
          | true => rfl
          | false => rw [← h2, hx] at hdn; simp at hdn
        have hsw := swapped_done this
        rw [hvi, hvj, hsw, ← hc, ← hd]
        exact ⟨rfl, rfl⟩
      · intro hne hca hcb
        rw [← hc, ← hd] at hne
        rw [← hc] at hca
        rw [← hd] at hcb
        rw [← h2, swapped_safe (hcalm hfa hca) (hcalm hfb hcb) (hidx hne)]
        rfl
      · intro hne hfl
        rw [← hc, ← hd] at hne
        have : (swapped t a b f g h).2 = false := by
          cases hx : (swapped t a b f g h).2 with
          | false => rfl
          | true => rw [← h2, hx] at hfl; simp at hfl
        have hsw := swapped_failed (hidx hne) this
        constructor
        · intro hcm
          rw [← hc] at hcm
          rw [hvi, hsw.1 (hcalm hfa hcm), ← hc]
        · intro hcm
          rw [← hd] at hcm
          rw [hvj, hsw.2 (hcalm hfb hcm), ← hd]

/-! ### Comparison -/

/-- Comparing two variants compares what they contain: nothing is below everything, then the alternatives count, then the
objects. The two ways each operator is written agree. -/
theorem C71_compare (p : Cmp α) (t : Traits) (ht : t.count ≤ 2 ^ 32 - 1) (a b : Cell α) (x y : Content α)
    (ha : holds a x) (hb : holds b y) (hx : ∀ k o, x = some (k, o) → k < t.count)
    (hy : ∀ k o, y = some (k, o) → k < t.count) :
    (p.eqV t a b = some (Lifted p.eq false false true x y) ∧ p.eqE t a b = p.eqV t a b) ∧
    (p.neV t a b = some (Lifted p.ne true true false x y) ∧ p.neE t a b = p.neV t a b) ∧
    (p.ltV t a b = some (Lifted p.lt true false false x y) ∧ p.ltE t a b = p.ltV t a b) ∧
    (p.gtV t a b = some (Lifted p.gt false true false x y) ∧ p.gtE t a b = p.gtV t a b) ∧
    (p.leV t a b = some (Lifted p.le true false true x y) ∧ p.leE t a b = p.leV t a b) ∧
    (p.geV t a b = some (Lifted p.ge false true true x y) ∧ p.geE t a b = p.geV t a b) := by
  rw [holds_conc] at ha hb
  subst ha
  subst hb
  have hn := npos_lt
  have ht : t.count ≤ npos32 := ht
  cases x with
  | none =>
    cases y with
    | none =>
      simp [Cmp.eqV, Cmp.neV, Cmp.ltV, Cmp.gtV, Cmp.leV, Cmp.geV, Cmp.eqE, Cmp.neE, Cmp.ltE, Cmp.gtE, Cmp.leE, Cmp.geE,
        valueless_none, Lifted]
    | some q =>
      obtain ⟨l, y⟩ := q
      have hl := hy l y rfl
      have h1 : npos64 ≠ l := by omega
      simp [Cmp.eqV, Cmp.neV, Cmp.ltV, Cmp.gtV, Cmp.leV, Cmp.geV, Cmp.eqE, Cmp.neE, Cmp.ltE, Cmp.gtE, Cmp.leE, Cmp.geE,
        valueless_none, index_none, valueless_some ht hl, index_some ht hl, Lifted, h1]
  | some q =>
    obtain ⟨k, x⟩ := q
    have hk := hx k x rfl
    cases y with
    | none =>
      have h1 : k ≠ npos64 := by omega
      simp [Cmp.eqV, Cmp.neV, Cmp.ltV, Cmp.gtV, Cmp.leV, Cmp.geV, Cmp.eqE, Cmp.neE, Cmp.ltE, Cmp.gtE, Cmp.leE, Cmp.geE,
        valueless_none, index_none, valueless_some ht hk, index_some ht hk, Lifted, h1]
    | some q =>
      obtain ⟨l, y⟩ := q
      have hl := hy l y rfl
      have hva : ∀ r, k = l → t.valueAt r (conc (some (k, x))) (conc (some (l, y))) = some (r k x y) := by
        intro r he
        subst he
        simp [Traits.valueAt, index_some ht hk, dispatch_zero hk, getAlt_some]
      rcases Nat.lt_trichotomy k l with h1 | h1 | h1
      · have h2 : k ≠ l := by omega
        have h3 : ¬ l < k := by omega
        simp [Cmp.eqV, Cmp.neV, Cmp.ltV, Cmp.gtV, Cmp.leV, Cmp.geV, Cmp.eqE, Cmp.neE, Cmp.ltE, Cmp.gtE, Cmp.leE, Cmp.geE,
          valueless_some ht hk, index_some ht hk, valueless_some ht hl, index_some ht hl, Lifted, h1, h2, h3]
      · have hvr := fun r => hva r h1
        subst h1
        simp [Cmp.eqV, Cmp.neV, Cmp.ltV, Cmp.gtV, Cmp.leV, Cmp.geV, Cmp.eqE, Cmp.neE, Cmp.ltE, Cmp.gtE, Cmp.leE, Cmp.geE,
          valueless_some ht hk, index_some ht hk, Lifted, hvr]
      · have h2 : k ≠ l := by omega
        have h3 : ¬ k < l := by omega
        simp [Cmp.eqV, Cmp.neV, Cmp.ltV, Cmp.gtV, Cmp.leV, Cmp.geV, Cmp.eqE, Cmp.neE, Cmp.ltE, Cmp.gtE, Cmp.leE, Cmp.geE,
          valueless_some ht hk, index_some ht hk, valueless_some ht hl, index_some ht hl, Lifted, h1, h2, h3]

/-- If the comparisons of each alternative come from one linear order, so do those of the variants: exactly one of less, equal
and greater holds, the other three comparisons are their negations, and less is transitive. -/
theorem C71_order (p : Cmp α) (t : Traits) (ht : t.count ≤ 2 ^ 32 - 1)
    (hne : ∀ k x y, p.ne k x y = !p.eq k x y) (hle : ∀ k x y, p.le k x y = !p.lt k y x)
    (hgt : ∀ k x y, p.gt k x y = p.lt k y x) (hge : ∀ k x y, p.ge k x y = !p.lt k x y)
    (heq : ∀ k x y, p.eq k x y = (!p.lt k x y && !p.lt k y x)) (hasym : ∀ k x y, p.lt k x y = true → p.lt k y x = false)
    (htr : ∀ k x y z, p.lt k x y = true → p.lt k y z = true → p.lt k x z = true)
    (a b c : Cell α) (x y z : Content α) (ha : holds a x) (hb : holds b y) (hc : holds c z)
    (hx : ∀ k o, x = some (k, o) → k < t.count) (hy : ∀ k o, y = some (k, o) → k < t.count)
    (hz : ∀ k o, z = some (k, o) → k < t.count) :
    ∃ lt eq gt : Bool, p.ltV t a b = some lt ∧ p.eqV t a b = some eq ∧ p.gtV t a b = some gt ∧
      p.leV t a b = some (!gt) ∧ p.neV t a b = some (!eq) ∧ p.geV t a b = some (!lt) ∧
      p.ltV t b a = some gt ∧ [lt, eq, gt].count true = 1 ∧
      (p.ltV t a b = some true → p.ltV t b c = some true → p.ltV t a c = some true) := by
  obtain ⟨⟨h1, _⟩, ⟨h2, _⟩, ⟨h3, _⟩, ⟨h4, _⟩, ⟨h5, _⟩, ⟨h6, _⟩⟩ := C71_compare p t ht a b x y ha hb hx hy
  obtain ⟨_, _, ⟨h7, _⟩, _⟩ := C71_compare p t ht b a y x hb ha hy hx
  obtain ⟨_, _, ⟨h8, _⟩, _⟩ := C71_compare p t ht b c y z hb hc hy hz
  obtain ⟨_, _, ⟨h9, _⟩, _⟩ := C71_compare p t ht a c x z ha hc hx hz
  have key : ∀ x y : Content α, Lifted p.gt false true false x y = Lifted p.lt true false false y x := by
    intro x y
    cases x with
    | none => cases y <;> simp [Lifted]
    | some q => cases y with
      | none => simp [Lifted]
      | some r =>
        simp only [Lifted, hgt]
        rcases Nat.lt_trichotomy q.1 r.1 with h | h | h
        · simp [h, Nat.lt_asymm h]
        · simp [h]
        · simp [h, Nat.lt_asymm h]
  refine ⟨_, _, _, h3, h1, h4, ?_, ?_, ?_, ?_, ?_, ?_⟩
  · rw [h5]
    cases x with
    | none => cases y <;> simp [Lifted]
    | some q => cases y with
      | none => simp [Lifted]
      | some r =>
        simp only [Lifted, hle, hgt]
        by_cases h : q.1 < r.1
        · simp [h]
        · by_cases h' : r.1 < q.1 <;> simp [h, h']
  · rw [h2]
    cases x with
    | none => cases y <;> simp [Lifted]
    | some q => cases y with
      | none => simp [Lifted]
      | some r =>
        simp only [Lifted, hne]
        by_cases h : q.1 < r.1
        · simp [h]
        · by_cases h' : r.1 < q.1 <;> simp [h, h']
  · rw [h6]
    cases x with
    | none => cases y <;> simp [Lifted]
    | some q => cases y with
      | none => simp [Lifted]
      | some r =>
        simp only [Lifted, hge]
        by_cases h : q.1 < r.1
        · simp [h]
        · by_cases h' : r.1 < q.1 <;> simp [h, h']
  · rw [h7, key]
  · cases x with
    | none => cases y <;> simp [Lifted]
    | some q => cases y with
      | none => simp [Lifted]
      | some r =>
        obtain ⟨k, u⟩ := q
        obtain ⟨l, v⟩ := r
        simp only [Lifted]
        rcases Nat.lt_trichotomy k l with h | h | h
        · simp [h]
        · subst h
          simp only [Nat.lt_irrefl, if_false, heq, hgt]
          have := hasym k u v
          cases huv : p.lt k u v <;> cases hvu : p.lt k v u <;> simp_all
        · simp [h, Nat.lt_asymm h]
  · rw [h3, h8, h9]
    simp only [Option.some.injEq]
    cases x with
    | none => cases y <;> cases z <;> simp [Lifted]
    | some q => cases y with
      | none => cases z <;> simp [Lifted]
      | some r => cases z with
        | none => simp [Lifted]
        | some u =>
          obtain ⟨k, q⟩ := q
          obtain ⟨l, r⟩ := r
          obtain ⟨m, u⟩ := u
          simp only [Lifted]
          intro h10 h11
          rcases Nat.lt_trichotomy k l with h | h | h
          · rcases Nat.lt_trichotomy l m with h' | h' | h'
            · simp [Nat.lt_trans h h']
            · subst h'; simp [h]
            · simp [h', Nat.lt_asymm h'] at h11
          · subst h
            simp only [Nat.lt_irrefl, if_false] at h10
            rcases Nat.lt_trichotomy k m with h' | h' | h'
            · simp [h']
            · subst h'
              simp only [Nat.lt_irrefl, if_false] at h11 ⊢
              exact htr k q r u h10 h11
            · simp [h', Nat.lt_asymm h'] at h11
          · simp [h, Nat.lt_asymm h] at h10

/-! A program over three alternatives: moving the first cannot throw, moving the second can, copying can for all. A failing
copy to another alternative changes nothing if the alternative is the first one, and leaves nothing if it is the second. -/

def vrtTraits : Traits := ⟨3, fun k => k != 1, fun _ => false⟩

def vrtDemo : List (Op Nat) :=
  [.makeFrom 0 5 .returns, .makeFrom 1 7 .returns, .makeFrom 2 9 .returns, .assign .copy 2 0 (.throws 1 2) .returns,
   .visit [0, 1, 2], .assign .copy 2 1 (.throws 1 2) .returns, .index 2, .visit [0, 2], .swap 0 1 .returns (.throws 3 4) .returns,
   .get 0 0, .get 1 1, .swap 0 1 .returns .returns .returns, .get 0 1, .getIf 1 0, .getIf 1 1, .swap 2 1 .returns .returns .returns,
   .valueless 1, .assignOwn 2 2 false .returns .returns, .visit [2], .emplace 2 0 4 (.throws 0 0), .get 2 0, .drop 0, .drop 1, .drop 2]

example : Sane vrtTraits vrtDemo := ⟨by decide, by
  intro op hop k hk
  simp only [vrtDemo, List.mem_cons, List.not_mem_nil, or_false] at hop
  rcases hop with rfl | rfl | rfl | rfl | rfl | rfl | rfl | rfl | rfl | rfl | rfl | rfl | rfl | rfl | rfl | rfl | rfl | rfl | rfl |
    rfl | rfl | rfl | rfl | rfl <;> simp [alternative, vrtTraits] at hk ⊢ <;> omega⟩

example : (World.start.run vrtTraits vrtDemo).map (·.2) =
    some [.done, .done, .done, .failed, .called [(0, .val 5), (1, .val 7), (2, .val 9)], .failed, .number (2 ^ 64 - 1),
      .badAccess, .failed, .obj (.val 5), .obj (.left 4), .done, .obj (.left 4), .ptr (some (.val 5)), .ptr none, .done,
      .flag true, .done, .called [(2, .val 5)], .failed, .badAccess, .done, .done, .done] := by decide +kernel

/-- Assigning its own object as another alternative is undefined if it is created in place; using a variant whose constructor
threw is, too. -/
example : World.start.run vrtTraits ([.makeFrom 0 1 .returns, .assignOwn 0 1 false .returns .returns] : List (Op Nat)) = none ∧
    World.start.run vrtTraits ([.makeFrom 0 1 (.throws 0 0), .index 0] : List (Op Nat)) = none := by decide +kernel

/-- The hypotheses of the order theorem hold for numbers (with the left-over states after them). -/
example : ∃ p : Cmp Nat, p.lt 0 (.val 1) (.val 2) = true ∧
    (∀ k x y, p.ne k x y = !p.eq k x y) ∧ (∀ k x y, p.le k x y = !p.lt k y x) ∧ (∀ k x y, p.gt k x y = p.lt k y x) ∧
    (∀ k x y, p.ge k x y = !p.lt k x y) ∧ (∀ k x y, p.eq k x y = (!p.lt k x y && !p.lt k y x)) ∧
    (∀ k x y, p.lt k x y = true → p.lt k y x = false) ∧
    ∀ k x y z, p.lt k x y = true → p.lt k y z = true → p.lt k x z = true := by
  let key : Obj Nat → Nat := fun | .val a => 2 * a | .left n => 2 * n + 1
  refine ⟨⟨fun _ x y => !decide (key x < key y) && !decide (key y < key x),
    fun _ x y => !(!decide (key x < key y) && !decide (key y < key x)), fun _ x y => decide (key x < key y),
    fun _ x y => decide (key y < key x), fun _ x y => !decide (key y < key x), fun _ x y => !decide (key x < key y)⟩,
    rfl, fun _ _ _ => rfl, fun _ _ _ => rfl, fun _ _ _ => rfl, fun _ _ _ => rfl, fun _ _ _ => rfl, ?_, ?_⟩
  · intro _ x y h
    simp only [decide_eq_true_eq, decide_eq_false_iff_not] at h ⊢
    omega
  · intro _ x y z h h'
    simp only [decide_eq_true_eq] at h h' ⊢
    omega

end Dart.Props
