import Verif.Spec.Order
import Verif.Lemmas.ConcRun

/-
Which steps happen before which others, helpers: growing executions, and what threads, counters, messages and elements know.
-/
namespace Dart.Conc
variable {o : Orders} {tr : List Ev}

theorem get_append {l : List Ev} {i : Nat} {x : Ev} (h : tr[i]? = some x) : (tr ++ l)[i]? = some x := by
  have := (List.getElem?_eq_some_iff.1 h).1
  rw [List.getElem?_append_left this, h]

theorem get_prefix {l : List Ev} {i : Nat} {x : Ev} (h : (tr ++ l)[i]? = some x) (hi : i < tr.length) : tr[i]? = some x := by
  rwa [List.getElem?_append_left hi] at h

theorem get_snoc {i : Nat} {x y : Ev} (h : (tr ++ [x])[i]? = some y) : tr[i]? = some y ∨ i = tr.length ∧ y = x := by
  by_cases hi : i < tr.length
  · exact .inl (get_prefix h hi)
  · have := (List.getElem?_eq_some_iff.1 h).1
    simp only [List.length_append, List.length_singleton] at this
    have : i = tr.length := by omega
    subst this
    simp only [List.getElem?_concat_length, Option.some.injEq] at h
    exact .inr ⟨rfl, h.symm⟩

theorem earlier_append {l : List Ev} {s : Sync} {i : Nat} (h : i ≤ tr.length) : earlier (tr ++ l) s i = earlier tr s i := by
  simp only [earlier, List.take_append_of_le_length h]

theorem Before.lt {i j : Nat} (h : Before o tr i j) : i < j := by
  induction h with
  | order h | count h | message h => exact h
  | trans _ _ h1 h2 => omega

theorem Before.append {i j : Nat} (h : Before o tr i j) (l : List Ev) : Before o (tr ++ l) i j := by
  induction h with
  | order h h1 h2 h3 => exact .order h (get_append h1) (get_append h2) h3
  | count h h1 h2 h3 h4 => exact .count h (get_append h1) (get_append h2) h3 h4
  | message h h1 h2 h3 h4 h5 =>
    refine .message h (get_append h1) (get_append h2) h3 h4 ?_
    have g1 := (List.getElem?_eq_some_iff.1 h1).1
    have g2 := (List.getElem?_eq_some_iff.1 h2).1
    rw [earlier_append (by omega), earlier_append (by omega), h5]
  | trans _ _ h1 h2 => exact .trans h1 h2

theorem Before.prefix {i j : Nat} {l : List Ev} (h : Before o (tr ++ l) i j) (hj : j < tr.length) : Before o tr i j := by
  induction h with
  | order h h1 h2 h3 => exact .order h (get_prefix h1 (by omega)) (get_prefix h2 hj) h3
  | count h h1 h2 h3 h4 => exact .count h (get_prefix h1 (by omega)) (get_prefix h2 hj) h3 h4
  | message h h1 h2 h3 h4 h5 =>
    refine .message h (get_prefix h1 (by omega)) (get_prefix h2 hj) h3 h4 ?_
    rwa [earlier_append (by omega), earlier_append (by omega)] at h5
  | trans h0 h h1 h2 => exact .trans (h1 (by have := h.lt; omega)) (h2 hj)

/-- Step `e` is step `i` or happens before it. -/
def Upto (o : Orders) (tr : List Ev) (e i : Nat) : Prop := e = i ∨ Before o tr e i

theorem Upto.append {e i : Nat} (h : Upto o tr e i) (l : List Ev) : Upto o (tr ++ l) e i :=
  h.imp id (·.append l)

/-- Step `e` is or happens before one of these steps. -/
def Past (o : Orders) (tr : List Ev) (p : Nat → Ev → Prop) (e : Nat) : Prop := ∃ i x, tr[i]? = some x ∧ p i x ∧ Upto o tr e i

theorem Past.append {p q : Nat → Ev → Prop} {e : Nat} (h : Past o tr p e) (l : List Ev) (hp : ∀ i x, i < tr.length → p i x → q i x) :
    Past o (tr ++ l) q e := by
  obtain ⟨i, x, h1, h2, h3⟩ := h
  exact ⟨i, x, get_append h1, hp i x (List.getElem?_eq_some_iff.1 h1).1 h2, h3.append l⟩

theorem Past.snoc {p q : Nat → Ev → Prop} {e : Nat} {x : Ev} (h : Past o (tr ++ [x]) p e) (hp : ∀ i y, i < tr.length → p i y → q i y) :
    Past o tr q e ∨ p tr.length x ∧ Upto o (tr ++ [x]) e tr.length := by
  obtain ⟨i, y, h1, h2, h3⟩ := h
  rcases get_snoc h1 with h1 | ⟨h1, h4⟩
  · have hi := (List.getElem?_eq_some_iff.1 h1).1
    exact .inl ⟨i, y, h1, hp i y hi h2, h3.imp id (·.prefix hi)⟩
  · subst h1 h4
    exact .inr ⟨h2, h3⟩

/-- What a thread knows. -/
def KnowT (o : Orders) (tr : List Ev) (t e : Nat) : Prop := Past o tr (fun _ x => x.thread = t) e
/-- What has been released to a counter. -/
def KnowC (o : Orders) (tr : List Ev) (a e : Nat) : Prop := Past o tr (fun _ x => o.releases a x.sync = true) e
/-- What comes with message `n` of a channel. -/
def KnowM (o : Orders) (tr : List Ev) (c n e : Nat) : Prop := Past o tr (fun i x => x.sync = .put c ∧ earlier tr (.put c) i = n) e
/-- What those knew who wrote elements. -/
def KnowW (o : Orders) (tr : List Ev) (a e : Nat) : Prop := Past o tr (fun _ x => (a, true) ∈ x.accesses) e

section
variable {x : Ev} {e : Nat}

theorem KnowT.mono {t : Nat} (h : KnowT o tr t e) (x : Ev) : KnowT o (tr ++ [x]) t e := Past.append h _ fun _ _ _ h => h
theorem KnowC.mono {a : Nat} (h : KnowC o tr a e) (x : Ev) : KnowC o (tr ++ [x]) a e := Past.append h _ fun _ _ _ h => h
theorem KnowW.mono {a : Nat} (h : KnowW o tr a e) (x : Ev) : KnowW o (tr ++ [x]) a e := Past.append h _ fun _ _ _ h => h
theorem KnowM.mono {c n : Nat} (h : KnowM o tr c n e) (x : Ev) : KnowM o (tr ++ [x]) c n e :=
  Past.append h _ fun i _ hi h => ⟨h.1, by rw [earlier_append (by omega)]; exact h.2⟩

theorem upto_knows (h : Upto o (tr ++ [x]) e tr.length) : KnowT o (tr ++ [x]) x.thread e :=
  ⟨tr.length, x, by simp, rfl, h⟩

/-- The thread that has taken the last step: what it knows happens before that step. -/
theorem KnowT.upto (h : KnowT o (tr ++ [x]) x.thread e) : Upto o (tr ++ [x]) e tr.length := by
  obtain ⟨i, y, h1, h2, h3⟩ := h
  rcases get_snoc h1 with h4 | ⟨h4, h5⟩
  · have h6 : Before o (tr ++ [x]) i tr.length := .order (List.getElem?_eq_some_iff.1 h4).1 h1 (by simp) h2
    rcases h3 with rfl | h3
    · exact .inr h6
    · exact .inr (.trans h3 h6)
  · subst h4; exact h3

theorem KnowT.before (h : KnowT o tr x.thread e) : Before o (tr ++ [x]) e tr.length := by
  rcases (h.mono x).upto with h1 | h1
  · obtain ⟨i, y, h2, _, h3⟩ := h
    have := (List.getElem?_eq_some_iff.1 h2).1
    rcases h3 with h3 | h3
    · omega
    · have := h3.lt; omega
  · exact h1

theorem knows_self : KnowT o (tr ++ [x]) x.thread tr.length := upto_knows (.inl rfl)

theorem KnowC.acquire {a : Nat} (h : KnowC o tr a e) (hx : o.acquires a x.sync = true) : KnowT o (tr ++ [x]) x.thread e := by
  obtain ⟨i, y, h1, h2, h3⟩ := h
  have h4 : Before o (tr ++ [x]) i tr.length := .count (List.getElem?_eq_some_iff.1 h1).1 (get_append h1) (by simp) h2 hx
  refine upto_knows ?_
  rcases h3 with rfl | h3
  · exact .inr h4
  · exact .inr (.trans (h3.append _) h4)

theorem KnowM.take {c : Nat} (h : KnowM o tr c (earlier tr (.take c) tr.length) e) (hx : x.sync = .take c) :
    KnowT o (tr ++ [x]) x.thread e := by
  obtain ⟨i, y, h1, ⟨h2, h3⟩, h4⟩ := h
  have hi := (List.getElem?_eq_some_iff.1 h1).1
  have h5 : Before o (tr ++ [x]) i tr.length := .message hi (get_append h1) (by simp) h2 hx
    (by rw [earlier_append (by omega), earlier_append (by omega), h3])
  refine upto_knows ?_
  rcases h4 with rfl | h4
  · exact .inr h5
  · exact .inr (.trans (h4.append _) h5)

theorem KnowT.release {a : Nat} (h : KnowT o (tr ++ [x]) x.thread e) (hx : o.releases a x.sync = true) : KnowC o (tr ++ [x]) a e :=
  ⟨tr.length, x, by simp, hx, h.upto⟩

theorem KnowT.write {a : Nat} (h : KnowT o (tr ++ [x]) x.thread e) (hx : (a, true) ∈ x.accesses) : KnowW o (tr ++ [x]) a e :=
  ⟨tr.length, x, by simp, hx, h.upto⟩

theorem KnowT.put {c : Nat} (h : KnowT o (tr ++ [x]) x.thread e) (hx : x.sync = .put c) :
    KnowM o (tr ++ [x]) c (earlier tr (.put c) tr.length) e :=
  ⟨tr.length, x, by simp, ⟨hx, earlier_append (by omega)⟩, h.upto⟩

theorem KnowW.snoc {a : Nat} (h : KnowW o (tr ++ [x]) a e) : KnowW o tr a e ∨ (a, true) ∈ x.accesses ∧ KnowT o (tr ++ [x]) x.thread e :=
  (Past.snoc h fun _ _ _ h => h).imp id fun h => ⟨h.1, upto_knows h.2⟩

theorem KnowC.snoc {a : Nat} (h : KnowC o (tr ++ [x]) a e) : KnowC o tr a e ∨ o.releases a x.sync = true ∧ KnowT o (tr ++ [x]) x.thread e :=
  (Past.snoc h fun _ _ _ h => h).imp id fun h => ⟨h.1, upto_knows h.2⟩

end

theorem earlier_snoc (x : Ev) (s : Sync) : earlier (tr ++ [x]) s (tr ++ [x]).length = earlier tr s tr.length + if x.sync = s then 1 else 0 := by
  simp only [earlier, List.take_length, List.countP_append, List.countP_singleton, beq_iff_eq]

/-! ### packets and what is known where they are -/

/-- Where packets are: in a thread, in a message, in elements. -/
inductive Place
  | thr (t : Nat)
  | msg (c n : Nat)
  | elem (b : Nat)

/-- There is a packet referring to `a`. -/
def Holder (m : M) (tr : List Ev) : Place → Nat → Prop
  | .thr t, a => ∃ th, m.threads[t]? = some th ∧ .ref a ∈ th.handles
  | .msg c n, a => ∃ q p, m.chans[c]? = some q ∧ q[p]? = some (.ref a) ∧ n = earlier tr (.take c) tr.length + p
  | .elem b, a => ∃ blk, blkAt m.blocks b = some blk ∧ .ref a ∈ blk.kids

def Known (o : Orders) (tr : List Ev) : Place → Nat → Prop
  | .thr t, e => KnowT o tr t e
  | .msg c n, e => KnowM o tr c n e
  | .elem b, e => KnowW o tr b e

theorem Known.mono {pl : Place} {e : Nat} (h : Known o tr pl e) (x : Ev) : Known o (tr ++ [x]) pl e := by
  cases pl with
  | thr t => exact KnowT.mono h x
  | msg c n => exact KnowM.mono h x
  | elem b => exact KnowW.mono h x

/-- The thread is between the check of `copy_on_write` and the change. -/
def Stage.sole : Stage → Prop
  | .ready | .arg _ | .mutate _ => True
  | _ => False

/-- The invariant. -/
structure Ordered (o : Orders) (m : M) (tr : List Ev) : Prop where
  fresh : ∀ (i : Nat) (x : Ev) (a : Nat), tr[i]? = some x → o.releases a x.sync = true ∨ (∃ w, (a, w) ∈ x.accesses) → a < m.blocks.length
  queue : ∀ c q, m.chans[c]? = some q → earlier tr (.put c) tr.length = earlier tr (.take c) tr.length + q.length
  seen : ∀ pl a e, Holder m tr pl a → KnowW o tr a e → Known o tr pl e
  used : ∀ (i : Nat) (x : Ev) (a : Nat) (w : Bool) (b : Blk), tr[i]? = some x → (a, w) ∈ x.accesses → blkAt m.blocks a = some b →
    KnowC o tr a i ∨ (∃ pl, Holder m tr pl a ∧ Known o tr pl i) ∨ ∃ (t : Nat) (th : Th), m.threads[t]? = some th ∧ th.dying = some a
  dying : ∀ (t : Nat) (th : Th) (a : Nat), m.threads[t]? = some th → th.dying = some a → (∀ e, KnowW o tr a e → KnowT o tr t e) ∧
    ∀ (i : Nat) (x : Ev) (w : Bool), tr[i]? = some x → (a, w) ∈ x.accesses → KnowT o tr t i
  sole : ∀ (t : Nat) (th : Th) (op : Op) (rest : List Op) (a e : Nat), m.threads[t]? = some th → th.prog = op :: rest → th.stage.sole → th.var op.target = .ref a →
    KnowC o tr a e → KnowT o tr t e
  ordered : ∀ i j, i < j → Conflict tr i j → Before o tr i j

end Dart.Conc
