import Verif.Lemmas.OrderRead
import Verif.Props.C47

/-
C91: accesses to shared elements are ordered: there are no data races.
-/
namespace Dart.Props
open Dart.Conc

/-- C91: if decrements acquire and release, and the check of `copy_on_write` acquires, then no execution has a data race: of two
accesses by different threads to the same elements, one of them writing, one happens before the other. -/
theorem C91_no_data_races_partial (o : Orders) (h1 : o.dec.acquire = true) (h2 : o.dec.release = true) (h3 : o.load.acquire = true)
    (n k : Nat) (progs : List (List Op)) (hf : ∀ p ∈ progs, ∀ op ∈ p, op.Fine) (ts : List Nat) :
    ¬ DataRace o (trace (init n k progs) ts) := by
  rintro ⟨i, j, hij, hc, hb⟩
  have := Ordered.trace (o := o) h2 h1 h3 ts (Ordered.init o n k progs) (Inv.init n k progs hf) i j hij (by simpa using hc)
  exact hb (by simpa using this)

/-- C91 for reference counts that are `std::atomic` (`skinny_ptr`). -/
theorem C91_atomic_counters_partial (n k : Nat) (progs : List (List Op)) (hf : ∀ p ∈ progs, ∀ op ∈ p, op.Fine) (ts : List Nat) :
    ¬ DataRace atomicOrders (trace (init n k progs) ts) :=
  C91_no_data_races_partial atomicOrders rfl rfl rfl n k progs hf ts

/-- Two threads share an array; the second reads it and lets go; then the first changes it in place. -/
def readThenPush : List (List Op) := [[.make 0, .copy 1 0, .send 0 1, .push 0 1], [.recv 0 0, .get 1 0 0, .leaf 0 none]]

/-- The same, but the first lets go as well, and so deletes the elements. -/
def readThenDrop : List (List Op) := [[.make 0, .copy 1 0, .send 0 1, .leaf 0 none], [.recv 0 0, .get 1 0 0, .leaf 0 none]]

def oneThenTheOther : List Nat := steps [(8, 0), (9, 1), (8, 0)]

/-- there are accesses by two threads, one of them writing -/
example : (∀ p ∈ readThenPush, ∀ op ∈ p, op.Fine) ∧ Conflict (trace (init 2 1 readThenPush) oneThenTheOther) 10 21 :=
  ⟨by simp [readThenPush, Op.Fine], ⟨1, .none, [(0, false)]⟩, ⟨0, .none, [(0, true)]⟩, 0, false, true, by decide +kernel, by decide +kernel,
    by decide, by decide, by decide, .inr rfl⟩

/-- C91: the steps are described completely. Elements a step does not access could be any others: it would do the same, and it
leaves them as they are. -/
theorem C91_elements_accessed (m : M) (t a : Nat) (ks : List Hd) (hp : ∀ th, m.threads[t]? = some th → th.pending = none)
    (h : ∀ w, (a, w) ∉ (event m t).accesses) : step true (m.withKids a ks) t = (step true m t).map fun m => m.withKids a ks :=
  frame_kids (f := fun b => { b with kids := ks }) (fun _ _ => rfl) (fun _ => rfl) hp h

/-- C91: the same for the counter of elements there are. -/
theorem C91_counters_used (m : M) (t a n : Nat) (hp : ∀ th, m.threads[t]? = some th → th.pending = none) (ha : a < m.blocks.length)
    (h : (event m t).sync ≠ .inc a ∧ (event m t).sync ≠ .dec a ∧ (event m t).sync ≠ .load a) :
    step true (m.withCount a n) t = (step true m t).map fun m => m.withCount a n :=
  frame_count (f := fun b => { b with count := n }) (fun _ _ => rfl) (fun _ => rfl) hp ha h

/-- C91: elements that a step changes, constructs or deletes are accessed by it as written. -/
theorem C91_changes_are_writes (m m' : M) (t a : Nat) (hp : ∀ th, m.threads[t]? = some th → th.pending = none) (h : step true m t = some m')
    (hc : (blkAt m'.blocks a).map Blk.kids ≠ (blkAt m.blocks a).map Blk.kids) : (a, true) ∈ (event m t).accesses :=
  Decidable.byContradiction fun hn => hc ((Effect.step hp h).kids a hn)

/-- C91: a step that counts up or down does so, of elements that are there. No other step changes a counter. -/
theorem C91_counter_changes (m m' : M) (t a : Nat) (hp : ∀ th, m.threads[t]? = some th → th.pending = none) (h : step true m t = some m') :
    ((event m t).sync = .inc a → ∃ b, blkAt m.blocks a = some b ∧ blkAt m'.blocks a = some { b with count := b.count + 1 }) ∧
    ((event m t).sync = .dec a → ∃ b, blkAt m.blocks a = some b ∧ 0 < b.count ∧ blkAt m'.blocks a = some { b with count := b.count - 1 }) ∧
    ((event m t).sync ≠ .inc a → (event m t).sync ≠ .dec a →
      ∀ b b', blkAt m.blocks a = some b → blkAt m'.blocks a = some b' → b'.count = b.count) := by
  have hcount := (Effect.step hp h).count
  have hset : ∀ {b b' : Blk}, blkAt m.blocks a = some b → blkAt (m.blocks.set a (some b')) a = some b' := by
    intro b b' hb
    have hl : a < m.blocks.length := by
      rcases Nat.lt_or_ge a m.blocks.length with hl | hl
      · exact hl
      · simp [blkAt, List.getElem?_eq_none hl] at hb
    simp [blkAt, hl]
  refine ⟨fun hs => ?_, fun hs => ?_, fun h1 h2 => ?_⟩
  · rw [show (stepEvent m t).1 = .inc a from hs] at hcount
    obtain ⟨b, hb, e⟩ := hcount
    exact ⟨b, hb, by rw [e]; exact hset hb⟩
  · rw [show (stepEvent m t).1 = .dec a from hs] at hcount
    obtain ⟨b, n, hb, hn, e⟩ := hcount
    exact ⟨b, hb, by omega, by rw [e, hn]; exact hset hb⟩
  · have h1 : (stepEvent m t).1 ≠ .inc a := h1
    have h2 : (stepEvent m t).1 ≠ .dec a := h2
    cases hs : (stepEvent m t).1 with
    | inc c =>
      rw [hs] at hcount h1
      obtain ⟨b, hb, e⟩ := hcount
      intro b1 b2 hb1 hb2
      rw [e, blkAt_set_ne (by rintro rfl; exact h1 rfl), hb1] at hb2
      cases hb2; rfl
    | dec c =>
      rw [hs] at hcount h2
      obtain ⟨b, n, hb, hn, e⟩ := hcount
      intro b1 b2 hb1 hb2
      rw [e, blkAt_set_ne (by rintro rfl; exact h2 rfl), hb1] at hb2
      cases hb2; rfl
    | _ => rw [hs] at hcount; exact hcount a

/-- C91: a step that puts a packet into a channel appends it, one that takes one out takes the first. No other step changes a
channel. -/
theorem C91_channel_changes (m m' : M) (t c : Nat) (hp : ∀ th, m.threads[t]? = some th → th.pending = none) (h : step true m t = some m') :
    ((event m t).sync = .put c → ∃ q h, m.chans[c]? = some q ∧ m'.chans[c]? = some (q ++ [h])) ∧
    ((event m t).sync = .take c → ∃ q h, m.chans[c]? = some (h :: q) ∧ m'.chans[c]? = some q) ∧
    ((event m t).sync ≠ .put c → (event m t).sync ≠ .take c → m'.chans[c]? = m.chans[c]?) := by
  have hchans := (Effect.step hp h).chans
  have hset : ∀ {q q' : List Hd}, m.chans[c]? = some q → (m.chans.set c q')[c]? = some q' := by
    intro q q' hq
    have hl := (List.getElem?_eq_some_iff.1 hq).1
    simp [hl]
  refine ⟨fun hs => ?_, fun hs => ?_, fun h1 h2 => ?_⟩
  · rw [show (stepEvent m t).1 = .put c from hs] at hchans
    obtain ⟨q, h, hq, e⟩ := hchans
    exact ⟨q, h, hq, by rw [e]; exact hset hq⟩
  · rw [show (stepEvent m t).1 = .take c from hs] at hchans
    obtain ⟨h, q, hq, e⟩ := hchans
    exact ⟨q, h, hq, by rw [e]; exact hset hq⟩
  · have h1 : (stepEvent m t).1 ≠ .put c := h1
    have h2 : (stepEvent m t).1 ≠ .take c := h2
    cases hs : (stepEvent m t).1 with
    | put d =>
      rw [hs] at hchans h1
      obtain ⟨q, h, hq, e⟩ := hchans
      rw [e, List.getElem?_set_ne (by rintro rfl; exact h1 rfl)]
    | take d =>
      rw [hs] at hchans h2
      obtain ⟨h, q, hq, e⟩ := hchans
      rw [e, List.getElem?_set_ne (by rintro rfl; exact h2 rfl)]
    | _ => rw [hs] at hchans; simp only at hchans; rw [hchans]

/-- a packet is sent, and then received -/
example : ∃ m, run true (init 2 1 readThenPush) (steps [(7, 0)]) = some m ∧ (event m 0).sync = .put 0 ∧
    ∃ m', step true m 0 = some m' ∧ (event m' 1).sync = .take 0 := by
  obtain ⟨m, h1, h2⟩ := concEnds (o := run true (init 2 1 readThenPush) (steps [(7, 0)]))
    (fun m => decide ((event m 0).sync = .put 0) && (step true m 0).any fun m' => decide ((event m' 1).sync = .take 0)) (by decide +kernel)
  simp only [Bool.and_eq_true, decide_eq_true_eq] at h2
  obtain ⟨h2, h3⟩ := h2
  cases h4 : step true m 0 with
  | none => rw [h4] at h3; cases h3
  | some m' => exact ⟨m, h1, h2, m', h4, by rw [h4] at h3; simpa using h3⟩

/-- the second thread does not access elements while it increments their counter, nor uses the counter while it reads -/
example : ∃ m, run true (init 2 1 [[.make 0, .make 1, .push 0 1, .send 0 0], [.recv 0 0, .get 1 0 0]]) (steps [(17, 0), (2, 1)]) = some m ∧
    (∀ w, (1, w) ∉ (event m 1).accesses) ∧ (event m 1).accesses = [(0, false)] ∧ (event m 1).sync = .none := by
  obtain ⟨m, h1, h2⟩ := concEnds (o := run true (init 2 1 [[.make 0, .make 1, .push 0 1, .send 0 0], [.recv 0 0, .get 1 0 0]]) (steps [(17, 0), (2, 1)]))
    (fun m => decide ((event m 1).accesses = [(0, false)]) && decide ((event m 1).sync = .none)) (by decide +kernel)
  simp only [Bool.and_eq_true, decide_eq_true_eq] at h2
  exact ⟨m, h1, by rw [h2.1]; simp, h2.1, h2.2⟩

/-! What is missing: `clear`, and arrays pushed into themselves, as in C47; and the orders of `std::shared_ptr`, the default. -/

/-- Steps directly before others. -/
def stepsTo (o : Orders) (tr : List Ev) (i j : Nat) : Bool :=
  match tr[i]?, tr[j]? with
  | some x, some y => decide (i < j) && (x.thread == y.thread || match x.sync with
    | .inc a | .dec a => o.releases a x.sync && o.acquires a y.sync
    | .put c => y.sync == .take c && earlier tr (.put c) i == earlier tr (.take c) j
    | _ => false)
  | _, _ => false

/-- These steps are before none but each other. -/
def closedUnder (o : Orders) (tr : List Ev) (p : Nat → Bool) : Bool :=
  (List.range tr.length).all fun i => (List.range tr.length).all fun j => !p i || p j || !stepsTo o tr i j

theorem closed_step {o : Orders} {tr : List Ev} {p : Nat → Bool} (hp : closedUnder o tr p = true) {i j : Nat} {x y : Ev}
    (hi : tr[i]? = some x) (hj : tr[j]? = some y) (h : stepsTo o tr i j = true) (hpi : p i = true) : p j = true := by
  simp only [closedUnder, List.all_eq_true, List.mem_range, Bool.or_eq_true, Bool.not_eq_true'] at hp
  have := hp i (List.getElem?_eq_some_iff.1 hi).1 j (List.getElem?_eq_some_iff.1 hj).1
  rw [hpi, h] at this
  simpa using this

theorem closed_before {o : Orders} {tr : List Ev} {p : Nat → Bool} (hp : closedUnder o tr p = true) {i j : Nat} (h : Before o tr i j) :
    p i = true → p j = true := by
  induction h with
  | order h h1 h2 h3 => exact closed_step hp h1 h2 (by simp [stepsTo, h1, h2, h, h3])
  | @count i j a x y h h1 h2 h3 h4 =>
    refine closed_step hp h1 h2 ?_
    simp only [stepsTo, h1, h2, h, decide_true, Bool.true_and, Bool.or_eq_true]
    right
    cases hx : x.sync <;> rw [hx] at h3 <;> simp only [Orders.releases, Bool.and_eq_true, beq_iff_eq, Bool.false_eq_true] at h3
    · obtain ⟨h5, rfl⟩ := h3
      simp [Orders.releases, h5, h4]
    · obtain ⟨h5, rfl⟩ := h3
      simp [Orders.releases, h5, h4]
  | message h h1 h2 h3 h4 h5 => exact closed_step hp h1 h2 (by simp [stepsTo, h1, h2, h, h3, h4, h5])
  | trans _ _ h1 h2 => exact fun h => h2 (h1 h)

theorem races {o : Orders} {tr : List Ev} (p : Nat → Bool) {i j : Nat} (hij : i < j) (hc : Conflict tr i j) (h1 : p i = true) (h2 : p j = false)
    (hp : closedUnder o tr p = true) : DataRace o tr :=
  ⟨i, j, hij, hc, fun h => by rw [closed_before hp h h1] at h2; cases h2⟩

theorem push_races (o : Orders) (h : o.dec.release = false ∨ o.load.acquire = false) :
    DataRace o (trace (init 2 1 readThenPush) oneThenTheOther) := by
  refine races (fun i => decide (10 ≤ i) && decide (i ≤ 16)) (i := 10) (j := 21) (by decide) ⟨⟨1, .none, [(0, false)]⟩, ⟨0, .none, [(0, true)]⟩, 0,
    false, true, by decide +kernel, by decide +kernel, by decide, by decide, by decide, .inr rfl⟩ (by decide) (by decide) ?_
  obtain ⟨⟨ia, ir⟩, ⟨da, dr⟩, ⟨la, lr⟩⟩ := o
  simp only at h
  rcases h with rfl | rfl <;> revert ia ir da lr <;> first | (revert la; decide +kernel) | (revert dr; decide +kernel)

theorem drop_races (o : Orders) (h : o.dec.acquire = false ∨ o.dec.release = false) : DataRace o (trace (init 2 1 readThenDrop) oneThenTheOther) := by
  refine races (fun i => decide (10 ≤ i) && decide (i ≤ 16)) (i := 10) (j := 20) (by decide) ⟨⟨1, .none, [(0, false)]⟩, ⟨0, .none, [(0, true)]⟩, 0,
    false, true, by decide +kernel, by decide +kernel, by decide, by decide, by decide, .inr rfl⟩ (by decide) (by decide) ?_
  obtain ⟨⟨ia, ir⟩, ⟨da, dr⟩, ⟨la, lr⟩⟩ := o
  simp only at h
  rcases h with rfl | rfl <;> revert ia ir la lr <;> first | (revert da; decide +kernel) | (revert dr; decide +kernel)

/-- C91 is false for `std::shared_ptr`, the default: `use_count()` does not synchronise with the thread that let go, so that the
change in place races with what that thread has read. -/
theorem C91_shared_ptr_races : ∃ (progs : List (List Op)) (ts : List Nat), (∀ p ∈ progs, ∀ op ∈ p, op.Fine) ∧
    DataRace sharedPtrOrders (trace (init 2 1 progs) ts) :=
  ⟨readThenPush, oneThenTheOther, by simp [readThenPush, Op.Fine], push_races _ (.inr rfl)⟩

/-- What happens before with weaker orders: increments relaxed, the check acquiring, if what threads let go of happens before
later checks by other threads. -/
theorem before_weaker {o : Orders} {tr : List Ev} (hd : ∀ (i j a : Nat) (x y : Ev), i < j → tr[i]? = some x → tr[j]? = some y → x.sync = .dec a →
    y.sync = .load a → Before o tr i j) {i j : Nat} (h : Before ⟨⟨false, false⟩, o.dec, ⟨true, false⟩⟩ tr i j) : Before o tr i j := by
  induction h with
  | order h h1 h2 h3 => exact .order h h1 h2 h3
  | @count i j a x y h h1 h2 h3 h4 =>
    cases hx : x.sync <;> rw [hx] at h3 <;> simp only [Orders.releases, Bool.and_eq_true, beq_iff_eq, Bool.false_eq_true, false_and] at h3
    obtain ⟨h5, rfl⟩ := h3
    cases hy : y.sync <;> rw [hy] at h4 <;> simp only [Orders.acquires, Bool.and_eq_true, beq_iff_eq, Bool.false_eq_true, false_and] at h4
    · obtain ⟨h6, rfl⟩ := h4
      exact .count h h1 h2 (by rw [hx]; simp [Orders.releases, h5]; rfl) (by rw [hy]; simp [Orders.acquires, h6])
    · obtain ⟨_, rfl⟩ := h4
      exact hd i j _ x y h h1 h2 hx hy
  | message h h1 h2 h3 h4 h5 => exact .message h h1 h2 h3 h4 h5
  | trans _ _ h1 h2 => exact .trans h1 h2

/-- C91 for `std::shared_ptr`: the race above is the only one. If whenever a thread checks the counter of elements that another
thread has let go of, this is known to it by other means, then there are no data races. -/
theorem C91_shared_ptr_partial (n k : Nat) (progs : List (List Op)) (hf : ∀ p ∈ progs, ∀ op ∈ p, op.Fine) (ts : List Nat)
    (hd : ∀ (i j a : Nat) (x y : Ev), i < j → (trace (init n k progs) ts)[i]? = some x → (trace (init n k progs) ts)[j]? = some y →
      x.sync = .dec a → y.sync = .load a → x.thread ≠ y.thread → Before sharedPtrOrders (trace (init n k progs) ts) i j) :
    ¬ DataRace sharedPtrOrders (trace (init n k progs) ts) := by
  rintro ⟨i, j, hij, hc, hb⟩
  refine C91_no_data_races_partial ⟨⟨false, false⟩, sharedPtrOrders.dec, ⟨true, false⟩⟩ rfl rfl rfl n k progs hf ts ⟨i, j, hij, hc, fun h => hb ?_⟩
  refine before_weaker (fun i j a x y h h1 h2 hx hy => ?_) h
  by_cases ht : x.thread = y.thread
  · exact .order h h1 h2 ht
  · exact hd i j a x y h h1 h2 hx hy ht

/-- C91 for threads that only construct, read, copy, hand over and destroy: no data races, also with `std::shared_ptr`. What they
share may as well be finalized packets: a read (`get`) accesses the bytes, a part (`get`, then `copy`) is another owner of them. -/
theorem C91_reading (o : Orders) (h1 : o.dec.acquire = true) (h2 : o.dec.release = true) (n k : Nat) (progs : List (List Op))
    (hr : ∀ p ∈ progs, ∀ op ∈ p, op.reads = true) (ts : List Nat) : ¬ DataRace o (trace (init n k progs) ts) := by
  have hf : ∀ p ∈ progs, ∀ op ∈ p, op.Fine := fun p hp op hop => by
    have := hr p hp op hop
    cases op <;> first | exact trivial | cases this
  have hl := reading_trace ts (m := init n k progs) fun th hth => by
    obtain ⟨p, hp, rfl⟩ := List.mem_map.1 hth
    exact ⟨by simp, hr p hp⟩
  rintro ⟨i, j, hij, hc, hb⟩
  refine C91_no_data_races_partial ⟨⟨false, false⟩, o.dec, ⟨true, false⟩⟩ h1 h2 rfl n k progs hf ts ⟨i, j, hij, hc, fun h => hb ?_⟩
  exact before_weaker (fun i j a x y _ _ h2 _ hy => (hl y (List.mem_of_getElem? h2) a hy).elim) h

/-- C91: for such threads exactly these orders are needed. -/
theorem C91_reading_orders (o : Orders) :
    (∀ (n k : Nat) (progs : List (List Op)) (ts : List Nat), (∀ p ∈ progs, ∀ op ∈ p, op.reads = true) →
      ¬ DataRace o (trace (init n k progs) ts)) ↔ o.dec.acquire = true ∧ o.dec.release = true := by
  constructor
  · intro h
    have h2 := h 2 1 readThenDrop oneThenTheOther (by decide)
    refine ⟨?_, ?_⟩
    · cases h3 : o.dec.acquire with
      | true => rfl
      | false => exact (h2 (drop_races o (.inl h3))).elim
    · cases h3 : o.dec.release with
      | true => rfl
      | false => exact (h2 (drop_races o (.inr h3))).elim
  · rintro ⟨h1, h2⟩ n k progs ts hr
    exact C91_reading o h1 h2 n k progs hr ts

/-- two threads, one reads and lets go, the other destroys -/
example : (∀ p ∈ readThenDrop, ∀ op ∈ p, op.reads = true) ∧ Conflict (trace (init 2 1 readThenDrop) oneThenTheOther) 10 20 :=
  ⟨by decide, ⟨1, .none, [(0, false)]⟩, ⟨0, .none, [(0, true)]⟩, 0, false, true, by decide +kernel, by decide +kernel,
    by decide, by decide, by decide, .inr rfl⟩

/-- A thread builds an array, hands it over, and both read it; the other thread hands it back. Then the first changes it in place. -/
def thereAndBack : List (List Op) := [[.make 0, .leaf 1 (some 7), .push 0 1, .copy 1 0, .send 0 1, .recv 1 1, .leaf 1 none, .push 0 1],
  [.recv 0 0, .get 1 0 0, .send 1 0]]

def thereAndBackSteps : List Nat := steps [(16, 0), (7, 1), (10, 0)]

/-- elements are accessed by both threads, and the change is in place -/
example : (∀ p ∈ thereAndBack, ∀ op ∈ p, op.Fine) ∧ Conflict (trace (init 2 2 thereAndBack) thereAndBackSteps) 18 32 ∧
    ¬ DataRace sharedPtrOrders (trace (init 2 2 thereAndBack) thereAndBackSteps) := by
  have hf : ∀ p ∈ thereAndBack, ∀ op ∈ p, op.Fine := by simp [thereAndBack, Op.Fine]
  refine ⟨hf, ⟨⟨1, .none, [(0, false)]⟩, ⟨0, .none, [(0, true)]⟩, 0,
    false, true, by decide +kernel, by decide +kernel, by decide, by decide, by decide, .inr rfl⟩, ?_⟩
  refine C91_shared_ptr_partial 2 2 _ hf _ fun i j a x y h h1 h2 hx hy ht => ?_
  have hall : (trace (init 2 2 thereAndBack) thereAndBackSteps).all (fun x => match x.sync with | .dec _ | .load _ => x.thread == 0 | _ => true) = true := by
    decide +kernel
  rw [List.all_eq_true] at hall
  have h3 := hall x (List.mem_of_getElem? h1)
  have h4 := hall y (List.mem_of_getElem? h2)
  rw [hx] at h3
  rw [hy] at h4
  simp only [beq_iff_eq] at h3 h4
  exact (ht (by rw [h3, h4])).elim

/-- C91: exactly these orders are needed. -/
theorem C91_orders_needed (o : Orders) :
    (∀ (n k : Nat) (progs : List (List Op)) (ts : List Nat), (∀ p ∈ progs, ∀ op ∈ p, op.Fine) → ¬ DataRace o (trace (init n k progs) ts)) ↔
      o.dec.acquire = true ∧ o.dec.release = true ∧ o.load.acquire = true := by
  constructor
  · intro h
    have h1 := h 2 1 readThenPush oneThenTheOther (by simp [readThenPush, Op.Fine])
    have h2 := h 2 1 readThenDrop oneThenTheOther (by simp [readThenDrop, Op.Fine])
    refine ⟨?_, ?_, ?_⟩
    · cases h3 : o.dec.acquire with
      | true => rfl
      | false => exact (h2 (drop_races o (.inl h3))).elim
    · cases h3 : o.dec.release with
      | true => rfl
      | false => exact (h1 (push_races o (.inl h3))).elim
    · cases h3 : o.load.acquire with
      | true => rfl
      | false => exact (h1 (push_races o (.inr h3))).elim
  · rintro ⟨h1, h2, h3⟩ n k progs ts hf
    exact C91_no_data_races_partial o h1 h2 h3 n k progs hf ts

/-- C91 is false for `clear`, whatever the orders. -/
theorem C91_clear_races (o : Orders) : ∃ (progs : List (List Op)) (ts : List Nat), DataRace o (trace (init 2 1 progs) ts) := by
  refine ⟨[[.make 0, .push 0 1, .copy 1 0, .send 0 1, .clear 0], [.recv 0 0, .get 1 0 0]], steps [(13, 0), (3, 1), (1, 0)],
    races (fun i => decide (15 = i)) (i := 15) (j := 16) (by decide) ⟨⟨1, .none, [(0, false)]⟩, ⟨0, .none, [(0, true)]⟩, 0,
    false, true, by decide +kernel, by decide +kernel, by decide, by decide, by decide, .inr rfl⟩ (by decide) (by decide) ?_⟩
  obtain ⟨⟨ia, ir⟩, ⟨da, dr⟩, ⟨la, lr⟩⟩ := o
  revert ia ir da dr la lr
  decide +kernel

end Dart.Props
