import Verif.Lemmas.CowCursor

/-
Loops over iterators, at the level of the specification.
-/
namespace Dart.Cow
open Dart.Spec.Indep Dart.Spec.Cursor

theorem irun_append (a b : List ItOp) : ∀ s : IState,
    irun s (a ++ b) = ((irun (irun s a).1 b).1, (irun s a).2 ++ (irun (irun s a).1 b).2) := by
  induction a with
  | nil => intro s; rfl
  | cons op a ih => intro s; simp only [List.cons_append, irun, ih]

theorem crun_append (a b : List ItOp) : ∀ w : World,
    Spec.Cursor.run w (a ++ b) =
      ((Spec.Cursor.run (Spec.Cursor.run w a).1 b).1, (Spec.Cursor.run w a).2 ++ (Spec.Cursor.run (Spec.Cursor.run w a).1 b).2) := by
  induction a with
  | nil => intro s; rfl
  | cons op a ih => intro s; simp only [List.cons_append, Spec.Cursor.run, ih]

theorem coveredRun_append {a b : List ItOp} : ∀ {s : IState}, Spec.Cursor.CoveredRun s a →
    Spec.Cursor.CoveredRun (irun s a).1 b → Spec.Cursor.CoveredRun s (a ++ b) := by
  induction a with
  | nil => intro s _ h; exact h
  | cons op a ih => intro s h1 h2; exact ⟨h1.1, ih h1.2 h2⟩

theorem coveredRun_free {ops : List ItOp} (h : ∀ op ∈ ops, ∀ s, Spec.Cursor.Covered s op) :
    ∀ s, Spec.Cursor.CoveredRun s ops := by
  induction ops with
  | nil => intro s; trivial
  | cons op ops ih => intro s; exact ⟨h op (by simp) _, ih (fun o ho => h o (by simp [ho])) _⟩

theorem point_cursor {w : World} {i : Nat} (c : Cursor) (hi : i < w.cursors.length) (j : Nat) :
    (w.point i c).cursor j = if j = i then c else w.cursor j := by
  simp only [World.point, World.cursor]
  by_cases h : j = i
  · subst h; simp [hi]
  · rw [if_neg h, List.getElem?_set_ne (Ne.symm h)]

/-- `p` steps forward. -/
theorem walk {w : World} {i x : Nat} {keys : Bool} {l : List Val} (hl : items keys (w.env.var x) = some l) :
    ∀ (p q : Nat), i < w.cursors.length → q + p ≤ l.length → w.cursor i = .at x q keys →
    ∃ w', Spec.Cursor.run w (List.replicate p (.next i)) = (w', List.replicate p (.ok .done)) ∧ w'.env = w.env ∧
      w'.cursor i = .at x (q + p) keys ∧ w'.cursors.length = w.cursors.length
  | 0, q, _, _, hc => ⟨w, rfl, rfl, hc, rfl⟩
  | p + 1, q, hi, hp, hc => by
    have hs : Spec.Cursor.step w (.next i) = (w.point i (.at x (q + 1) keys), .ok .done) := by
      simp only [Spec.Cursor.step, hc, hl]
      rw [if_pos (by omega)]
    obtain ⟨w', h1, h2, h3, h4⟩ := walk (w := w.point i (.at x (q + 1) keys)) (x := x) (l := l) hl p (q + 1)
      (by simpa [World.point] using hi) (by omega) (by rw [point_cursor _ hi, if_pos rfl])
    refine ⟨w', ?_, h2, by rw [h3]; congr 1; omega, by rw [h4]; simp [World.point]⟩
    rw [List.replicate_succ, Spec.Cursor.run, hs, h1]
    rfl

theorem mapErase_mid {α : Type} {k : Bytes} {v : α} {b : List (Bytes × α)} : ∀ {a : List (Bytes × α)},
    KeysSorted (a ++ (k, v) :: b) → mapErase k (a ++ (k, v) :: b) = a ++ b
  | [], h => by simp [mapErase, keyLt_irrefl]
  | (k', v') :: a, h => by
    obtain ⟨hg, h'⟩ := List.pairwise_cons.1 h
    have hne : k' ≠ k := by
      rintro rfl
      have := hg k' (by simp)
      rw [keyLt_irrefl] at this; cases this
    simp only [List.cons_append, mapErase, equiv_iff, hne, decide_false, Bool.false_eq_true, if_false]
    rw [mapErase_mid h']

theorem idxOf_mid {k : Bytes} {b : List Bytes} : ∀ {a : List Bytes}, SortedKeys (a ++ k :: b) →
    (a ++ k :: b).idxOf k = a.length
  | [], _ => by simp
  | k' :: a, h => by
    obtain ⟨hg, h'⟩ := List.pairwise_cons.1 h
    have hne : k' ≠ k := by
      rintro rfl
      have := hg k' (by simp)
      rw [keyLt_irrefl] at this; cases this
    have ih : (a ++ k :: b).idxOf k = a.length := idxOf_mid h'
    rw [List.cons_append, List.idxOf_cons, beq_false_of_ne hne, cond_false, ih, List.length_cons]

theorem set_set_same {e : Env} {x : Nat} {v : Val} (h : e.var x = v) (hx : x < e.length) : e.set x v = e := by
  subst h
  simp only [Env.var, List.getElem?_eq_getElem hx, Option.getD_some]
  exact List.set_getElem_self _

/-- Erasing the chosen items of an object in a loop. -/
theorem prune_obj {i x : Nat} {keys : Bool} : ∀ (ds : List Bool) (w : World) (a b : List (Bytes × Val)), x < w.env.length → i < w.cursors.length →
    w.env.var x = .obj (a ++ b) → KeysSorted (a ++ b) → b.length = ds.length → w.cursor i = .at x a.length keys →
    ∃ w', Spec.Cursor.run w (prune i x ds) = (w', List.replicate ds.length (.ok .done)) ∧
      w'.env = w.env.set x (.obj (a ++ kept ds b)) ∧ w'.cursors.length = w.cursors.length ∧
      w'.cursor i = .at x (a ++ kept ds b).length keys
  | [], w, a, b, hx, hi, hv, hs, hl, hc => by
    obtain rfl : b = [] := by simpa using hl
    refine ⟨w, rfl, ?_, rfl, by simpa [kept] using hc⟩
    rw [set_set_same (by simpa [kept] using hv) hx]
  | d :: ds, w, a, [], hx, hi, hv, hs, hl, hc => by simp at hl
  | false :: ds, w, a, f :: b, hx, hi, hv, hs, hl, hc => by
    have hstep : Spec.Cursor.step w (.next i) = (w.point i (.at x (a.length + 1) keys), .ok .done) := by
      simp only [Spec.Cursor.step, hc, hv, items]
      rw [if_pos (by simp)]
    obtain ⟨w', h1, h2, h3, h4⟩ := prune_obj (i := i) (keys := keys) ds (w.point i (.at x (a.length + 1) keys)) (a ++ [f]) b hx
      (by simpa [World.point] using hi) (by simpa [World.point] using hv) (by simpa using hs) (by simpa using hl)
      (by rw [point_cursor _ hi, if_pos rfl]; simp)
    refine ⟨w', ?_, by rw [h2]; simp [World.point, kept], by rw [h3]; simp [World.point], by rw [h4]; simp [kept]⟩
    simp only [prune, List.map_cons, Bool.false_eq_true, if_false, Spec.Cursor.run, hstep]
    simp only [prune] at h1
    rw [h1]; rfl
  | true :: ds, w, a, f :: b, hx, hi, hv, hs, hl, hc => by
    obtain ⟨k, v⟩ := f
    have hk : keyAt (w.env.var x) a.length = some (.name k) := by simp [keyAt, hv]
    have hpos : position (.name k) (w.env.var x) = a.length := by
      simp only [position, hv, List.map_append, List.map_cons]
      rw [idxOf_mid (by simpa [KeysSorted, SortedKeys] using hs), List.length_map]
    have hstep : Spec.Cursor.step w (.eraseAt i x i) =
        ((⟨w.env.set x (.obj (a ++ b)), w.cursors.map (forget [x])⟩ : World).point i (.at x a.length keys), .ok .done) := by
      simp only [Spec.Cursor.step, World.arg, hc, if_true, hk, World.call, Spec.Indep.step, Key.toVal, Val.erase]
      rw [hpos]
      simp only [hv, Val.eraseKey, mapErase_mid hs, update, changes]
    have hi' : i < (⟨w.env.set x (.obj (a ++ b)), w.cursors.map (forget [x])⟩ : World).cursors.length := by simpa using hi
    obtain ⟨w', h1, h2, h3, h4⟩ := prune_obj (i := i) (keys := keys) ds
      ((⟨w.env.set x (.obj (a ++ b)), w.cursors.map (forget [x])⟩ : World).point i (.at x a.length keys)) a b
      (by simpa [World.point] using hx) (by simpa [World.point] using hi)
      (by simp only [World.point]; rw [env_set _ _ _ _ hx, if_pos rfl])
      (hs.sublist (by simp)) (by simpa using hl) (by rw [point_cursor _ hi', if_pos rfl])
    refine ⟨w', ?_, by rw [h2]; simp [World.point, kept], by rw [h3]; simp [World.point], by rw [h4]; simp [kept]⟩
    simp only [prune, List.map_cons, if_true, Spec.Cursor.run, hstep]
    simp only [prune] at h1
    rw [h1]; rfl

/-- Erasing the chosen elements of an array in a loop. -/
theorem prune_arr {i x : Nat} : ∀ (ds : List Bool) (w : World) (a b : List Val), x < w.env.length → i < w.cursors.length →
    w.env.var x = .arr (a ++ b) → (a ++ b).length < 2 ^ 64 → b.length = ds.length → w.cursor i = .at x a.length false →
    ∃ w', Spec.Cursor.run w (prune i x ds) = (w', List.replicate ds.length (.ok .done)) ∧
      w'.env = w.env.set x (.arr (a ++ kept ds b)) ∧ w'.cursors.length = w.cursors.length ∧
      w'.cursor i = .at x (a ++ kept ds b).length false
  | [], w, a, b, hx, hi, hv, hs, hl, hc => by
    obtain rfl : b = [] := by simpa using hl
    refine ⟨w, rfl, ?_, rfl, by simpa [kept] using hc⟩
    rw [set_set_same (by simpa [kept] using hv) hx]
  | d :: ds, w, a, [], hx, hi, hv, hs, hl, hc => by simp at hl
  | false :: ds, w, a, f :: b, hx, hi, hv, hs, hl, hc => by
    have hstep : Spec.Cursor.step w (.next i) = (w.point i (.at x (a.length + 1) false), .ok .done) := by
      simp only [Spec.Cursor.step, hc, hv, items, Bool.false_eq_true, if_false]
      rw [if_pos (by simp)]
    obtain ⟨w', h1, h2, h3, h4⟩ := prune_arr (i := i) ds (w.point i (.at x (a.length + 1) false)) (a ++ [f]) b hx
      (by simpa [World.point] using hi) (by simpa [World.point] using hv) (by simpa using hs) (by simpa using hl)
      (by rw [point_cursor _ hi, if_pos rfl]; simp)
    refine ⟨w', ?_, by rw [h2]; simp [World.point, kept], by rw [h3]; simp [World.point], by rw [h4]; simp [kept]⟩
    simp only [prune, List.map_cons, Bool.false_eq_true, if_false, Spec.Cursor.run, hstep]
    simp only [prune] at h1
    rw [h1]; rfl
  | true :: ds, w, a, f :: b, hx, hi, hv, hs, hl, hc => by
    have hlt : a.length < 2 ^ 64 := by simp only [List.length_append] at hs; omega
    have hn : (BitVec.ofNat 64 a.length).toNat = a.length := by
      rw [BitVec.toNat_ofNat, Nat.mod_eq_of_lt hlt]
    have hk : keyAt (w.env.var x) a.length = some (.index (BitVec.ofNat 64 a.length)) := by simp [keyAt, hv]
    have hpos : position (.index (BitVec.ofNat 64 a.length)) (w.env.var x) = a.length := by
      simp only [position, hv, hn, List.length_append]
      omega
    have herase : Val.eraseIdx (.arr (a ++ f :: b)) a.length = .ok (.arr (a ++ b)) := by
      simp only [Val.eraseIdx]
      rw [if_neg (by simp), List.eraseIdx_append_of_length_le (by omega)]
      simp
    have hstep : Spec.Cursor.step w (.eraseAt i x i) =
        ((⟨w.env.set x (.arr (a ++ b)), w.cursors.map (forget [x])⟩ : World).point i (.at x a.length false), .ok .done) := by
      simp only [Spec.Cursor.step, World.arg, hc, if_true, hk, World.call, Spec.Indep.step, Key.toVal, Val.erase]
      rw [hpos]
      simp only [hv, hn, herase, update, changes]
    have hi' : i < (⟨w.env.set x (.arr (a ++ b)), w.cursors.map (forget [x])⟩ : World).cursors.length := by simpa using hi
    obtain ⟨w', h1, h2, h3, h4⟩ := prune_arr (i := i) ds
      ((⟨w.env.set x (.arr (a ++ b)), w.cursors.map (forget [x])⟩ : World).point i (.at x a.length false)) a b
      (by simpa [World.point] using hx) (by simpa [World.point] using hi)
      (by simp only [World.point]; rw [env_set _ _ _ _ hx, if_pos rfl])
      (by simp only [List.length_append, List.length_cons] at hs ⊢; omega) (by simpa using hl) (by rw [point_cursor _ hi', if_pos rfl])
    refine ⟨w', ?_, by rw [h2]; simp [World.point, kept], by rw [h3]; simp [World.point], by rw [h4]; simp [kept]⟩
    simp only [prune, List.map_cons, if_true, Spec.Cursor.run, hstep]
    simp only [prune] at h1
    rw [h1]; rfl

/-- Objects have sorted keys. -/
theorem sim_sorted {s : State} {e : Env} {x : Nat} {vs : List (Bytes × Val)} (h : Sim s e) (hv : e.var x = .obj vs) :
    KeysSorted vs := by
  obtain ⟨_, _, fs, _, _, _, h3, h4⟩ := sim_obj h hv
  simp only [KeysSorted, mapFields_keys h3]
  exact h4

end Dart.Cow
