import Verif.Lemmas.CowStep

/-
Copy on write: the single statements.
-/
namespace Dart.Cow
open Dart.Spec.Indep

/-! ### Contents and their values -/

abbrev KeysSorted {α : Type} (fs : List (Bytes × α)) : Prop := (fs.map (·.1)).Pairwise fun a b => keyLt a b = true

theorem mapFields_cons {f : Ref → Option Val} {k : Bytes} {r : Ref} {fs : List (Bytes × Ref)} {ws : List (Bytes × Val)}
    (h : mapFields f ((k, r) :: fs) = some ws) : ∃ v vs, f r = some v ∧ mapFields f fs = some vs ∧ ws = (k, v) :: vs := by
  simp only [mapFields, Option.bind_eq_some_iff, Option.map_eq_some_iff] at h
  obtain ⟨v, h1, vs, h2, h3⟩ := h
  exact ⟨v, vs, h1, h2, h3.symm⟩

theorem mapElems_cons {f : Ref → Option Val} {r : Ref} {es : List Ref} {ws : List Val}
    (h : mapElems f (r :: es) = some ws) : ∃ v vs, f r = some v ∧ mapElems f es = some vs ∧ ws = v :: vs := by
  simp only [mapElems, Option.bind_eq_some_iff, Option.map_eq_some_iff] at h
  obtain ⟨v, h1, vs, h2, h3⟩ := h
  exact ⟨v, vs, h1, h2, h3.symm⟩

theorem mapFields_mk {f : Ref → Option Val} {k : Bytes} {r : Ref} {v : Val} {fs : List (Bytes × Ref)} {vs : List (Bytes × Val)}
    (h1 : f r = some v) (h2 : mapFields f fs = some vs) : mapFields f ((k, r) :: fs) = some ((k, v) :: vs) := by
  simp [mapFields, h1, h2]

theorem mapElems_mk {f : Ref → Option Val} {r : Ref} {v : Val} {es : List Ref} {vs : List Val}
    (h1 : f r = some v) (h2 : mapElems f es = some vs) : mapElems f (r :: es) = some (v :: vs) := by
  simp [mapElems, h1, h2]

theorem mapFields_find {f : Ref → Option Val} (k : Bytes) : ∀ {fs : List (Bytes × Ref)} {vs : List (Bytes × Val)},
    mapFields f fs = some vs →
    (mapFind k fs = none ∧ mapFind k vs = none) ∨ (∃ r v, mapFind k fs = some r ∧ f r = some v ∧ mapFind k vs = some v)
  | [], vs, h => by simp only [mapFields] at h; cases h; exact .inl ⟨rfl, rfl⟩
  | (k', r) :: fs, ws, h => by
    obtain ⟨v, vs, h1, h2, rfl⟩ := mapFields_cons h
    simp only [mapFind]
    split
    · exact .inr ⟨r, v, rfl, h1, rfl⟩
    · exact mapFields_find k h2

theorem mapFields_insert {f : Ref → Option Val} (k : Bytes) {r : Ref} {v : Val} (hr : f r = some v) :
    ∀ {fs : List (Bytes × Ref)} {vs : List (Bytes × Val)}, mapFields f fs = some vs →
    mapFields f (mapInsert k r fs) = some (mapInsert k v vs)
  | [], vs, h => by simp only [mapFields] at h; cases h; simp [mapInsert, mapFields, hr]
  | (k', r') :: fs, ws, h => by
    obtain ⟨v', vs, h1, h2, rfl⟩ := mapFields_cons h
    simp only [mapInsert]
    split
    · exact mapFields_mk hr h
    · split
      · exact mapFields_mk h1 (mapFields_insert k hr h2)
      · exact mapFields_mk hr h2

theorem mapFields_erase {f : Ref → Option Val} (k : Bytes) :
    ∀ {fs : List (Bytes × Ref)} {vs : List (Bytes × Val)}, mapFields f fs = some vs →
    mapFields f (mapErase k fs) = some (mapErase k vs)
  | [], vs, h => by simp only [mapFields] at h; cases h; simp [mapErase, mapFields]
  | (k', r') :: fs, ws, h => by
    obtain ⟨v', vs, h1, h2, rfl⟩ := mapFields_cons h
    simp only [mapErase]
    split
    · exact h2
    · exact mapFields_mk h1 (mapFields_erase k h2)

theorem mapElems_length {f : Ref → Option Val} : ∀ {es : List Ref} {vs : List Val}, mapElems f es = some vs →
    vs.length = es.length
  | [], vs, h => by simp only [mapElems] at h; cases h; rfl
  | r :: es, ws, h => by
    obtain ⟨v, vs, h1, h2, rfl⟩ := mapElems_cons h
    simp [mapElems_length h2]

theorem mapElems_append {f : Ref → Option Val} {es' : List Ref} {vs' : List Val} (h' : mapElems f es' = some vs') :
    ∀ {es : List Ref} {vs : List Val}, mapElems f es = some vs → mapElems f (es ++ es') = some (vs ++ vs')
  | [], vs, h => by simp only [mapElems] at h; cases h; exact h'
  | r :: es, ws, h => by
    obtain ⟨v, vs, h1, h2, rfl⟩ := mapElems_cons h
    exact mapElems_mk h1 (mapElems_append h' h2)

theorem mapElems_take {f : Ref → Option Val} : ∀ (n : Nat) {es : List Ref} {vs : List Val}, mapElems f es = some vs →
    mapElems f (es.take n) = some (vs.take n)
  | 0, es, vs, _ => by simp [mapElems]
  | n + 1, [], vs, h => by simp only [mapElems] at h; cases h; simp [mapElems]
  | n + 1, r :: es, ws, h => by
    obtain ⟨v, vs, h1, h2, rfl⟩ := mapElems_cons h
    exact mapElems_mk h1 (mapElems_take n h2)

theorem mapElems_drop {f : Ref → Option Val} : ∀ (n : Nat) {es : List Ref} {vs : List Val}, mapElems f es = some vs →
    mapElems f (es.drop n) = some (vs.drop n)
  | 0, es, vs, h => h
  | n + 1, [], vs, h => by simp only [mapElems] at h; cases h; simp [mapElems]
  | n + 1, r :: es, ws, h => by
    obtain ⟨v, vs, h1, h2, rfl⟩ := mapElems_cons h
    exact mapElems_drop n h2

theorem mapElems_set {f : Ref → Option Val} {r : Ref} {v : Val} (hr : f r = some v) :
    ∀ (n : Nat) {es : List Ref} {vs : List Val}, mapElems f es = some vs → mapElems f (es.set n r) = some (vs.set n v)
  | n, [], vs, h => by simp only [mapElems] at h; cases h; simp [mapElems]
  | 0, r' :: es, ws, h => by
    obtain ⟨v, vs, h1, h2, rfl⟩ := mapElems_cons h
    exact mapElems_mk hr h2
  | n + 1, r' :: es, ws, h => by
    obtain ⟨v, vs, h1, h2, rfl⟩ := mapElems_cons h
    exact mapElems_mk h1 (mapElems_set hr n h2)

theorem mapElems_erase {f : Ref → Option Val} :
    ∀ (n : Nat) {es : List Ref} {vs : List Val}, mapElems f es = some vs → mapElems f (es.eraseIdx n) = some (vs.eraseIdx n)
  | n, [], vs, h => by simp only [mapElems] at h; cases h; simp [mapElems]
  | 0, r' :: es, ws, h => by
    obtain ⟨v, vs, h1, h2, rfl⟩ := mapElems_cons h
    exact h2
  | n + 1, r' :: es, ws, h => by
    obtain ⟨v, vs, h1, h2, rfl⟩ := mapElems_cons h
    exact mapElems_mk h1 (mapElems_erase n h2)

theorem mapElems_get {f : Ref → Option Val} : ∀ (n : Nat) {es : List Ref} {vs : List Val}, mapElems f es = some vs →
    (es[n]? = none ∧ vs[n]? = none) ∨ (∃ r v, es[n]? = some r ∧ f r = some v ∧ vs[n]? = some v)
  | n, [], vs, h => by simp only [mapElems] at h; cases h; exact .inl (by simp)
  | 0, r :: es, ws, h => by
    obtain ⟨v, vs, h1, h2, rfl⟩ := mapElems_cons h
    exact .inr ⟨r, v, rfl, h1, rfl⟩
  | n + 1, r :: es, ws, h => by
    obtain ⟨v, vs, h1, h2, rfl⟩ := mapElems_cons h
    simpa using mapElems_get n h2

theorem mapElems_replicate {f : Ref → Option Val} {r : Ref} {v : Val} (hr : f r = some v) :
    ∀ n, mapElems f (List.replicate n r) = some (List.replicate n v)
  | 0 => rfl
  | n + 1 => by rw [List.replicate_succ, List.replicate_succ]; exact mapElems_mk hr (mapElems_replicate hr n)

theorem mapFind_none_of_lt {k : Bytes} {fs : List (Bytes × Ref)} (h : ∀ k' ∈ fs.map (·.1), keyLt k k' = true) :
    mapFind k fs = none := by
  induction fs with
  | nil => rfl
  | cons g fs ih =>
    have h1 := h g.1 (by simp)
    simp only [mapFind, h1, Bool.not_true, Bool.false_and, Bool.false_eq_true, if_false]
    exact ih (fun k' hk => h k' (by simp only [List.map_cons, List.mem_cons]; exact .inr hk))

/-- Inserting adds one owner of the new value and releases the old one. -/
theorem occ_mapInsert (b : Nat) (k : Bytes) (r : Ref) : ∀ {fs : List (Bytes × Ref)}, KeysSorted fs →
    occ b [r] + occ b (fs.map (·.2)) = occ b ((mapInsert k r fs).map (·.2)) + occ b (mapFind k fs).toList
  | [], _ => by simp [mapInsert, mapFind]
  | (k', r') :: fs, h => by
    obtain ⟨hg, hs⟩ := List.pairwise_cons.1 h
    simp only [mapInsert, mapFind]
    by_cases h1 : keyLt k k' = true
    · simp only [h1, if_true, Bool.not_true, Bool.false_and, Bool.false_eq_true, if_false]
      rw [mapFind_none_of_lt (fun k'' hk => keyLt_trans h1 (hg k'' hk))]
      simp only [List.map_cons, Option.toList_none, occ_nil]
      rw [occ_cons b r (_ :: _)]; omega
    · simp only [h1, Bool.false_eq_true, if_false]
      by_cases h2 : keyLt k' k = true
      · simp only [h2, if_true, Bool.not_true, Bool.and_false, Bool.false_eq_true, if_false, List.map_cons]
        have := occ_mapInsert b k r hs
        rw [occ_cons b r' (List.map _ fs), occ_cons b r' (List.map _ (_ : List (Bytes × Ref)))]
        omega
      · simp only [h2, Bool.false_eq_true, if_false, Bool.not_false, Bool.and_self, if_true, List.map_cons,
          Option.toList_some]
        rw [occ_cons b r' (List.map _ _), occ_cons b r (List.map _ _)]; omega

theorem occ_mapErase (b : Nat) (k : Bytes) : ∀ (fs : List (Bytes × Ref)),
    occ b (fs.map (·.2)) = occ b ((mapErase k fs).map (·.2)) + occ b (mapFind k fs).toList
  | [] => by simp [mapErase, mapFind]
  | (k', r') :: fs => by
    simp only [mapErase, mapFind]
    split
    · simp only [List.map_cons, Option.toList_some]
      rw [occ_cons]; omega
    · simp only [List.map_cons]
      have := occ_mapErase b k fs
      rw [occ_cons b r' (List.map _ fs), occ_cons b r' (List.map _ (_ : List (Bytes × Ref)))]; omega

theorem mem_mapInsert_refs {k : Bytes} {r : Ref} : ∀ {fs : List (Bytes × Ref)} {q : Ref},
    q ∈ (mapInsert k r fs).map (·.2) → q = r ∨ q ∈ fs.map (·.2)
  | [], q, h => by simpa [mapInsert] using h
  | (k', r') :: fs, q, h => by
    simp only [mapInsert] at h
    split at h
    · simpa using h
    · split at h
      · simp only [List.map_cons, List.mem_cons] at h ⊢
        rcases h with h | h
        · exact .inr (.inl h)
        · rcases mem_mapInsert_refs h with h | h
          · exact .inl h
          · exact .inr (.inr h)
      · simp only [List.map_cons, List.mem_cons] at h ⊢
        rcases h with h | h
        · exact .inl h
        · exact .inr (.inr h)

theorem mem_mapErase_refs {k : Bytes} : ∀ {fs : List (Bytes × Ref)} {q : Ref},
    q ∈ (mapErase k fs).map (·.2) → q ∈ fs.map (·.2)
  | [], q, h => by simp [mapErase] at h
  | (k', r') :: fs, q, h => by
    simp only [mapErase] at h
    split at h
    · simp only [List.map_cons, List.mem_cons]; exact .inr h
    · simp only [List.map_cons, List.mem_cons] at h ⊢
      rcases h with h | h
      · exact .inl h
      · exact .inr (mem_mapErase_refs h)

theorem mem_mapFind {k : Bytes} : ∀ {fs : List (Bytes × Ref)} {q : Ref}, mapFind k fs = some q → q ∈ fs.map (·.2)
  | [], q, h => by simp [mapFind] at h
  | (k', r') :: fs, q, h => by
    simp only [mapFind] at h
    split at h
    · cases h; simp
    · simp only [List.map_cons, List.mem_cons]; exact .inr (mem_mapFind h)

theorem mem_mapInsert_keys {α : Type} {k : Bytes} {r : α} : ∀ {fs : List (Bytes × α)} {q : Bytes},
    q ∈ (mapInsert k r fs).map (·.1) → q = k ∨ q ∈ fs.map (·.1)
  | [], q, h => by simpa [mapInsert] using h
  | (k', r') :: fs, q, h => by
    simp only [mapInsert] at h
    split at h
    · simpa using h
    · split at h
      · simp only [List.map_cons, List.mem_cons] at h ⊢
        rcases h with h | h
        · exact .inr (.inl h)
        · rcases mem_mapInsert_keys h with h | h
          · exact .inl h
          · exact .inr (.inr h)
      · simp only [List.map_cons, List.mem_cons] at h ⊢
        exact .inr h

theorem keysSorted_insert {α : Type} {k : Bytes} {r : α} : ∀ {fs : List (Bytes × α)}, KeysSorted fs →
    KeysSorted (mapInsert k r fs)
  | [], _ => by simp [KeysSorted, mapInsert]
  | (k', r') :: fs, h => by
    obtain ⟨hg, hs⟩ := List.pairwise_cons.1 h
    simp only [mapInsert]
    split
    · rename_i h1
      refine List.pairwise_cons.2 ⟨fun b hb => ?_, h⟩
      rcases List.mem_cons.1 hb with rfl | hb
      · exact h1
      · exact keyLt_trans h1 (hg b hb)
    · split
      · rename_i h2
        refine List.pairwise_cons.2 ⟨fun b hb => ?_, keysSorted_insert hs⟩
        rcases mem_mapInsert_keys hb with rfl | hb
        · exact h2
        · exact hg b hb
      · exact h

theorem mapErase_sublist {α : Type} (k : Bytes) : ∀ (fs : List (Bytes × α)), (mapErase k fs).Sublist fs
  | [] => by simp [mapErase]
  | (k', r') :: fs => by
    simp only [mapErase]
    split
    · exact List.sublist_cons_self _ _
    · exact (mapErase_sublist k fs).cons_cons _

theorem keysSorted_erase {α : Type} {k : Bytes} {fs : List (Bytes × α)} (h : KeysSorted fs) :
    KeysSorted (mapErase k fs) := h.sublist ((mapErase_sublist k fs).map _)

/-! ### Storing -/

/-- New contents for the object of `x`. -/
theorem storeObj {s : State} {e : Env} {x a n : Nat} {fs fs' : List (Bytes × Ref)} {new old : List Ref}
    {vs' : List (Bytes × Val)} (h : Sim s e) (hx : x < s.vars.length) (ha : s.var x = .obj a) (h1 : cnt s.cells a = 1)
    (hcell : s.cells.at a = some ⟨n, .fields fs⟩) (hnew : ∀ r ∈ new, r ∈ s.vars ∧ r.addr ≠ some a)
    (hcount : ∀ b, occ b new + occ b (fs.map (·.2)) = occ b (fs'.map (·.2)) + occ b old)
    (htidy : KeysSorted fs') (hsub : ∀ r ∈ fs'.map (·.2), r ∈ new ∨ r ∈ fs.map (·.2))
    (hval : ∃ d, mapFields (view s.cells d) fs' = some vs') :
    ∃ s', store s a ⟨n, .fields fs⟩ (.fields fs') new old = some s' ∧ Sim s' (e.set x (.obj vs')) ∧ s'.vars = s.vars := by
  have haddr : (s.var x).addr = some a := by rw [ha]; rfl
  refine store_ok h hx haddr h1 hcell hnew hcount (fun fs hb => by cases hb; exact htidy) ha.symm (fun m => ?_)
  obtain ⟨d, hd⟩ := hval
  obtain ⟨hz, _⟩ := alone h hx haddr h1
  refine ⟨d + 1, ?_⟩
  rw [ha, view_obj, at_set_self (at_lt hcell)]
  simp only
  rw [mapFields_congr (g := view s.cells d) fs' (fun r hr => view_set _ hz ?_ d), hd]; rfl
  rcases hsub r hr with hr | hr
  · exact (hnew r hr).2
  · exact addr_ne_of_occ (mem_refs hcell hr) hz

/-- New contents for the array of `x`. -/
theorem storeArr {s : State} {e : Env} {x a n : Nat} {es es' : List Ref} {new old : List Ref}
    {vs' : List Val} (h : Sim s e) (hx : x < s.vars.length) (ha : s.var x = .arr a) (h1 : cnt s.cells a = 1)
    (hcell : s.cells.at a = some ⟨n, .elems es⟩) (hnew : ∀ r ∈ new, r ∈ s.vars ∧ r.addr ≠ some a)
    (hcount : ∀ b, occ b new + occ b es = occ b es' + occ b old)
    (hsub : ∀ r ∈ es', r ∈ new ∨ r ∈ es) (hval : ∃ d, mapElems (view s.cells d) es' = some vs') :
    ∃ s', store s a ⟨n, .elems es⟩ (.elems es') new old = some s' ∧ Sim s' (e.set x (.arr vs')) ∧ s'.vars = s.vars := by
  have haddr : (s.var x).addr = some a := by rw [ha]; rfl
  refine store_ok h hx haddr h1 hcell hnew hcount (fun fs hb => by cases hb) ha.symm (fun m => ?_)
  obtain ⟨d, hd⟩ := hval
  obtain ⟨hz, _⟩ := alone h hx haddr h1
  refine ⟨d + 1, ?_⟩
  rw [ha, view_arr, at_set_self (at_lt hcell)]
  simp only
  rw [mapElems_congr (g := view s.cells d) es' (fun r hr => view_set _ hz ?_ d), hd]; rfl
  rcases hsub r hr with hr | hr
  · exact (hnew r hr).2
  · exact addr_ne_of_occ (mem_refs hcell hr) hz

/-- The contents of an object variable and its own value, at one depth with another variable. -/
theorem common_obj {s : State} {e : Env} {x a : Nat} (h : Sim s e) (ha : s.var x = .obj a) (y : Nat) :
    ∃ n fs d vs, s.cells.at a = some ⟨n, .fields fs⟩ ∧ mapFields (view s.cells d) fs = some vs ∧ e.var x = .obj vs ∧
      view s.cells d (s.var y) = some (e.var y) := by
  obtain ⟨n, fs, d, vs, h1, h2, h3⟩ := holds_obj (ha ▸ h.holds x)
  obtain ⟨d', hd'⟩ := h.holds y
  exact ⟨n, fs, d + d', vs, h1, mapFields_mono fs (fun r v hv => view_mono hv (by omega)) vs h2, h3,
    view_mono hd' (by omega)⟩

theorem common_arr {s : State} {e : Env} {x a : Nat} (h : Sim s e) (ha : s.var x = .arr a) (y : Nat) :
    ∃ n fs d vs, s.cells.at a = some ⟨n, .elems fs⟩ ∧ mapElems (view s.cells d) fs = some vs ∧ e.var x = .arr vs ∧
      view s.cells d (s.var y) = some (e.var y) := by
  obtain ⟨n, fs, d, vs, h1, h2, h3⟩ := holds_arr (ha ▸ h.holds x)
  obtain ⟨d', hd'⟩ := h.holds y
  exact ⟨n, fs, d + d', vs, h1, mapElems_mono fs (fun r v hv => view_mono hv (by omega)) vs h2, h3,
    view_mono hd' (by omega)⟩

/-- Variable and value have the same kind. -/
theorem kind {s : State} {e : Env} {x : Nat} (h : Sim s e) :
    (∃ a, s.var x = .obj a) ∨ (∃ a, s.var x = .arr a) ∨
      ((∀ a, s.var x ≠ .obj a) ∧ (∀ a, s.var x ≠ .arr a) ∧ (∀ f, e.var x ≠ .obj f) ∧ (∀ f, e.var x ≠ .arr f)) := by
  obtain ⟨d, hd⟩ := h.holds x
  cases hv : s.var x with
  | obj a => exact .inl ⟨a, rfl⟩
  | arr a => exact .inr (.inl ⟨a, rfl⟩)
  | _ =>
    rw [hv] at hd
    have hd := Option.some.inj (show some _ = _ from (by simpa only [view] using hd))
    refine .inr (.inr ⟨by simp, by simp, fun f hf => ?_, fun f hf => ?_⟩) <;> rw [hf] at hd <;> cases hd

theorem sim_null {s : State} {e : Env} {y : Nat} (h : Sim s e) (hy : y < s.vars.length) :
    ∃ s', assign s y .null = some s' ∧ Sim s' (e.set y .null) ∧ s'.vars.length = s.vars.length := by
  obtain ⟨s', h1, h2, h3, _⟩ := Sim.assign (s := s) (c := s.cells) (r := .null) (v := .null) h.len
    ⟨fun a => by rw [occ_cons, occ_one_none (by simp [Ref.addr]), Nat.zero_add]; exact h.counted.eq a, h.counted.pos⟩
    hy ⟨0, by simp [view]⟩ (fun z _ => h.holds z) h.tidy h.whole
  exact ⟨s', h1, h2, by rw [h3]; simp⟩

/-- The final step of an insertion. -/
theorem leave_ok {s : State} {e : Env} {y : Nat} (h : Sim s e) (hy : y < s.vars.length) (moved : Bool) :
    ∃ s', leave s y moved = some s' ∧ Sim s' (if moved then e.set y .null else e) ∧ s'.vars.length = s.vars.length := by
  cases moved with
  | false => exact ⟨s, rfl, h, rfl⟩
  | true => exact sim_null h hy

/-- What one statement must achieve. -/
def Good (s : State) (o : Out) (p : Env × Res Unit) : Prop :=
  Sim o.1 p.1 ∧ o.2 = p.2 ∧ o.1.vars.length = s.vars.length

theorem mapFind_isSome_any {α : Type} (k : Bytes) (vs : List (Bytes × α)) :
    (mapFind k vs).isSome = vs.any fun f => f.1 == k := by
  induction vs with
  | nil => rfl
  | cons g vs ih =>
    obtain ⟨k', v⟩ := g
    simp only [mapFind, equiv_iff, List.any_cons]
    by_cases h : k' = k
    · simp [h]
    · simp [h, ih]

theorem insert_ok {s : State} {e : Env} {x y : Nat} (k : Key) (m : Mode) (h : Sim s e) (hx : x < s.vars.length)
    (hy : y < s.vars.length) (hxy : x ≠ y) : Good s (Cow.insert s x k y m) (Spec.Indep.step e (.insert x k y m)) := by
  obtain ⟨s1, c1, c2, c3, _, c5⟩ := cow_ok h hx
  have hx1 : x < s1.vars.length := by omega
  have hy1 : y < s1.vars.length := by omega
  unfold Cow.insert
  simp only [c1, Option.bind_some, Spec.Indep.step]
  cases k with
  | name k =>
    simp only [Key.toVal, Val.insert]
    by_cases hk : k.length > 65535
    · simp only [hk, if_true, orUb, update, takeIf]
      exact ⟨c2, rfl, c3⟩
    · simp only [hk, if_false]
      rcases kind c2 (x := x) with ⟨a, ha⟩ | ⟨a, ha⟩ | ⟨k1, k2, k3, k4⟩
      · obtain ⟨n, fs, d, vs, g1, g2, g3, g4⟩ := common_obj c2 ha y
        have h1 := c5 a (by rw [ha]; rfl)
        obtain ⟨_, ho⟩ := alone c2 hx1 (by rw [ha]; rfl) h1
        have hs := c2.tidy a _ fs g1 rfl
        obtain ⟨s2, d1, d2, d3⟩ := storeObj (fs' := mapInsert k (s1.var y) fs) (new := [s1.var y])
          (old := (mapFind k fs).toList) c2 hx1 ha h1 g1
          (fun r hr => by cases List.mem_singleton.1 hr; exact ⟨var_mem hy1, ho y (Ne.symm hxy)⟩)
          (fun b => occ_mapInsert b k _ hs) (keysSorted_insert hs)
          (fun r hr => by
            rcases mem_mapInsert_refs hr with hr | hr
            · exact .inl (by simp [hr])
            · exact .inr hr)
          ⟨d, mapFields_insert k g4 g2⟩
        obtain ⟨s3, e1, e2, e3⟩ := leave_ok d2 (y := y) (by rw [d3]; exact hy1) ((mapFind k fs).isSome && m != .const)
        have hany : (mapFind k fs).isSome = (vs.any fun f => f.1 == k) := by
          rw [← mapFind_isSome_any]
          rcases mapFields_find k g2 with ⟨q1, q2⟩ | ⟨r, v, q1, _, q3⟩
          · rw [q1, q2]; rfl
          · rw [q1, q3]; rfl
        simp only [ha, g1, g3, Option.bind_some, d1, e1, Option.map_some, orUb, update, takeIf, insertMoves, hasField]
        rw [hany] at e2
        exact ⟨e2, rfl, by rw [e3, d3, c3]⟩
      · obtain ⟨n, fs, d, vs, g1, g2, g3, g4⟩ := common_arr c2 ha y
        simp only [ha, g3, orUb, update, takeIf]
        exact ⟨c2, rfl, c3⟩
      · revert k1 k3
        generalize s1.var x = r
        generalize e.var x = v
        intro k1 k3
        cases r <;> first | exact absurd rfl (k1 _) | (cases v <;> first | exact absurd rfl (k3 _) | exact ⟨c2, rfl, c3⟩)
  | index i =>
    simp only [Key.toVal, Val.insert]
    rcases kind c2 (x := x) with ⟨a, ha⟩ | ⟨a, ha⟩ | ⟨k1, k2, k3, k4⟩
    · obtain ⟨n, fs, d, vs, g1, g2, g3, g4⟩ := common_obj c2 ha y
      simp only [ha, g3, orUb, update, takeIf]
      exact ⟨c2, rfl, c3⟩
    · obtain ⟨n, es, d, vs, g1, g2, g3, g4⟩ := common_arr c2 ha y
      have h1 := c5 a (by rw [ha]; rfl)
      obtain ⟨_, ho⟩ := alone c2 hx1 (by rw [ha]; rfl) h1
      simp only [ha, g1, g3, Option.bind_some, mapElems_length g2]
      by_cases hi : i.toNat > es.length
      · simp only [hi, if_true, orUb, update, takeIf]
        exact ⟨c2, rfl, c3⟩
      · simp only [hi, if_false]
        by_cases hm : es.length ≥ maxElems
        · simp only [hm, if_true, orUb, update, takeIf]
          exact ⟨c2, rfl, c3⟩
        · simp only [hm, if_false]
          obtain ⟨s2, d1, d2, d3⟩ := storeArr (es' := es.take i.toNat ++ s1.var y :: es.drop i.toNat) (new := [s1.var y])
            (old := []) c2 hx1 ha h1 g1
            (fun r hr => by cases List.mem_singleton.1 hr; exact ⟨var_mem hy1, ho y (Ne.symm hxy)⟩)
            (fun b => by
              rw [occ_append, occ_cons b (s1.var y) (es.drop _), occ_nil]
              have : occ b es = occ b (es.take i.toNat) + occ b (es.drop i.toNat) := by
                rw [← occ_append, List.take_append_drop]
              omega)
            (fun r hr => by
              simp only [List.mem_append, List.mem_cons] at hr ⊢
              rcases hr with hr | hr | hr
              · exact .inr (List.mem_of_mem_take hr)
              · exact .inl (by simp [hr])
              · exact .inr (List.mem_of_mem_drop hr))
            ⟨d, mapElems_append (mapElems_mk g4 (mapElems_drop _ g2)) (mapElems_take _ g2)⟩
          obtain ⟨s3, e1, e2, e3⟩ := leave_ok d2 (y := y) (by rw [d3]; exact hy1) (m == .rvalue)
          simp only [Option.bind_some, d1, e1, Option.map_some, orUb, update, takeIf, insertMoves]
          exact ⟨e2, rfl, by rw [e3, d3, c3]⟩
    · revert k2 k4
      generalize s1.var x = r
      generalize e.var x = v
      intro k2 k4
      cases r <;> first | exact absurd rfl (k2 _) | (cases v <;> first | exact absurd rfl (k4 _) | exact ⟨c2, rfl, c3⟩)

theorem set_ok {s : State} {e : Env} {x y : Nat} (k : Key) (m : Mode) (h : Sim s e) (hx : x < s.vars.length)
    (hy : y < s.vars.length) (hxy : x ≠ y) : Good s (Cow.set s x k y m) (Spec.Indep.step e (.set x k y m)) := by
  obtain ⟨s1, c1, c2, c3, _, c5⟩ := cow_ok h hx
  have hx1 : x < s1.vars.length := by omega
  have hy1 : y < s1.vars.length := by omega
  unfold Cow.set
  simp only [c1, Option.bind_some, Spec.Indep.step]
  cases k with
  | name k =>
    simp only [Key.toVal, Val.set]
    by_cases hk : k.length > 65535
    · simp only [hk, if_true, orUb, update, takeIf]
      exact ⟨c2, rfl, c3⟩
    · simp only [hk, if_false]
      rcases kind c2 (x := x) with ⟨a, ha⟩ | ⟨a, ha⟩ | ⟨k1, k2, k3, k4⟩
      · obtain ⟨n, fs, d, vs, g1, g2, g3, g4⟩ := common_obj c2 ha y
        have h1 := c5 a (by rw [ha]; rfl)
        obtain ⟨_, ho⟩ := alone c2 hx1 (by rw [ha]; rfl) h1
        have hs := c2.tidy a _ fs g1 rfl
        simp only [ha, g1, g3, Option.bind_some]
        rcases mapFields_find k g2 with ⟨q1, q2⟩ | ⟨r, v, q1, _, q3⟩
        · simp only [q1, q2, Option.isSome_none, Bool.false_eq_true, if_false, orUb, update, takeIf]
          exact ⟨c2, rfl, c3⟩
        · obtain ⟨s2, d1, d2, d3⟩ := storeObj (fs' := mapInsert k (s1.var y) fs) (new := [s1.var y])
            (old := [r]) c2 hx1 ha h1 g1
            (fun r hr => by cases List.mem_singleton.1 hr; exact ⟨var_mem hy1, ho y (Ne.symm hxy)⟩)
            (fun b => by have := occ_mapInsert b k (s1.var y) hs; rw [q1] at this; exact this) (keysSorted_insert hs)
            (fun r hr => by
              rcases mem_mapInsert_refs hr with hr | hr
              · exact .inl (by simp [hr])
              · exact .inr hr)
            ⟨d, mapFields_insert k g4 g2⟩
          obtain ⟨s3, e1, e2, e3⟩ := leave_ok d2 (y := y) (by rw [d3]; exact hy1) (m == .rvalue)
          simp only [q1, q3, Option.bind_some, d1, e1, Option.map_some, orUb, update, takeIf, Option.isSome_some, if_true]
          exact ⟨e2, rfl, by rw [e3, d3, c3]⟩
      · obtain ⟨n, fs, d, vs, g1, g2, g3, g4⟩ := common_arr c2 ha y
        simp only [ha, g3, orUb, update, takeIf]
        exact ⟨c2, rfl, c3⟩
      · revert k1 k3
        generalize s1.var x = r
        generalize e.var x = v
        intro k1 k3
        cases r <;> first | exact absurd rfl (k1 _) | (cases v <;> first | exact absurd rfl (k3 _) | exact ⟨c2, rfl, c3⟩)
  | index i =>
    simp only [Key.toVal, Val.set]
    rcases kind c2 (x := x) with ⟨a, ha⟩ | ⟨a, ha⟩ | ⟨k1, k2, k3, k4⟩
    · obtain ⟨n, fs, d, vs, g1, g2, g3, g4⟩ := common_obj c2 ha y
      simp only [ha, g3, orUb, update, takeIf]
      exact ⟨c2, rfl, c3⟩
    · obtain ⟨n, es, d, vs, g1, g2, g3, g4⟩ := common_arr c2 ha y
      have h1 := c5 a (by rw [ha]; rfl)
      obtain ⟨_, ho⟩ := alone c2 hx1 (by rw [ha]; rfl) h1
      simp only [ha, g1, g3, Option.bind_some, mapElems_length g2]
      by_cases hi : i.toNat ≥ es.length
      · simp only [List.getElem?_eq_none hi, hi, if_true, orUb, update, takeIf]
        exact ⟨c2, rfl, c3⟩
      · have hi' : i.toNat < es.length := by omega
        obtain ⟨s2, d1, d2, d3⟩ := storeArr (es' := es.set i.toNat (s1.var y)) (new := [s1.var y])
          (old := [es[i.toNat]]) c2 hx1 ha h1 g1
          (fun r hr => by cases List.mem_singleton.1 hr; exact ⟨var_mem hy1, ho y (Ne.symm hxy)⟩)
          (fun b => by have := occ_set (a := b) (s1.var y) hi'; omega)
          (fun r hr => by
            rcases List.mem_or_eq_of_mem_set hr with hr | hr
            · exact .inr hr
            · exact .inl (by simp [hr]))
          ⟨d, mapElems_set g4 _ g2⟩
        obtain ⟨s3, e1, e2, e3⟩ := leave_ok d2 (y := y) (by rw [d3]; exact hy1) (m == .rvalue)
        simp only [List.getElem?_eq_getElem hi', hi, if_false, Option.bind_some, d1, e1, Option.map_some, orUb, update, takeIf]
        exact ⟨e2, rfl, by rw [e3, d3, c3]⟩
    · revert k2 k4
      generalize s1.var x = r
      generalize e.var x = v
      intro k2 k4
      cases r <;> first | exact absurd rfl (k2 _) | (cases v <;> first | exact absurd rfl (k4 _) | exact ⟨c2, rfl, c3⟩)

theorem eraseIdx_toList (b : Nat) : ∀ (es : List Ref) (i : Nat), occ b es = occ b (es.eraseIdx i) + occ b es[i]?.toList
  | [], i => by simp
  | r :: es, 0 => by
    rw [occ_cons]
    simp only [List.eraseIdx_cons_zero, List.getElem?_cons_zero, Option.toList_some]
    omega
  | r :: es, i + 1 => by
    have := eraseIdx_toList b es i
    simp only [List.eraseIdx_cons_succ, List.getElem?_cons_succ]
    rw [occ_cons b r es, occ_cons b r (es.eraseIdx i)]
    omega

theorem erase_ok {s : State} {e : Env} {x : Nat} (k : Key) (h : Sim s e) (hx : x < s.vars.length) :
    Good s (Cow.erase s x k) (Spec.Indep.step e (.erase x k)) := by
  obtain ⟨s1, c1, c2, c3, _, c5⟩ := cow_ok h hx
  have hx1 : x < s1.vars.length := by omega
  unfold Cow.erase
  simp only [c1, Option.bind_some, Spec.Indep.step]
  cases k with
  | name k =>
    simp only [Key.toVal, Val.erase, Val.eraseKey]
    rcases kind c2 (x := x) with ⟨a, ha⟩ | ⟨a, ha⟩ | ⟨k1, k2, k3, k4⟩
    · obtain ⟨n, fs, d, vs, g1, g2, g3, _⟩ := common_obj c2 ha x
      have h1 := c5 a (by rw [ha]; rfl)
      have hs := c2.tidy a _ fs g1 rfl
      obtain ⟨s2, d1, d2, d3⟩ := storeObj (fs' := mapErase k fs) (new := [])
        (old := (mapFind k fs).toList) c2 hx1 ha h1 g1 (by simp)
        (fun b => by have := occ_mapErase b k fs; rw [occ_nil]; omega) (keysSorted_erase hs)
        (fun r hr => .inr (mem_mapErase_refs hr)) ⟨d, mapFields_erase k g2⟩
      simp only [ha, g1, g3, Option.bind_some, d1, Option.map_some, orUb, update]
      exact ⟨d2, rfl, by rw [d3, c3]⟩
    · obtain ⟨n, fs, d, vs, g1, g2, g3, _⟩ := common_arr c2 ha x
      simp only [ha, g3, orUb, update]
      exact ⟨c2, rfl, c3⟩
    · revert k1 k3
      generalize s1.var x = r
      generalize e.var x = v
      intro k1 k3
      cases r <;> first | exact absurd rfl (k1 _) | (cases v <;> first | exact absurd rfl (k3 _) | exact ⟨c2, rfl, c3⟩)
  | index i =>
    simp only [Key.toVal, Val.erase, Val.eraseIdx]
    rcases kind c2 (x := x) with ⟨a, ha⟩ | ⟨a, ha⟩ | ⟨k1, k2, k3, k4⟩
    · obtain ⟨n, fs, d, vs, g1, g2, g3, _⟩ := common_obj c2 ha x
      simp only [ha, g3, orUb, update]
      exact ⟨c2, rfl, c3⟩
    · obtain ⟨n, es, d, vs, g1, g2, g3, _⟩ := common_arr c2 ha x
      have h1 := c5 a (by rw [ha]; rfl)
      obtain ⟨s2, d1, d2, d3⟩ := storeArr (es' := es.eraseIdx i.toNat) (new := [])
        (old := es[i.toNat]?.toList) c2 hx1 ha h1 g1 (by simp)
        (fun b => by have := eraseIdx_toList b es i.toNat; rw [occ_nil]; omega)
        (fun r hr => .inr (List.mem_of_mem_eraseIdx hr)) ⟨d, mapElems_erase _ g2⟩
      simp only [ha, g1, g3, Option.bind_some, d1, Option.map_some, orUb]
      split
      · rename_i hge
        rw [List.eraseIdx_of_length_le hge] at d2
        exact ⟨d2, rfl, by rw [d3, c3]⟩
      · exact ⟨d2, rfl, by rw [d3, c3]⟩
    · revert k2 k4
      generalize s1.var x = r
      generalize e.var x = v
      intro k2 k4
      cases r <;> first | exact absurd rfl (k2 _) | (cases v <;> first | exact absurd rfl (k4 _) | exact ⟨c2, rfl, c3⟩)

/-- Sharing a value. -/
theorem share_ok {s : State} {e : Env} {z : Nat} {r : Ref} {v : Val} (h : Sim s e) (hz : z < s.vars.length)
    (hr : r ∈ s.vars ∨ r ∈ s.cells.refs ∨ r = .null) (hv : ∃ d, view s.cells d r = some v) :
    ∃ c s', incr s.cells r = some c ∧ assign ⟨c, s.vars⟩ z r = some s' ∧ Sim s' (e.set z v) ∧
      s'.vars.length = s.vars.length := by
  rcases hr with hr | hr | hr
  case' inr.inr =>
    subst hr
    obtain ⟨s', h1, h2, h3⟩ := sim_null h hz
    obtain ⟨d, hd⟩ := hv
    simp only [view] at hd
    cases hd
    exact ⟨s.cells, s', rfl, h1, h2, h3⟩
  all_goals
    obtain ⟨c, h1, h2, h3, h4⟩ := incr_ok (r := r) h.counted (by first | exact .inl hr | exact .inr hr)
    obtain ⟨s', g1, g2, g3, _⟩ := Sim.assign h.len h2 hz
      (by obtain ⟨d, hd⟩ := hv; exact ⟨d, by rw [view_sameBodies h3]; exact hd⟩)
      (fun z _ => by obtain ⟨d, hd⟩ := h.holds z; exact ⟨d, by rw [view_sameBodies h3]; exact hd⟩)
      (h.tidy.sub h3.sub) (h.whole.sub h3.sub h2)
    exact ⟨c, s', h1, g1, g2, by rw [g3]; simp⟩

theorem copy_ok {s : State} {e : Env} {z y : Nat} (h : Sim s e) (hz : z < s.vars.length) (hy : y < s.vars.length) :
    Good s (Cow.copy s z y) (Spec.Indep.step e (.copy z y)) := by
  obtain ⟨c, s', h1, h2, h3, h4⟩ := share_ok h hz (.inl (var_mem hy)) (h.holds y)
  simp only [Cow.copy, h1, h2, Option.bind_some, Option.map_some, orUb, Spec.Indep.step]
  exact ⟨h3, rfl, h4⟩

theorem get_ok {s : State} {e : Env} {z x : Nat} (k : Key) (h : Sim s e) (hz : z < s.vars.length) :
    Good s (Cow.get s z x k) (Spec.Indep.step e (.get z x k)) := by
  unfold Cow.get
  cases k with
  | name k =>
    simp only [Spec.Indep.step, Val.get]
    rcases kind h (x := x) with ⟨a, ha⟩ | ⟨a, ha⟩ | ⟨k1, k2, k3, k4⟩
    · obtain ⟨n, fs, d, vs, g1, g2, g3, _⟩ := common_obj h ha x
      simp only [ha, g1, g3, Option.bind_some]
      rcases mapFields_find k g2 with ⟨q1, q2⟩ | ⟨r, v, q1, q2, q3⟩
      · obtain ⟨c, s', h1, h2, h3, h4⟩ := share_ok (r := .null) (v := .null) h hz (.inr (.inr rfl)) ⟨0, by simp [view]⟩
        simp only [q1, q2, Option.getD_none, h1, h2, Option.bind_some, Option.map_some, orUb, update]
        exact ⟨h3, rfl, h4⟩
      · obtain ⟨c, s', h1, h2, h3, h4⟩ := share_ok (r := r) (v := v) h hz (.inr (.inl (mem_refs g1 (mem_mapFind q1)))) ⟨d, q2⟩
        simp only [q1, q3, Option.getD_some, h1, h2, Option.bind_some, Option.map_some, orUb, update]
        exact ⟨h3, rfl, h4⟩
    · obtain ⟨n, fs, d, vs, g1, g2, g3, _⟩ := common_arr h ha x
      simp only [ha, g3, orUb, update]
      exact ⟨h, rfl, rfl⟩
    · revert k1 k3
      generalize s.var x = r
      generalize e.var x = v
      intro k1 k3
      cases r <;> first | exact absurd rfl (k1 _) | (cases v <;> first | exact absurd rfl (k3 _) | exact ⟨h, rfl, rfl⟩)
  | index i =>
    simp only [Spec.Indep.step, Val.getIdx]
    rcases kind h (x := x) with ⟨a, ha⟩ | ⟨a, ha⟩ | ⟨k1, k2, k3, k4⟩
    · obtain ⟨n, fs, d, vs, g1, g2, g3, _⟩ := common_obj h ha x
      simp only [ha, g3, orUb, update]
      exact ⟨h, rfl, rfl⟩
    · obtain ⟨n, es, d, vs, g1, g2, g3, _⟩ := common_arr h ha x
      have hlen := mapElems_length g2
      simp only [ha, g1, g3, Option.bind_some]
      rcases mapElems_get i.toNat g2 with ⟨q1, q2⟩ | ⟨r, v, q1, q2, q3⟩
      · obtain ⟨c, s', h1, h2, h3, h4⟩ := share_ok (r := .null) (v := .null) h hz (.inr (.inr rfl)) ⟨0, by simp [view]⟩
        have : ¬ i.toNat < vs.length := by rw [List.getElem?_eq_none_iff] at q2; omega
        simp only [q1, this, dite_false, Option.getD_none, h1, h2, Option.bind_some, Option.map_some, orUb, update]
        exact ⟨h3, rfl, h4⟩
      · have hm : r ∈ es := List.mem_of_getElem? q1
        obtain ⟨c, s', h1, h2, h3, h4⟩ := share_ok (r := r) (v := v) h hz (.inr (.inl (mem_refs g1 hm))) ⟨d, q2⟩
        obtain ⟨hl, he⟩ := List.getElem?_eq_some_iff.1 q3
        simp only [q1, hl, he, dite_true, Option.getD_some, h1, h2, Option.bind_some, Option.map_some, orUb, update]
        exact ⟨h3, rfl, h4⟩
    · revert k2 k4
      generalize s.var x = r
      generalize e.var x = v
      intro k2 k4
      cases r <;> first | exact absurd rfl (k2 _) | (cases v <;> first | exact absurd rfl (k4 _) | exact ⟨h, rfl, rfl⟩)

theorem move_ok {s : State} {e : Env} {z y : Nat} (h : Sim s e) (hz : z < s.vars.length) (hy : y < s.vars.length) :
    Good s (Cow.move s z y) (Spec.Indep.step e (.move z y)) := by
  unfold Cow.move
  simp only [Spec.Indep.step]
  by_cases hzy : z = y
  · simp only [hzy, if_true]; exact ⟨h, rfl, rfl⟩
  · simp only [hzy, if_false]
    have hy' : y < (s.vars.set z (s.var y)).length := by simpa using hy
    suffices hC : Counted s.cells ([s.var z] ++ (s.vars.set z (s.var y)).set y .null) by
      obtain ⟨c', h1, h2, h3, _, h5⟩ := drops_ok (s.cells.refs.length + 1) hC (by simp only [List.length_singleton]; omega)
      simp only [assign, drop, h1, Option.map_some, orUb]
      refine ⟨⟨h2, by simpa using h.len, fun w => ?_, h.tidy.sub (drops_sub _ h1),
        h.whole.sub (drops_sub _ h1) h2⟩, rfl, by simp⟩
      have hel : z < e.length := by have := h.len; omega
      have hel' : y < (e.set z (e.var y)).length := by have := h.len; simp; omega
      rw [env_set _ y w _ hel', env_set _ z w _ hel]
      have hw : ∀ d, view c' d ((⟨c', (s.vars.set z (s.var y)).set y .null⟩ : State).var w) =
          view s.cells d ((⟨c', (s.vars.set z (s.var y)).set y .null⟩ : State).var w) := by
        intro d
        by_cases hl : w < ((s.vars.set z (s.var y)).set y .null).length
        · exact h5 _ (var_mem (s := ⟨c', (s.vars.set z (s.var y)).set y .null⟩) hl) d
        · have : (⟨c', (s.vars.set z (s.var y)).set y .null⟩ : State).var w = .null := by
            have hl' := Nat.le_of_not_lt hl
            show ((s.vars.set z (s.var y)).set y .null)[w]?.getD .null = _
            rw [List.getElem?_eq_none hl']; rfl
          rw [this]; simp [view]
      simp only [hw]
      rw [var_set c' c' (s.vars.set z (s.var y)) y w .null hy', var_set c' s.cells s.vars z w (s.var y) hz]
      by_cases h6 : w = y
      · simp only [h6, if_true]; exact ⟨0, by simp [view]⟩
      · simp only [h6, if_false]
        by_cases h7 : w = z
        · simp only [h7, if_true]; exact h.holds y
        · simp only [h7, if_false]; exact h.holds w
    refine ⟨fun a => ?_, h.counted.pos⟩
    have h1 := h.counted.eq a
    have h2 := occ_set (a := a) (i := z) (s.var y) hz
    have h3 := occ_set (a := a) (i := y) .null hy'
    rw [occ_one_none (r := .null) (by simp [Ref.addr])] at h3
    have h4 : (s.vars.set z (s.var y))[y] = s.var y := by
      rw [List.getElem_set_ne hzy]; exact (var_eq hy).symm
    rw [h4] at h3
    rw [← var_eq hz] at h2
    rw [occ_append]
    omega

theorem fresh_ok {s : State} {e : Env} {x : Nat} (v : Fresh) (h : Sim s e) (hx : x < s.vars.length) :
    Good s (Cow.fresh s x v) (Spec.Indep.step e (.fresh x v)) := by
  suffices hA : Counted (v.make s.cells).1 ((v.make s.cells).2 :: s.vars) ∧ Tidy (v.make s.cells).1 ∧
      (∃ d, view (v.make s.cells).1 d (v.make s.cells).2 = some (freshValue v)) ∧
      (∀ z, ∃ d, view (v.make s.cells).1 d (s.var z) = some (e.var z)) ∧ Whole (v.make s.cells).1 by
    obtain ⟨a1, a2, a3, a4, a5⟩ := hA
    obtain ⟨s', g1, g2, g3, _⟩ := Sim.assign h.len a1 hx a3 (fun z _ => a4 z) a2 a5
    simp only [Cow.fresh, g1, Option.map_some, orUb, Spec.Indep.step]
    exact ⟨g2, rfl, by rw [g3]; simp⟩
  have hsc : ∀ r : Ref, r.addr = none → Counted s.cells (r :: s.vars) := fun r hr =>
    ⟨fun a => by rw [occ_cons, occ_one_none (by rw [hr]; simp), Nat.zero_add]; exact h.counted.eq a, h.counted.pos⟩
  cases v with
  | obj =>
    have hv : view (s.cells ++ [some ⟨1, .fields []⟩]) 1 (.obj s.cells.length) = some (.obj []) := by
      rw [view_obj, at_append_new]; rfl
    refine ⟨counted_alloc (body := .fields []) (by simpa [Body.refs] using h.counted) rfl, tidy_alloc h.tidy (by simp),
      ⟨1, hv⟩, fun z => ?_, whole_alloc h.whole ⟨1, _, hv⟩⟩
    · obtain ⟨d, hd⟩ := h.holds z; exact ⟨d, view_append _ hd⟩
  | arr =>
    have hv : view (s.cells ++ [some ⟨1, .elems []⟩]) 1 (.arr s.cells.length) = some (.arr []) := by
      rw [view_arr, at_append_new]; rfl
    refine ⟨counted_alloc (body := .elems []) (by simpa [Body.refs] using h.counted) rfl, tidy_alloc h.tidy (by simp),
      ⟨1, hv⟩, fun z => ?_, whole_alloc h.whole ⟨1, _, hv⟩⟩
    · obtain ⟨d, hd⟩ := h.holds z; exact ⟨d, view_append _ hd⟩
  | _ => exact ⟨hsc _ rfl, h.tidy, ⟨0, by simp [Fresh.make, view, freshValue]⟩, h.holds, h.whole⟩

theorem clear_ok {s : State} {e : Env} {x : Nat} (h : Sim s e) (hx : x < s.vars.length) (hu : Unshared s x) :
    Good s (Cow.clear s x) (Spec.Indep.step e (.clear x)) := by
  unfold Cow.clear
  simp only [Spec.Indep.step]
  rcases kind h (x := x) with ⟨a, ha⟩ | ⟨a, ha⟩ | ⟨k1, k2, k3, k4⟩
  · obtain ⟨n, fs, d, vs, g1, g2, g3, _⟩ := common_obj h ha x
    have h1 : cnt s.cells a = 1 := by
      rw [Unshared, ha] at hu
      simp only [refcount, Ref.addr, g1, Option.map_some, Option.some.injEq] at hu
      rw [cnt_some g1]; exact hu
    obtain ⟨s2, d1, d2, d3⟩ := storeObj (fs' := []) (vs' := []) (new := []) (old := Body.refs (.fields fs)) h hx ha h1 g1 (by simp)
      (fun b => by simp [Body.refs]) (by simp [KeysSorted]) (by simp) ⟨0, rfl⟩
    simp only [ha, g1, g3, Option.bind_some, d1, Option.map_some, orUb, Val.clear, update]
    exact ⟨d2, rfl, by rw [d3]⟩
  · obtain ⟨n, fs, d, vs, g1, g2, g3, _⟩ := common_arr h ha x
    have h1 : cnt s.cells a = 1 := by
      rw [Unshared, ha] at hu
      simp only [refcount, Ref.addr, g1, Option.map_some, Option.some.injEq] at hu
      rw [cnt_some g1]; exact hu
    obtain ⟨s2, d1, d2, d3⟩ := storeArr (es' := []) (vs' := []) (new := []) (old := Body.refs (.elems fs)) h hx ha h1 g1 (by simp)
      (fun b => by simp [Body.refs]) (by simp) ⟨0, rfl⟩
    simp only [ha, g1, g3, Option.bind_some, d1, Option.map_some, orUb, Val.clear, update]
    exact ⟨d2, rfl, by rw [d3]⟩
  · revert k1 k2 k3 k4
    generalize s.var x = r
    generalize e.var x = v
    intro k1 k2 k3 k4
    cases r <;> first | exact absurd rfl (k1 _) | exact absurd rfl (k2 _) |
      (cases v <;> first | exact absurd rfl (k3 _) | exact absurd rfl (k4 _) | exact ⟨h, rfl, rfl⟩)

theorem resize_ok {s : State} {e : Env} {x y : Nat} (n : Nat) (h : Sim s e) (hx : x < s.vars.length)
    (hy : y < s.vars.length) (hxy : x ≠ y) (hu : Unshared s x) :
    Good s (Cow.resize s x n y) (Spec.Indep.step e (.resize x n y)) := by
  unfold Cow.resize
  simp only [Spec.Indep.step]
  rcases kind h (x := x) with ⟨a, ha⟩ | ⟨a, ha⟩ | ⟨k1, k2, k3, k4⟩
  · obtain ⟨m, fs, d, vs, g1, g2, g3, _⟩ := common_obj h ha x
    simp only [ha, g3, orUb, Val.resize, update]
    exact ⟨h, rfl, rfl⟩
  · obtain ⟨m, es, d, vs, g1, g2, g3, g4⟩ := common_arr h ha y
    have h1 : cnt s.cells a = 1 := by
      rw [Unshared, ha] at hu
      simp only [refcount, Ref.addr, g1, Option.map_some, Option.some.injEq] at hu
      rw [cnt_some g1]; exact hu
    obtain ⟨_, ho⟩ := alone h hx (by rw [ha]; rfl) h1
    have hl := mapElems_length g2
    simp only [ha, g1, g3, Option.bind_some, Val.resize, hl]
    by_cases hn : n > maxElems
    · simp only [hn, if_true, orUb, update]
      exact ⟨h, rfl, rfl⟩
    · simp only [hn, if_false]
      obtain ⟨s2, d1, d2, d3⟩ := storeArr (es' := es.take n ++ List.replicate (n - es.length) (s.var y))
        (new := List.replicate (n - es.length) (s.var y)) (old := es.drop n) h hx ha h1 g1
        (fun r hr => by
          have hr := (List.mem_replicate.1 hr).2
          subst hr
          exact ⟨var_mem hy, ho y (Ne.symm hxy)⟩)
        (fun b => by
          rw [occ_append]
          have : occ b es = occ b (es.take n) + occ b (es.drop n) := by
            rw [← occ_append, List.take_append_drop]
          omega)
        (fun r hr => by
          rcases List.mem_append.1 hr with hr | hr
          · exact .inr (List.mem_of_mem_take hr)
          · exact .inl hr)
        ⟨d, mapElems_append (mapElems_replicate g4 _) (mapElems_take n g2)⟩
      simp only [d1, Option.map_some, orUb, update]
      exact ⟨d2, rfl, by rw [d3]⟩
  · revert k2 k4
    generalize s.var x = r
    generalize e.var x = v
    intro k2 k4
    cases r <;> first | exact absurd rfl (k2 _) | (cases v <;> first | exact absurd rfl (k4 _) | exact ⟨h, rfl, rfl⟩)

/-! ### Programs -/

theorem step_ok {s : State} {e : Env} {op : Op} (h : Sim s e) (hu : ∀ x ∈ uses op, x < s.vars.length) (hc : Covered s op) :
    Good s (Cow.step s op) (Spec.Indep.step e op) := by
  cases op with
  | fresh x v => exact fresh_ok v h (hu x (by simp [uses]))
  | copy z y => exact copy_ok h (hu z (by simp [uses])) (hu y (by simp [uses]))
  | move z y => exact move_ok h (hu z (by simp [uses])) (hu y (by simp [uses]))
  | get z x k => exact get_ok k h (hu z (by simp [uses]))
  | insert x k y m => exact insert_ok k m h (hu x (by simp [uses])) (hu y (by simp [uses])) hc
  | set x k y m => exact set_ok k m h (hu x (by simp [uses])) (hu y (by simp [uses])) hc
  | erase x k => exact erase_ok k h (hu x (by simp [uses]))
  | clear x => exact clear_ok h (hu x (by simp [uses])) hc
  | resize x n y => exact resize_ok n h (hu x (by simp [uses])) (hu y (by simp [uses])) hc.2 hc.1

theorem run_ok {ops : List Op} : ∀ {s : State} {e : Env}, Sim s e → (∀ op ∈ ops, ∀ x ∈ uses op, x < s.vars.length) →
    CoveredRun s ops → Sim (Cow.run s ops).1 (Spec.Indep.run e ops).1 ∧ (Cow.run s ops).2 = (Spec.Indep.run e ops).2 := by
  induction ops with
  | nil => intro s e h _ _; exact ⟨h, rfl⟩
  | cons op ops ih =>
    intro s e h hu hc
    obtain ⟨h1, h2, h3⟩ := step_ok h (hu op (by simp)) hc.1
    obtain ⟨h4, h5⟩ := ih h1 (fun o ho x hx => by rw [h3]; exact hu o (by simp [ho]) x hx) hc.2
    exact ⟨h4, by simp only [Cow.run, Spec.Indep.run, h2, h5]⟩

theorem run_length (ops : List Op) : ∀ {s : State} {e : Env}, Sim s e →
    (∀ o ∈ ops, ∀ x ∈ uses o, x < s.vars.length) → CoveredRun s ops → (Cow.run s ops).1.vars.length = s.vars.length := by
  induction ops with
  | nil => intro s e _ _ _; rfl
  | cons o ops ih =>
    intro s e h hu hc
    obtain ⟨h1, _, h3⟩ := step_ok h (hu o (by simp)) hc.1
    have := ih h1 (fun o' ho x hx => by rw [h3]; exact hu o' (by simp [ho]) x hx) hc.2
    simp only [Cow.run]
    rw [this, h3]

theorem sim_init (n : Nat) : Sim (Cow.init n) (Spec.Indep.init n) := by
  have hv : ∀ x, (Cow.init n).var x = .null := by
    intro x
    simp only [Cow.init, State.var, List.getElem?_replicate]
    split <;> rfl
  have he : ∀ x, (Spec.Indep.init n).var x = .null := by
    intro x
    simp only [Spec.Indep.init, Env.var, List.getElem?_replicate]
    split <;> rfl
  refine ⟨⟨fun a => ?_, fun a x h => ?_⟩, by simp [Cow.init, Spec.Indep.init], fun x => ?_, fun a x fs h => ?_, fun a x h => ?_⟩
  · have : occ a (List.replicate n Ref.null) = 0 := by
      rw [occ, List.countP_eq_zero]
      intro r hr
      rw [(List.mem_replicate.1 hr).2]
      simp [Ref.addr]
    simp only [Cow.init, this]
    rfl
  · simp [Cow.init, Cells.at] at h
  · rw [hv, he]; exact ⟨0, by simp [view]⟩
  · simp [Cow.init, Cells.at] at h
  · simp [Cow.init, Cells.at] at h

/-- Without owners no cell is left: the live cell of greatest depth would have no owner. -/
theorem no_live {c : Cells} {own : List Ref} (hc : Counted c own) (hw : Whole c) (ho : ∀ r ∈ own, r.addr = none)
    (a : Nat) : c.at a = none := by
  -- no live cell has a value at depth `≥ n` only, by induction downwards
  have key : ∀ n a x, c.at a = some x → ∃ b y, c.at b = some y ∧ view c n (y.body.ref b) = none := by
    intro n
    induction n with
    | zero =>
      intro a x hx
      exact ⟨a, x, hx, by cases x.body <;> simp [Body.ref, view]⟩
    | succ n ih =>
      intro a x hx
      obtain ⟨b, y, hy, hn⟩ := ih a x hx
      -- some live cell owns `b`
      have hpos := hc.pos b y hy
      have heq := hc.eq b
      rw [cnt_some hy] at heq
      have hz : occ b own = 0 := by
        rw [occ, List.countP_eq_zero]
        intro r hr
        simp [ho r hr]
      have : 0 < occ b c.refs := by omega
      rw [occ, List.countP_pos_iff] at this
      obtain ⟨r, hr, hrb⟩ := this
      have hrb : r.addr = some b := by simpa using hrb
      rw [refs_eq, List.mem_flatMap] at hr
      obtain ⟨o, ho', hro⟩ := hr
      obtain ⟨i, hi⟩ := List.mem_iff_getElem?.1 ho'
      cases o with
      | none => simp [optRefs] at hro
      | some z =>
        have hz : c.at i = some z := by simp [Cells.at, hi]
        refine ⟨i, z, hz, ?_⟩
        have hrn : view c n r = none := by
          obtain ⟨d, v, hd⟩ := hw b y hy
          by_cases hk : r = y.body.ref b
          · rw [hk]; exact hn
          · -- a reference of the wrong kind has no value
            cases n with
            | zero => cases r <;> simp [Ref.addr] at hrb <;> simp [view]
            | succ n =>
              obtain ⟨m, body⟩ := y
              cases r with
              | obj a' =>
                cases hrb
                cases body with
                | fields fs => exact absurd rfl hk
                | elems es => rw [view_obj, hy]
              | arr a' =>
                cases hrb
                cases body with
                | fields fs => rw [view_arr, hy]
                | elems es => exact absurd rfl hk
              | _ => simp [Ref.addr] at hrb
        obtain ⟨m, body⟩ := z
        cases body with
        | fields fs =>
          simp only [optRefs, Body.refs] at hro
          simp only [Body.ref]
          rw [view_obj, hz]
          simp only [Option.map_eq_none_iff]
          cases hm : mapFields (view c n) fs with
          | none => rfl
          | some vs =>
            exfalso
            clear hz ho' hi
            induction fs generalizing vs with
            | nil => simp at hro
            | cons g fs ihf =>
              obtain ⟨k, q⟩ := g
              obtain ⟨v, vs', e1, e2, _⟩ := mapFields_cons hm
              simp only [List.map_cons, List.mem_cons] at hro
              rcases hro with hro | hro
              · subst hro; rw [hrn] at e1; cases e1
              · exact ihf hro vs' e2
        | elems es =>
          simp only [optRefs, Body.refs] at hro
          simp only [Body.ref]
          rw [view_arr, hz]
          simp only [Option.map_eq_none_iff]
          cases hm : mapElems (view c n) es with
          | none => rfl
          | some vs =>
            exfalso
            clear hz ho' hi
            induction es generalizing vs with
            | nil => simp at hro
            | cons q fs ihf =>
              obtain ⟨v, vs', e1, e2, _⟩ := mapElems_cons hm
              simp only [List.mem_cons] at hro
              rcases hro with hro | hro
              · subst hro; rw [hrn] at e1; cases e1
              · exact ihf hro vs' e2
  -- all live cells have a value at one common depth
  have bound : ∀ (m : Nat), ∃ n, ∀ b y, b < m → c.at b = some y → (view c n (y.body.ref b)).isSome := by
    intro m
    induction m with
    | zero => exact ⟨0, fun b y hb => absurd hb (by omega)⟩
    | succ m ih =>
      obtain ⟨n, hn⟩ := ih
      cases hm : c.at m with
      | none =>
        refine ⟨n, fun b y hb hy => ?_⟩
        by_cases e : b = m
        · subst e; rw [hm] at hy; cases hy
        · exact hn b y (by omega) hy
      | some z =>
        obtain ⟨d, v, hd⟩ := hw m z hm
        refine ⟨n + d, fun b y hb hy => ?_⟩
        by_cases e : b = m
        · subst e; rw [hm] at hy; cases hy
          rw [view_mono hd (by omega)]; rfl
        · have := hn b y (by omega) hy
          rw [Option.isSome_iff_exists] at this
          obtain ⟨w, hw'⟩ := this
          rw [view_mono hw' (by omega)]; rfl
  cases ha : c.at a with
  | none => rfl
  | some x =>
    obtain ⟨n, hn⟩ := bound c.length
    obtain ⟨b, y, hy, hnone⟩ := key n a x ha
    have := hn b y (at_lt hy) hy
    rw [hnone] at this
    cases this

end Dart.Cow
