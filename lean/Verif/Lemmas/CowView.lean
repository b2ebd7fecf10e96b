import Verif.Lemmas.CowCursor
import Verif.Spec.Views

/-
Views follow the values of variables.
-/
namespace Dart.Cow
open Dart.Spec.Indep Dart.Spec.Views

/-- The place of the nested owner under a key or index. -/
def locIn : Ref → Key → Option Loc
  | .obj a, .name k => some (.field a k)
  | .arr a, .index i => some (.elem a i.toNat)
  | _, _ => none

/-- The nested owner under a key or index. -/
def child (s : State) (r : Ref) (k : Key) : Option Ref := (locIn r k).bind s.at

/-- The nested owner under a path. -/
def walkRef (s : State) : Ref → List Key → Option Ref
  | r, [] => some r
  | r, k :: p => (child s r k).bind fun r' => walkRef s r' p

theorem walkRef_append (s : State) (k : Key) : ∀ (p : List Key) (r : Ref),
    walkRef s r (p ++ [k]) = (walkRef s r p).bind fun r' => child s r' k
  | [], r => by simp only [List.nil_append, walkRef, Option.bind_some]; cases child s r k <;> rfl
  | k' :: p, r => by
    simp only [List.cons_append, walkRef]
    cases child s r k' with
    | none => rfl
    | some r' => exact walkRef_append s k p r'

theorem walk_append (k : Key) : ∀ (p : List Key) (v : Val),
    walk v (p ++ [k]) = (walk v p).bind fun v' => (item v' k).toOption
  | [], v => by simp only [List.nil_append, walk, Option.bind_some]; cases (item v k).toOption <;> rfl
  | k' :: p, v => by
    simp only [List.cons_append, walk]
    cases (item v k').toOption with
    | none => rfl
    | some r' => exact walk_append k p r'

/-- The cases in which there is a nested owner. -/
theorem child_some {s : State} {r r' : Ref} {k : Key} (h : child s r k = some r') :
    (∃ a n fs key, r = .obj a ∧ k = .name key ∧ s.cells.at a = some ⟨n, .fields fs⟩ ∧ mapFind key fs = some r') ∨
    (∃ a n es i, r = .arr a ∧ k = .index i ∧ s.cells.at a = some ⟨n, .elems es⟩ ∧ es[i.toNat]? = some r') := by
  cases r <;> cases k <;> simp only [child, locIn, Option.bind_none, Option.bind_some, reduceCtorEq] at h
  · rename_i a key
    simp only [State.at] at h
    split at h
    · rename_i n fs hc; exact .inl ⟨a, n, fs, key, rfl, rfl, hc, h⟩
    · cases h
  · rename_i a i
    simp only [State.at] at h
    split at h
    · rename_i n es hc; exact .inr ⟨a, n, es, i, rfl, rfl, hc, h⟩
    · cases h

theorem child_mem {s : State} {r r' : Ref} {k : Key} (h : child s r k = some r') :
    ∃ a cell, r.addr = some a ∧ s.cells.at a = some cell ∧ r' ∈ cell.body.refs := by
  rcases child_some h with ⟨a, n, fs, key, rfl, rfl, h1, h2⟩ | ⟨a, n, es, i, rfl, rfl, h1, h2⟩
  · exact ⟨a, _, rfl, h1, mem_mapFind h2⟩
  · exact ⟨a, _, rfl, h1, List.mem_of_getElem? h2⟩

/-- A nested owner has the nested value. -/
theorem child_value {s : State} {r r' : Ref} {k : Key} {d : Nat} {v : Val} (h : child s r k = some r')
    (hv : view s.cells d r = some v) : ∃ d' v', view s.cells d' r' = some v' ∧ item v k = .ok v' := by
  rcases child_some h with ⟨a, n, fs, key, rfl, rfl, h1, h2⟩ | ⟨a, n, es, i, rfl, rfl, h1, h2⟩
  · obtain ⟨n', fs', d', vs, g1, g2, rfl⟩ := holds_obj ⟨d, hv⟩
    rw [h1] at g1; cases g1
    rcases mapFields_find key g2 with ⟨q1, q2⟩ | ⟨r, v, q1, q2, q3⟩
    · rw [q1] at h2; cases h2
    · rw [q1] at h2; cases h2
      exact ⟨d', v, q2, by simp [item, Val.get, q3]⟩
  · obtain ⟨n', fs', d', vs, g1, g2, rfl⟩ := holds_arr ⟨d, hv⟩
    rw [h1] at g1; cases g1
    rcases mapElems_get i.toNat g2 with ⟨q1, q2⟩ | ⟨r, v, q1, q2, q3⟩
    · rw [q1] at h2; cases h2
    · rw [q1] at h2; cases h2
      obtain ⟨hl, he⟩ := List.getElem?_eq_some_iff.1 q3
      exact ⟨d', v, q2, by simp [item, Val.getIdx, hl, he]⟩

theorem walk_value {s : State} : ∀ {p : List Key} {r r' : Ref} {d : Nat} {v : Val}, walkRef s r p = some r' →
    view s.cells d r = some v → ∃ d' v', view s.cells d' r' = some v' ∧ walk v p = some v'
  | [], r, r', d, v, h, hv => by simp only [walkRef] at h; cases h; exact ⟨d, v, hv, rfl⟩
  | k :: p, r, r', d, v, h, hv => by
    simp only [walkRef, Option.bind_eq_some_iff] at h
    obtain ⟨r₁, h1, h2⟩ := h
    obtain ⟨d₁, v₁, h3, h4⟩ := child_value h1 hv
    obtain ⟨d₂, v₂, h5, h6⟩ := walk_value h2 h3
    exact ⟨d₂, v₂, h5, by simp [walk, h4, Res.toOption, h6]⟩

/-- The storage an owner refers to has the same contents in two states. -/
def SameBody (s s' : State) (r : Ref) : Prop :=
  ∀ a, r.addr = some a → ∃ m n body, s.cells.at a = some ⟨m, body⟩ ∧ s'.cells.at a = some ⟨n, body⟩

/-- A property of owners that is inherited by nested ones and keeps their storage. -/
structure Safe (s s' : State) (P : Ref → Prop) : Prop where
  body : ∀ r, P r → SameBody s s' r
  nested : ∀ r r' k, P r → child s r k = some r' → P r'

theorem child_same {s s' : State} {r r' : Ref} {k : Key} (h : child s r k = some r') (hb : SameBody s s' r) :
    child s' r k = some r' := by
  rcases child_some h with ⟨a, n, fs, key, rfl, rfl, h1, h2⟩ | ⟨a, n, es, i, rfl, rfl, h1, h2⟩
  · obtain ⟨m, n', body, g1, g2⟩ := hb a rfl
    rw [h1] at g1; cases g1
    simp [child, locIn, State.at, g2, h2]
  · obtain ⟨m, n', body, g1, g2⟩ := hb a rfl
    rw [h1] at g1; cases g1
    simp [child, locIn, State.at, g2, h2]

theorem walk_same {s s' : State} {P : Ref → Prop} (hs : Safe s s' P) : ∀ {p : List Key} {r r' : Ref}, P r →
    walkRef s r p = some r' → walkRef s' r p = some r' ∧ P r'
  | [], r, r', hr, h => by simp only [walkRef] at h ⊢; cases h; exact ⟨rfl, hr⟩
  | k :: p, r, r', hr, h => by
    simp only [walkRef, Option.bind_eq_some_iff] at h
    obtain ⟨r₁, h1, h2⟩ := h
    obtain ⟨h3, h4⟩ := walk_same hs (hs.nested r r₁ k hr h1) h2
    exact ⟨by simp only [walkRef, child_same h1 (hs.body r hr), Option.bind_some, h3], h4⟩

/-- Owners that live in both states and are not the variable `x`. -/
def Apart (s s' : State) (x : Nat) (r : Ref) : Prop :=
  ((∃ z, z ≠ x ∧ s.var z = r) ∨ r ∈ s.cells.refs) ∧ ((∃ z, s'.var z = r) ∨ r ∈ s'.cells.refs)

theorem live_of {s : State} {e : Env} {r : Ref} {a : Nat} (hs : Sim s e) (h : (∃ z, s.var z = r) ∨ r ∈ s.cells.refs)
    (ha : r.addr = some a) : ∃ cell, s.cells.at a = some cell := by
  refine hs.counted.live ?_
  rcases h with ⟨z, rfl⟩ | h
  · have := occ_pos (var_mem (var_lt ha)) ha; omega
  · have := occ_pos h ha; omega

theorem safe_frame {s s' : State} {e e' : Env} {x : Nat} {xs : List Nat} (hs : Sim s e) (hs' : Sim s' e')
    (hf : Frame s x xs s') : Safe s s' (Apart s s' x) := by
  have hb : ∀ r, Apart s s' x r → SameBody s s' r := by
    rintro r ⟨h1, h2⟩ a ha
    obtain ⟨⟨m, body⟩, hc⟩ := live_of hs (h1.imp (fun ⟨z, _, h⟩ => ⟨z, h⟩) id) ha
    obtain ⟨⟨n, body'⟩, hc'⟩ := live_of hs' h2 ha
    obtain ⟨z, hz, he⟩ := hf.keeps a (at_lt hc) (fun hxa => by
      refine Nat.lt_of_not_le fun hle => ?_
      have hpos := hs.counted.pos _ _ hc
      have h1' : cnt s.cells a = 1 := by rw [cnt_some hc] at hle ⊢; simp only at hle hpos ⊢; omega
      have hal := alone hs (var_lt hxa) hxa h1'
      rcases h1 with ⟨z, hz, rfl⟩ | h1
      · exact hal.2 z hz ha
      · exact addr_ne_of_occ h1 hal.1 ha) _ hc'
    rw [hc] at hz; cases hz
    simp only at he; subst he
    exact ⟨m, n, body, hc, hc'⟩
  refine ⟨hb, fun r r' k hr h => ?_⟩
  obtain ⟨a, cell, h1, h2, h3⟩ := child_mem h
  obtain ⟨a', cell', g1, g2, g3⟩ := child_mem (child_same h (hb r hr))
  exact ⟨.inr (mem_refs h2 h3), .inr (mem_refs g2 g3)⟩

/-- Any owner of both states, if all storage of the second is storage of the first. -/
def InBoth (s s' : State) (r : Ref) : Prop :=
  ((∃ z, s.var z = r) ∨ r ∈ s.cells.refs) ∧ ((∃ z, s'.var z = r) ∨ r ∈ s'.cells.refs)

theorem safe_sub {s s' : State} {e e' : Env} (hs : Sim s e) (hs' : Sim s' e') (hsub : Sub s'.cells s.cells) :
    Safe s s' (InBoth s s') := by
  have hb : ∀ r, InBoth s s' r → SameBody s s' r := by
    rintro r ⟨h1, h2⟩ a ha
    obtain ⟨⟨n, body'⟩, hc'⟩ := live_of hs' h2 ha
    obtain ⟨⟨m, body⟩, hz, he⟩ := hsub a _ hc'
    simp only at he; subst he
    exact ⟨m, n, body, hz, hc'⟩
  refine ⟨hb, fun r r' k hr h => ?_⟩
  obtain ⟨a, cell, h1, h2, h3⟩ := child_mem h
  obtain ⟨a', cell', g1, g2, g3⟩ := child_mem (child_same h (hb r hr))
  exact ⟨.inr (mem_refs h2 h3), .inr (mem_refs g2 g3)⟩

/-- The value of an owner without storage. -/
def leaf : Ref → Option Val
  | .null => some .null
  | .bool b => some (.bool b)
  | .int i => some (.int i)
  | .dec d => some (.dec d)
  | .str t => some (.str t)
  | _ => none

/-- The machine view does what the specified view is meant to do. -/
def Shows (s : State) : View → VwVar → Prop
  | .snap v, m => ∃ r, m = .data r ∧ leaf r = some v
  | .live x [], m => ∃ o, (s.var x).isAggr o = true ∧ m = .aggr o (.var x)
  | .live x (k :: p), m => ∃ q k' r₀ loc r o, k :: p = q ++ [k'] ∧ walkRef s (s.var x) q = some r₀ ∧
      locIn r₀ k' = some loc ∧ s.at loc = some r ∧ r.isAggr o = true ∧ m = .aggr o loc
  | .lost, _ => True

/-- All variables and views follow their specification. -/
structure Mirrors (s : VState) (w : World) : Prop where
  sim : Sim s.st w.env
  len : s.vws.length = w.views.length
  shows : ∀ i, Shows s.st (w.view i) (s.vw i)

theorem Mirrors.map {s : VState} {w : World} {st : State} {env : Env} {f : View → View} {g : VwVar → VwVar} (h : Mirrors s w)
    (hs : Sim st env) (hf : f (.snap .null) = .snap .null) (hg : g (.data .null) = .data .null)
    (ht : ∀ c v, Shows s.st c v → Shows st (f c) (g v)) : Mirrors ⟨st, s.vws.map g⟩ ⟨env, w.views.map f⟩ := by
  refine ⟨hs, by simpa using h.len, fun i => ?_⟩
  have h1 : (⟨st, s.vws.map g⟩ : VState).vw i = g (s.vw i) := by
    simp only [VState.vw]; rw [← hg, map_getD, hg]
  have h2 : (⟨env, w.views.map f⟩ : World).view i = f (w.view i) := by
    simp only [World.view]; rw [← hf, map_getD, hf]
  rw [h1, h2]
  exact ht _ _ (h.shows i)

theorem Mirrors.point {s : VState} {w : World} {c : View} {v : VwVar} (h : Mirrors s w) (i : Nat) (ht : Shows s.st c v) :
    Mirrors (s.point i v) (w.point i c) := by
  refine ⟨h.sim, by simpa [VState.point, World.point] using h.len, fun j => ?_⟩
  simp only [VState.vw, World.view, VState.point, World.point, List.getElem?_set]
  by_cases hij : i = j
  · subst hij
    have := h.len
    by_cases hi : i < s.vws.length
    · simp only [if_true, hi, show i < w.views.length by omega, Option.getD_some]; exact ht
    · simp only [if_true, hi, show ¬ i < w.views.length by omega, if_false]; exact ⟨.null, rfl, rfl⟩
  · simp only [if_neg hij]; exact h.shows j

/-- Variable and value have the same kind. -/
theorem aggr_kind {s : State} {e : Env} {x : Nat} {o : Bool} (h : Sim s e) :
    (s.var x).isAggr o = true ↔ (o = true ∧ ∃ f, e.var x = .obj f) ∨ (o = false ∧ ∃ l, e.var x = .arr l) := by
  rcases kind h (x := x) with ⟨a, ha⟩ | ⟨a, ha⟩ | ⟨k1, k2, k3, k4⟩
  · obtain ⟨n, fs, d, vs, g1, g2, g3, _⟩ := common_obj h ha x
    rw [ha, g3]
    cases o <;> simp [Ref.isAggr]
  · obtain ⟨n, fs, d, vs, g1, g2, g3, _⟩ := common_arr h ha x
    rw [ha, g3]
    cases o <;> simp [Ref.isAggr]
  · have : (s.var x).isAggr o = false := by
      cases hv : s.var x <;> simp_all [Ref.isAggr]
    simp [this, k3, k4]

/-- A view of a whole variable. -/
theorem shows_whole {s s' : State} {e e' : Env} {x : Nat} {xs : List Nat} {m : VwVar} (hs : Sim s e) (hs' : Sim s' e')
    (h : Shows s (.live x []) m) : Shows s' (renew e e' xs (.live x [])) (m.age s s') := by
  obtain ⟨o, h1, rfl⟩ := h
  simp only [renew]
  split
  · rename_i hk
    have h2 : (s'.var x).isAggr o = true := by
      rw [aggr_kind hs]at h1
      rw [aggr_kind hs']
      rcases h1 with ⟨rfl, f, hf⟩ | ⟨rfl, l, hl⟩
      · rw [hf] at hk
        cases hv : e'.var x <;> simp_all [sameKind]
      · rw [hl] at hk
        cases hv : e'.var x <;> simp_all [sameKind]
    exact ⟨o, h2, by simp [VwVar.age, Loc.survives, h2]⟩
  · trivial

/-- A view of a part, if all storage on the way is unchanged. -/
theorem shows_part {s s' : State} {P : Ref → Prop} {x z : Nat} {k : Key} {p : List Key} {m : VwVar} (hs : Safe s s' P)
    (hP : P (s.var x)) (hv : s'.var z = s.var x) (h : Shows s (.live x (k :: p)) m) :
    Shows s' (.live z (k :: p)) (m.age s s') := by
  obtain ⟨q, k', r₀, loc, r, o, h1, h2, h3, h4, h5, rfl⟩ := h
  obtain ⟨g1, g2⟩ := walk_same hs hP h2
  have hch : child s r₀ k' = some r := by simp [child, h3, h4]
  have hch' := child_same hch (hs.body r₀ g2)
  have h4' : s'.at loc = some r := by simpa [child, h3] using hch'
  refine ⟨q, k', r₀, loc, r, o, h1, by rw [hv]; exact g1, h3, h4', h5, ?_⟩
  have : loc.survives s s' o = true := by
    rcases child_some hch with ⟨a, n, fs, key, rfl, rfl, q1, q2⟩ | ⟨a, n, es, i, rfl, rfl, q1, q2⟩
    · simp only [locIn] at h3; cases h3
      simp [Loc.survives, h4', h5]
    · simp only [locIn] at h3; cases h3
      obtain ⟨m, n', body, b1, b2⟩ := hs.body _ g2 a rfl
      rw [q1] at b1; cases b1
      simp [Loc.survives, q1, b2, q2, h5]
  simp [VwVar.age, this]

theorem walk_var {s : State} {x : Nat} {q : List Key} {r₀ r : Ref} {k : Key} (h : walkRef s (s.var x) q = some r₀)
    (hc : child s r₀ k = some r) : ∃ a, (s.var x).addr = some a := by
  cases q with
  | nil =>
    simp only [walkRef] at h; cases h
    obtain ⟨a, _, h1, _⟩ := child_mem hc
    exact ⟨a, h1⟩
  | cons k' q =>
    simp only [walkRef, Option.bind_eq_some_iff] at h
    obtain ⟨r', h', _⟩ := h
    obtain ⟨a, _, h1, _⟩ := child_mem h'
    exact ⟨a, h1⟩

theorem shows_renew {s s' : State} {e e' : Env} {x : Nat} {xs : List Nat} {c : View} {m : VwVar} (hs : Sim s e) (hs' : Sim s' e')
    (hf : Frame s x xs s') (hx : x ∈ xs) (h : Shows s c m) : Shows s' (renew e e' xs c) (m.age s s') := by
  cases c with
  | snap v => obtain ⟨r, rfl, h⟩ := h; exact ⟨r, rfl, h⟩
  | lost => trivial
  | live z p =>
    cases p with
    | nil => exact shows_whole hs hs' h
    | cons k p =>
      simp only [renew]
      split
      · trivial
      · rename_i hz
        have hv := hf.vars z hz
        exact shows_part (safe_frame hs hs' hf) ⟨.inl ⟨z, fun e => hz (e ▸ hx), rfl⟩, .inl ⟨z, hv⟩⟩ hv h

/-- State and outcome are as specified. -/
structure Matches (s : VState) (o : VOut) (p : World × Res Glimpse) : Prop where
  mirrors : Mirrors o.1 p.1
  same : o.2 = p.2
  length : o.1.st.vars.length = s.st.vars.length

/-- What one statement must achieve, if the client may make it. -/
def GoodV (s : VState) (o : VOut) (p : World × Res Glimpse) : Prop := p.2 ≠ .ub → Matches s o p

theorem leaf_view {c : Cells} {r : Ref} {v : Val} (d : Nat) (h : leaf r = some v) : view c d r = some v := by
  cases r <;> simp_all [leaf, view]

theorem leaf_addr {r : Ref} {v : Val} (h : leaf r = some v) : r.addr = none := by
  cases r <;> simp_all [leaf, Ref.addr]

/-- A view that shows a value: the owner behind it. -/
theorem target_ok {s : VState} {w : World} {i : Nat} {v : Val} (h : Mirrors s w) (hv : w.shows i = some v) :
    ∃ r d, s.target i = some r ∧ view s.st.cells d r = some v ∧ (r ∈ s.st.vars ∨ r ∈ s.st.cells.refs ∨ leaf r = some v) ∧
      (∀ o, r.isAggr o = true → ∃ x p, w.view i = .live x p ∧ walkRef s.st (s.st.var x) p = some r) := by
  have ht := h.shows i
  simp only [World.shows] at hv
  simp only [VState.target]
  cases hw : w.view i with
  | lost => simp [hw] at hv
  | snap v' =>
    rw [hw] at ht hv
    simp only [Option.some.injEq] at hv; subst hv
    obtain ⟨r, h1, h2⟩ := ht
    rw [h1]
    refine ⟨r, 0, rfl, leaf_view 0 h2, .inr (.inr h2), fun o ho => ?_⟩
    cases r <;> simp_all [leaf, Ref.isAggr]
  | live x p =>
    rw [hw] at ht hv
    simp only at hv
    obtain ⟨d, hd⟩ := h.sim.holds x
    cases p with
    | nil =>
      simp only [walk, Option.some.injEq] at hv; subst hv
      obtain ⟨o, h1, h2⟩ := ht
      rw [h2]
      refine ⟨s.st.var x, d, rfl, hd, ?_, fun o' _ => ⟨x, [], rfl, rfl⟩⟩
      have : ∃ a, (s.st.var x).addr = some a := by cases hr : s.st.var x <;> simp_all [Ref.isAggr, Ref.addr]
      obtain ⟨a, ha⟩ := this
      exact .inl (var_mem (var_lt ha))
    | cons k p =>
      obtain ⟨q, k', r₀, loc, r, o, h1, h2, h3, h4, h5, h6⟩ := ht
      have hch : child s.st r₀ k' = some r := by simp [child, h3, h4]
      have hwk : walkRef s.st (s.st.var x) (k :: p) = some r := by rw [h1, walkRef_append, h2]; exact hch
      obtain ⟨d', v', g1, g2⟩ := walk_value hwk hd
      rw [hv] at g2; cases g2
      obtain ⟨a, cell, c1, c2, c3⟩ := child_mem hch
      rw [h6]
      exact ⟨r, d', h4, g1, .inr (.inl (mem_refs c2 c3)), fun _ _ => ⟨x, _, rfl, hwk⟩⟩

theorem shows_null (s : State) : Shows s (.snap .null) (.data .null) := ⟨.null, rfl, rfl⟩

/-- The new view of an owner with this value. -/
theorem mkView_cases {c : Cells} {d : Nat} {r : Ref} {v : Val} (loc : Loc) (h : view c d r = some v) :
    (isAggregate v = true ∧ ∃ o, r.isAggr o = true ∧ mkView loc r = .aggr o loc) ∨
    (isAggregate v = false ∧ leaf r = some v ∧ mkView loc r = .data r) := by
  cases r with
  | obj a =>
    obtain ⟨_, _, _, _, _, _, rfl⟩ := holds_obj ⟨d, h⟩
    exact .inl ⟨rfl, true, rfl, rfl⟩
  | arr a =>
    obtain ⟨_, _, _, _, _, _, rfl⟩ := holds_arr ⟨d, h⟩
    exact .inl ⟨rfl, false, rfl, rfl⟩
  | _ => simp only [view, Option.some.injEq] at h; subst h; exact .inr ⟨rfl, rfl, rfl⟩

theorem look_ok {s : VState} {w : World} (i x : Nat) (h : Mirrors s w) :
    GoodV s (vstep s (.look i x)) (Spec.Views.step w (.look i x)) := by
  intro _
  refine ⟨h.point i ?_, rfl, rfl⟩
  obtain ⟨d, hd⟩ := h.sim.holds x
  rcases mkView_cases (.var x) hd with ⟨h1, o, h2, h3⟩ | ⟨h1, h2, h3⟩
  · simp only [seen, h1, if_true, h3]; exact ⟨o, h2, rfl⟩
  · simp only [seen, h1, Bool.false_eq_true, if_false, h3]; exact ⟨_, rfl, h2⟩

theorem dupv_ok {s : VState} {w : World} (i j : Nat) (h : Mirrors s w) :
    GoodV s (vstep s (.dup i j)) (Spec.Views.step w (.dup i j)) :=
  fun _ => ⟨h.point i (h.shows j), rfl, rfl⟩

theorem takev_ok {s : VState} {w : World} (i j : Nat) (h : Mirrors s w) :
    GoodV s (vstep s (.take i j)) (Spec.Views.step w (.take i j)) := by
  intro _
  simp only [vstep, Spec.Views.step]
  split
  · exact ⟨h, rfl, rfl⟩
  · exact ⟨(h.point i (h.shows j)).point j (shows_null _), rfl, rfl⟩

theorem what_ok {s : VState} {w : World} (i : Nat) (h : Mirrors s w) :
    GoodV s (vstep s (.what i)) (Spec.Views.step w (.what i)) := by
  intro hub
  simp only [vstep, Spec.Views.step, VState.use] at hub ⊢
  cases hv : w.shows i with
  | none => simp [hv] at hub
  | some v =>
    obtain ⟨r, d, h1, h2, _⟩ := target_ok h hv
    simp only [h1]
    refine ⟨h, ?_, rfl⟩
    cases r with
    | obj a => obtain ⟨_, _, _, _, _, _, rfl⟩ := holds_obj ⟨d, h2⟩; rfl
    | arr a => obtain ⟨_, _, _, _, _, _, rfl⟩ := holds_arr ⟨d, h2⟩; rfl
    | _ => simp only [view, Option.some.injEq] at h2; subst h2; rfl

theorem sizev_ok {s : VState} {w : World} (i : Nat) (h : Mirrors s w) :
    GoodV s (vstep s (.size i)) (Spec.Views.step w (.size i)) := by
  intro hub
  simp only [vstep, Spec.Views.step, VState.use] at hub ⊢
  cases hv : w.shows i with
  | none => simp [hv] at hub
  | some v =>
    obtain ⟨r, d, h1, h2, _⟩ := target_ok h hv
    simp only [h1]
    refine ⟨h, ?_, rfl⟩
    cases r with
    | obj a =>
      obtain ⟨_, _, _, _, g1, g2, rfl⟩ := holds_obj ⟨d, h2⟩
      have := congrArg List.length (mapFields_keys g2)
      simp only [List.length_map] at this
      simp only [sizeOf, g1, Val.size, this]
    | arr a =>
      obtain ⟨_, _, _, _, g1, g2, rfl⟩ := holds_arr ⟨d, h2⟩
      simp only [sizeOf, g1, Val.size, mapElems_length g2]
    | _ => simp only [view, Option.some.injEq] at h2; subst h2; rfl

/-- A view of a nested owner. -/
theorem part_shows {s : VState} {w : World} {j : Nat} {r r' : Ref} {k : Key} {loc : Loc} {d : Nat} {u : Val} {x : Nat} {p : List Key}
    (hw : w.view j = .live x p) (hr : walkRef s.st (s.st.var x) p = some r) (hl : locIn r k = some loc)
    (ha : s.st.at loc = some r') (hu : view s.st.cells d r' = some u) :
    Shows s.st (part k u (w.view j)) (mkView loc r') := by
  rw [hw]
  simp only [part, seen]
  rcases mkView_cases loc hu with ⟨h1, o, h2, h3⟩ | ⟨h1, h2, h3⟩
  · rw [if_pos h1, h3]
    cases p with
    | nil => exact ⟨[], k, r, loc, r', o, rfl, hr, hl, ha, h2, rfl⟩
    | cons k' p => exact ⟨k' :: p, k, r, loc, r', o, rfl, hr, hl, ha, h2, rfl⟩
  · rw [if_neg (by simp [h1]), h3]; exact ⟨_, rfl, h2⟩

theorem sub_ok {s : VState} {w : World} (i j : Nat) (k : Key) (h : Mirrors s w) :
    GoodV s (vstep s (.sub i j k)) (Spec.Views.step w (.sub i j k)) := by
  intro hub
  simp only [vstep, Spec.Views.step, VState.use] at hub ⊢
  cases hv : w.shows j with
  | none => simp [hv] at hub
  | some v =>
    obtain ⟨r, d, h1, h2, _, h4⟩ := target_ok h hv
    simp only [h1]
    have hnull : ∀ x p, w.view j = .live x p → Shows s.st (part k .null (w.view j)) (.data .null) := fun x p hw => by
      rw [hw]; exact shows_null _
    cases k with
    | name key =>
      cases r with
      | obj a =>
        obtain ⟨n, fs, d', vs, g1, g2, rfl⟩ := holds_obj ⟨d, h2⟩
        obtain ⟨x, p, q1, q2⟩ := h4 true rfl
        simp only [subView, g1, item, Val.get]
        refine ⟨h.point i ?_, rfl, rfl⟩
        rcases mapFields_find key g2 with ⟨c1, c2⟩ | ⟨r', u, c1, c2, c3⟩
        · rw [c1, c2]; exact hnull x p q1
        · rw [c1, c3]
          exact part_shows q1 q2 rfl (by simp only [State.at, g1, c1]) c2
      | arr a =>
        obtain ⟨_, _, _, _, _, _, rfl⟩ := holds_arr ⟨d, h2⟩
        exact ⟨h, rfl, rfl⟩
      | _ => simp only [view, Option.some.injEq] at h2; subst h2; exact ⟨h, rfl, rfl⟩
    | index idx =>
      cases r with
      | arr a =>
        obtain ⟨n, es, d', vs, g1, g2, rfl⟩ := holds_arr ⟨d, h2⟩
        obtain ⟨x, p, q1, q2⟩ := h4 false rfl
        simp only [subView, g1, item, Val.getIdx]
        refine ⟨h.point i ?_, rfl, rfl⟩
        rcases mapElems_get idx.toNat g2 with ⟨c1, c2⟩ | ⟨r', u, c1, c2, c3⟩
        · have : ¬ idx.toNat < vs.length := by
            rw [List.getElem?_eq_none_iff] at c2; omega
          rw [c1]
          simp only [this, dite_false, Option.map_none, Option.getD_none]
          exact hnull x p q1
        · obtain ⟨hl, he⟩ := List.getElem?_eq_some_iff.1 c3
          rw [c1]
          simp only [hl, dite_true, he, Option.map_some, Option.getD_some]
          exact part_shows q1 q2 rfl (by simp only [State.at, g1, c1]) c2
      | obj a =>
        obtain ⟨_, _, _, _, _, _, rfl⟩ := holds_obj ⟨d, h2⟩
        exact ⟨h, rfl, rfl⟩
      | _ => simp only [view, Option.some.injEq] at h2; subst h2; exact ⟨h, rfl, rfl⟩

theorem age_null (s s' : State) : VwVar.age s s' (.data .null) = .data .null := rfl

theorem own_ok {s : VState} {w : World} (z i : Nat) (h : Mirrors s w) (hz : z < s.st.vars.length) :
    GoodV s (vstep s (.own z i)) (Spec.Views.step w (.own z i)) := by
  intro hub
  simp only [vstep, Spec.Views.step, VState.use] at hub ⊢
  cases hv : w.shows i with
  | none => simp [hv] at hub
  | some v =>
    obtain ⟨r, d, h1, h2, h3, _⟩ := target_ok h hv
    simp only [h1]
    have : ∃ c s', incr s.st.cells r = some c ∧ assign ⟨c, s.st.vars⟩ z r = some s' ∧ Sim s' (w.env.set z v) ∧
        s'.vars.length = s.st.vars.length := by
      rcases h3 with h3 | h3 | h3
      · exact share_ok h.sim hz (.inl h3) ⟨d, h2⟩
      · exact share_ok h.sim hz (.inr (.inl h3)) ⟨d, h2⟩
      · obtain ⟨st, g1, g2, g3, _⟩ := Sim.assign (s := s.st) (c := s.st.cells) (r := r) (v := v) h.sim.len
          ⟨fun a => by rw [occ_cons, occ_one_none (by simp [leaf_addr h3]), Nat.zero_add]; exact h.sim.counted.eq a,
            h.sim.counted.pos⟩
          hz ⟨d, h2⟩ (fun z _ => h.sim.holds z) h.sim.tidy h.sim.whole
        exact ⟨s.st.cells, st, by simp [incr, leaf_addr h3], g1, g2, by rw [g3]; simp⟩
    obtain ⟨c, s', g1, g2, g3, g4⟩ := this
    simp only [g1, Option.bind_some, g2]
    exact ⟨h.map g3 rfl rfl fun _ _ ht => shows_renew h.sim g3 (share_frame (x := z) g1 g2) (by simp) ht, rfl, g4⟩

theorem plainv_ok {s : VState} {w : World} (op : Op) (h : Mirrors s w) (hu : ∀ x ∈ Spec.Indep.uses op, x < s.st.vars.length)
    (hc : Spec.Indep.Covered s.st op) : GoodV s (vstep s (.plain op)) (Spec.Views.step w (.plain op)) := by
  intro _
  obtain ⟨h1, h2, h3⟩ := step_ok h.sim hu hc
  have hf := step_frame hu hc
  refine ⟨?_, by simp only [vstep, Spec.Views.step, h2], h3⟩
  refine h.map (f := Spec.Views.follow w.env (Spec.Indep.step w.env op).1 op) h1 ?_ rfl fun c m ht => ?_
  · cases op <;> rfl
  · have hdef : Shows (Cow.step s.st op).1 (renew w.env (Spec.Indep.step w.env op).1 (changes op) c) (m.age s.st (Cow.step s.st op).1) :=
      shows_renew h.sim h1 hf (target_mem _) ht
    cases op with
    | move z y =>
      cases c with
      | live x p =>
        cases p with
        | nil => exact hdef
        | cons k p =>
          simp only [Spec.Views.follow]
          have hub : (Cow.move s.st z y).2 ≠ .ub := by
            intro hub
            simp only [Cow.step] at h2
            rw [hub] at h2
            simp [Spec.Indep.step] at h2
          split
          · rename_i hzy
            have : (Cow.step s.st (.move z y)).1 = s.st := by simp [Cow.step, Cow.move, hzy]
            rw [this] at h1 ⊢
            refine shows_part (P := InBoth s.st s.st) (safe_sub h.sim h.sim (Sub.refl _)) ⟨.inl ⟨x, rfl⟩, .inl ⟨x, rfl⟩⟩ rfl ht
          · rename_i hzy
            split
            · rename_i hxy
              subst hxy
              have hvz := move_frame (s := s.st) (z := z) (y := x) (x := z) |>.2 hzy (hu z (by simp [Spec.Indep.uses])) hub
              refine shows_part (z := z) (safe_sub h.sim h1 ?_) ⟨.inl ⟨x, rfl⟩, .inl ⟨z, hvz⟩⟩ hvz ht
              simp only [Cow.step]
              unfold Cow.move
              rw [if_neg hzy]
              cases ha : assign s.st z (s.st.var x) with
              | none => exact Sub.refl _
              | some s' => exact (assign_sub ha).1
            · rename_i hxy
              split
              · trivial
              · rename_i hxz
                simpa [renew, changes, hxy, hxz] using hdef
      | _ => exact hdef
    | _ => exact hdef

theorem vstep_ok {s : VState} {w : World} {op : VwOp} (h : Mirrors s w) (hu : ∀ x ∈ Spec.Views.uses op, x < s.st.vars.length)
    (hc : Spec.Views.Covered s.st op) : GoodV s (vstep s op) (Spec.Views.step w op) := by
  cases op with
  | plain op => exact plainv_ok op h hu hc
  | look i x => exact look_ok i x h
  | sub i j k => exact sub_ok i j k h
  | dup i j => exact dupv_ok i j h
  | take i j => exact takev_ok i j h
  | own z i => exact own_ok z i h (hu z (by simp [Spec.Views.uses]))
  | what i => exact what_ok i h
  | size i => exact sizev_ok i h

theorem vrun_ok {ops : List VwOp} : ∀ {s : VState} {w : World}, Mirrors s w →
    (∀ op ∈ ops, ∀ x ∈ Spec.Views.uses op, x < s.st.vars.length) → Spec.Views.CoveredRun s ops →
    (∀ o ∈ (Spec.Views.run w ops).2, o ≠ .ub) →
    Mirrors (vrun s ops).1 (Spec.Views.run w ops).1 ∧ (vrun s ops).2 = (Spec.Views.run w ops).2 := by
  induction ops with
  | nil => intro s w h _ _ _; exact ⟨h, rfl⟩
  | cons op ops ih =>
    intro s w h hu hc hub
    obtain ⟨h1, h2, h3⟩ := vstep_ok h (hu op (by simp)) hc.1 (hub _ (by simp [Spec.Views.run]))
    obtain ⟨h4, h5⟩ := ih h1 (fun o ho x hx => by rw [h3]; exact hu o (by simp [ho]) x hx) hc.2
      (fun o ho => hub o (by simp [Spec.Views.run, ho]))
    exact ⟨h4, by simp only [vrun, Spec.Views.run, h2, h5]⟩

theorem mirrors_init (n m : Nat) : Mirrors (vinit n m) (Spec.Views.init n m) := by
  refine ⟨sim_init n, by simp [vinit, Spec.Views.init], fun i => ?_⟩
  have h1 : (vinit n m).vw i = .data .null := by
    simp only [vinit, VState.vw, List.getElem?_replicate]; split <;> rfl
  have h2 : (Spec.Views.init n m).view i = .snap .null := by
    simp only [Spec.Views.init, World.view, List.getElem?_replicate]; split <;> rfl
  rw [h1, h2]
  exact shows_null _

end Dart.Cow
