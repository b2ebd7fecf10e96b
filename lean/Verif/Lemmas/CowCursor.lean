import Verif.Lemmas.CowPlace
import Verif.Lemmas.Container

/-
Programs with iterators: every statement acts as specified.
-/
namespace Dart.Cow
open Dart.Spec.Indep Dart.Spec.Cursor

/-- State and outcome are as specified. -/
structure Agrees (s : IState) (o : IOut) (p : World × Res Seen) : Prop where
  follows : Follows o.1 p.1
  same : o.2 = p.2
  length : o.1.st.vars.length = s.st.vars.length

/-- What one statement must achieve, if the client may make it. -/
def GoodI (s : IState) (o : IOut) (p : World × Res Seen) : Prop := p.2 ≠ .ub → Agrees s o p

/-- What the value of a variable says about its storage, and the other way round. -/
theorem sim_obj {s : State} {e : Env} {x : Nat} {vs : List (Bytes × Val)} (h : Sim s e) (hx : e.var x = .obj vs) :
    ∃ a n fs d, s.var x = .obj a ∧ s.cells.at a = some ⟨n, .fields fs⟩ ∧ mapFields (view s.cells d) fs = some vs ∧
      KeysSorted fs := by
  rcases kind h (x := x) with ⟨a, ha⟩ | ⟨a, ha⟩ | ⟨_, _, h3, _⟩
  · obtain ⟨n, fs, d, vs', g1, g2, g3, _⟩ := common_obj h ha x
    rw [hx] at g3; cases g3
    exact ⟨a, n, fs, d, ha, g1, g2, h.tidy a _ fs g1 rfl⟩
  · obtain ⟨n, fs, d, vs', g1, g2, g3, _⟩ := common_arr h ha x
    rw [hx] at g3; cases g3
  · exact absurd hx (h3 _)

theorem sim_arr {s : State} {e : Env} {x : Nat} {vs : List Val} (h : Sim s e) (hx : e.var x = .arr vs) :
    ∃ a n es d, s.var x = .arr a ∧ s.cells.at a = some ⟨n, .elems es⟩ ∧ mapElems (view s.cells d) es = some vs := by
  rcases kind h (x := x) with ⟨a, ha⟩ | ⟨a, ha⟩ | ⟨_, _, _, h3⟩
  · obtain ⟨n, fs, d, vs', g1, g2, g3, _⟩ := common_obj h ha x
    rw [hx] at g3; cases g3
  · obtain ⟨n, fs, d, vs', g1, g2, g3, _⟩ := common_arr h ha x
    rw [hx] at g3; cases g3
    exact ⟨a, n, fs, d, ha, g1, g2⟩
  · exact absurd hx (h3 _)

theorem sim_other {s : State} {e : Env} {x : Nat} (h : Sim s e) (h1 : ∀ f, e.var x ≠ .obj f) (h2 : ∀ f, e.var x ≠ .arr f) :
    (∀ a, s.var x ≠ .obj a) ∧ (∀ a, s.var x ≠ .arr a) := by
  refine ⟨fun a ha => ?_, fun a ha => ?_⟩
  · obtain ⟨n, fs, d, vs', g1, g2, g3, _⟩ := common_obj h ha x
    exact h1 _ g3
  · obtain ⟨n, fs, d, vs', g1, g2, g3, _⟩ := common_arr h ha x
    exact h2 _ g3

/-- Cases on a value: object, array or other. -/
theorem val_cases (v : Val) : (∃ fs, v = .obj fs) ∨ (∃ es, v = .arr es) ∨ ((∀ f, v ≠ .obj f) ∧ ∀ f, v ≠ .arr f) := by
  cases v with
  | obj fs => exact .inl ⟨fs, rfl⟩
  | arr es => exact .inr (.inl ⟨es, rfl⟩)
  | _ => exact .inr (.inr ⟨by simp, by simp⟩)

theorem items_other {v : Val} (keys : Bool) (h1 : ∀ f, v ≠ .obj f) (h2 : ∀ f, v ≠ .arr f) : items keys v = none := by
  cases v <;> first | rfl | exact absurd rfl (h1 _) | exact absurd rfl (h2 _)

theorem first_ok {s : IState} {w : World} (i x : Nat) (keys : Bool) (h : Follows s w) :
    GoodI s (istep s (.first i x keys)) (Spec.Cursor.step w (.first i x keys)) := by
  intro _
  simp only [istep, Spec.Cursor.step, Cow.first]
  rcases val_cases (w.env.var x) with ⟨vs, hv⟩ | ⟨vs, hv⟩ | ⟨h1, h2⟩
  · obtain ⟨a, n, fs, d, g1, g2, g3, g4⟩ := sim_obj h.sim hv
    simp only [g1, g2, hv, items, IState.found]
    exact ⟨h.point i ⟨a, n, .fields fs, g1, g2, Nat.zero_le _, fun _ => ⟨fs, rfl⟩, by rw [firstNode_eq]; rfl⟩, rfl, rfl⟩
  · obtain ⟨a, n, es, d, g1, g2, g3⟩ := sim_arr h.sim hv
    cases keys with
    | true => simp only [g1, hv, items, if_true, IState.found]; exact ⟨h, rfl, rfl⟩
    | false =>
      simp only [g1, hv, items, Bool.false_eq_true, if_false, IState.found]
      exact ⟨h.point i ⟨a, n, .elems es, g1, g2, Nat.zero_le _, by simp, rfl⟩, rfl, rfl⟩
  · obtain ⟨h3, h4⟩ := sim_other h.sim h1 h2
    rw [items_other keys h1 h2]
    cases hr : s.st.var x <;> simp only [IState.found] <;>
      first | exact ⟨h, rfl, rfl⟩ | exact absurd hr (h3 _) | exact absurd hr (h4 _)

theorem past_ok {s : IState} {w : World} (i x : Nat) (keys : Bool) (h : Follows s w) :
    GoodI s (istep s (.past i x keys)) (Spec.Cursor.step w (.past i x keys)) := by
  intro _
  simp only [istep, Spec.Cursor.step, Cow.past]
  rcases val_cases (w.env.var x) with ⟨vs, hv⟩ | ⟨vs, hv⟩ | ⟨h1, h2⟩
  · obtain ⟨a, n, fs, d, g1, g2, g3, g4⟩ := sim_obj h.sim hv
    have hk := mapFields_keys g3
    have hl : vs.length = fs.length := by simpa using congrArg List.length hk
    simp only [g1, hv, items, IState.found, List.length_map]
    refine ⟨h.point i ⟨a, n, .fields fs, g1, g2, by rw [hl]; exact Nat.le_refl _, fun _ => ⟨fs, rfl⟩, ?_⟩, rfl, rfl⟩
    have : placeIn (.fields fs) vs.length = .last := by
      have := keyPlace_length (fs.map (·.1))
      rw [List.length_map] at this
      rw [hl]; exact this
    rw [this]
  · obtain ⟨a, n, es, d, g1, g2, g3⟩ := sim_arr h.sim hv
    have hl := mapElems_length g3
    cases keys with
    | true => simp only [g1, hv, items, if_true, IState.found]; exact ⟨h, rfl, rfl⟩
    | false =>
      simp only [g1, g2, hv, items, Bool.false_eq_true, if_false, IState.found]
      exact ⟨h.point i ⟨a, n, .elems es, g1, g2, by rw [hl]; exact Nat.le_refl _, by simp, by rw [hl]; rfl⟩, rfl, rfl⟩
  · obtain ⟨h3, h4⟩ := sim_other h.sim h1 h2
    rw [items_other keys h1 h2]
    cases hr : s.st.var x <;> simp only [IState.found] <;>
      first | exact ⟨h, rfl, rfl⟩ | exact absurd hr (h3 _) | exact absurd hr (h4 _)

theorem search_ok {s : IState} {w : World} (i x : Nat) (k : Bytes) (keys : Bool) (h : Follows s w) :
    GoodI s (istep s (.search i x k keys)) (Spec.Cursor.step w (.search i x k keys)) := by
  intro _
  simp only [istep, Spec.Cursor.step, Cow.search]
  rcases val_cases (w.env.var x) with ⟨vs, hv⟩ | ⟨vs, hv⟩ | ⟨h1, h2⟩
  · obtain ⟨a, n, fs, d, g1, g2, g3, g4⟩ := sim_obj h.sim hv
    have hk := mapFields_keys g3
    simp only [g1, g2, hv, IState.found, position, hk]
    refine ⟨h.point i ⟨a, n, .fields fs, g1, g2, ?_, fun _ => ⟨fs, rfl⟩, ?_⟩, rfl, rfl⟩
    · have := List.idxOf_le_length (a := k) (l := fs.map (·.1))
      simpa [Body.size] using this
    · simp only [placeIn, keyPlace_idxOf, mapFind_isSome_mem]
  · obtain ⟨a, n, es, d, g1, g2, g3⟩ := sim_arr h.sim hv
    simp only [g1, hv, IState.found]
    exact ⟨h, rfl, rfl⟩
  · obtain ⟨h3, h4⟩ := sim_other h.sim h1 h2
    cases hr : s.st.var x <;> cases hv : w.env.var x <;> simp only [IState.found] <;>
      first | exact ⟨h, rfl, rfl⟩ | exact absurd hr (h3 _) | exact absurd hr (h4 _) | exact absurd hv (h1 _)

/-- The items of the variable an iterator belongs to. -/
theorem items_body {s : State} {e : Env} {x a n : Nat} {body : Body} {keys : Bool} (h : Sim s e) (h1 : s.var x = body.ref a)
    (h2 : s.cells.at a = some ⟨n, body⟩) (h4 : keys = true → ∃ fs, body = .fields fs) :
    ∃ l d, items keys (e.var x) = some l ∧ l.length = body.size ∧
      (∀ p v, l[p]? = some v → ∃ r, It.deref s.cells ⟨a, placeIn body p, keys⟩ = some r ∧ view s.cells d r = some v ∧
        (r ∈ s.cells.refs ∨ ∃ k, r = .str k)) := by
  cases body with
  | fields fs =>
    obtain ⟨n', fs', d, vs, g1, g2, g3, _⟩ := common_obj h h1 x
    rw [h2] at g1; cases g1
    have hl : vs.length = fs.length := by simpa using congrArg List.length (mapFields_keys g2)
    have hs := h.tidy a _ fs h2 rfl
    refine ⟨_, d, by rw [g3]; rfl, by simpa [Body.size] using hl, fun p v hv => ?_⟩
    simp only [List.getElem?_map] at hv
    rcases mapFields_get p g2 with ⟨q1, q2⟩ | ⟨k, r, u, q1, q2, q3⟩
    · rw [q2] at hv; cases hv
    · rw [q3] at hv
      simp only [Option.map_some, Option.some.injEq] at hv
      have hp : placeIn (.fields fs) p = .node k := keyPlace_node (by rw [List.getElem?_map, q1]; rfl)
      simp only [It.deref, It.body, h2, Option.map_some, hp, mapFind_at hs q1]
      refine ⟨_, rfl, ?_, ?_⟩
      · cases keys
        · rw [← hv]; exact q2
        · rw [← hv]; simp [view]
      · cases keys
        · exact .inl (mem_refs h2 (by
            simp only [Bool.false_eq_true, if_false, Body.refs]
            exact List.mem_map.2 ⟨_, List.mem_of_getElem? q1, rfl⟩))
        · exact .inr ⟨k, rfl⟩
  | elems es =>
    obtain ⟨n', fs', d, vs, g1, g2, g3, _⟩ := common_arr h h1 x
    rw [h2] at g1; cases g1
    have hk : keys = false := by
      cases keys with
      | false => rfl
      | true => obtain ⟨fs, e⟩ := h4 rfl; cases e
    subst hk
    refine ⟨vs, d, by rw [g3]; rfl, mapElems_length g2, fun p v hv => ?_⟩
    rcases mapElems_get p g2 with ⟨q1, q2⟩ | ⟨r, u, q1, q2, q3⟩
    · rw [q2] at hv; cases hv
    · rw [q3] at hv; cases hv
      refine ⟨r, by simp [It.deref, It.body, h2, placeIn, q1], q2, .inl (mem_refs h2 ?_)⟩
      exact List.mem_of_getElem? q1

theorem next_ok {s : IState} {w : World} (i : Nat) (h : Follows s w) :
    GoodI s (istep s (.next i)) (Spec.Cursor.step w (.next i)) := by
  intro hub
  have ht := h.tracks i
  simp only [istep, Spec.Cursor.step, IState.use] at hub ⊢
  cases hc : w.cursor i with
  | empty => simp [hc] at hub
  | lost => simp [hc] at hub
  | «at» x p keys =>
    rw [hc] at ht
    simp only [hc] at hub ⊢
    obtain ⟨a, n, body, h1, h2, h3, h4, hv⟩ := ht
    obtain ⟨l, d, k1, k2, _⟩ := items_body h.sim h1 h2 h4
    simp only [k1, k2, hv] at hub ⊢
    by_cases hp : p < body.size
    · simp only [if_pos hp]
      have hn : It.next s.st.cells ⟨a, placeIn body p, keys⟩ = some ⟨a, placeIn body (p + 1), keys⟩ := by
        cases body with
        | elems es => simp only [Body.size] at hp; simp [It.next, It.body, h2, placeIn, hp]
        | fields fs =>
          simp only [Body.size] at hp
          have hk : (fs.map (·.1))[p]? = some (fs[p]).1 := by simp [hp]
          simp only [It.next, It.body, h2, Option.map_some, placeIn, keyPlace_node hk,
            nextNode_eq (h.sim.tidy a _ fs h2 rfl) hk]
      simp only [hn, Res.ofRead, IState.found]
      exact ⟨h.point i ⟨a, n, body, h1, h2, hp, h4, rfl⟩, rfl, rfl⟩
    · simp [if_neg hp] at hub

theorem prev_ok {s : IState} {w : World} (i : Nat) (h : Follows s w) :
    GoodI s (istep s (.prev i)) (Spec.Cursor.step w (.prev i)) := by
  intro hub
  have ht := h.tracks i
  simp only [istep, Spec.Cursor.step, IState.use] at hub ⊢
  cases hc : w.cursor i with
  | empty => simp [hc] at hub
  | lost => simp [hc] at hub
  | «at» x p keys =>
    rw [hc] at ht
    simp only [hc] at hub ⊢
    obtain ⟨a, n, body, h1, h2, h3, h4, hv⟩ := ht
    simp only [hv] at hub ⊢
    by_cases hp : 0 < p
    · simp only [if_pos hp]
      obtain ⟨q, rfl⟩ : ∃ q, p = q + 1 := ⟨p - 1, by omega⟩
      have hn : It.prev s.st.cells ⟨a, placeIn body (q + 1), keys⟩ = some ⟨a, placeIn body q, keys⟩ := by
        cases body with
        | elems es => simp only [Body.size] at h3; simp [It.prev, It.body, h2, placeIn]; omega
        | fields fs =>
          simp only [Body.size] at h3
          have hs := h.sim.tidy a _ fs h2 rfl
          by_cases hq : q + 1 < fs.length
          · have hk : (fs.map (·.1))[q + 1]? = some (fs[q + 1]).1 := by simp [hq]
            simp only [It.prev, It.body, h2, Option.map_some, placeIn, keyPlace_node hk, prevNode_eq hs hk]
          · have he : q + 1 = fs.length := by omega
            have hk : (fs.map (·.1))[q]? = some (fs[q]).1 := by simp [show q < fs.length by omega]
            have hl : placeIn (.fields fs) (q + 1) = .last := by
              have := keyPlace_length (fs.map (·.1))
              rw [List.length_map] at this
              rw [he]; exact this
            have hg : fs.getLast? = some fs[q] := by
              rw [List.getLast?_eq_getElem?, ← he]; simp
            rw [hl]
            simp only [It.prev, It.body, h2, Option.map_some, hg, placeIn, keyPlace_node hk]
      simp only [hn, Res.ofRead, IState.found, Nat.add_sub_cancel]
      exact ⟨h.point i ⟨a, n, body, h1, h2, by omega, h4, rfl⟩, rfl, rfl⟩
    · simp [if_neg hp] at hub

theorem dup_ok {s : IState} {w : World} (i j : Nat) (h : Follows s w) :
    GoodI s (istep s (.dup i j)) (Spec.Cursor.step w (.dup i j)) :=
  fun _ => ⟨h.point i (h.tracks j), rfl, rfl⟩

theorem take_ok {s : IState} {w : World} (i j : Nat) (h : Follows s w) :
    GoodI s (istep s (.take i j)) (Spec.Cursor.step w (.take i j)) := by
  intro _
  simp only [istep, Spec.Cursor.step]
  split
  · exact ⟨h, rfl, rfl⟩
  · exact ⟨(h.point i (h.tracks j)).point j rfl, rfl, rfl⟩

theorem isSet_ok {s : IState} {w : World} (i : Nat) (h : Follows s w) :
    GoodI s (istep s (.isSet i)) (Spec.Cursor.step w (.isSet i)) := by
  intro _
  have ht := h.tracks i
  simp only [istep, Spec.Cursor.step]
  by_cases hc : w.cursor i = .empty
  · rw [hc] at ht
    simp only [Tracks] at ht
    simp only [ht, hc, ne_eq, not_true_eq_false, decide_false]
    exact ⟨h, rfl, rfl⟩
  · have := tracks_ne_empty ht hc
    simp only [ne_eq, hc, not_false_eq_true, decide_true]
    cases hv : s.it i with
    | empty => exact absurd hv this
    | _ => exact ⟨h, rfl, rfl⟩

theorem same_ok {s : IState} {w : World} (i j : Nat) (h : Follows s w) :
    GoodI s (istep s (.same i j)) (Spec.Cursor.step w (.same i j)) := by
  intro hub
  have hi := h.tracks i
  have hj := h.tracks j
  simp only [istep, Spec.Cursor.step] at hub ⊢
  by_cases hij : i = j
  · simp only [if_pos hij]; exact ⟨h, rfl, rfl⟩
  · simp only [if_neg hij] at hub ⊢
    cases hci : w.cursor i with
    | lost => simp [hci] at hub
    | empty =>
      rw [hci] at hi
      simp only [Tracks] at hi
      simp only [hci, hi] at hub ⊢
      cases hcj : w.cursor j with
      | lost => simp [hcj] at hub
      | empty =>
        rw [hcj] at hj
        simp only [Tracks] at hj
        simp only [hj]
        exact ⟨h, rfl, rfl⟩
      | «at» x p keys =>
        rw [hcj] at hj
        obtain ⟨a, n, body, _, _, _, _, hj⟩ := hj
        simp only [hj]
        exact ⟨h, rfl, rfl⟩
    | «at» x p keys =>
      rw [hci] at hi
      obtain ⟨a, n, body, h1, h2, h3, h4, hi⟩ := hi
      simp only [hci, hi] at hub ⊢
      cases hcj : w.cursor j with
      | lost => simp [hcj] at hub
      | empty =>
        rw [hcj] at hj
        simp only [Tracks] at hj
        simp only [hj]
        exact ⟨h, rfl, rfl⟩
      | «at» z q keys' =>
        rw [hcj] at hj
        obtain ⟨a', n', body', g1, g2, g3, g4, hj⟩ := hj
        simp only [hcj, hj] at hub ⊢
        by_cases hxz : x = z
        · subst hxz
          have ha : a = a' := by
            have := congrArg Ref.addr (h1.symm.trans g1)
            simpa [ref_addr] using this
          subst ha
          rw [h2] at g2; cases g2
          simp only [if_true]
          have : (placeIn body p = placeIn body q) ↔ p = q := by
            refine ⟨fun e => ?_, fun e => by rw [e]⟩
            cases body with
            | elems es => simpa [placeIn] using e
            | fields fs =>
              simp only [Body.size] at h3 g3
              exact keyPlace_inj (h.sim.tidy a _ fs h2 rfl) (by simpa using h3) (by simpa using g3) e
          simp only [this]
          exact ⟨h, rfl, rfl⟩
        · simp [if_neg hxz] at hub

theorem after_ok {s : IState} {w : World} {st : State} {env : Env} {x : Nat} {xs : List Nat} (h : Follows s w)
    (hs : Sim st env) (hf : Frame s.st x xs st) (hx : x ∈ xs) :
    Follows (s.after st) ⟨env, w.cursors.map (forget xs)⟩ :=
  h.map hs rfl rfl fun _ _ ht => tracks_forget h.sim hs hf hx ht

theorem deref_ok {s : IState} {w : World} (z i : Nat) (h : Follows s w) (hz : z < s.st.vars.length) :
    GoodI s (istep s (.deref z i)) (Spec.Cursor.step w (.deref z i)) := by
  intro hub
  have ht := h.tracks i
  simp only [istep, Spec.Cursor.step, IState.use] at hub ⊢
  cases hc : w.cursor i with
  | empty => simp [hc] at hub
  | lost => simp [hc] at hub
  | «at» x p keys =>
    rw [hc] at ht
    simp only [hc] at hub ⊢
    obtain ⟨a, n, body, h1, h2, h3, h4, hv⟩ := ht
    obtain ⟨l, d, k1, k2, k3⟩ := items_body h.sim h1 h2 h4
    simp only [k1, hv, Option.bind_some] at hub ⊢
    cases hp : l[p]? with
    | none => simp [hp] at hub
    | some v =>
      obtain ⟨r, e1, e2, e3⟩ := k3 p v hp
      simp only [e1]
      have key : ∃ c st, incr s.st.cells r = some c ∧ assign ⟨c, s.st.vars⟩ z r = some st ∧ Sim st (w.env.set z v) ∧
          st.vars.length = s.st.vars.length := by
        rcases e3 with e3 | ⟨k, rfl⟩
        · exact share_ok h.sim hz (.inr (.inl e3)) ⟨d, e2⟩
        · have hv : v = .str k := by simp only [view] at e2; exact (Option.some.inj e2).symm
          subst hv
          obtain ⟨st, g1, g2, g3, _⟩ := Sim.assign (s := s.st) (c := s.st.cells) (r := .str k) (v := .str k) h.sim.len
            ⟨fun a => by rw [occ_cons, occ_one_none (by simp [Ref.addr]), Nat.zero_add]; exact h.sim.counted.eq a,
              h.sim.counted.pos⟩
            hz ⟨0, by simp [view]⟩ (fun z _ => h.sim.holds z) h.sim.tidy h.sim.whole
          exact ⟨s.st.cells, st, rfl, g1, g2, by rw [g3]; simp⟩
      obtain ⟨c, st, g1, g2, g3, g4⟩ := key
      simp only [g1, g2, Option.bind_some]
      exact ⟨after_ok h g3 (share_frame (x := z) g1 g2) (by simp), rfl, g4⟩

theorem plain_ok {s : IState} {w : World} (op : Op) (h : Follows s w) (hu : ∀ x ∈ Spec.Indep.uses op, x < s.st.vars.length)
    (hc : Spec.Indep.Covered s.st op) : GoodI s (istep s (.plain op)) (Spec.Cursor.step w (.plain op)) := by
  intro hub
  obtain ⟨h1, h2, h3⟩ := step_ok h.sim hu hc
  have hf := step_frame hu hc
  simp only [istep, Spec.Cursor.step] at hub ⊢
  refine ⟨?_, by rw [h2], h3⟩
  refine h.map h1 (by cases op <;> rfl) rfl fun c v ht => ?_
  by_cases hm : ∃ z y, op = .move z y
  · obtain ⟨z, y, rfl⟩ := hm
    cases c with
    | empty => exact tracks_forget h.sim h1 hf (target_mem _) ht
    | lost => exact tracks_forget h.sim h1 hf (target_mem _) ht
    | «at» x p keys =>
      simp only [follow]
      by_cases hzy : z = y
      · simp only [if_pos hzy]
        simp only [Cow.step, Cow.move, if_pos hzy] at h1 ⊢
        exact tracks_to h1 rfl (fun a _ y hy => ⟨y, hy, rfl⟩) ht
      · simp only [if_neg hzy]
        have hmv := (move_frame (s := s.st) (z := z) (y := y) (x := z)).2 hzy (hu z (by simp [Spec.Indep.uses]))
          (by have : (Cow.move s.st z y).2 = _ := h2; rw [this]; simp [Spec.Indep.step])
        by_cases hxy : x = y
        · simp only [if_pos hxy]
          subst hxy
          refine tracks_to h1 hmv (fun a ha b hb => ?_) ht
          have hs : Sub (Cow.move s.st z x).1.cells s.st.cells := by
            unfold Cow.move
            rw [if_neg hzy]
            cases ha : assign s.st z (s.st.var x) with
            | none => exact Sub.refl _
            | some s' => exact (assign_sub ha).1
          exact hs a b hb
        · simp only [if_neg hxy]
          by_cases hxz : x = z
          · simp only [if_pos hxz]; exact age_ne_empty (tracks_ne_empty ht (by simp))
          · simp only [if_neg hxz]
            exact tracks_frame h.sim h1 hf (target_mem _) (by simp [changes, hxy, hxz]) ht
  · have : follow op c = forget (changes op) c := by
      cases op <;> first | rfl | exact absurd ⟨_, _, rfl⟩ hm
    rw [this]
    exact tracks_forget h.sim h1 hf (target_mem _) ht

theorem reserve_ok {s : IState} {w : World} (x n : Nat) (h : Follows s w) (hu : Unshared s.st x) :
    GoodI s (istep s (.reserve x n)) (Spec.Cursor.step w (.reserve x n)) := by
  intro _
  simp only [istep, Spec.Cursor.step]
  rcases val_cases (w.env.var x) with ⟨vs, hv⟩ | ⟨vs, hv⟩ | ⟨h1, h2⟩
  · obtain ⟨a, n', fs, d, g1, g2, g3, g4⟩ := sim_obj h.sim hv
    simp only [g1, hv]
    exact ⟨h, rfl, rfl⟩
  · obtain ⟨a, n', es, d, g1, g2, g3⟩ := sim_arr h.sim hv
    simp only [g1, hv]
    split
    · exact ⟨h, rfl, rfl⟩
    · refine ⟨h.map h.sim rfl rfl fun c v ht => ?_, rfl, rfl⟩
      have hcnt : cnt s.st.cells a = 1 := by
        simp only [Unshared, refcount, g1, Ref.addr, g2, Option.map_some, Option.some.injEq] at hu
        rw [cnt_some g2]; exact hu
      have haddr : (s.st.var x).addr = some a := by rw [g1]; rfl
      cases c with
      | empty => simp only [Tracks] at ht; subst ht; rfl
      | lost =>
        simp only [forget, Tracks] at ht ⊢
        cases v with
        | empty => exact absurd rfl ht
        | stale => simp
        | «at» it => simp only; split <;> simp
      | «at» z p keys =>
        obtain ⟨a', n'', body, k1, k2, k3, k4, rfl⟩ := ht
        simp only [forget]
        split
        · simp only [Tracks]; split <;> simp
        · rename_i hz
          have hz : z ≠ x := by simpa using hz
          have : a' ≠ a := by
            rintro rfl
            exact (alone h.sim (var_lt haddr) haddr hcnt).2 z hz (by rw [k1, ref_addr])
          rw [if_neg this]
          exact ⟨a', n'', body, k1, k2, k3, k4, rfl⟩
  · obtain ⟨h3, h4⟩ := sim_other h.sim h1 h2
    cases hr : s.st.var x <;> cases hv : w.env.var x <;>
      first | exact ⟨h, rfl, rfl⟩ | exact absurd hr (h3 _) | exact absurd hr (h4 _) | exact absurd hv (h2 _)

/-! ### Calls that return an iterator -/

theorem call_ok {s : IState} {w : World} {op : Op} {j x : Nat} {k : Key} {keys : Bool} {pos : Val → Val → Nat}
    {place : Key → Place} (h : Follows s w) (hu : ∀ x ∈ Spec.Indep.uses op, x < s.st.vars.length)
    (hc : Spec.Indep.Covered s.st op)
    (hret : (Spec.Indep.step w.env op).2 = .ok () →
      Tracks (Cow.step s.st op).1 (.at x (pos (w.env.var x) ((Spec.Indep.step w.env op).1.var x)) keys)
        (.at ⟨(((Cow.step s.st op).1.var x).addr).getD 0, place k, keys⟩)) :
    Agrees s (s.returns j x (withKey k (Cow.step s.st op)) place keys) (w.call j x op pos keys) := by
  obtain ⟨h1, h2, h3⟩ := step_ok h.sim hu hc
  have hf := after_ok h h1 (step_frame hu hc) (target_mem op)
  simp only [IState.returns, withKey, World.call, h2]
  cases hr : (Spec.Indep.step w.env op).2 with
  | ok u =>
    have ht := hret (by rw [hr])
    obtain ⟨a, n, body, k1, k2, k3, k4, k5⟩ := ht
    have ha : ((Cow.step s.st op).1.var x).addr = some a := by rw [k1, ref_addr]
    simp only [Res.bind, ha]
    rw [ha] at k5
    exact ⟨hf.point j ⟨a, n, body, k1, k2, k3, k4, k5⟩, rfl, h3⟩
  | throw e => exact ⟨hf, rfl, h3⟩
  | ub => exact ⟨hf, rfl, h3⟩

theorem env_other (e : Env) (x z : Nat) (v : Val) (h : z ≠ x) : Env.var (e.set x v) z = e.var z := by
  simp only [Env.var]; rw [List.getElem?_set_ne (Ne.symm h)]

theorem taken_value {e : Env} {x y : Nat} {moved : Bool} {r : Res Val} (hx : x < e.length) (hxy : x ≠ y)
    (h : (takeIf moved y (update e x r)).2 = .ok ()) : r = .ok ((takeIf moved y (update e x r)).1.var x) := by
  cases r with
  | ok v =>
    simp only [update, takeIf]
    congr 1
    split
    · rw [env_other _ _ _ _ hxy, env_set _ _ _ _ hx, if_pos rfl]
    · rw [env_set _ _ _ _ hx, if_pos rfl]
  | throw _ => simp [update, takeIf] at h
  | ub => simp [update, takeIf] at h

theorem updated_value {e : Env} {x : Nat} {r : Res Val} (hx : x < e.length)
    (h : (update e x r).2 = .ok ()) : r = .ok ((update e x r).1.var x) := by
  cases r with
  | ok v =>
    simp only [update]
    rw [env_set _ _ _ _ hx, if_pos rfl]
  | throw _ => simp [update] at h
  | ub => simp [update] at h

/-- An iterator into an object. -/
theorem tracks_obj {s : State} {e : Env} {x p : Nat} {keys : Bool} {vs : List (Bytes × Val)} {pl : Place} (h : Sim s e)
    (hv : e.var x = .obj vs) (hp : p ≤ vs.length) (hpl : pl = keyPlace (vs.map (·.1)) p) :
    Tracks s (.at x p keys) (.at ⟨((s.var x).addr).getD 0, pl, keys⟩) := by
  obtain ⟨a, n, fs, d, g1, g2, g3, g4⟩ := sim_obj h hv
  have hk := mapFields_keys g3
  have hl : vs.length = fs.length := by simpa using congrArg List.length hk
  refine ⟨a, n, .fields fs, g1, g2, by simp only [Body.size]; omega, fun _ => ⟨fs, rfl⟩, ?_⟩
  rw [hpl, hk, g1]
  rfl

theorem tracks_arr {s : State} {e : Env} {x p : Nat} {vs : List Val} (h : Sim s e)
    (hv : e.var x = .arr vs) (hp : p ≤ vs.length) :
    Tracks s (.at x p false) (.at ⟨((s.var x).addr).getD 0, .index p, false⟩) := by
  obtain ⟨a, n, es, d, g1, g2, g3⟩ := sim_arr h hv
  have hl := mapElems_length g3
  exact ⟨a, n, .elems es, g1, g2, by simp only [Body.size]; omega, by simp, by rw [g1]; rfl⟩

theorem tracks_put {s : State} {e : Env} {x : Nat} {k : Key} {old v : Val} (h : Sim s e)
    (hv : old.insert k.toVal v = .ok (e.var x) ∨ old.set k.toVal v = .ok (e.var x)) :
    Tracks s (.at x (position k (e.var x)) false) (.at ⟨((s.var x).addr).getD 0, placeOf k, false⟩) := by
  cases k with
  | name k =>
    have : ∃ fs, e.var x = .obj (mapInsert k v fs) := by
      rcases hv with hv | hv
      · simp only [Key.toVal, Val.insert] at hv
        split at hv
        · cases hv
        · split at hv
          · rename_i fs; exact ⟨fs, (Res.ok.inj hv).symm⟩
          · cases hv
      · simp only [Key.toVal, Val.set] at hv
        split at hv
        · cases hv
        · split at hv
          · rename_i fs
            split at hv
            · exact ⟨fs, (Res.ok.inj hv).symm⟩
            · cases hv
          · cases hv
    obtain ⟨fs, hfs⟩ := this
    have hm : k ∈ (mapInsert k v fs).map (·.1) := List.mem_map.2 ⟨_, mem_mapInsert_self k v, rfl⟩
    rw [hfs]
    refine tracks_obj h hfs ?_ ?_
    · have := List.idxOf_le_length (a := k) (l := (mapInsert k v fs).map (·.1))
      simpa [position] using this
    · simp only [position, placeOf, keyPlace_idxOf, if_pos hm]
  | index i =>
    have : ∃ es, e.var x = .arr es ∧ i.toNat ≤ es.length := by
      rcases hv with hv | hv
      · simp only [Key.toVal, Val.insert] at hv
        split at hv
        · rename_i es
          split at hv
          · cases hv
          · split at hv
            · cases hv
            · exact ⟨_, (Res.ok.inj hv).symm, by simp only [List.length_append, List.length_take, List.length_cons]; omega⟩
        · cases hv
      · simp only [Key.toVal, Val.set] at hv
        split at hv
        · rename_i es
          split at hv
          · cases hv
          · exact ⟨_, (Res.ok.inj hv).symm, by simp only [List.length_set]; omega⟩
        · cases hv
    obtain ⟨es, hes, hi⟩ := this
    rw [hes]
    simp only [position, Nat.min_eq_left hi, placeOf]
    exact tracks_arr h hes hi

theorem idxOf_erase_le {α : Type} (k : Bytes) : ∀ (fs : List (Bytes × α)), (fs.map (·.1)).idxOf k ≤ (mapErase k fs).length
  | [] => by simp
  | (k', r') :: fs => by
    by_cases h : k' = k
    · subst h; simp
    · simp only [mapErase, equiv_iff, h, decide_false, Bool.false_eq_true, if_false, List.map_cons, List.length_cons]
      rw [List.idxOf_cons, show (k' == k) = false by simpa using h, cond_false]
      have := idxOf_erase_le k fs
      omega

theorem tracks_erase {s s' : State} {e e' : Env} {x : Nat} {k : Key} {keys : Bool} (h : Sim s e) (h' : Sim s' e')
    (hv : (e.var x).erase k.toVal = .ok (e'.var x)) (hk : keys = true → ∃ fs, e.var x = .obj fs) :
    Tracks s' (.at x (position k (e.var x)) keys) (.at ⟨((s'.var x).addr).getD 0, placeAfter s x k, keys⟩) := by
  cases k with
  | name k =>
    simp only [Key.toVal, Val.erase, Val.eraseKey] at hv
    split at hv
    · rename_i vs hvs
      have hv := (Res.ok.inj hv).symm
      obtain ⟨a, n, fs, d, g1, g2, g3, g4⟩ := sim_obj h hvs
      rw [hvs]
      refine tracks_obj h' hv (idxOf_erase_le k vs) ?_
      simp only [placeAfter, position, g1, Ref.addr, Option.bind_some, g2]
      rw [nextNode_erase k g4, ← mapFields_keys (mapFields_erase k g3), ← mapFields_keys g3]
    · cases hv
  | index i =>
    simp only [Key.toVal, Val.erase, Val.eraseIdx] at hv
    split at hv
    · rename_i vs hvs
      have hkf : keys = false := by
        cases keys with
        | false => rfl
        | true => obtain ⟨fs, e⟩ := hk rfl; rw [e] at hvs; cases hvs
      subst hkf
      obtain ⟨a, n, es, d, g1, g2, g3⟩ := sim_arr h hvs
      have hl := mapElems_length g3
      simp only [placeAfter, position, g1, Ref.addr, Option.bind_some, g2, hvs, ← hl]
      split at hv
      · exact tracks_arr h' (Res.ok.inj hv).symm (Nat.min_le_right _ _)
      · refine tracks_arr h' (Res.ok.inj hv).symm ?_
        rw [List.length_eraseIdx, if_pos (by omega)]
        omega
    · cases hv

theorem insertKey_ok {s : IState} {w : World} (j x y : Nat) (k : Key) (m : Mode) (h : Follows s w)
    (hx : x < s.st.vars.length) (hy : y < s.st.vars.length) (hxy : x ≠ y) :
    Agrees s (s.returns j x (withKey k (Cow.insert s.st x k y m)) placeOf false)
      (w.call j x (.insert x k y m) (fun _ new => position k new) false) := by
  have hu : ∀ z ∈ Spec.Indep.uses (.insert x k y m), z < s.st.vars.length := by
    simp only [Spec.Indep.uses, List.mem_cons, List.not_mem_nil, or_false]; rintro z (rfl | rfl) <;> assumption
  refine call_ok (op := .insert x k y m) (pos := fun _ new => position k new) h hu hxy fun hok => ?_
  exact tracks_put (step_ok (op := .insert x k y m) h.sim hu hxy).1
    (.inl (taken_value (by have := h.sim.len; omega) hxy hok))

theorem setKey_ok {s : IState} {w : World} (j x y : Nat) (k : Key) (m : Mode) (h : Follows s w)
    (hx : x < s.st.vars.length) (hy : y < s.st.vars.length) (hxy : x ≠ y) :
    Agrees s (s.returns j x (withKey k (Cow.set s.st x k y m)) placeOf false)
      (w.call j x (.set x k y m) (fun _ new => position k new) false) := by
  have hu : ∀ z ∈ Spec.Indep.uses (.set x k y m), z < s.st.vars.length := by
    simp only [Spec.Indep.uses, List.mem_cons, List.not_mem_nil, or_false]; rintro z (rfl | rfl) <;> assumption
  refine call_ok (op := .set x k y m) (pos := fun _ new => position k new) h hu hxy fun hok => ?_
  exact tracks_put (step_ok (op := .set x k y m) h.sim hu hxy).1
    (.inr (taken_value (by have := h.sim.len; omega) hxy hok))

theorem eraseKey_ok {s : IState} {w : World} (j x : Nat) (k : Key) (keys : Bool) (h : Follows s w)
    (hx : x < s.st.vars.length) (hk : keys = true → ∃ fs, w.env.var x = .obj fs) :
    Agrees s (s.returns j x (withKey k (Cow.erase s.st x k)) (placeAfter s.st x) keys)
      (w.call j x (.erase x k) (fun old _ => position k old) keys) := by
  have hu : ∀ z ∈ Spec.Indep.uses (.erase x k), z < s.st.vars.length := by
    simp only [Spec.Indep.uses, List.mem_cons, List.not_mem_nil, or_false]; rintro z rfl; assumption
  refine call_ok (op := .erase x k) (pos := fun old _ => position k old) h hu trivial fun hok => ?_
  exact tracks_erase h.sim (step_ok (op := .erase x k) h.sim hu trivial).1
    (updated_value (by have := h.sim.len; omega) hok) hk

/-- What an iterator argument means. -/
theorem arg_ok {s : IState} {w : World} {i x : Nat} {f : It → IOut} {g : Key → Bool → World × Res Seen} (h : Follows s w)
    (hf : ∀ p keys a n body k, s.st.var x = body.ref a → s.st.cells.at a = some ⟨n, body⟩ →
      (keys = true → ∃ fs, w.env.var x = .obj fs) →
      keyOf s.st x ⟨a, placeIn body p, keys⟩ = .ok k →
      (∀ c m, c.at a = some ⟨m, body⟩ → It.readable c ⟨a, placeIn body p, keys⟩ = true) →
      Agrees s (f ⟨a, placeIn body p, keys⟩) (g k keys)) :
    GoodI s (s.arg i f) (w.arg i x g) := by
  intro hub
  have ht := h.tracks i
  simp only [IState.arg, World.arg] at hub ⊢
  cases hc : w.cursor i with
  | empty =>
    rw [hc] at ht
    simp only [Tracks] at ht
    simp only [ht]
    exact ⟨h, rfl, rfl⟩
  | lost => simp [hc] at hub
  | «at» z p keys =>
    rw [hc] at ht
    simp only [hc] at hub ⊢
    by_cases hzx : z = x
    · subst hzx
      simp only [if_true] at hub ⊢
      obtain ⟨a, n, body, h1, h2, h3, h4, hv⟩ := ht
      simp only [hv]
      cases hk : keyAt (w.env.var z) p with
      | none => simp [hk] at hub
      | some k =>
        simp only
        cases body with
        | fields fs =>
          obtain ⟨n', fs', d, vs, g1, g2, g3, _⟩ := common_obj h.sim h1 z
          rw [h2] at g1; cases g1
          rw [g3] at hk
          simp only [keyAt, Option.map_eq_some_iff] at hk
          obtain ⟨⟨k', v⟩, e1, rfl⟩ := hk
          have hkp : (fs.map (·.1))[p]? = some k' := by
            rw [← mapFields_keys g2, List.getElem?_map, e1]; rfl
          have hpl : placeIn (.fields fs) p = .node k' := keyPlace_node hkp
          have hmem : (mapFind k' fs).isSome = true := (mapFind_isSome_mem k' fs).2 (List.mem_of_getElem? hkp)
          refine hf p keys a n (.fields fs) (.name k') h1 h2 (fun _ => ⟨vs, g3⟩) ?_ (fun c m hc => ?_)
          · simp only [keyOf, h1, Body.ref, hpl, It.body, h2, Option.map_some, hmem, if_true]
          · simp only [It.readable, It.body, hc, Option.map_some, hpl, hmem]
        | elems es =>
          obtain ⟨n', fs', d, vs, g1, g2, g3, _⟩ := common_arr h.sim h1 z
          rw [h2] at g1; cases g1
          rw [g3] at hk
          simp only [keyAt, Option.some.injEq] at hk
          subst hk
          refine hf p keys a n (.elems es) _ h1 h2 (fun hk => ?_) ?_ (fun c m hc => ?_)
          · obtain ⟨fs, e⟩ := h4 hk; cases e
          · simp only [keyOf, h1, Body.ref, placeIn, if_true]
          · simp only [It.readable, It.body, hc, Option.map_some, placeIn]
    · simp [if_neg hzx] at hub

/-- `copy_on_write` leaves the old storage to its other owners. -/
theorem cow_keeps {s s' : State} {x a n : Nat} {body : Body} (h : cow s x = some s') (ha : (s.var x).addr = some a)
    (hc : s.cells.at a = some ⟨n, body⟩) : ∃ m, s'.cells.at a = some ⟨m, body⟩ := by
  by_cases hn : n > 1
  · obtain ⟨c, m, h1, h2, h3, rfl⟩ := cow_shared h ha hc hn
    exact ⟨m - 1, at_set_self (by simp only [List.length_append]; have := at_lt h2; omega)⟩
  · simp only [cow, ha, hc, if_neg hn] at h
    cases h
    exact ⟨n, hc⟩

theorem putAt_eq {s : State} {e : Env} {x a n : Nat} {body : Body} {it : It} {k : Key} {call : Key → Out} (h : Sim s e)
    (hx : x < s.vars.length) (h1 : s.var x = body.ref a) (h2 : s.cells.at a = some ⟨n, body⟩) (hk : keyOf s x it = .ok k)
    (hr : ∀ c m, Cells.at c a = some ⟨m, body⟩ → It.readable c it = true) : putAt s x it call = withKey k (call k) := by
  obtain ⟨s', c1, _⟩ := cow_ok h hx
  obtain ⟨m, hm⟩ := cow_keeps c1 (by rw [h1, ref_addr]) h2
  simp only [putAt, hk, c1, hr _ m hm, if_true, withKey]

theorem assign_shared {c : Cells} {vars : List Ref} {x a n : Nat} {b : Body} (r : Ref)
    (hr : ((⟨c, vars⟩ : State).var x).addr = some a) (h : c.at a = some ⟨n, b⟩) (hn : 1 < n) :
    assign ⟨c, vars⟩ x r = some ⟨c.set a (some ⟨n - 1, b⟩), vars.set x r⟩ := by
  simp only [assign, drop_shared hr h hn, Option.map_some]

/-- The guarded erasure does what the plain one does. -/
theorem eraseGuarded_eq {s : State} {e : Env} {x a n : Nat} {body : Body} {it : It} {k : Bytes} (h : Sim s e)
    (hx : x < s.vars.length) (h1 : s.var x = body.ref a) (h2 : s.cells.at a = some ⟨n, body⟩)
    (hr : ∀ c m, Cells.at c a = some ⟨m, body⟩ → It.readable c it = true) :
    eraseGuarded s x it k = Cow.erase s x (.name k) := by
  have ha : (s.var x).addr = some a := by rw [h1, ref_addr]
  have hpos : 0 < n := h.counted.pos _ _ h2
  obtain ⟨s1, c1, _⟩ := cow_ok h hx
  have hlt := at_lt h2
  have herase : Cow.erase s x (.name k) = orUb s ((cow s x).bind fun s => eraseNode s x k) := by
    rfl
  rw [herase, c1]
  simp only [Option.bind_some]
  unfold eraseGuarded
  congr 1
  simp only [incr, ha, h2, Option.map_some, Option.bind_some]
  have hv : ∀ c, (⟨c, s.vars⟩ : State).var x = s.var x := fun _ => rfl
  have hat : Cells.at (s.cells.set a (some ⟨n + 1, body⟩)) a = some ⟨n + 1, body⟩ := at_set_self hlt
  by_cases hn : n > 1
  · obtain ⟨c, m, g1, g2, g3, rfl⟩ := cow_shared c1 ha h2 hn
    obtain ⟨m', _, q2, q3⟩ := incrAll_bump _ g1 h2
    rw [g2] at q2
    cases q2
    simp only at g1 g2 g3 q3
    have hlt' := at_lt g2
    have hA : Cells.at (c.set a (some ⟨m + 1, body⟩) ++ [some ⟨1, body⟩]) a = some ⟨m + 1, body⟩ := by
      rw [at_append (by simpa using hlt'), at_set_self hlt']
    have hcow : cowOver ⟨s.cells.set a (some ⟨n + 1, body⟩), s.vars⟩ x 2 =
        some ⟨(c.set a (some ⟨m + 1, body⟩) ++ [some ⟨1, body⟩] : Cells).set a (some ⟨m, body⟩), s.vars.set x (body.ref c.length)⟩ := by
      have hb : (match body with | .fields _ => Ref.obj c.length | .elems _ => Ref.arr c.length) = body.ref c.length := by
        cases body <;> rfl
      simp only [cowOver, hv, ha, hat]
      rw [if_pos (by omega), q3]
      simp only [Option.bind_some, List.length_set]
      have := assign_shared (vars := s.vars) (x := x) (body.ref c.length) (by rw [hv]; exact ha) hA (by omega)
      rw [Nat.add_sub_cancel] at this
      rw [← this]
      cases body <;> rfl
    have hB : Cells.at ((c.set a (some ⟨m + 1, body⟩) ++ [some ⟨1, body⟩] : Cells).set a (some ⟨m, body⟩)) a = some ⟨m, body⟩ :=
      at_set_self (by simp only [List.length_append, List.length_set]; omega)
    simp only [hcow, Option.bind_some, hr _ m hB, if_true, drop_shared ha hB (by omega)]
    congr 2
    rw [List.set_set, List.set_append_left _ _ (by simpa using hlt'), List.set_append_left _ _ hlt', List.set_set]
  · have hn1 : n = 1 := by omega
    subst hn1
    simp only [cow, ha, h2] at c1
    rw [if_neg (by omega)] at c1
    cases c1
    have hcow : cowOver ⟨s.cells.set a (some ⟨1 + 1, body⟩), s.vars⟩ x 2 = some ⟨s.cells.set a (some ⟨1 + 1, body⟩), s.vars⟩ := by
      simp only [cowOver, hv, ha, hat]
      rw [if_neg (by omega)]
    simp only [hcow, Option.bind_some, hr _ _ hat, if_true, drop_shared ha hat (by omega)]
    congr 2
    rw [List.set_set]
    have : s.cells[a]? = some (some ⟨1, body⟩) := at_get h2
    obtain ⟨h3, h4⟩ := List.getElem?_eq_some_iff.1 this
    rw [show (1 + 1 - 1) = 1 by rfl, ← h4]
    exact List.set_getElem_self _

theorem eraseAt_eq {s : State} {e : Env} {x a n : Nat} {body : Body} {it : It} {k : Key} (h : Sim s e)
    (hx : x < s.vars.length) (h1 : s.var x = body.ref a) (h2 : s.cells.at a = some ⟨n, body⟩) (hk : keyOf s x it = .ok k)
    (hr : ∀ c m, Cells.at c a = some ⟨m, body⟩ → It.readable c it = true) :
    Cow.eraseAt s x it = withKey k (Cow.erase s x k) := by
  cases k with
  | name k => simp only [Cow.eraseAt, hk, eraseGuarded_eq h hx h1 h2 hr, withKey]
  | index i => simp only [Cow.eraseAt, hk, withKey]

/-! ### Programs -/

theorem istep_ok {s : IState} {w : World} {op : ItOp} (h : Follows s w) (hu : ∀ x ∈ Spec.Cursor.uses op, x < s.st.vars.length)
    (hc : Spec.Cursor.Covered s.st op) : GoodI s (istep s op) (Spec.Cursor.step w op) := by
  cases op with
  | plain op => exact plain_ok op h hu hc
  | first i x keys => exact first_ok i x keys h
  | past i x keys => exact past_ok i x keys h
  | search i x k keys => exact search_ok i x k keys h
  | next i => exact next_ok i h
  | prev i => exact prev_ok i h
  | dup i j => exact dup_ok i j h
  | take i j => exact take_ok i j h
  | same i j => exact same_ok i j h
  | isSet i => exact isSet_ok i h
  | deref z i => exact deref_ok z i h (hu z (by simp [Spec.Cursor.uses]))
  | insert j x k y m =>
    exact fun _ => insertKey_ok j x y k m h (hu x (by simp [Spec.Cursor.uses])) (hu y (by simp [Spec.Cursor.uses])) hc
  | set j x k y m =>
    exact fun _ => setKey_ok j x y k m h (hu x (by simp [Spec.Cursor.uses])) (hu y (by simp [Spec.Cursor.uses])) hc
  | erase j x k => exact fun _ => eraseKey_ok j x k false h (hu x (by simp [Spec.Cursor.uses])) (by simp)
  | insertAt j x i y m =>
    have hx := hu x (by simp [Spec.Cursor.uses])
    refine arg_ok h fun p keys a n body k h1 h2 _ h4 h5 => ?_
    simp only [putAt_eq h.sim hx h1 h2 h4 h5]
    exact insertKey_ok j x y k m h hx (hu y (by simp [Spec.Cursor.uses])) hc
  | setAt j x i y m =>
    have hx := hu x (by simp [Spec.Cursor.uses])
    refine arg_ok h fun p keys a n body k h1 h2 _ h4 h5 => ?_
    simp only [putAt_eq h.sim hx h1 h2 h4 h5]
    exact setKey_ok j x y k m h hx (hu y (by simp [Spec.Cursor.uses])) hc
  | eraseAt j x i =>
    have hx := hu x (by simp [Spec.Cursor.uses])
    refine arg_ok h fun p keys a n body k h1 h2 h3 h4 h5 => ?_
    simp only [eraseAt_eq h.sim hx h1 h2 h4 h5]
    exact eraseKey_ok j x k keys h hx h3
  | reserve x n => exact reserve_ok x n h hc

theorem irun_ok {ops : List ItOp} : ∀ {s : IState} {w : World}, Follows s w →
    (∀ op ∈ ops, ∀ x ∈ Spec.Cursor.uses op, x < s.st.vars.length) → Spec.Cursor.CoveredRun s ops →
    (∀ o ∈ (Spec.Cursor.run w ops).2, o ≠ .ub) →
    Follows (irun s ops).1 (Spec.Cursor.run w ops).1 ∧ (irun s ops).2 = (Spec.Cursor.run w ops).2 := by
  induction ops with
  | nil => intro s w h _ _ _; exact ⟨h, rfl⟩
  | cons op ops ih =>
    intro s w h hu hc hub
    obtain ⟨h1, h2, h3⟩ := istep_ok h (hu op (by simp)) hc.1 (hub _ (by simp [Spec.Cursor.run]))
    obtain ⟨h4, h5⟩ := ih h1 (fun o ho x hx => by rw [h3]; exact hu o (by simp [ho]) x hx) hc.2
      (fun o ho => hub o (by simp [Spec.Cursor.run, ho]))
    exact ⟨h4, by simp only [irun, Spec.Cursor.run, h2, h5]⟩

theorem follows_init (n m : Nat) : Follows (iinit n m) (Spec.Cursor.init n m) := by
  refine ⟨sim_init n, by simp [iinit, Spec.Cursor.init], fun i => ?_⟩
  have h1 : (iinit n m).it i = .empty := by
    simp only [iinit, IState.it, List.getElem?_replicate]; split <;> rfl
  have h2 : (Spec.Cursor.init n m).cursor i = .empty := by
    simp only [Spec.Cursor.init, World.cursor, List.getElem?_replicate]; split <;> rfl
  rw [h1, h2]
  rfl

end Dart.Cow
