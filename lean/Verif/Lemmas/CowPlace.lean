import Verif.Lemmas.CowIter

/-
Places in maps and vectors against positions in values.
-/
namespace Dart.Cow
open Dart.Spec.Indep Dart.Spec.Cursor

/-- The place of the `p`-th of these keys. -/
def keyPlace (ks : List Bytes) (p : Nat) : Place :=
  match ks[p]? with
  | some k => .node k
  | none => .last

/-- The place of the `p`-th item. -/
def placeIn : Body → Nat → Place
  | .fields fs, p => keyPlace (fs.map (·.1)) p
  | .elems _, p => .index p

def Body.size : Body → Nat
  | .fields fs => fs.length
  | .elems es => es.length

abbrev SortedKeys (ks : List Bytes) : Prop := ks.Pairwise fun a b => keyLt a b = true

theorem SortedKeys.nodup {ks : List Bytes} (h : SortedKeys ks) : ks.Nodup :=
  h.imp fun {a b} hab e => by subst e; rw [keyLt_irrefl] at hab; cases hab

theorem keyPlace_cons (k : Bytes) (ks : List Bytes) (p : Nat) : keyPlace (k :: ks) (p + 1) = keyPlace ks p := by
  simp [keyPlace]

theorem firstNode_eq {α : Type} (fs : List (Bytes × α)) : firstNode fs = keyPlace (fs.map (·.1)) 0 := by
  cases fs <;> rfl

theorem keyPlace_length (ks : List Bytes) : keyPlace ks ks.length = .last := by simp [keyPlace]

theorem keyPlace_node {ks : List Bytes} {p : Nat} {k : Bytes} (h : ks[p]? = some k) : keyPlace ks p = .node k := by
  simp [keyPlace, h]

theorem keyPlace_inj {ks : List Bytes} (hs : SortedKeys ks) {p q : Nat} (hp : p ≤ ks.length) (hq : q ≤ ks.length)
    (h : keyPlace ks p = keyPlace ks q) : p = q := by
  simp only [keyPlace] at h
  by_cases h1 : p < ks.length
  · rw [List.getElem?_eq_getElem h1] at h
    by_cases h2 : q < ks.length
    · rw [List.getElem?_eq_getElem h2] at h
      simp only [Place.node.injEq] at h
      exact (List.getElem_inj hs.nodup).1 h
    · rw [List.getElem?_eq_none (by omega)] at h; cases h
  · rw [List.getElem?_eq_none (by omega)] at h
    by_cases h2 : q < ks.length
    · rw [List.getElem?_eq_getElem h2] at h; cases h
    · omega

theorem mapFind_isSome_mem {α : Type} (k : Bytes) (fs : List (Bytes × α)) :
    (mapFind k fs).isSome = true ↔ k ∈ fs.map (·.1) := by
  rw [mapFind_isSome_any, List.any_eq_true, List.mem_map]
  exact ⟨fun ⟨f, h, e⟩ => ⟨f, h, by simpa using e⟩, fun ⟨f, h, e⟩ => ⟨f, h, by simpa using e⟩⟩

theorem mapFind_at {α : Type} : ∀ {fs : List (Bytes × α)} {p : Nat} {k : Bytes} {r : α}, KeysSorted fs →
    fs[p]? = some (k, r) → mapFind k fs = some r
  | [], p, k, r, _, h => by simp at h
  | (k', r') :: fs, 0, k, r, _, h => by
    simp only [List.getElem?_cons_zero, Option.some.injEq, Prod.mk.injEq] at h
    simp [mapFind, h, keyLt_irrefl]
  | (k', r') :: fs, p + 1, k, r, hs, h => by
    simp only [List.getElem?_cons_succ] at h
    obtain ⟨hg, hs'⟩ := List.pairwise_cons.1 hs
    have hne : k' ≠ k := by
      rintro rfl
      have := hg k' (List.mem_map.2 ⟨_, List.mem_of_getElem? h, rfl⟩)
      rw [keyLt_irrefl] at this; cases this
    simp only [mapFind, equiv_iff, hne, decide_false, Bool.false_eq_true, if_false]
    exact mapFind_at hs' h

theorem nextNode_eq {α : Type} : ∀ {fs : List (Bytes × α)} {p : Nat} {k : Bytes}, KeysSorted fs →
    (fs.map (·.1))[p]? = some k → nextNode k fs = some (keyPlace (fs.map (·.1)) (p + 1))
  | [], p, k, _, h => by simp at h
  | (k', r') :: fs, 0, k, _, h => by
    simp only [List.map_cons, List.getElem?_cons_zero, Option.some.injEq] at h
    rw [nextNode, if_pos h, firstNode_eq, List.map_cons, keyPlace_cons]
  | (k', r') :: fs, p + 1, k, hs, h => by
    simp only [List.map_cons, List.getElem?_cons_succ] at h
    obtain ⟨hg, hs'⟩ := List.pairwise_cons.1 hs
    have hne : k' ≠ k := by
      rintro rfl
      have := hg k' (List.mem_of_getElem? h)
      rw [keyLt_irrefl] at this; cases this
    rw [nextNode, if_neg hne, List.map_cons, keyPlace_cons]
    exact nextNode_eq hs' h

theorem nextNode_none {α : Type} : ∀ {fs : List (Bytes × α)} {k : Bytes}, k ∉ fs.map (·.1) → nextNode k fs = none
  | [], _, _ => rfl
  | (k', r') :: fs, k, h => by
    simp only [List.map_cons, List.mem_cons, not_or] at h
    rw [nextNode, if_neg (Ne.symm h.1)]
    exact nextNode_none h.2

theorem prevNode_eq {α : Type} : ∀ {fs : List (Bytes × α)} {p : Nat} {k : Bytes}, KeysSorted fs →
    (fs.map (·.1))[p + 1]? = some k → prevNode k fs = some (keyPlace (fs.map (·.1)) p)
  | [], p, k, _, h => by simp at h
  | [(k', r')], p, k, _, h => by simp at h
  | (k₁, r₁) :: (k₂, r₂) :: fs, 0, k, _, h => by
    simp only [List.map_cons, List.getElem?_cons_succ, List.getElem?_cons_zero, Option.some.injEq] at h
    rw [prevNode, if_pos h]
    rfl
  | (k₁, r₁) :: (k₂, r₂) :: fs, p + 1, k, hs, h => by
    obtain ⟨_, hs'⟩ := List.pairwise_cons.1 hs
    have h' : (((k₂, r₂) :: fs).map (·.1))[p + 1]? = some k := by simpa using h
    have hne : k₂ ≠ k := by
      rintro rfl
      simp only [List.map_cons, List.getElem?_cons_succ] at h'
      have := (List.pairwise_cons.1 hs').1 _ (List.mem_of_getElem? h')
      rw [keyLt_irrefl] at this; cases this
    rw [prevNode, if_neg hne, List.map_cons, keyPlace_cons]
    exact prevNode_eq hs' h'

theorem keyPlace_idxOf {ks : List Bytes} (k : Bytes) :
    keyPlace ks (ks.idxOf k) = if k ∈ ks then .node k else .last := by
  by_cases h : k ∈ ks
  · rw [if_pos h]
    refine keyPlace_node ?_
    rw [List.getElem?_eq_getElem (List.idxOf_lt_length_of_mem h), List.getElem_idxOf]
  · rw [if_neg h, List.idxOf_eq_length h, keyPlace_length]

/-- The place `erase` returns, in the map after the erasure. -/
theorem nextNode_erase {α : Type} (k : Bytes) : ∀ {fs : List (Bytes × α)}, KeysSorted fs →
    (nextNode k fs).getD .last = keyPlace ((mapErase k fs).map (·.1)) ((fs.map (·.1)).idxOf k)
  | [], _ => rfl
  | (k', r') :: fs, hs => by
    obtain ⟨_, hs'⟩ := List.pairwise_cons.1 hs
    by_cases h : k' = k
    · subst h
      simp only [nextNode, if_true, Option.getD_some, mapErase, equiv_iff, decide_true, List.map_cons,
        List.idxOf_cons_self]
      exact firstNode_eq fs
    · simp only [nextNode, mapErase, equiv_iff, h, decide_false, Bool.false_eq_true, if_false, List.map_cons]
      rw [List.idxOf_cons, show (k' == k) = false by simpa using h, cond_false, keyPlace_cons]
      exact nextNode_erase k hs'

theorem mapFields_keys {f : Ref → Option Val} : ∀ {fs : List (Bytes × Ref)} {vs : List (Bytes × Val)},
    mapFields f fs = some vs → vs.map (·.1) = fs.map (·.1)
  | [], vs, h => by simp only [mapFields] at h; cases h; rfl
  | (k, r) :: fs, ws, h => by
    obtain ⟨v, vs, h1, h2, rfl⟩ := mapFields_cons h
    simp [mapFields_keys h2]

theorem mapFields_get {f : Ref → Option Val} : ∀ (n : Nat) {fs : List (Bytes × Ref)} {vs : List (Bytes × Val)},
    mapFields f fs = some vs →
    (fs[n]? = none ∧ vs[n]? = none) ∨ (∃ k r v, fs[n]? = some (k, r) ∧ f r = some v ∧ vs[n]? = some (k, v))
  | n, [], vs, h => by simp only [mapFields] at h; cases h; exact .inl (by simp)
  | 0, (k, r) :: es, ws, h => by
    obtain ⟨v, vs, h1, h2, rfl⟩ := mapFields_cons h
    exact .inr ⟨k, r, v, rfl, h1, rfl⟩
  | n + 1, (k, r) :: es, ws, h => by
    obtain ⟨v, vs, h1, h2, rfl⟩ := mapFields_cons h
    simpa using mapFields_get n h2

/-- An iterator variable follows its specification. -/
def Tracks (s : State) : Cursor → ItVar → Prop
  | .empty, v => v = .empty
  | .lost, v => v ≠ .empty
  | .at x p keys, v => ∃ a n body, s.var x = body.ref a ∧ s.cells.at a = some ⟨n, body⟩ ∧ p ≤ body.size ∧
      (keys = true → ∃ fs, body = .fields fs) ∧ v = .at ⟨a, placeIn body p, keys⟩

theorem tracks_ne_empty {s : State} {c : Cursor} {v : ItVar} (h : Tracks s c v) (hc : c ≠ .empty) : v ≠ .empty := by
  cases c with
  | empty => exact absurd rfl hc
  | lost => exact h
  | «at» x p keys =>
    obtain ⟨a, n, body, _, _, _, _, rfl⟩ := h
    simp

theorem age_ne_empty {c c' : Cells} {v : ItVar} (h : v ≠ .empty) : age c c' v ≠ .empty := by
  cases v with
  | empty => exact absurd rfl h
  | stale => simp [age]
  | «at» it => simp only [age]; split <;> simp

/-- An iterator into storage that stays as it is survives. -/
theorem tracks_to {s s' : State} {e' : Env} {z z' p : Nat} {keys : Bool} {v : ItVar} (hs' : Sim s' e')
    (hvar : s'.var z' = s.var z)
    (hbody : ∀ a, (s.var z).addr = some a → ∀ y, s'.cells.at a = some y → ∃ w, s.cells.at a = some w ∧ w.body = y.body)
    (h : Tracks s (.at z p keys) v) : Tracks s' (.at z' p keys) (age s.cells s'.cells v) := by
  obtain ⟨a, n, body, h1, h2, h3, h4, rfl⟩ := h
  have haddr : (s.var z).addr = some a := by rw [h1, ref_addr]
  have hz' : z' < s'.vars.length := by
    refine Nat.lt_of_not_le fun hle => ?_
    rw [← hvar] at haddr
    simp [State.var, List.getElem?_eq_none hle, Ref.addr] at haddr
  obtain ⟨y, hy⟩ := hs'.counted.live (a := a) (by
    have := occ_pos (var_mem hz') (by rw [hvar]; exact haddr)
    omega)
  obtain ⟨w, hw, e⟩ := hbody a haddr y hy
  rw [h2] at hw; cases hw
  simp only at e
  obtain ⟨m, b⟩ := y
  simp only at e
  subst e
  refine ⟨a, m, body, hvar.trans h1, hy, h3, h4, ?_⟩
  simp only [age]
  rw [if_pos]
  simp only [It.survives, It.body, h2, hy, Option.map_some]
  cases body with
  | elems es => simp [placeIn]
  | fields fs =>
    simp only [placeIn, keyPlace]
    cases hp : (fs.map (·.1))[p]? with
    | none => rfl
    | some k => simp only; rw [mapFind_isSome_mem]; exact List.mem_of_getElem? hp

theorem var_lt {s : State} {x a : Nat} (h : (s.var x).addr = some a) : x < s.vars.length := by
  refine Nat.lt_of_not_le fun hle => ?_
  simp [State.var, List.getElem?_eq_none hle, Ref.addr] at h

theorem tracks_frame {s s' : State} {e e' : Env} {x z p : Nat} {xs : List Nat} {keys : Bool} {v : ItVar}
    (hs : Sim s e) (hs' : Sim s' e') (hf : Frame s x xs s') (hx : x ∈ xs) (hz : z ∉ xs)
    (h : Tracks s (.at z p keys) v) : Tracks s' (.at z p keys) (age s.cells s'.cells v) := by
  refine tracks_to hs' (hf.vars z hz) (fun a ha y hy => ?_) h
  obtain ⟨a', n, body, h1, h2, _⟩ := h
  have : a' = a := by rw [h1, ref_addr] at ha; exact Option.some.inj ha
  subst this
  refine hf.keeps a' (at_lt h2) (fun hxa => ?_) y hy
  refine Nat.lt_of_not_le fun hle => ?_
  have hpos := hs.counted.pos _ _ h2
  have h1' : cnt s.cells a' = 1 := by rw [cnt_some h2] at hle ⊢; simp only at hle hpos ⊢; omega
  exact (alone hs (var_lt hxa) hxa h1').2 z (fun e => hz (e ▸ hx)) ha

theorem tracks_forget {s s' : State} {e e' : Env} {x : Nat} {xs : List Nat} {c : Cursor} {v : ItVar}
    (hs : Sim s e) (hs' : Sim s' e') (hf : Frame s x xs s') (hx : x ∈ xs) (h : Tracks s c v) :
    Tracks s' (forget xs c) (age s.cells s'.cells v) := by
  cases c with
  | empty => simp only [Tracks] at h; subst h; rfl
  | lost => exact age_ne_empty h
  | «at» z p keys =>
    simp only [forget]
    split
    · exact age_ne_empty (tracks_ne_empty h (by simp))
    · exact tracks_frame hs hs' hf hx ‹_› h

/-- All variables and iterators follow their specification. -/
structure Follows (s : IState) (w : World) : Prop where
  sim : Sim s.st w.env
  len : s.its.length = w.cursors.length
  tracks : ∀ i, Tracks s.st (w.cursor i) (s.it i)

theorem map_getD {α β : Type} (l : List α) (f : α → β) (d : α) (i : Nat) : ((l.map f)[i]?).getD (f d) = f (l[i]?.getD d) := by
  simp only [List.getElem?_map]
  cases l[i]? <;> rfl

theorem Follows.map {s : IState} {w : World} {st : State} {env : Env} {f : Cursor → Cursor} {g : ItVar → ItVar} (h : Follows s w)
    (hs : Sim st env) (hf : f .empty = .empty) (hg : g .empty = .empty)
    (ht : ∀ c v, Tracks s.st c v → Tracks st (f c) (g v)) : Follows ⟨st, s.its.map g⟩ ⟨env, w.cursors.map f⟩ := by
  refine ⟨hs, by simpa using h.len, fun i => ?_⟩
  have h1 : (⟨st, s.its.map g⟩ : IState).it i = g (s.it i) := by
    simp only [IState.it]; rw [← hg, map_getD, hg]
  have h2 : (⟨env, w.cursors.map f⟩ : World).cursor i = f (w.cursor i) := by
    simp only [World.cursor]; rw [← hf, map_getD, hf]
  rw [h1, h2]
  exact ht _ _ (h.tracks i)

theorem Follows.point {s : IState} {w : World} {c : Cursor} {v : ItVar} (h : Follows s w) (i : Nat) (ht : Tracks s.st c v) :
    Follows (s.point i v) (w.point i c) := by
  refine ⟨h.sim, by simpa [IState.point, World.point] using h.len, fun j => ?_⟩
  simp only [IState.it, World.cursor, IState.point, World.point, List.getElem?_set]
  by_cases hij : i = j
  · subst hij
    have := h.len
    by_cases hi : i < s.its.length
    · simp only [if_true, hi, show i < w.cursors.length by omega, Option.getD_some]; exact ht
    · simp only [if_true, hi, show ¬ i < w.cursors.length by omega, if_false]; rfl
  · simp only [if_neg hij]; exact h.tracks j

end Dart.Cow
