import Verif.Lemmas.Container

/-
Facts about converting packets to containers.
-/
namespace Dart
open Spec

variable {z : Bool}

/-! ### Sequences -/

theorem castAll_ok {α : Type} {f : Pkt → Res α} : ∀ {ps : List Pkt} {xs : List α}, Each (fun p x => f p = .ok x) ps xs →
    castAll f ps = .ok xs
  | [], [], _ => rfl
  | p :: ps, x :: xs, h => by
    have h1 : f p = .ok x := h.1
    simp only [castAll, h1, Res.bind, castAll_ok (ps := ps) (xs := xs) h.2]
  | [], _ :: _, h => h.elim
  | _ :: _, [], h => h.elim

theorem castFront_ok {α : Type} {f : Pkt → Res α} : ∀ {ps : List Pkt} {xs acc : List α}, Each (fun p x => f p = .ok x) ps xs →
    castFront f acc ps = .ok (xs.reverse ++ acc)
  | [], [], _, _ => rfl
  | p :: ps, x :: xs, acc, h => by
    have h1 : f p = .ok x := h.1
    simp only [castFront, h1, Res.bind, castFront_ok (ps := ps) (xs := xs) h.2]
    simp
  | [], _ :: _, _, h => h.elim
  | _ :: _, [], _, h => h.elim

/-- Packets that hold the same values, one of them dynamic. -/
def Pair (z : Bool) (p : Pkt) (q : Pkt) : Prop := ∃ f v, Held z p ⟨f, v⟩ ∧ q = .heap v

theorem castAll_congr {α : Type} {f g : Pkt → Res α} : ∀ {ps qs : List Pkt}, Each (fun p q => f p = g q) ps qs →
    castAll f ps = castAll g qs
  | [], [], _ => rfl
  | p :: ps, q :: qs, h => by
    have h1 : f p = g q := h.1
    simp only [castAll, h1, castAll_congr (ps := ps) (qs := qs) h.2]
  | [], _ :: _, h => h.elim
  | _ :: _, [], h => h.elim

theorem castFront_congr {α : Type} {f g : Pkt → Res α} : ∀ {ps qs : List Pkt} (acc : List α), Each (fun p q => f p = g q) ps qs →
    castFront f acc ps = castFront g acc qs
  | [], [], _, _ => rfl
  | p :: ps, q :: qs, acc, h => by
    have h1 : f p = g q := h.1
    have ih := fun acc => castFront_congr (ps := ps) (qs := qs) acc h.2
    simp only [castFront, h1, ih]
  | [], _ :: _, _, h => h.elim
  | _ :: _, [], _, h => h.elim

/-! ### Sets and maps -/

theorem emplace_last {α κ : Type} {less : κ → κ → Bool} {key : α → κ} {x : α} : ∀ {l : List α},
    (∀ y ∈ l, less (key y) (key x) = true) → emplace less key x l = l ++ [x]
  | [], _ => rfl
  | y :: l, h => by
    rw [emplace, if_pos (h y (by simp)), emplace_last fun y hy => h y (by simp [hy])]
    rfl

theorem emplaceMulti_last {α κ : Type} {less : κ → κ → Bool} {key : α → κ} {x : α} : ∀ {l : List α},
    (∀ y ∈ l, less (key x) (key y) = false) → emplaceMulti less key x l = l ++ [x]
  | [], _ => rfl
  | y :: l, h => by
    rw [emplaceMulti, if_neg (by simp [h y (by simp)]), emplaceMulti_last fun y hy => h y (by simp [hy])]
    rfl

theorem emplace_sorted {κ : Type} {less : κ → κ → Bool} : ∀ {xs acc : List κ}, (acc ++ xs).Pairwise (fun a b => less a b = true) →
    xs.foldl (fun acc x => emplace less id x acc) acc = acc ++ xs
  | [], acc, _ => by simp
  | x :: xs, acc, h => by
    rw [List.foldl_cons, emplace_last (key := id) (fun y hy => (List.pairwise_append.1 h).2.2 y hy x (by simp)),
      emplace_sorted (by simpa using h)]
    simp

theorem emplaceMulti_sorted {κ : Type} {less : κ → κ → Bool} : ∀ {xs acc : List κ}, (acc ++ xs).Pairwise (fun a b => less b a = false) →
    xs.foldl (fun acc x => emplaceMulti less id x acc) acc = acc ++ xs
  | [], acc, _ => by simp
  | x :: xs, acc, h => by
    rw [List.foldl_cons, emplaceMulti_last (key := id) (fun y hy => (List.pairwise_append.1 h).2.2 y hy x (by simp)),
      emplaceMulti_sorted (by simpa using h)]
    simp

/-- Entries in order of their keys. -/
def InOrder {α : Type} (less : Bytes → Bytes → Bool) (m : List (Bytes × α)) : Prop := m.Pairwise fun a b => less a.1 b.1 = true

theorem emplace_ok {α : Type} {less : Bytes → Bytes → Bool} (ho : Orders less) {e : Bytes × α} : ∀ {l : List (Bytes × α)},
    InOrder less l → (∀ g ∈ l, g.1 ≠ e.1) →
    InOrder less (emplace less (·.1) e l) ∧ ∀ g, g ∈ emplace less (·.1) e l ↔ g = e ∨ g ∈ l
  | [], _, _ => ⟨by simp [InOrder, emplace], by simp [emplace]⟩
  | y :: l, h, hn => by
    obtain ⟨h1, h2⟩ := List.pairwise_cons.1 h
    obtain ⟨g1, g2⟩ := emplace_ok ho (e := e) (l := l) h2 fun g hg => hn g (by simp [hg])
    rw [emplace]
    by_cases c1 : less y.1 e.1 = true
    · rw [if_pos c1]
      refine ⟨?_, ?_⟩
      · refine List.pairwise_cons.2 ⟨fun b hb => ?_, g1⟩
        rcases (g2 b).1 hb with rfl | hb
        · exact c1
        · exact h1 b hb
      · intro g
        simp only [List.mem_cons, g2]
        grind
    · rw [if_neg c1]
      have c2 : less e.1 y.1 = true := by
        rcases ho.total (hn y (by simp)) with h | h
        · exact absurd h c1
        · exact h
      rw [if_pos c2]
      refine ⟨List.pairwise_cons.2 ⟨fun b hb => ?_, h⟩, by simp⟩
      rcases List.mem_cons.1 hb with rfl | hb
      · exact c2
      · exact ho.trans c2 (h1 b hb)

theorem inOrder_ext {α : Type} {less : Bytes → Bytes → Bool} (ho : Orders less) : ∀ {l m : List (Bytes × α)}, InOrder less l →
    InOrder less m → (∀ g, g ∈ l ↔ g ∈ m) → l = m
  | [], [], _, _, _ => rfl
  | [], b :: _, _, _, h => by have := (h b).2 (by simp); simp at this
  | a :: _, [], _, _, h => by have := (h a).1 (by simp); simp at this
  | a :: l, b :: m, hl, hm, h => by
    obtain ⟨l1, l2⟩ := List.pairwise_cons.1 hl
    obtain ⟨m1, m2⟩ := List.pairwise_cons.1 hm
    have hab : a = b := by
      rcases List.mem_cons.1 ((h a).1 (by simp)) with e | ha
      · exact e
      rcases List.mem_cons.1 ((h b).2 (by simp)) with e | hb
      · exact e.symm
      exact absurd (ho.asymm (m1 a ha)) (by simp [l1 b hb])
    subst hab
    rw [inOrder_ext ho l2 m2 fun g => ?_]
    constructor
    · intro hg
      rcases List.mem_cons.1 ((h g).1 (by simp [hg])) with rfl | hm
      · have := l1 g hg; rw [ho.irrefl] at this; cases this
      · exact hm
    · intro hg
      rcases List.mem_cons.1 ((h g).2 (by simp [hg])) with rfl | hm
      · have := m1 g hg; rw [ho.irrefl] at this; cases this
      · exact hm

theorem emplaceFields_ok {α : Type} {less : Bytes → Bytes → Bool} (ho : Orders less) {f : Pkt → Res α} :
    ∀ {es : List (Bytes × α)} {ks vs : List Pkt} {acc : List (Bytes × α)}, Each (fun k e => k.strv = .ok e.1) ks es →
    Each (fun v e => f v = .ok e.2) vs es → InOrder less acc → es.Pairwise (fun a b => a.1 ≠ b.1) →
    (∀ e ∈ es, ∀ g ∈ acc, g.1 ≠ e.1) →
    ∃ m, emplaceFields less f acc ks vs = .ok m ∧ InOrder less m ∧ ∀ g, g ∈ m ↔ g ∈ acc ∨ g ∈ es
  | [], [], [], acc, _, _, h, _, _ => ⟨acc, rfl, h, by simp⟩
  | e :: es, k :: ks, v :: vs, acc, hk, hv, h, hp, hd => by
    obtain ⟨p1, p2⟩ := List.pairwise_cons.1 hp
    obtain ⟨g1, g2⟩ := emplace_ok ho (e := e) h (hd e (by simp))
    obtain ⟨m, m1, m2, m3⟩ := emplaceFields_ok ho (f := f) (es := es) (ks := ks) (vs := vs) (acc := emplace less (·.1) e acc)
      hk.2 hv.2 g1 p2 (by
        intro e' he' g hg
        rcases (g2 g).1 hg with rfl | hg
        · exact p1 e' he'
        · exact hd e' (by simp [he']) g hg)
    have h1 : k.strv = .ok e.1 := hk.1
    have h2 : f v = .ok e.2 := hv.1
    refine ⟨m, ?_, m2, ?_⟩
    · simp only [emplaceFields, h1, h2, Res.bind, m1]
    · intro g
      rw [m3, g2, List.mem_cons]
      grind
  | [], _ :: _, _, _, h, _, _, _, _ => h.elim
  | _ :: _, [], _, _, h, _, _, _, _ => h.elim
  | [], [], _ :: _, _, _, h, _, _, _ => h.elim
  | _ :: _, _ :: _, [], _, _, h, _, _, _ => h.elim

/-- Entries in order of their keys, with equal keys. -/
def InOrderMulti {α : Type} (less : Bytes → Bytes → Bool) (m : List (Bytes × α)) : Prop := m.Pairwise fun a b => less b.1 a.1 = false

theorem le_trans' {less : Bytes → Bytes → Bool} (ho : Orders less) {a b c : Bytes} (h1 : less b a = false) (h2 : less c b = false) :
    less c a = false := by
  cases h : less c a with
  | false => rfl
  | true =>
    by_cases hab : a = b
    · subst hab; rw [h] at h2; cases h2
    · rcases ho.total hab with hl | hl
      · rw [ho.trans h hl] at h2; cases h2
      · rw [hl] at h1; cases h1

theorem emplaceMulti_ok {α : Type} {less : Bytes → Bytes → Bool} (ho : Orders less) {e : Bytes × α} : ∀ {l : List (Bytes × α)},
    InOrderMulti less l →
    InOrderMulti less (emplaceMulti less (·.1) e l) ∧ (∀ g, g ∈ emplaceMulti less (·.1) e l ↔ g = e ∨ g ∈ l) ∧
      ∀ k, valuesAt k (emplaceMulti less (·.1) e l) = valuesAt k (l ++ [e])
  | [], _ => ⟨by simp [InOrderMulti, emplaceMulti], by simp [emplaceMulti], by simp [emplaceMulti]⟩
  | y :: l, h => by
    obtain ⟨h1, h2⟩ := List.pairwise_cons.1 h
    obtain ⟨g1, g2, g3⟩ := emplaceMulti_ok ho (e := e) (l := l) h2
    rw [emplaceMulti]
    by_cases c1 : less e.1 y.1 = true
    · rw [if_pos c1]
      refine ⟨List.pairwise_cons.2 ⟨fun b hb => ?_, h⟩, by simp, ?_⟩
      · rcases List.mem_cons.1 hb with rfl | hb
        · exact ho.asymm c1
        · exact le_trans' ho (ho.asymm c1) (h1 b hb)
      · intro k
        rw [valuesAt_append]
        obtain ⟨ke, xe⟩ := e
        by_cases hk : ke = k
        · have : valuesAt k (y :: l) = [] := by
            rw [List.eq_nil_iff_forall_not_mem]
            intro w hw
            subst hk
            rcases List.mem_cons.1 (mem_valuesAt.1 hw) with rfl | hm
            · exact ho.ne c1 rfl
            · have := h1 _ hm; simp only at this; rw [c1] at this; cases this
          rw [valuesAt_cons, if_pos hk, this, valuesAt_cons, if_pos hk]; rfl
        · simp [valuesAt_cons, hk, valuesAt]
    · rw [if_neg c1]
      refine ⟨List.pairwise_cons.2 ⟨fun b hb => ?_, g1⟩, ?_, ?_⟩
      · rcases (g2 b).1 hb with rfl | hb
        · simpa using c1
        · exact h1 b hb
      · intro g
        simp only [List.mem_cons, g2]
        grind
      · intro k
        obtain ⟨ky, xy⟩ := y
        rw [valuesAt_cons, List.cons_append, valuesAt_cons, g3]

theorem emplaceMany_ok {α : Type} {less : Bytes → Bytes → Bool} (ho : Orders less) {k : Bytes} : ∀ {xs : List α} {acc : List (Bytes × α)},
    InOrderMulti less acc →
    InOrderMulti less (xs.foldl (fun acc x => emplaceMulti less (·.1) (k, x) acc) acc) ∧
      ∀ k', valuesAt k' (xs.foldl (fun acc x => emplaceMulti less (·.1) (k, x) acc) acc) =
        valuesAt k' acc ++ if k' = k then xs else []
  | [], acc, h => ⟨h, by simp⟩
  | x :: xs, acc, h => by
    obtain ⟨g1, _, g3⟩ := emplaceMulti_ok ho (e := (k, x)) h
    obtain ⟨h1, h2⟩ := emplaceMany_ok ho (k := k) (xs := xs) g1
    refine ⟨h1, fun k' => ?_⟩
    rw [List.foldl_cons, h2, g3, valuesAt_append, valuesAt_cons]
    by_cases hk : k' = k
    · simp [hk, valuesAt]
    · simp [hk, Ne.symm hk, valuesAt]

theorem inOrderMulti_ext {α : Type} {less : Bytes → Bytes → Bool} (ho : Orders less) : ∀ {l m : List (Bytes × α)},
    InOrderMulti less l → InOrderMulti less m → (∀ k, valuesAt k l = valuesAt k m) → l = m
  | [], [], _, _, _ => rfl
  | [], (k, x) :: m, _, _, h => by have := h k; rw [valuesAt_cons, if_pos rfl] at this; cases this
  | (k, x) :: m, [], _, _, h => by have := h k; rw [valuesAt_cons, if_pos rfl] at this; cases this
  | (a, x) :: l, (b, y) :: m, hl, hm, h => by
    obtain ⟨l1, l2⟩ := List.pairwise_cons.1 hl
    obtain ⟨m1, m2⟩ := List.pairwise_cons.1 hm
    have hab : a = b := by
      have ha : (a, x) ∈ (b, y) :: m := by
        rw [← mem_valuesAt, ← h, valuesAt_cons, if_pos rfl]; simp
      have hb : (b, y) ∈ (a, x) :: l := by
        rw [← mem_valuesAt, h, valuesAt_cons, if_pos rfl]; simp
      apply ho.eq
      · rcases List.mem_cons.1 ha with e | ha
        · cases e; exact ho.irrefl _
        · exact m1 _ ha
      · rcases List.mem_cons.1 hb with e | hb
        · cases e; exact ho.irrefl _
        · exact l1 _ hb
    subst hab
    have hxy := h a
    rw [valuesAt_cons, if_pos rfl, valuesAt_cons, if_pos rfl] at hxy
    obtain ⟨hxy, _⟩ := List.cons.inj hxy
    subst hxy
    rw [inOrderMulti_ext ho l2 m2 fun k => ?_]
    have := h k
    rw [valuesAt_cons, valuesAt_cons] at this
    by_cases hk : a = k
    · rw [if_pos hk, if_pos hk] at this; exact List.cons.inj this |>.2
    · rwa [if_neg hk, if_neg hk] at this

/-- Groups, each of which is converted to the values of `m` under its key. -/
theorem emplaceGroups_ok {α : Type} {less : Bytes → Bytes → Bool} (ho : Orders less) {f : Pkt → Res α} {m : List (Bytes × α)} :
    ∀ {fs : List (Bytes × Val)} {ks vs : List Pkt} {acc : List (Bytes × α)}, Each (fun k e => k.strv = .ok e.1) ks fs →
    Each (fun v e => v.getType = .array ∧ ∃ ws, v.values = .ok ws ∧ castAll f ws = .ok (valuesAt e.1 m)) vs fs → InOrderMulti less acc →
    fs.Pairwise (fun a b => a.1 ≠ b.1) → (∀ e ∈ fs, valuesAt e.1 acc = []) →
    ∃ r, emplaceGroups less f acc ks vs = .ok r ∧ InOrderMulti less r ∧
      (∀ k, (∀ e ∈ fs, e.1 ≠ k) → valuesAt k r = valuesAt k acc) ∧ ∀ e ∈ fs, valuesAt e.1 r = valuesAt e.1 m
  | [], [], [], acc, _, _, h, _, _ => ⟨acc, rfl, h, by simp, by simp⟩
  | e :: fs, k :: ks, v :: vs, acc, hk, hv, h, hp, hd => by
    obtain ⟨p1, p2⟩ := List.pairwise_cons.1 hp
    have h1 : k.strv = .ok e.1 := hk.1
    obtain ⟨v1, ws, v2, v3⟩ := hv.1
    obtain ⟨a1, a2⟩ := emplaceMany_ok ho (k := e.1) (xs := valuesAt e.1 m) h
    obtain ⟨r, r1, r2, r3, r4⟩ := emplaceGroups_ok ho (f := f) (m := m) (fs := fs) (ks := ks) (vs := vs) hk.2 hv.2 a1 p2 (by
      intro e' he'
      rw [a2, hd e' (by simp [he']), if_neg (Ne.symm (p1 e' he'))]; rfl)
    refine ⟨r, ?_, r2, ?_, ?_⟩
    · simp only [emplaceGroups, emplaceField, h1, v1, v2, v3, Res.bind, if_true, r1]
    · intro k' hk'
      rw [r3 k' fun e he => hk' e (by simp [he]), a2, if_neg (Ne.symm (hk' e (by simp)))]
      simp
    · intro e' he'
      rcases List.mem_cons.1 he' with rfl | he'
      · rw [r3 e'.1 fun g hg => Ne.symm (p1 g hg), a2, if_pos rfl, hd e' (by simp)]; rfl
      · exact r4 e' he'
  | [], _ :: _, _, _, h, _, _, _, _ => h.elim
  | _ :: _, [], _, _, h, _, _, _, _ => h.elim
  | [], [], _ :: _, _, _, h, _, _, _ => h.elim
  | _ :: _, _ :: _, [], _, _, h, _, _, _ => h.elim

theorem emplaceFields_congr {α : Type} {less : Bytes → Bytes → Bool} {f g : Pkt → Res α} :
    ∀ {ks ks' vs vs' : List Pkt} (acc : List (Bytes × α)), Each (fun k k' => k.strv = k'.strv) ks ks' →
    Each (fun v v' => f v = g v') vs vs' → emplaceFields less f acc ks vs = emplaceFields less g acc ks' vs'
  | [], [], _, _, _, _, _ => by simp [emplaceFields]
  | _ :: _, _ :: _, [], [], _, _, _ => by simp [emplaceFields]
  | k :: ks, k' :: ks', v :: vs, v' :: vs', acc, hk, hv => by
    have h1 : k.strv = k'.strv := hk.1
    have h2 : f v = g v' := hv.1
    have ih := fun acc => emplaceFields_congr (less := less) (ks := ks) (ks' := ks') (vs := vs) (vs' := vs') acc hk.2 hv.2
    simp only [emplaceFields, h1, h2, ih]
  | [], _ :: _, _, _, _, h, _ => h.elim
  | _ :: _, [], _, _, _, h, _ => h.elim
  | _, _, [], _ :: _, _, _, h => h.elim
  | _, _, _ :: _, [], _, _, h => h.elim

theorem emplaceGroups_congr {α : Type} {less : Bytes → Bytes → Bool} {f g : Pkt → Res α} :
    ∀ {ks ks' vs vs' : List Pkt} (acc : List (Bytes × α)), Each (fun k k' => k.strv = k'.strv) ks ks' →
    Each (fun v v' => ∀ acc k, emplaceField less f acc k v = emplaceField less g acc k v') vs vs' →
    emplaceGroups less f acc ks vs = emplaceGroups less g acc ks' vs'
  | [], [], _, _, _, _, _ => by simp [emplaceGroups]
  | _ :: _, _ :: _, [], [], _, _, _ => by simp [emplaceGroups]
  | k :: ks, k' :: ks', v :: vs, v' :: vs', acc, hk, hv => by
    have h1 : k.strv = k'.strv := hk.1
    have h2 := hv.1
    have ih := fun acc => emplaceGroups_congr (less := less) (ks := ks) (ks' := ks') (vs := vs) (vs' := vs') acc hk.2 hv.2
    simp only [emplaceGroups, h1, h2, ih]
  | [], _ :: _, _, _, _, h, _ => h.elim
  | _ :: _, [], _, _, _, h, _ => h.elim
  | _, _, [], _ :: _, _, _, h => h.elim
  | _, _, _ :: _, [], _, _, h => h.elim

end Dart
