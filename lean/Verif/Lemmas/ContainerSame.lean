import Verif.Lemmas.ContainerCompare
import Verif.Lemmas.EqualBuf

/-
Comparing finalized packets with containers, and comparisons with `forward_list` and multimaps.
-/
namespace Dart
open Spec

variable {z : Bool}

/-- A packet and the dynamic packet of the same value, with keys that lookups find. -/
def Twin (z signed : Bool) (p q : Pkt) : Prop := ∃ f v, Held z p ⟨f, v⟩ ∧ v.PlainKeys signed ∧ q = .heap v

variable {signed : Bool} {p q : Pkt}

theorem Twin.like (h : Twin z signed p q) : Like z p q := by
  obtain ⟨f, v, h1, _, h2⟩ := h
  exact ⟨f, v, h1, h2⟩

theorem Twin.elems (h : Twin z signed p q) (ha : p.getType = .array) :
    ∃ ps qs, p.values = .ok ps ∧ q.values = .ok qs ∧ Each (Twin z signed) ps qs := by
  obtain ⟨f, v, h, hp, rfl⟩ := h
  rw [h.getType] at ha
  cases v <;> simp only [Val.ty, reduceCtorEq] at ha
  obtain ⟨ps, h1, h2⟩ := h.elems
  refine ⟨ps, _, h1, rfl, ?_⟩
  rename_i es
  rw [Val.PlainKeys, plainElems_iff] at hp
  exact h2.trans (each_map_left (R := fun q e => q = Pkt.heap e) (each_refl fun _ _ => rfl)).symm
    fun p _ v hv q _ a b => ⟨f, v, a, hp v hv, b⟩

theorem Twin.get (h : Twin z signed p q) (ha : p.getType = .object) (k : Bytes) :
    ∃ p' q', PRead.run signed p (.get k) = .ok p' ∧ PRead.run signed q (.get k) = .ok q' ∧ Twin z signed p' q' := by
  obtain ⟨f, v, h, hp, rfl⟩ := h
  rw [h.getType] at ha
  cases v <;> simp only [Val.ty, reduceCtorEq] at ha
  rename_i fs
  have hg : PRead.run signed (.heap (.obj fs)) (.get k) = .ok (.heap ((lookup fs k).getD .null)) := by
    simp [PRead.run, Pkt.visit, Val.get, Res.bind, mapFind_eq]
  have hwf := wf_obj.1 h.wf
  have hpk : ((lookup fs k).getD .null).PlainKeys signed := by
    cases hl : lookup fs k with
    | none => trivial
    | some w => exact (plainFields_iff.1 hp _ (lookup_some_mem hl)).2
  have hw : ((lookup fs k).getD .null).WF := by
    cases hl : lookup fs k with
    | none => trivial
    | some w => exact (hwf.2 _ (lookup_some_mem hl)).2
  cases p with
  | heap u =>
    obtain ⟨e, _⟩ := h
    cases e
    exact ⟨_, _, hg, hg, false, _, ⟨rfl, hw⟩, hpk, rfl⟩
  | buf b =>
    obtain ⟨e, hs⟩ := h
    obtain ⟨b', h1, h2⟩ := shows_get_plain hs hp hwf.1 k
    exact ⟨.buf b', _, by simp [PRead.run, Pkt.visit, h1, Res.bind], hg, f, _, (show Held z (.buf b') ⟨f, (lookup fs k).getD .null⟩ from ⟨e, h2⟩), hpk, rfl⟩

theorem Twin.getIdx (h : Twin z signed p q) (ha : p.getType = .array) (i : Nat) :
    ∃ p' q', PRead.run signed p (.getIdx i) = .ok p' ∧ PRead.run signed q (.getIdx i) = .ok q' ∧ Twin z signed p' q' := by
  obtain ⟨f, v, h, hp, rfl⟩ := h
  rw [h.getType] at ha
  cases v <;> simp only [Val.ty, reduceCtorEq] at ha
  rename_i es
  obtain ⟨p', h1, h2⟩ := h.getIdx (signed := signed) i
  obtain ⟨q', g1, g2⟩ := (held_heap (z := z) h.wf).getIdx (signed := signed) i
  refine ⟨p', q', h1, g1, f, _, h2, ?_, ?_⟩
  · rw [Val.PlainKeys, plainElems_iff] at hp
    cases hl : es[i]? with
    | none => trivial
    | some w => exact hp w (List.mem_of_getElem? hl)
  · cases q' with
    | heap w => obtain ⟨e, _⟩ := g2; cases e; rfl
    | buf b' => cases g2.1

theorem Twin.eqNative (h : Twin z signed p q) (x : Native) : p.eqNative x = q.eqNative x := by
  obtain ⟨f, v, h, _, rfl⟩ := h
  cases p with
  | heap u => obtain ⟨e, _⟩ := h; cases e; rfl
  | buf b =>
    obtain ⟨_, hs⟩ := h
    have ht : b.getType = v.getType := by rw [hs.getType, getType_eq]
    show b.eqNative x = v.eqNative x
    cases x with
    | null => simp only [Buf.eqNative, Val.eqNative, ht]
    | bool c =>
      simp only [Buf.eqNative, Val.eqNative, ht]
      by_cases h : v.getType = .boolean
      · rw [if_pos h, if_pos h, hs.boolean (by rintro i rfl; cases h) (by rintro i rfl; cases h)]
      · rw [if_neg h, if_neg h]
    | int t x => simp only [Buf.eqNative, Val.eqNative, ht, hs.integer, hs.decimal]
    | dbl e => simp only [Buf.eqNative, Val.eqNative, ht, hs.integer, hs.decimal]
    | str s => simp only [Buf.eqNative, Val.eqNative, ht, hs.strv']

section
variable {α : Type} {f : Pkt → α → Res Bool}

theorem eqAll_same {ps qs : List Pkt} {xs : List α} (h : Each (Twin z signed) ps qs) (hf : ∀ p q x, x ∈ xs → Twin z signed p q → f p x = f q x) :
    eqAll f ps xs = eqAll f qs xs := by
  induction ps generalizing qs xs with
  | nil => cases qs with
    | nil => rfl
    | cons _ _ => exact h.elim
  | cons p ps ih => cases qs with
    | nil => exact h.elim
    | cons q qs => cases xs with
      | nil => rfl
      | cons x xs => rw [eqAll, eqAll, hf p q x (by simp) h.1, ih h.2 fun p q x hx => hf p q x (by simp [hx])]

theorem eqForward_same {ps qs : List Pkt} {xs : List α} (h : Each (Twin z signed) ps qs) (hf : ∀ p q x, x ∈ xs → Twin z signed p q → f p x = f q x) :
    eqForward f ps xs = eqForward f qs xs := by
  induction ps generalizing qs xs with
  | nil => cases qs with
    | nil => rfl
    | cons _ _ => exact h.elim
  | cons p ps ih => cases qs with
    | nil => exact h.elim
    | cons q qs => cases xs with
      | nil => rfl
      | cons x xs => rw [eqForward, eqForward, hf p q x (by simp) h.1, ih h.2 fun p q x hx => hf p q x (by simp [hx])]

theorem eqFields_same {m : List (Bytes × α)} (h : Twin z signed p q) (ha : p.getType = .object) (hf : ∀ p q x, Twin z signed p q → f p x = f q x) :
    eqFields signed f p m = eqFields signed f q m := by
  induction m with
  | nil => rfl
  | cons e m ih =>
    obtain ⟨k, x⟩ := e
    obtain ⟨p', q', h1, h2, h3⟩ := h.get ha k
    rw [eqFields, eqFields, h1, h2, Res.bind_ok, Res.bind_ok, hf p' q' x h3, ih]

theorem takeEqual_same {xs : List α} (h : Twin z signed p q) (hf : ∀ p q x, Twin z signed p q → f p x = f q x) :
    takeEqual f p xs = takeEqual f q xs := by
  induction xs with
  | nil => rfl
  | cons x xs ih => rw [takeEqual, takeEqual, hf p q x h, ih]

theorem permutes_same {ps qs : List Pkt} {xs : List α} (h : Each (Twin z signed) ps qs) (hf : ∀ p q x, Twin z signed p q → f p x = f q x) :
    permutes f ps xs = permutes f qs xs := by
  induction ps generalizing qs xs with
  | nil => cases qs with
    | nil => rfl
    | cons _ _ => exact h.elim
  | cons p ps ih => cases qs with
    | nil => exact h.elim
    | cons q qs =>
      have : permutes f ps = permutes f qs := funext fun _ => ih h.2
      rw [permutes, permutes, takeEqual_same h.1 hf, this]

theorem callEach_same {xs : List α} (h : Twin z signed p q) (hf : ∀ p q x, Twin z signed p q → f p x = f q x) :
    callEach f p xs = callEach f q xs := by
  induction xs with
  | nil => rfl
  | cons x xs ih => rw [callEach, callEach, hf p q x h, ih]

theorem callAll_same {ps qs : List Pkt} {xs : List α} (h : Each (Twin z signed) ps qs) (hf : ∀ p q x, Twin z signed p q → f p x = f q x) :
    callAll f ps xs = callAll f qs xs := by
  induction ps generalizing qs with
  | nil => cases qs with
    | nil => rfl
    | cons _ _ => exact h.elim
  | cons p ps ih => cases qs with
    | nil => exact h.elim
    | cons q qs => rw [callAll, callAll, callEach_same h.1 hf, ih h.2]

theorem isPermutation_same {ps qs : List Pkt} {xs : List α} (h : Each (Twin z signed) ps qs) (hf : ∀ p q x, Twin z signed p q → f p x = f q x) :
    isPermutation f ps xs = isPermutation f qs xs := by
  rw [isPermutation, isPermutation, callAll_same h hf, permutes_same h hf]

theorem eqGroups_same {gs : List (Bytes × List α)} (h : Twin z signed p q) (ha : p.getType = .object) (hf : ∀ p q x, Twin z signed p q → f p x = f q x) :
    eqGroups signed f p gs = eqGroups signed f q gs := by
  induction gs with
  | nil => rfl
  | cons e m ih =>
    obtain ⟨k, xs⟩ := e
    obtain ⟨p', q', h1, h2, h3⟩ := h.get ha k
    rw [eqGroups, eqGroups, h1, h2, Res.bind_ok, Res.bind_ok, ← h3.like.type, ← h3.like.size, ih]
    by_cases ht : p'.getType = .array
    · obtain ⟨ps, qs, g1, g2, g3⟩ := h3.elems ht
      rw [g1, g2, Res.bind_ok, Res.bind_ok, isPermutation_same g3 hf]
    · rw [if_pos ht, if_pos ht]

theorem sized_same {n : Nat} {c : List Pkt → Res Bool} (h : Twin z signed p q) (hc : ∀ ps qs, Each (Twin z signed) ps qs → c ps = c qs) :
    sized p n c = sized q n c := by
  unfold sized
  rw [← h.like.type, ← h.like.size]
  by_cases ht : p.getType = .array
  · obtain ⟨ps, qs, g1, g2, g3⟩ := h.elems ht
    rw [g1, g2, Res.bind_ok, Res.bind_ok, hc ps qs g3]
  · rw [if_pos ht, if_pos ht]
end

mutual
theorem compare_same : ∀ (t : CTy) {p q : Pkt} (x : t.type), Twin z signed p q → t.compare signed p x = t.compare signed q x
  | .scalar s, p, q, x, h => h.eqNative _
  | .seq t, p, q, (xs : List t.type), h => sized_same h fun ps qs he => eqAll_same he fun p q x _ h => compare_same t x h
  | .array t n, p, q, (xs : List t.type), h => sized_same h fun ps qs he => eqAll_same he fun p q x _ h => compare_same t x h
  | .set s _, p, q, (xs : List s.type), h => sized_same h fun ps qs he => isPermutation_same he fun p q x h => h.eqNative _
  | .mset s _, p, q, (xs : List s.type), h => sized_same h fun ps qs he => isPermutation_same he fun p q x h => h.eqNative _
  | .fwd t, p, q, (xs : List t.type), h => by
    show (if p.getType ≠ .array then Res.ok false else p.values.bind fun vs => eqForward (t.compare signed) vs xs) =
      (if q.getType ≠ .array then Res.ok false else q.values.bind fun vs => eqForward (t.compare signed) vs xs)
    rw [← h.like.type]
    by_cases ht : p.getType = .array
    · obtain ⟨ps, qs, g1, g2, g3⟩ := h.elems ht
      rw [g1, g2, Res.bind_ok, Res.bind_ok, eqForward_same g3 fun p q x _ h => compare_same t x h]
    · rw [if_pos ht, if_pos ht]
  | .map less t, p, q, (m : List (Bytes × t.type)), h => by
    show (if p.getType ≠ .object then Res.ok false
      else p.size.bind fun n => if n ≠ m.length then .ok false else eqFields signed (t.compare signed) p m) =
      (if q.getType ≠ .object then Res.ok false
      else q.size.bind fun n => if n ≠ m.length then .ok false else eqFields signed (t.compare signed) q m)
    rw [← h.like.type, ← h.like.size]
    by_cases ht : p.getType = .object
    · rw [eqFields_same h ht fun p q x h => compare_same t x h]
    · rw [if_pos ht, if_pos ht]
  | .mmap less t, p, q, (m : List (Bytes × t.type)), h => by
    show (if p.getType ≠ .object then Res.ok false else eqGroups signed (t.compare signed) p (runs less m)) =
      (if q.getType ≠ .object then Res.ok false else eqGroups signed (t.compare signed) q (runs less m))
    rw [← h.like.type]
    by_cases ht : p.getType = .object
    · rw [eqGroups_same h ht fun p q x h => compare_same t x h]
    · rw [if_pos ht, if_pos ht]
  | .opt t, p, q, none, h => by rw [CTy.compare, CTy.compare, h.like.type]
  | .opt t, p, q, some x, h => compare_same t x h
  | .pair a b, p, q, (x, y), h => by
    rw [CTy.compare, CTy.compare, ← h.like.type, ← h.like.size]
    by_cases ht : p.getType = .array
    · obtain ⟨p0, q0, g1, g2, g3⟩ := h.getIdx ht 0
      obtain ⟨p1, q1, k1, k2, k3⟩ := h.getIdx ht 1
      rw [g1, g2, k1, k2]
      simp only [Res.bind_ok]
      rw [compare_same a x g3, compare_same b y k3]
    · rw [if_pos ht, if_pos ht]
  | .tuple ts, p, q, xs, h => sized_same h fun ps qs he => compares_same ts xs he
  | .variant ts, p, q, x, h => compareAlt_same ts x h
theorem compares_same : ∀ (ts : CTys) {ps qs : List Pkt} (xs : ts.prod), Each (Twin z signed) ps qs →
    ts.compares signed ps xs = ts.compares signed qs xs
  | .nil, ps, qs, _, h => rfl
  | .cons t ts, p :: ps, q :: qs, (x, xs), h => by
    rw [CTys.compares, CTys.compares, compare_same t x h.1, compares_same ts xs h.2]
  | .cons t ts, [], [], _, h => rfl
  | .cons t ts, _ :: _, [], _, h => h.elim
  | .cons t ts, [], _ :: _, _, h => h.elim
theorem compareAlt_same : ∀ (ts : CTys) {p q : Pkt} (x : ts.sum), Twin z signed p q → ts.compareAlt signed p x = ts.compareAlt signed q x
  | .nil, _, _, x, _ => nomatch x
  | .cons t _, _, _, .inl x, h => compare_same t x h
  | .cons _ ts, _, _, .inr x, h => compareAlt_same ts x h
end

/-! ### Multimaps -/

/-- In the order of a multimap. -/
def WeaklyIn {α : Type} (less : Bytes → Bytes → Bool) (m : List (Bytes × α)) : Prop :=
  m.Pairwise fun a b => less a.1 b.1 = true ∨ a.1 = b.1

theorem runs_ok {α : Type} {less : Bytes → Bytes → Bool} (hl : Orders less) : ∀ {m : List (Bytes × α)}, WeaklyIn less m →
    (∀ g ∈ runs less m, g.2 = valuesAt g.1 m ∧ g.2 ≠ []) ∧ (∀ e ∈ m, ∃ g ∈ runs less m, g.1 = e.1) ∧
    (runs less m).head?.map (·.1) = m.head?.map (·.1) ∧ (runs less m).Pairwise fun a b => less a.1 b.1 = true
  | [], _ => by simp [runs]
  | (k, x) :: m, h => by
    obtain ⟨h1, h2⟩ := List.pairwise_cons.1 h
    obtain ⟨i1, i2, i3, i4⟩ := runs_ok hl h2
    have hirr : ∀ a, less a a = false := fun a => by
      cases h : less a a with
      | false => rfl
      | true => exact absurd rfl (hl.ne h)
    rw [runs]
    cases hr : runs less m with
    | nil =>
      have : m = [] := by
        cases m with
        | nil => rfl
        | cons e m => rw [hr] at i3; simp at i3
      subst this
      simp [valuesAt]
    | cons g gs =>
      obtain ⟨k', xs⟩ := g
      rw [hr] at i1 i2 i3 i4
      obtain ⟨p1, p2⟩ := List.pairwise_cons.1 i4
      have hk' : ∃ y m', m = (k', y) :: m' := by
        cases m with
        | nil => simp at i3
        | cons e m => obtain ⟨a, b⟩ := e; simp at i3; subst i3; exact ⟨b, m, rfl⟩
      obtain ⟨y, m', rfl⟩ := hk'
      have hkk := h1 (k', y) (by simp)
      by_cases hlt : less k k' = true
      · simp only [hlt, if_true]
        have hlater : ∀ g ∈ (k', xs) :: gs, less k g.1 = true := by
          intro g hg
          rcases List.mem_cons.1 hg with rfl | hg
          · exact hlt
          · exact hl.trans hlt (p1 g hg)
        have hno : ∀ e ∈ (k', y) :: m', e.1 ≠ k := by
          intro e he hek
          obtain ⟨g, hg, e1⟩ := i2 e he
          have := hlater g hg
          rw [e1, hek, hirr] at this
          cases this
        refine ⟨fun g hg => ?_, fun e he => ?_, by simp, List.pairwise_cons.2 ⟨hlater, i4⟩⟩
        · rcases List.mem_cons.1 hg with rfl | hg
          · refine ⟨?_, by simp⟩
            rw [valuesAt_cons, if_pos rfl]
            have : valuesAt k ((k', y) :: m') = [] := by
              cases hva : valuesAt k ((k', y) :: m') with
              | nil => rfl
              | cons a as =>
                have : a ∈ valuesAt k ((k', y) :: m') := by rw [hva]; simp
                exact absurd rfl (hno _ (mem_valuesAt.1 this))
            rw [this]
          · obtain ⟨q1, q2⟩ := i1 g hg
            refine ⟨?_, q2⟩
            rw [valuesAt_cons, if_neg (hl.ne (hlater g hg))]
            exact q1
        · rcases List.mem_cons.1 he with rfl | he
          · exact ⟨_, List.mem_cons_self .., rfl⟩
          · obtain ⟨g, hg, e1⟩ := i2 e he
            exact ⟨g, by simp [hg], e1⟩
      · have hk : k = k' := by
          rcases hkk with h | h
          · exact absurd h hlt
          · exact h
        subst hk
        simp only [if_neg hlt]
        refine ⟨fun g hg => ?_, fun e he => ?_, by simp, List.pairwise_cons.2 ⟨p1, p2⟩⟩
        · rcases List.mem_cons.1 hg with rfl | hg
          · refine ⟨?_, by simp⟩
            rw [valuesAt_cons, if_pos rfl]
            have := (i1 (k, xs) (by simp)).1
            simp only at this
            rw [this]
          · obtain ⟨q1, q2⟩ := i1 g (by simp [hg])
            refine ⟨?_, q2⟩
            rw [valuesAt_cons, if_neg (hl.ne (p1 g hg))]
            exact q1
        · rcases List.mem_cons.1 he with rfl | he
          · exact ⟨_, List.mem_cons_self .., rfl⟩
          · obtain ⟨g, hg, e1⟩ := i2 e he
            rcases List.mem_cons.1 hg with rfl | hg
            · exact ⟨_, List.mem_cons_self .., e1⟩
            · exact ⟨g, by simp [hg], e1⟩

theorem eqGroups_ok {α : Type} {f : Pkt → α → Res Bool} {R : Val → α → Prop} {fs : List (Bytes × Val)} : ∀ {gs : List (Bytes × List α)},
    (∀ g ∈ gs, ∀ es, (lookup fs g.1).getD .null = .arr es → ∀ e ∈ es, ∀ x ∈ g.2, Answers (f (.heap e) x) (R e x)) →
    Answers (eqGroups signed f (.heap (.obj fs)) gs)
      (∀ g ∈ gs, ∃ es, (lookup fs g.1).getD .null = .arr es ∧ Matched R es g.2)
  | [], _ => answers_true (by simp)
  | (k, xs) :: gs, h => by
    have hg : PRead.run signed (.heap (.obj fs)) (.get k) = .ok (.heap ((lookup fs k).getD .null)) := by
      simp [PRead.run, Pkt.visit, Val.get, Res.bind, mapFind_eq]
    rw [eqGroups, hg, Res.bind_ok]
    have key : Answers (sized (.heap ((lookup fs k).getD .null)) xs.length fun vs => isPermutation f vs xs)
        (∃ es, (lookup fs k).getD .null = .arr es ∧ Matched R es xs) := by
      refine sized_ok (fun es e hl => isPermutation_ok hl (h (k, xs) (by simp) es e)) fun es hm => ?_
      obtain ⟨zs, h1, h2⟩ := hm
      rw [h2.length, h1.length_eq]
    have ih := eqGroups_ok (f := f) (R := R) (fs := fs) (gs := gs) fun g hg => h g (by simp [hg])
    refine (show Answers _ _ from ?_).iff (by simp :
      ((∃ es, (lookup fs k).getD .null = .arr es ∧ Matched R es xs) ∧ ∀ g ∈ gs, ∃ es, (lookup fs g.1).getD .null = .arr es ∧ Matched R es g.2) ↔ _)
    have hkey := key.and fun _ => ih
    refine (show Answers _ _ from ?_)
    unfold sized at hkey
    refine cast ?_ hkey
    congr 1
    by_cases ht : (Pkt.heap ((lookup fs k).getD .null)).getType = .array
    · rw [if_neg (by simp [ht]), if_neg (by simp [ht])]
      cases hsz : (Pkt.heap ((lookup fs k).getD .null)).size with
      | ok n =>
        simp only [Res.bind_ok]
        by_cases hn : n = xs.length
        · rw [if_neg (by simp [hn]), if_neg (by simp [hn])]
          cases (Pkt.heap ((lookup fs k).getD .null)).values <;> rfl
        · rw [if_pos hn, if_pos hn]; rfl
      | _ => rfl
    · rw [if_pos ht, if_pos ht]; rfl

theorem multimap_compare {less : Bytes → Bytes → Bool} {t : CTy} {m : List (Bytes × t.type)} {fs : List (Bytes × Val)}
    (hl : Orders less) (hc : Comparable t) (hf : Fit (.mmap less t) m) (hw : (Val.obj fs).WF) (hv : SmallInts (.obj fs))
    (hx : SmallIn (.mmap less t) m) : Answers ((CTy.mmap less t).compare signed (.heap (.obj fs)) m)
      (∀ k x, (k, x) ∈ m → ∃ es, (k, Val.arr es) ∈ fs ∧ Matched (Same t) es (valuesAt k m)) := by
  replace hf : m.length ≤ 2 ^ 58 ∧ m.Pairwise (fun a b => less b.1 a.1 = false) ∧ ∀ e ∈ m, e.1.length ≤ 65535 ∧ Fit t e.2 := hf
  replace hx : ∀ e ∈ m, SmallIn t e.2 := hx
  have hwk : WeaklyIn less m := hf.2.1.imp fun {a b} h => by
    by_cases e : a.1 = b.1
    · exact .inr e
    · rcases hl.total e with h' | h'
      · exact .inl h'
      · rw [h] at h'; cases h'
  obtain ⟨r1, r2, _, _⟩ := runs_ok hl hwk
  have hwf := wf_obj.1 hw
  have hcmp : (CTy.mmap less t).compare signed (.heap (.obj fs)) m = eqGroups signed (t.compare signed) (.heap (.obj fs)) (runs less m) := rfl
  rw [hcmp]
  refine (eqGroups_ok (R := Same t) fun g hg es he e hm x hxm => ?_).iff ?_
  · have hin : (g.1, x) ∈ m := by
      rw [(r1 g hg).1] at hxm
      exact mem_valuesAt.1 hxm
    have hfl : (g.1, Val.arr es) ∈ fs := by
      cases hlk : lookup fs g.1 with
      | none => rw [hlk] at he; cases he
      | some w => rw [hlk] at he; cases he; exact lookup_some_mem hlk
    exact compare_ok t hc (hf.2.2 _ hin).2 (wf_elem (hwf.2 _ hfl).2 hm)
      (small_elem (by rw [SmallInts, smallFields_iff] at hv; exact hv _ hfl) hm) (hx _ hin)
  · constructor
    · intro h k x hm
      obtain ⟨g, hg, e1⟩ := r2 _ hm
      obtain ⟨es, h1, h2⟩ := h g hg
      simp only at e1
      rw [(r1 g hg).1, e1] at h2
      rw [e1] at h1
      refine ⟨es, ?_, h2⟩
      cases hlk : lookup fs k with
      | none => rw [hlk] at h1; cases h1
      | some w => rw [hlk] at h1; cases h1; exact lookup_some_mem hlk
    · intro h g hg
      obtain ⟨q1, q2⟩ := r1 g hg
      cases hg2 : g.2 with
      | nil => exact absurd hg2 q2
      | cons x xs =>
        have : (g.1, x) ∈ m := mem_valuesAt.1 (by rw [← q1, hg2]; simp)
        obtain ⟨es, h1, h2⟩ := h _ _ this
        refine ⟨es, by rw [lookup_of_mem hwf.1 h1]; rfl, ?_⟩
        rw [← hg2, q1]
        exact h2

theorem forward_compare {t : CTy} {xs : List t.type} {es : List Val} (hc : Comparable t) (hf : Fit (.fwd t) xs) (hw : (Val.arr es).WF)
    (hv : SmallInts (.arr es)) (hx : SmallIn (.fwd t) xs) (hl : es.length ≤ xs.length) :
    Answers ((CTy.fwd t).compare signed (.heap (.arr es)) xs) (Same (.fwd t) (.arr es) xs) := by
  replace hf : xs.length ≤ 2 ^ 58 ∧ ∀ x ∈ xs, Fit t x := hf
  replace hx : ∀ x ∈ xs, SmallIn t x := hx
  have hcmp : (CTy.fwd t).compare signed (.heap (.arr es)) xs = eqForward (t.compare signed) (es.map .heap) xs := rfl
  rw [hcmp]
  refine (eqForward_ok (R := Same t) hl fun e he x hm =>
    compare_ok t hc (hf.2 x hm) (wf_elem hw he) (small_elem hv he) (hx x hm)).iff ?_
  constructor
  · exact fun h => ⟨es, rfl, h⟩
  · rintro ⟨es', e, h⟩; cases e; exact h

/-! ### What a packet is made from equals it -/

theorem answers_self {c : Res Bool} (h : ∃ r, c = .ok r) : Answers c (c = .ok true) := by
  obtain ⟨r, rfl⟩ := h
  exact ⟨r, rfl, by simp⟩

theorem Answers.ok {c : Res Bool} {P : Prop} (h : Answers c P) (hp : P) : c = .ok true := by
  obtain ⟨r, rfl, h⟩ := h
  rw [h.2 hp]

theorem Answers.total {c : Res Bool} {P : Prop} (h : Answers c P) : ∃ r, c = .ok r := by
  obtain ⟨r, h, _⟩ := h
  exact ⟨r, h⟩

theorem eqNative_total (v : Val) (x : Native) : ∃ r, (Pkt.heap v).eqNative x = .ok r := by
  cases x <;> cases v <;> exact ⟨_, rfl⟩

theorem sized_total {v : Val} {n : Nat} {c : List Pkt → Res Bool} (h : ∀ es, v = .arr es → es.length = n → ∃ r, c (es.map .heap) = .ok r) :
    ∃ r, sized (.heap v) n c = .ok r :=
  (sized_ok (P := fun es => es.length = n ∧ c (es.map .heap) = .ok true) (fun es e hl =>
    (answers_self (h es e hl)).iff (by simp [hl])) fun es h => h.1).total

theorem eqAll_total {α : Type} {f : Pkt → α → Res Bool} {es : List Val} {xs : List α} (hl : es.length = xs.length)
    (h : ∀ e ∈ es, ∀ x ∈ xs, ∃ r, f (.heap e) x = .ok r) : ∃ r, eqAll f (es.map .heap) xs = .ok r :=
  (eqAll_ok hl fun e he x hx => answers_self (h e he x hx)).total

theorem isPermutation_total {α : Type} {f : Pkt → α → Res Bool} {es : List Val} {xs : List α} (hl : es.length = xs.length)
    (h : ∀ e ∈ es, ∀ x ∈ xs, ∃ r, f (.heap e) x = .ok r) : ∃ r, isPermutation f (es.map .heap) xs = .ok r :=
  (isPermutation_ok hl fun e he x hx => answers_self (h e he x hx)).total

theorem runs_mem {α : Type} {less : Bytes → Bytes → Bool} : ∀ {m : List (Bytes × α)} {g : Bytes × List α}, g ∈ runs less m →
    ∀ x ∈ g.2, ∃ e ∈ m, e.2 = x
  | [], g, h => by simp [runs] at h
  | (k, x) :: m, g, h => by
    have ih := fun {g} => runs_mem (less := less) (m := m) (g := g)
    rw [runs] at h
    intro y hy
    cases hr : runs less m with
    | nil =>
      rw [hr] at h
      simp only [List.mem_singleton] at h
      subst h
      simp only [List.mem_singleton] at hy
      exact ⟨_, List.mem_cons_self .., hy.symm⟩
    | cons g' gs =>
      obtain ⟨k', xs⟩ := g'
      rw [hr] at h ih
      have other : ∀ {g}, g ∈ (k', xs) :: gs → y ∈ g.2 → ∃ e ∈ (k, x) :: m, e.2 = y := fun hg hy => by
        obtain ⟨e, he, h⟩ := ih hg y hy
        exact ⟨e, by simp [he], h⟩
      by_cases hlt : less k k' = true
      · simp only [hlt, if_true] at h
        rcases List.mem_cons.1 h with rfl | h
        · simp only [List.mem_singleton] at hy
          exact ⟨_, List.mem_cons_self .., hy.symm⟩
        · exact other h hy
      · simp only [if_neg hlt] at h
        rcases List.mem_cons.1 h with rfl | h
        · rcases List.mem_cons.1 hy with rfl | hy
          · exact ⟨_, List.mem_cons_self .., rfl⟩
          · exact other (List.mem_cons_self ..) hy
        · exact other (List.mem_cons_of_mem _ h) hy

mutual
/-- Without `forward_list`s, comparing always has an answer. -/
theorem compare_total : ∀ (t : CTy) (v : Val) (x : t.type), NoForward t → Fit t x → ∃ r, t.compare signed (.heap v) x = .ok r
  | .scalar s, v, x, _, _ => eqNative_total v _
  | .seq t, v, (xs : List t.type), hn, hf => by
    replace hf : xs.length ≤ 2 ^ 58 ∧ ∀ x ∈ xs, Fit t x := hf
    exact sized_total fun es e hl => eqAll_total hl fun e _ x hx => compare_total t e x hn (hf.2 x hx)
  | .array t n, v, (xs : List t.type), hn, hf => by
    replace hf : xs.length = n ∧ n ≤ 2 ^ 58 ∧ ∀ x ∈ xs, Fit t x := hf
    exact sized_total fun es e hl => eqAll_total (hl.trans hf.1.symm) fun e _ x hx => compare_total t e x hn (hf.2.2 x hx)
  | .set s _, v, (xs : List s.type), _, _ => sized_total fun es e hl => isPermutation_total hl fun e _ x _ => eqNative_total e _
  | .mset s _, v, (xs : List s.type), _, _ => sized_total fun es e hl => isPermutation_total hl fun e _ x _ => eqNative_total e _
  | .map less t, v, (m : List (Bytes × t.type)), hn, hf => by
    replace hf : m.Pairwise (fun a b => less a.1 b.1 = true) ∧ ∀ e ∈ m, e.1.length ≤ 65535 ∧ Fit t e.2 := hf
    cases v with
    | obj fs =>
      show ∃ r, (if fs.length ≠ m.length then Res.ok false else eqFields signed (t.compare signed) (.heap (.obj fs)) m) = .ok r
      by_cases hl : fs.length = m.length
      · rw [if_neg (by simp [hl])]
        exact (mapCompare_ok (R := fun e x => t.compare signed (.heap e) x = .ok true) fun e he => answers_self (compare_total t _ e.2 hn (hf.2 e he).2)).total
      · rw [if_pos hl]
        exact ⟨_, rfl⟩
    | _ => exact ⟨_, rfl⟩
  | .mmap less t, v, (m : List (Bytes × t.type)), hn, hf => by
    replace hf : m.length ≤ 2 ^ 58 ∧ m.Pairwise (fun a b => less b.1 a.1 = false) ∧ ∀ e ∈ m, e.1.length ≤ 65535 ∧ Fit t e.2 := hf
    cases v with
    | obj fs =>
      refine (eqGroups_ok (signed := signed) (f := t.compare signed) (fs := fs) (gs := runs less m)
        fun g hg es _ e _ x hx => answers_self (compare_total t _ x hn ?_)).total
      obtain ⟨e, he, rfl⟩ := runs_mem hg x hx
      exact (hf.2.2 e he).2
    | _ => exact ⟨_, rfl⟩
  | .opt t, v, none, _, _ => ⟨_, rfl⟩
  | .opt t, v, some x, hn, hf => compare_total t v x hn hf
  | .pair a b, v, (x, y), hn, hf => by
    cases v with
    | arr es =>
      by_cases hl : es.length = 2
      · match es, hl with
        | [u, w], _ =>
          have hcmp : (CTy.pair a b).compare signed (.heap (.arr [u, w])) (x, y) =
              (a.compare signed (.heap u) x).bind fun r => if r then b.compare signed (.heap w) y else .ok false := rfl
          rw [hcmp]
          obtain ⟨r, h1⟩ := compare_total a u x hn.1 hf.1
          obtain ⟨s, h2⟩ := compare_total b w y hn.2 hf.2
          rw [h1, h2]
          cases r <;> exact ⟨_, rfl⟩
      · have hcmp : (CTy.pair a b).compare signed (.heap (.arr es)) (x, y) = .ok false := by
          show (if es.length ≠ 2 then Res.ok false else _) = _
          rw [if_pos hl]
        exact ⟨_, hcmp⟩
    | _ => exact ⟨_, rfl⟩
  | .tuple ts, v, (xs : ts.prod), hn, hf => sized_total fun es _ hl => compares_total ts es xs hn hf.2 hl
  | .variant ts, v, x, hn, hf => compareAlt_total ts v x hn hf
theorem compares_total : ∀ (ts : CTys) (es : List Val) (xs : ts.prod), NoForwardAll ts → FitAll ts xs → es.length = ts.length →
    ∃ r, ts.compares signed (es.map .heap) xs = .ok r
  | .nil, _, _, _, _, _ => ⟨_, rfl⟩
  | .cons t ts, e :: es, (x, xs), hn, hf, hl => by
    obtain ⟨r, h1⟩ := compare_total t e x hn.1 hf.1
    obtain ⟨s, h2⟩ := compares_total ts es xs hn.2 hf.2 (by simpa [CTys.length] using hl)
    rw [List.map_cons, CTys.compares, h1, h2]
    cases r <;> exact ⟨_, rfl⟩
  | .cons _ _, [], _, _, _, hl => by simp [CTys.length] at hl
theorem compareAlt_total : ∀ (ts : CTys) (v : Val) (x : ts.sum), NoForwardAll ts → FitAlt ts x →
    ∃ r, ts.compareAlt signed (.heap v) x = .ok r
  | .nil, _, x, _, _ => nomatch x
  | .cons t _, v, .inl x, hn, hf => compare_total t v x hn.1 hf
  | .cons _ ts, v, .inr x, hn, hf => compareAlt_total ts v x hn.2 hf
end

theorem scalar_own {s : NativeTy} {x : s.type} {v : Val} (h : StandsScalar s x v) (hn : NoNaN v) :
    (Pkt.heap v).eqNative (s.inject x) = .ok true := by
  cases s with
  | null => cases h; rfl
  | bool => cases h; exact congrArg Res.ok (beq_self_eq_true (α := Bool) x)
  | str => cases h; exact congrArg Res.ok (beq_self_eq_true (α := Bytes) x)
  | int t => cases h; exact congrArg Res.ok (beq_self_eq_true (BitVec.ofInt 64 (x : Int)))
  | dbl =>
    cases h
    show Res.ok (decEq _ _) = _
    have : decEq x x = true := (decEq_iff x x).2 ⟨by cases hn; assumption, rfl⟩
    exact congrArg Res.ok this

theorem eqAll_own {α : Type} {f : Pkt → α → Res Bool} : ∀ {es : List Val} {xs : List α}, Each (fun x e => f (.heap e) x = .ok true) xs es →
    eqAll f (es.map .heap) xs = .ok true
  | [], [], _ => rfl
  | e :: es, x :: xs, h => by rw [List.map_cons, eqAll, h.1, Res.bind_ok, if_pos rfl, eqAll_own h.2]
  | [], _ :: _, h => h.elim
  | _ :: _, [], h => h.elim

theorem eqForward_own {α : Type} {f : Pkt → α → Res Bool} : ∀ {es : List Val} {xs : List α}, Each (fun x e => f (.heap e) x = .ok true) xs es →
    eqForward f (es.map .heap) xs = .ok true
  | [], [], _ => rfl
  | e :: es, x :: xs, h => by rw [List.map_cons, eqForward, h.1, Res.bind_ok, if_pos rfl, eqForward_own h.2]
  | [], _ :: _, h => h.elim
  | _ :: _, [], h => h.elim

theorem sized_own {es : List Val} {n : Nat} {c : List Pkt → Res Bool} (hl : es.length = n) (h : c (es.map .heap) = .ok true) :
    sized (.heap (.arr es)) n c = .ok true := by
  show (if es.length ≠ n then Res.ok false else c (es.map .heap)) = _
  rw [if_neg (by simp [hl]), h]

theorem keys_le : ∀ {l l' : List Bytes}, l.Pairwise (· ≠ ·) → (∀ k ∈ l, k ∈ l') → l.length ≤ l'.length
  | [], _, _, _ => by simp
  | a :: l, l', hp, hs => by
    obtain ⟨p1, p2⟩ := List.pairwise_cons.1 hp
    have := keys_le (l' := l'.erase a) p2 fun b hb => by
      rw [List.mem_erase_of_ne (Ne.symm (p1 b hb))]; exact hs b (by simp [hb])
    rw [List.length_erase_of_mem (hs a (by simp))] at this
    have : 0 < l'.length := List.length_pos_of_mem (hs a (by simp))
    simp only [List.length_cons]
    omega

mutual
/-- A packet equals the container it was made from. -/
theorem compare_own : ∀ (t : CTy) {x : t.type} {v : Val}, Stands t x v → Fit t x → v.WF → NoNaN v → Steady t →
    t.compare signed (.heap v) x = .ok true
  | .scalar s, x, v, h, _, _, hn, _ => scalar_own h hn
  | .seq t, (xs : List t.type), v, h, hf, hw, hn, hs => by
    replace hf : xs.length ≤ 2 ^ 58 ∧ ∀ x ∈ xs, Fit t x := hf
    obtain ⟨es, rfl, he⟩ := h
    exact sized_own he.length.symm (eqAll_own (he.imp fun x hx e hm h =>
      compare_own t h (hf.2 x hx) (wf_elem hw hm) (every_elem hn e hm) hs))
  | .fwd t, (xs : List t.type), v, h, hf, hw, hn, hs => by
    replace hf : xs.length ≤ 2 ^ 58 ∧ ∀ x ∈ xs, Fit t x := hf
    obtain ⟨es, rfl, he⟩ := h
    exact eqForward_own (he.imp fun x hx e hm h =>
      compare_own t h (hf.2 x hx) (wf_elem hw hm) (every_elem hn e hm) hs)
  | .array t n, (xs : List t.type), v, h, hf, hw, hn, hs => by
    replace hf : xs.length = n ∧ n ≤ 2 ^ 58 ∧ ∀ x ∈ xs, Fit t x := hf
    obtain ⟨es, rfl, he⟩ := h
    exact sized_own (he.length.symm.trans hf.1) (eqAll_own (he.imp fun x hx e hm h =>
      compare_own t h (hf.2.2 x hx) (wf_elem hw hm) (every_elem hn e hm) hs))
  | .set s _, (xs : List s.type), v, h, _, _, hn, _ => by
    obtain ⟨es, rfl, he⟩ := h
    refine sized_own he.length.symm ((isPermutation_ok he.length.symm fun e _ x _ => answers_self (eqNative_total e _)).ok ?_)
    exact ⟨xs, .refl _, (he.imp fun x hx e hm h => scalar_own h (every_elem hn e hm)).symm⟩
  | .mset s _, (xs : List s.type), v, h, _, _, hn, _ => by
    obtain ⟨es, rfl, he⟩ := h
    refine sized_own he.length.symm ((isPermutation_ok he.length.symm fun e _ x _ => answers_self (eqNative_total e _)).ok ?_)
    exact ⟨xs, .refl _, (he.imp fun x hx e hm h => scalar_own h (every_elem hn e hm)).symm⟩
  | .map less t, (m : List (Bytes × t.type)), v, h, hf, hw, hn, hs => by
    replace hf : m.Pairwise (fun a b => less a.1 b.1 = true) ∧ ∀ e ∈ m, e.1.length ≤ 65535 ∧ Fit t e.2 := hf
    replace hs : Orders less ∧ Steady t := hs
    obtain ⟨fs, rfl, h1, h2⟩ := h
    have hwf := wf_obj.1 hw
    have hnf : (fs.map (·.1)).Pairwise (· ≠ ·) := List.Pairwise.map _ (fun a b h => keyLt_ne h) hwf.1
    have l1 := keys_le (l := fs.map (·.1)) (l' := m.map (·.1)) hnf (by
      intro k hk
      obtain ⟨⟨k', w⟩, hm, rfl⟩ := List.mem_map.1 hk
      obtain ⟨x, hx⟩ := h2 k' w hm
      exact List.mem_map.2 ⟨_, hx, rfl⟩)
    have l2 := keys_le (l := m.map (·.1)) (l' := fs.map (·.1)) (List.Pairwise.map _ (fun a b h => hs.1.ne h) hf.1) (by
      intro k hk
      obtain ⟨⟨k', w⟩, hm, rfl⟩ := List.mem_map.1 hk
      obtain ⟨x, hx, _⟩ := h1 k' w hm
      exact List.mem_map.2 ⟨_, hx, rfl⟩)
    simp only [List.length_map] at l1 l2
    show (if fs.length ≠ m.length then Res.ok false else eqFields signed (t.compare signed) (.heap (.obj fs)) m) = .ok true
    rw [if_neg (by omega)]
    have hall : ∀ e ∈ m, t.compare signed (.heap ((lookup fs e.1).getD .null)) e.2 = .ok true := by
      rintro ⟨k, x⟩ hm
      obtain ⟨w, hw', hst⟩ := h1 k x hm
      rw [lookup_of_mem hwf.1 hw', Option.getD_some]
      exact compare_own t hst (hf.2 _ hm).2 (hwf.2 _ hw').2 (every_field hn _ hw').2 hs.2
    exact (mapCompare_ok (R := fun e x => t.compare signed (.heap e) x = .ok true) fun e he => answers_self ⟨_, hall e he⟩).ok hall
  | .mmap less t, (m : List (Bytes × t.type)), v, h, hf, hw, hn, hs => by
    replace hf : m.length ≤ 2 ^ 58 ∧ m.Pairwise (fun a b => less b.1 a.1 = false) ∧ ∀ e ∈ m, e.1.length ≤ 65535 ∧ Fit t e.2 := hf
    replace hs : Orders less ∧ NoForward t ∧ Steady t := hs
    obtain ⟨fs, rfl, h1, h2⟩ := h
    have hwf := wf_obj.1 hw
    have hwk : WeaklyIn less m := hf.2.1.imp fun {a b} h => by
      by_cases e : a.1 = b.1
      · exact .inr e
      · rcases hs.1.total e with h' | h'
        · exact .inl h'
        · rw [h] at h'; cases h'
    obtain ⟨r1, _, _, _⟩ := runs_ok hs.1 hwk
    show eqGroups signed (t.compare signed) (.heap (.obj fs)) (runs less m) = .ok true
    refine (eqGroups_ok (R := fun e x => t.compare signed (.heap e) x = .ok true) fun g hg es _ e _ x hx =>
      answers_self (compare_total t _ x hs.2.1 ?_)).ok fun g hg => ?_
    · obtain ⟨e, he, rfl⟩ := runs_mem hg x hx
      exact (hf.2.2 e he).2
    · obtain ⟨q1, q2⟩ := r1 g hg
      cases hg2 : g.2 with
      | nil => exact absurd hg2 q2
      | cons x xs =>
        have hin : (g.1, x) ∈ m := mem_valuesAt.1 (by rw [← q1, hg2]; simp)
        obtain ⟨w, hw'⟩ := h2 _ _ hin
        obtain ⟨es, rfl, _, he⟩ := h1 _ _ hw'
        refine ⟨es, by rw [lookup_of_mem hwf.1 hw']; rfl, g.2, by rw [hg2], ?_⟩
        rw [q1]
        exact (he.imp fun y hy e hm h => compare_own t h (hf.2.2 _ (mem_valuesAt.1 hy)).2 (wf_elem (hwf.2 _ hw').2 hm)
          (every_elem (every_field hn _ hw').2 e hm) hs.2.2).symm
  | .opt t, none, v, h, _, _, _, _ => by rw [Stands] at h; subst h; rfl
  | .opt t, some x, v, h, hf, hw, hn, hs => compare_own t (x := x) h hf hw hn hs
  | .pair a b, (x, y), v, h, hf, hw, hn, hs => by
    obtain ⟨u, w, rfl, h1, h2⟩ := h
    have hcmp : (CTy.pair a b).compare signed (.heap (.arr [u, w])) (x, y) =
        (a.compare signed (.heap u) x).bind fun r => if r then b.compare signed (.heap w) y else .ok false := rfl
    rw [hcmp, compare_own a h1 hf.1 (wf_elem hw (by simp)) (every_elem hn u (by simp)) hs.1, Res.bind_ok, if_pos rfl,
      compare_own b h2 hf.2 (wf_elem hw (by simp)) (every_elem hn w (by simp)) hs.2]
  | .tuple ts, (xs : ts.prod), v, h, hf, hw, hn, hs => by
    obtain ⟨es, rfl, he⟩ := h
    obtain ⟨l1, l2⟩ := compares_own ts he hf.2 (fun e he => wf_elem hw he) (every_elem hn) hs
    exact sized_own l1 l2
  | .variant ts, x, v, h, hf, hw, hn, hs => compareAlt_own ts h hf hw hn hs
theorem compares_own : ∀ (ts : CTys) {xs : ts.prod} {es : List Val}, StandsAll ts xs es → FitAll ts xs → (∀ e ∈ es, e.WF) →
    (∀ e ∈ es, NoNaN e) → SteadyAll ts → es.length = ts.length ∧ ts.compares signed (es.map .heap) xs = .ok true
  | .nil, _, es, h, _, _, _, _ => by rw [StandsAll] at h; subst h; exact ⟨rfl, rfl⟩
  | .cons t ts, (x, xs), e :: es, h, hf, hw, hn, hs => by
    obtain ⟨l1, l2⟩ := compares_own ts h.2 hf.2 (fun e he => hw e (by simp [he])) (fun e he => hn e (by simp [he])) hs.2
    refine ⟨by simp [CTys.length, l1], ?_⟩
    rw [List.map_cons, CTys.compares, compare_own t h.1 hf.1 (hw e (by simp)) (hn e (by simp)) hs.1, Res.bind_ok, if_pos rfl, l2]
  | .cons _ _, _, [], h, _, _, _, _ => False.elim h
theorem compareAlt_own : ∀ (ts : CTys) {x : ts.sum} {v : Val}, StandsAlt ts x v → FitAlt ts x → v.WF → NoNaN v → SteadyAll ts →
    ts.compareAlt signed (.heap v) x = .ok true
  | .nil, x, _, _, _, _, _, _ => nomatch x
  | .cons t _, .inl x, v, h, hf, hw, hn, hs => compare_own t h hf hw hn hs.1
  | .cons _ ts, .inr x, v, h, hf, hw, hn, hs => compareAlt_own ts h hf hw hn hs.2
end

mutual
theorem ordersIn_of_steady : ∀ (t : CTy), Steady t → OrdersIn t
  | .scalar _, _ | .set _ _, _ | .mset _ _, _ => by rw [OrdersIn] <;> simp
  | .seq t, h | .fwd t, h | .array t _, h | .opt t, h => by rw [Steady] at h; rw [OrdersIn]; exact ordersIn_of_steady t h
  | .map _ t, h => by rw [Steady] at h; rw [OrdersIn]; exact ⟨h.1, ordersIn_of_steady t h.2⟩
  | .mmap _ t, h => by rw [Steady] at h; rw [OrdersIn]; exact ⟨h.1, ordersIn_of_steady t h.2.2⟩
  | .pair a b, h => by rw [Steady] at h; rw [OrdersIn]; exact ⟨ordersIn_of_steady a h.1, ordersIn_of_steady b h.2⟩
  | .tuple ts, h | .variant ts, h => by rw [Steady] at h; rw [OrdersIn]; exact ordersInAll_of_steady ts h
theorem ordersInAll_of_steady : ∀ (ts : CTys), SteadyAll ts → OrdersInAll ts
  | .nil, _ => by rw [OrdersInAll]; trivial
  | .cons t ts, h => by rw [SteadyAll] at h; rw [OrdersInAll]; exact ⟨ordersIn_of_steady t h.1, ordersInAll_of_steady ts h.2⟩
end

end Dart
