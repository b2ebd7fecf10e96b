import Verif.Lemmas.HostileWrite
import Verif.Lemmas.Merge
import Verif.Lemmas.Bound

/-
The fields of a validated object, what projecting picks out of them, and what `make_object` writes.
-/
namespace Dart
open Spec

/-! ### The fields of a validated object -/

theorem strv_length {m : Bytes} {p : Nat} {s : Bytes} (h : strv m .string p = some s) : findSizeof m .string p = some (s.length + 3) := by
  unfold strv at h
  simp only [strWidth] at h
  cases hr : readU m 2 p with
  | none => rw [hr] at h; cases h
  | some len =>
    rw [hr] at h
    have := readBytes_length h
    simp only [findSizeof, hr, Option.map_some, Option.some.injEq]
    omega

theorem srcField_is {b : Buf} {p i : Nat} (hp : b.addr = some p) (ht : b.type = .object) {f : Nat}
    (hk : ∃ kp vt vp, loadKey b.mem p i = some kp ∧ Safe b.mem f .string kp ∧ loadValue b.mem p i = some (vt, vp) ∧
      SafeBuf ⟨b.mem, vt, some vp⟩ ∧ SafeBuf ⟨b.mem, .string, some kp⟩) :
    ∃ g, srcField b.mem p i = some g ∧ ∀ q : Piece, (∃ k, b.keyAt i = .ok k ∧ k.strv = .ok q.key) →
      (∃ v, b.valueAt i = .ok v ∧ v.type = q.type ∧ v.sizeof = some q.size) → SrcIs g q := by
  obtain ⟨kp, vt, vp, h1, h2, h3, h4, h5⟩ := hk
  obtain ⟨s, hs⟩ := h2.string
  refine ⟨⟨s, ⟨b.mem, .string, some kp⟩, ⟨b.mem, vt, some vp⟩⟩, by simp [srcField, h1, hs, h3], ?_⟩
  rintro q ⟨k, hk1, hk2⟩ ⟨v, hv1, hv2, hv3⟩
  simp only [Buf.keyAt, Buf.object, ht, hp, Res.ofRead, Res.bind, h1, Buf.sub, Res.ok.injEq] at hk1
  subst hk1
  simp only [Buf.valueAt, ht, hp, Res.ofRead, Res.bind, h3, Buf.sub, Res.ok.injEq] at hv1
  subst hv1
  simp only [Buf.strv, Res.ofRead, Res.bind, hs, Res.ok.injEq] at hk2
  subst hk2
  exact ⟨rfl, h5.copied (strv_length hs), hv2, h4.copied hv3⟩

theorem mapM_src {m : Bytes} {a : Nat} : ∀ (ps : List Piece) (k : Nat),
    (∀ i p, ps[i]? = some p → ∃ f, srcField m a (k + i) = some f ∧ SrcIs f p) →
    ∃ fs, (List.range' k ps.length).mapM (srcField m a) = some fs ∧ AllSrc fs ps
  | [], _, _ => ⟨[], rfl, .nil⟩
  | p :: ps, k, h => by
    obtain ⟨f, hf, hp⟩ := h 0 p rfl
    obtain ⟨fs, hfs, hps⟩ := mapM_src ps (k + 1) (fun i q hq => by
      have := h (i + 1) q (by simpa using hq)
      rwa [show k + (i + 1) = k + 1 + i by omega] at this)
    refine ⟨f :: fs, ?_, .cons hp hps⟩
    rw [List.length_cons, List.range'_succ, List.mapM_cons]
    simp only [Nat.add_zero] at hf
    simp [hf, hfs]

/-- The fields of a validated object can all be read. -/
theorem pieces_src {b : Buf} {ps : List Piece} (hb : SafeBuf b) (ht : b.type = .object) (h : Pieces b ps) : ∃ p n fs, b.addr = some p ∧
    b.object = .ok p ∧ findSizeof b.mem .object p = some n ∧ 8 + 8 * ps.length ≤ n ∧ 8 ∣ p ∧ srcFields b.mem p = some fs ∧ AllSrc fs ps := by
  obtain ⟨p, hp, hs⟩ := hb.addr (by simp [ht])
  rw [ht] at hs
  obtain ⟨hal, n, hn, _, ⟨_, total, h1, h2, _⟩, hc⟩ := hs
  have hps : n = ps.length := by
    have := h.count
    simp only [Buf.size, ht, hp, Res.ofRead, Res.bind, hn, Res.ok.injEq] at this
    exact this
  subst hps
  obtain ⟨fs, hf, ha⟩ := mapM_src (m := b.mem) (a := p) ps 0 (fun i q hq => by
    have hi : i < ps.length := by
      have := List.getElem?_eq_some_iff.1 hq
      exact this.1
    obtain ⟨kp, vt, vp, c1, c2, c3, c4⟩ := hc i hi
    have s1 : SafeBuf (b.sub (vt, some vp)) := Safe.sub c4 (by omega)
    have s2 : SafeBuf (b.sub (.string, some kp)) := Safe.sub c2 (by omega)
    obtain ⟨g, hg, hgs⟩ := srcField_is (i := i) hp ht ⟨kp, vt, vp, c1, c2, c3, s1, s2⟩
    obtain ⟨q1, q2⟩ := h.field i q hq
    exact ⟨g, by rw [Nat.zero_add]; exact hg, hgs q q1 q2⟩)
  refine ⟨p, total, fs, hp, ?_, h1, h2, hal, ?_, ha⟩
  · simp [Buf.object, ht, hp, Res.ofRead]
  · simp only [srcFields, hn, Option.bind_eq_bind, Option.bind_some, List.range_eq_range']
    exact hf

/-- Every validated object has fields to show. -/
theorem pieces_exist {b : Buf} (hb : SafeBuf b) (ht : b.type = .object) : ∃ ps, Pieces b ps := by
  obtain ⟨p, hp, hs⟩ := hb.addr (by simp [ht])
  rw [ht] at hs
  obtain ⟨hal, n, hn, _, _, hc⟩ := hs
  have key : ∀ i, i < n → ∃ q : Piece, (∃ k, b.keyAt i = .ok k ∧ k.strv = .ok q.key) ∧
      ∃ v, b.valueAt i = .ok v ∧ v.type = q.type ∧ v.sizeof = some q.size := fun i hi => by
    obtain ⟨kp, vt, vp, c1, c2, c3, c4⟩ := hc i hi
    obtain ⟨s, hs⟩ := c2.string
    have s1 : SafeBuf (b.sub (vt, some vp)) := Safe.sub c4 (by omega)
    obtain ⟨k, _, e1, _⟩ := s1.sized
    refine ⟨⟨s, vt, k⟩, ⟨b.sub (.string, some kp), ?_, ?_⟩, b.sub (vt, some vp), ?_, rfl, e1⟩
    · simp [Buf.keyAt, Buf.object, ht, hp, Res.ofRead, Res.bind, c1]
    · simp [Buf.strv, Buf.sub, Res.ofRead, Res.bind, hs]
    · simp [Buf.valueAt, ht, hp, Res.ofRead, Res.bind, c3]
  have all : ∀ j, j ≤ n → ∃ ps : List Piece, ps.length = j ∧ ∀ i q, ps[i]? = some q →
      (∃ k, b.keyAt i = .ok k ∧ k.strv = .ok q.key) ∧ ∃ v, b.valueAt i = .ok v ∧ v.type = q.type ∧ v.sizeof = some q.size := by
    intro j
    induction j with
    | zero => exact fun _ => ⟨[], rfl, fun i q h => by simp at h⟩
    | succ j ih =>
      intro hj
      obtain ⟨ps, hl, hps⟩ := ih (by omega)
      obtain ⟨q, hq⟩ := key j (by omega)
      refine ⟨ps ++ [q], by simp [hl], fun i r hr => ?_⟩
      rw [List.getElem?_append] at hr
      split at hr
      · exact hps i r hr
      · have hi : i = j := by
          have := (List.getElem?_eq_some_iff.1 hr).1
          simp at this
          omega
        subst hi
        rw [hl, Nat.sub_self] at hr
        simp at hr
        subst hr
        exact hq
  obtain ⟨ps, hl, hps⟩ := all n (Nat.le_refl _)
  exact ⟨ps, by simp [Buf.size, ht, hp, Res.ofRead, Res.bind, hn, hl], hps⟩

/-! ### Projecting -/

theorem AllSrc.filter {fs : List SrcField} {ps : List Piece} (h : AllSrc fs ps) (c : Bytes → Bool) :
    AllSrc (fs.filter fun f => c f.str) (ps.filter fun p => c p.key) := by
  induction h with
  | nil => exact .nil
  | cons hf _ ih =>
    rename_i f p fs ps _
    rw [List.filter_cons, List.filter_cons, hf.str]
    cases c p.key
    · exact ih
    · exact .cons hf ih

theorem AllSrc.rise {fs : List SrcField} {ps : List Piece} (h : AllSrc fs ps) : ∀ {q : Bytes}, (∀ p ∈ ps, KeyBefore q p.key) →
    ∀ f ∈ fs, KeyBefore q f.str := by
  induction h with
  | nil => intro q _ f hf; cases hf
  | cons hf _ ih =>
    rename_i f p fs ps _
    intro q hq g hg
    rcases List.mem_cons.1 hg with rfl | hg
    · rw [hf.str]; exact hq p (by simp)
    · exact ih (fun r hr => hq r (by simp [hr])) g hg

theorem AllSrc.sorted {fs : List SrcField} {ps : List Piece} (h : AllSrc fs ps) (hr : KeysRise ps) :
    fs.Pairwise fun a b => keyLt a.str b.str = true := by
  induction h with
  | nil => exact .nil
  | cons hf hs ih =>
    rename_i f p fs ps
    have hr' := List.pairwise_cons.1 hr
    refine List.pairwise_cons.2 ⟨fun g hg => ?_, ih hr'.2⟩
    rw [keyLt_iff_spec, hf.str]
    exact hs.rise hr'.1 g hg

theorem projectOne_over {α : Type} {key : α → Bytes} (k : Bytes) {bs : List α} (h : ∀ b ∈ bs, keyLt k (key b) = true) :
    projectOne key k bs = ([], bs) := by
  cases bs with
  | nil => rfl
  | cons b bs =>
    have h1 := h b (by simp)
    simp [projectOne, h1, keyLt_asymm h1]

theorem projectEachPair_filter {α : Type} {key : α → Bytes} (ks : List Bytes) : ∀ {bs : List α},
    bs.Pairwise (fun a b => keyLt (key a) (key b) = true) → ks.Pairwise (fun a b => keyLt b a = false) →
    projectEachPair key ks bs = bs.filter fun f => decide (key f ∈ ks) := by
  induction ks with
  | nil => intro bs _ _; simp [projectEachPair]
  | cons k ks ih =>
    intro bs hs hk
    rw [List.pairwise_cons] at hk
    simp only [projectEachPair]
    induction bs with
    | nil => simp [projectOne, ih (bs := []) .nil hk.2]
    | cons b bs ihb =>
      have hs' := List.pairwise_cons.1 hs
      by_cases h1 : keyLt (key b) k = true
      · have hn : key b ∉ k :: ks := by
          intro hm
          rcases List.mem_cons.1 hm with h | h
          · rw [h, keyLt_irrefl] at h1; cases h1
          · rw [hk.1 _ h] at h1; cases h1
        simp only [projectOne, h1, if_true]
        rw [ihb hs'.2, List.filter_cons]
        simp [hn]
      · by_cases h2 : keyLt k (key b) = true
        · have ha : ∀ c ∈ b :: bs, keyLt k (key c) = true := fun c hc => by
            rcases List.mem_cons.1 hc with rfl | hc
            · exact h2
            · exact keyLt_trans h2 (hs'.1 c hc)
          rw [projectOne_over k ha, ih hs hk.2, List.nil_append]
          apply List.filter_congr
          intro c hc
          have : key c ≠ k := by
            intro e
            have := ha c hc
            rw [e, keyLt_irrefl] at this; cases this
          simp [this]
        · have e : key b = k := by
            have := equiv_iff k (key b)
            simpa [h1, h2] using this
          have ha : ∀ c ∈ bs, keyLt k (key c) = true := fun c hc => e ▸ hs'.1 c hc
          simp only [projectOne, h1, h2, if_false, Bool.not_false, if_true, Bool.false_eq_true]
          rw [projectOne_over k ha]
          simp only [List.cons_append, List.nil_append]
          rw [ih hs'.2 hk.2, List.filter_cons]
          simp only [e, List.mem_cons, true_or, decide_true, if_true]
          congr 1
          apply List.filter_congr
          intro c hc
          have : key c ≠ k := by
            intro e'
            have := ha c hc
            rw [e', keyLt_irrefl] at this; cases this
          simp [this]

/-- Projecting stays in its allocation exactly if the fields picked end in it. -/
theorem project_iff {b : Buf} {ps : List Piece} (hb : SafeBuf b) (ht : b.type = .object) (h : Pieces b ps) (hr : KeysRise ps)
    (ks : List Bytes) {n : Nat} (hn : b.sizeof = some n) :
    (endOf (8 + 8 * ks.length) (ps.filter (·.key ∈ ks)) ≤ n → ∃ c, b.project ks = .ok c) ∧
    (n < endOf (8 + 8 * ks.length) (ps.filter (·.key ∈ ks)) → b.project ks = .ub) := by
  obtain ⟨p, n', fs, hp, ho, hz, hle, _, hf, ha⟩ := pieces_src hb ht h
  have hnn : n' = n := by
    simp only [Buf.sizeof, ht, hp, hz, Option.some.injEq] at hn
    exact hn
  subst hnn
  have hsel : projectEachPair SrcField.str (sortByKey id ks) fs = fs.filter fun f => decide (f.str ∈ ks) := by
    rw [projectEachPair_filter _ (ha.sorted hr) (sortByKey_sorted id ks)]
    apply List.filter_congr
    intro f _
    simp [(sortByKey_perm id ks).mem_iff]
  have hsrc := ha.filter (fun k => decide (k ∈ ks))
  have hiff := objectFromCopies_iff hsrc (guess := ks.length) (n := n') (by omega)
  have hlen : (ps.filter fun p => decide (p.key ∈ ks)).length ≤ ks.length := by
    rw [← List.length_map (f := Piece.key)]
    refine nodup_length_le ?_ ?_
    · rw [List.Nodup, List.pairwise_map]
      refine (List.Pairwise.filter _ hr).imp ?_
      intro x y hxy he
      have := keyLt_iff_spec.2 hxy
      rw [he, keyLt_irrefl] at this
      cases this
    · intro k hk
      simp only [List.mem_map, List.mem_filter, decide_eq_true_eq] at hk
      obtain ⟨q, ⟨_, hq⟩, rfl⟩ := hk
      exact hq
  have hpr : b.project ks = (Res.ofRead (objectFromCopies ks.length (fs.filter fun f => decide (f.str ∈ ks)) (zeros n'))).bind
      fun m => .ok (Buf.ofBytes m) := by
    simp only [Buf.project, ho, hz, hf, hsel, Res.bind, Res.ofRead]
  rw [hpr]
  constructor
  · intro hle'
    obtain ⟨m, hm⟩ := hiff.2 ⟨hlen, hle'⟩
    exact ⟨Buf.ofBytes m, by rw [hm]; rfl⟩
  · intro hlt
    cases hc : objectFromCopies ks.length (fs.filter fun f => decide (f.str ∈ ks)) (zeros n') with
    | none => rfl
    | some m => have := (hiff.1 ⟨m, hc⟩).2; omega

/-! ### Fields that do not overlap -/

theorem separate_ends {b : Buf} {ps : List Piece} {p n : Nat} (hb : SafeBuf b) (ht : b.type = .object) (h : Pieces b ps)
    (hp : b.addr = some p) (hz : b.sizeof = some n) (hs : FieldsApart b ps p n) : endOf (8 + 8 * ps.length) ps ≤ n := by
  obtain ⟨p', n', fs, hp', ho, hz', hle, h8, hf, ha⟩ := pieces_src hb ht h
  rw [hp] at hp'; cases hp'
  have hnn : n' = n := by
    simp only [Buf.sizeof, ht, hp, hz', Option.some.injEq] at hz
    exact hz
  subst hnn
  have hsafe := hb.addr (by simp [ht])
  obtain ⟨p', hp', hsf⟩ := hsafe
  rw [hp] at hp'; cases hp'
  rw [ht] at hsf
  obtain ⟨_, k, hk, _, _, hc⟩ := hsf
  have hkn : k = ps.length := by
    have := h.count
    simp only [Buf.size, ht, hp, Res.ofRead, Res.bind, hk, Res.ok.injEq] at this
    exact this
  subst hkn
  -- where the key and the value of field `i` are
  have at_ : ∀ i q, ps[i]? = some q → ∃ kp v, b.keyAt i = .ok (b.sub (.string, some kp)) ∧ 2 ∣ kp ∧ b.valueAt i = .ok v ∧
      v.addr = some (alignUp (kp + (q.key.length + 3)) q.type.align) := fun i q hq => by
    have hi := (List.getElem?_eq_some_iff.1 hq).1
    obtain ⟨kp, vt, vp, c1, c2, c3, c4⟩ := hc i hi
    obtain ⟨⟨k, k1, k2⟩, v, v1, v2, _⟩ := h.field i q hq
    simp only [Buf.keyAt, Buf.object, ht, hp, Res.ofRead, Res.bind, c1, Res.ok.injEq] at k1
    subst k1
    simp only [Buf.valueAt, ht, hp, Res.ofRead, Res.bind, c3, Res.ok.injEq] at v1
    obtain ⟨s, hsv⟩ := c2.string
    simp only [Buf.strv, Buf.sub, Res.ofRead, Res.bind, hsv, Res.ok.injEq] at k2
    obtain ⟨off, o1, o2, o3⟩ := loadValue_inv c3
    have hkp : kp = p + off := by
      simp only [loadKey, o1, Option.bind_eq_bind, Option.bind_some, Option.some.injEq] at c1
      exact c1.symm
    refine ⟨kp, b.sub (vt, some vp), ?_, c2.align, ?_, ?_⟩
    · simp only [Buf.keyAt, Buf.object, ht, hp, Res.ofRead, Res.bind, c1]
    · simp only [Buf.valueAt, ht, hp, Res.ofRead, Res.bind, c3]
    · subst v1
      simp only [Buf.sub] at v2 ⊢
      subst v2
      rw [← hkp] at o3
      simp only [afterKey, strv_length hsv, Option.bind_eq_bind, Option.bind_some, Option.some.injEq] at o3
      rw [← o3, k2]
  have go : ∀ j i, i + j = ps.length → ∀ o, (0 < j → ∃ kp, b.keyAt i = .ok (b.sub (.string, some kp)) ∧ p + o ≤ kp) → o ≤ n' →
      endOf o (ps.drop i) ≤ n' := by
    intro j
    induction j with
    | zero =>
      intro i hi o _ ho
      rw [List.drop_eq_nil_of_le (by omega)]
      exact ho
    | succ j ih =>
      intro i hi o hkey _
      have hlt : i < ps.length := by omega
      have hq : ps[i]? = some ps[i] := List.getElem?_eq_getElem hlt
      obtain ⟨kp, v, a1, a2, a3, a4⟩ := at_ i _ hq
      obtain ⟨kp', e1, e2⟩ := hkey (by omega)
      rw [a1] at e1
      simp only [Buf.sub, Res.ok.injEq, Buf.mk.injEq, Option.some.injEq, true_and] at e1
      subst e1
      rw [List.drop_eq_getElem_cons hlt, endOf_cons]
      have g1 : alignUp o 2 ≤ kp - p := alignUp_le_of_dvd (by decide) (Nat.dvd_sub a2 (Nat.dvd_trans (by decide) h8)) (by omega)
      have g2 : alignUp (alignUp o 2 + (ps[i].key.length + 3)) ps[i].type.align ≤
          alignUp (kp + (ps[i].key.length + 3)) ps[i].type.align - p := by
        rw [show kp + (ps[i].key.length + 3) = (kp - p) + (ps[i].key.length + 3) + p by omega,
          alignUp_add_right (align_pos _) (Nat.dvd_trans (align_dvd_eight _) h8), Nat.add_sub_cancel]
        exact alignUp_mono _ (by omega)
      obtain ⟨w, w1, w2⟩ := hs.last i _ v hq a3
      rw [a4] at w1; cases w1
      have g3 := le_alignUp (kp + (ps[i].key.length + 3)) (align_pos ps[i].type)
      refine ih (i + 1) (by omega) _ ?_ (by omega)
      intro hj
      have hq' : ps[i + 1]? = some ps[i + 1] := List.getElem?_eq_getElem (by omega)
      obtain ⟨kq, _, b1, _⟩ := at_ (i + 1) _ hq'
      obtain ⟨x, y, x1, x2, x3⟩ := hs.next i _ v _ hq (by omega) a3 b1
      rw [a4] at x1; cases x1
      simp only [Buf.sub, Option.some.injEq] at x2
      subst x2
      exact ⟨kq, b1, by omega⟩
  have := go ps.length 0 (by omega) (8 + 8 * ps.length) (fun hpos => by
    have hq : ps[0]? = some ps[0] := List.getElem?_eq_getElem hpos
    obtain ⟨kp, v, a1, _⟩ := at_ 0 _ hq
    obtain ⟨q, q1, q2⟩ := hs.first _ hpos a1
    simp only [Buf.sub, Option.some.injEq] at q1
    subst q1
    exact ⟨kp, a1, by omega⟩) hle
  simpa using this

/-! ### `make_object` -/

/-- An argument of `make_object` that was obtained from validated bytes, or a dynamic value that can be laid out. -/
def Usable : Pkt → Prop
  | .heap v => v.WF ∧ ∃ n, upperBound v = some n
  | .buf b => SafeBuf b

theorem Usable.bound {x : Pkt} (h : Usable x) : ∃ n, x.upperBound = some n := by
  cases x with
  | heap v => exact h.2
  | buf b => obtain ⟨n, _, h1, _⟩ := SafeBuf.sized h; exact ⟨n, h1⟩

theorem Usable.writes {x : Pkt} (h : Usable x) {n : Nat} (hn : x.upperBound = some n) {p : Nat} {m : Bytes}
    (ha : x.rawType.align ∣ p ∨ ∃ b, x = .buf b) (hm : p + n ≤ m.length) :
    ∃ m' sz, x.layout p m = some (m', sz) ∧ m'.length = m.length ∧ sz ≤ n := by
  cases x with
  | heap v =>
    have hle := (sizeVal_le_ub v n h.1 hn).1
    obtain ⟨m', sz, h1, h2, h3⟩ := layoutVal_inb v (p := p) (m := m) (by rcases ha with h | ⟨_, h⟩; exact h; cases h) (by omega)
    exact ⟨m', sz, h1, h2, by omega⟩
  | buf b =>
    obtain ⟨bs, hl, hc⟩ := SafeBuf.copied h hn
    obtain ⟨m', h1, h2⟩ := writeBytes_inb (m := m) (p := p) (bs := bs) (by omega)
    exact ⟨m', n, by simp only [Pkt.layout, hc, h1, Option.map_some], h2, Nat.le_refl _⟩

theorem pairsBytes_usable : ∀ (ps : List PktPair) (prev : Option Bytes), (∀ x ∈ ps, Usable x.2.1 ∧ Usable x.2.2) →
    pairsBytes prev ps = .throw .invalidArgument ∨ ∃ s, pairsBytes prev ps = .ok s
  | [], _, _ => .inr ⟨0, rfl⟩
  | (s, k, v) :: r, prev, h => by
    unfold pairsBytes
    by_cases h1 : prev = some s
    · rw [if_pos h1]; exact .inl rfl
    · rw [if_neg h1]
      by_cases h2 : s.length > 65535
      · rw [if_pos h2]; exact .inl rfl
      · rw [if_neg h2]
        obtain ⟨hk, hv⟩ := h (s, k, v) (by simp)
        obtain ⟨ku, e1⟩ := hk.bound
        obtain ⟨vu, e2⟩ := hv.bound
        simp only at e1 e2
        rw [e1, e2]
        rcases pairsBytes_usable r (some s) (fun x hx => h x (by simp [hx])) with e3 | ⟨t, e3⟩
        · left; rw [e3]; rfl
        · right; rw [e3]; exact ⟨_, rfl⟩

theorem str_raw_align {k : Pkt} (h : k.isStr = true) : 2 ≤ k.rawType.align := by
  cases k with
  | heap v =>
    cases v <;> simp [Pkt.isStr] at h
    rename_i s
    simp only [Pkt.rawType, Val.rawType, identifyString]
    (repeat' split) <;> decide
  | buf b =>
    obtain ⟨m, t, a⟩ := b
    simp only [Pkt.isStr, decide_eq_true_eq] at h
    cases t <;> first | (simp [Buf.getType, RawType.simplify] at h; done) | (simp only [Pkt.rawType]; decide)

theorem writeFields_pairs : ∀ (ps : List PktPair) (prev : Option Bytes) (s idx off : Nat) (m : Bytes),
    (∀ x ∈ ps, Usable x.2.1 ∧ Usable x.2.2 ∧ x.2.1.isStr = true ∧ x.2.1.strv = .ok x.1) → pairsBytes prev ps = .ok s →
    8 + 8 * (idx + ps.length) ≤ off → off + s ≤ m.length →
    ∃ m' off', writeFields (ps.map pairWriter) idx off m = some (m', off') ∧ m'.length = m.length
  | [], _, _, _, off, m, _, _, _, _ => ⟨m, off, rfl, rfl⟩
  | (str, k, v) :: r, prev, s, idx, off, m, h, hs, ho, hm => by
    obtain ⟨hk, hv, hstr, hval⟩ := h (str, k, v) (by simp)
    simp only at hk hv hstr hval
    obtain ⟨ku, e1⟩ := hk.bound
    obtain ⟨vu, e2⟩ := hv.bound
    unfold pairsBytes at hs
    split at hs
    · cases hs
    · split at hs
      · cases hs
      · rename_i hlen
        rw [e1, e2] at hs
        simp only [Res.ofRead, Res.bind_ok] at hs
        obtain ⟨t, ht, hst⟩ := Res.bind_eq_ok.1 hs
        simp only [Res.ok.injEq] at hst
        have ka := str_raw_align hstr
        have va := align_pos v.rawType
        rw [List.length_cons] at ho
        have a1 := le_alignUp off (a := 2) (by decide)
        have a2 := alignUp_lt off (a := 2) (by decide)
        simp only [List.map_cons, writeFields, show RawType.string.align = 2 from rfl, pairWriter, Option.bind_eq_bind]
        obtain ⟨m1, w1, l1⟩ := writeBytes_inb (m := m) (p := 8 + 8 * idx) (bs := objEntry v.rawType (alignUp off 2) (cstr str))
          (by rw [objEntry_length']; omega)
        obtain ⟨m2, s2, w2, l2, z2⟩ := hk.writes e1 (p := alignUp off 2) (m := m1) (by
          cases k with
          | buf b => exact .inr ⟨b, rfl⟩
          | heap x =>
            left
            cases x <;> simp [Pkt.isStr] at hstr
            rename_i x
            simp only [Pkt.strv, Res.ok.injEq] at hval
            subst hval
            have : (Pkt.heap (.str x)).rawType.align = 2 := by
              simp only [Pkt.rawType, Val.rawType, identifyString]
              split
              · omega
              · first | rfl | (split <;> rfl)
            rw [this]
            exact dvd_alignUp off 2) (by omega)
        have b1 := le_alignUp (alignUp off 2 + s2) va
        have b2 := alignUp_lt (alignUp off 2 + s2) va
        obtain ⟨m3, s3, w3, l3, z3⟩ := hv.writes e2 (p := alignUp (alignUp off 2 + s2) v.rawType.align) (m := m2)
          (.inl (dvd_alignUp _ _)) (by omega)
        obtain ⟨m4, o4, w4, l4⟩ := writeFields_pairs r (some str) t (idx + 1) (alignUp (alignUp off 2 + s2) v.rawType.align + s3) m3
          (fun x hx => h x (by simp [hx])) ht (by omega) (by omega)
        exact ⟨m4, o4, by simp only [w1, w2, w3, w4, Option.bind_some], by omega⟩

theorem groupPairs_usable : ∀ (args : List Pkt), (∀ x ∈ args, Usable x) → args.length % 2 = 0 →
    groupPairs args = .throw .invalidArgument ∨ ∃ ps, groupPairs args = .ok ps ∧
      ∀ x ∈ ps, Usable x.2.1 ∧ Usable x.2.2 ∧ x.2.1.isStr = true ∧ x.2.1.strv = .ok x.1
  | [], _, _ => .inr ⟨[], rfl, fun x hx => by cases hx⟩
  | [k], _, h => by simp at h
  | k :: v :: r, hu, h => by
    unfold groupPairs
    by_cases hs : k.isStr = true
    · rw [if_pos hs]
      obtain ⟨s, e⟩ : ∃ s, k.strv = .ok s := by
        cases k with
        | heap x => cases x <;> simp [Pkt.isStr] at hs; exact ⟨_, rfl⟩
        | buf b =>
          simp only [Pkt.isStr, decide_eq_true_eq] at hs
          have hb : SafeBuf b := hu (.buf b) (by simp)
          have := hb.strv
          show ∃ s, b.strv = .ok s
          cases hr : b.strv with
          | ok s => exact ⟨s, rfl⟩
          | throw e => rw [hr] at this; exact absurd hs this.2
          | ub => rw [hr] at this; exact this.elim
      rw [e]
      rcases groupPairs_usable r (fun x hx => hu x (by simp [hx])) (by simp at h; omega) with e' | ⟨ps, e', hps⟩
      · left; rw [e']; rfl
      · right
        rw [e']
        refine ⟨_, rfl, fun x hx => ?_⟩
        rcases List.mem_cons.1 hx with rfl | hx
        · exact ⟨hu k (by simp), hu v (by simp), hs, e⟩
        · exact hps x hx
    · rw [if_neg hs]; exact .inl rfl

/-- `make_object` on validated elements and on dynamic values gives an object or `std::invalid_argument`. -/
theorem makeObject_usable (args : List Pkt) (h : ∀ x ∈ args, Usable x) :
    Buf.makeObject args = .throw .invalidArgument ∨ ∃ b, Buf.makeObject args = .ok b := by
  unfold Buf.makeObject
  by_cases h2 : args.length % 2 = 1
  · rw [if_pos h2]; exact .inl rfl
  · rw [if_neg h2]
    rcases groupPairs_usable args h (by omega) with e | ⟨ps, e, hps⟩
    · left; rw [e]; rfl
    · rw [e]
      show buildBuffer ps = _ ∨ ∃ b, buildBuffer ps = .ok b
      unfold buildBuffer
      have hps' : ∀ x ∈ sortByKey (·.1) ps, Usable x.2.1 ∧ Usable x.2.2 ∧ x.2.1.isStr = true ∧ x.2.1.strv = .ok x.1 :=
        fun x hx => hps x ((sortByKey_perm _ ps).mem_iff.1 hx)
      generalize sortByKey (·.1) ps = qs at hps' ⊢
      simp only [maxBytes]
      rcases pairsBytes_usable qs none (fun x hx => ⟨(hps' x hx).1, (hps' x hx).2.1⟩) with e | ⟨s, e⟩
      · left; rw [e]; rfl
      · right
        rw [e]
        simp only [Res.bind_ok]
        generalize hN : s + (8 + 8 * (qs.length + 1)) + alignUp (s + (8 + 8 * (qs.length + 1))) 8 = N
        have hz : (zeros N).length = N := by simp [zeros]
        obtain ⟨m1, w1, l1⟩ := writeBytes_inb (m := zeros N) (p := 4) (bs := leBytes 4 qs.length) (by rw [leBytes_length]; omega)
        obtain ⟨m2, o2, w2, l2⟩ := writeFields_pairs qs none s 0 (8 + 8 * qs.length) m1 hps' e (by omega) (by omega)
        obtain ⟨m3, w3, l3⟩ := writeBytes_inb (m := m2) (p := 0) (bs := leBytes 4 (alignUp o2 8)) (by rw [leBytes_length]; omega)
        refine ⟨Buf.ofBytes m3, ?_⟩
        simp only [objectFromPairs, w1, w2, finishObject, w3, Option.bind_eq_bind, Option.bind_some, Res.ofRead, Res.bind_ok]

/-! ### Merging with nothing -/

theorem makeObject_nil : Buf.makeObject [] = .ok (Buf.ofBytes (leBytes 4 8 ++ zeros 28)) := by rfl

/-- Injecting nothing copies all fields into the size of the object and eight bytes more. -/
theorem inject_nil_iff {b : Buf} {ps : List Piece} (hb : SafeBuf b) (ht : b.type = .object) (h : Pieces b ps) {n : Nat}
    (hn : b.sizeof = some n) :
    (endOf (8 + 8 * ps.length) ps ≤ n + 8 → ∃ c, b.inject [] = .ok c) ∧ (n + 8 < endOf (8 + 8 * ps.length) ps → b.inject [] = .ub) := by
  obtain ⟨p, n', fs, hp, ho, hz, hle, _, hf, ha⟩ := pieces_src hb ht h
  have hnn : n' = n := by
    simp only [Buf.sizeof, ht, hp, hz, Option.some.injEq] at hn
    exact hn
  subst hnn
  have hiff := objectFromCopies_iff ha (guess := ps.length) (n := n' + 8) (by omega)
  have hpr : b.inject [] = (Res.ofRead (objectFromCopies fs.length fs (zeros (n' + 8)))).bind fun m => .ok (Buf.ofBytes m) := by
    have e1 : (Buf.ofBytes (leBytes 4 8 ++ zeros 28)).object = .ok 0 := rfl
    have e2 : findSizeof (Buf.ofBytes (leBytes 4 8 ++ zeros 28)).mem .object 0 = some 8 := rfl
    have e3 : srcFields (Buf.ofBytes (leBytes 4 8 ++ zeros 28)).mem 0 = some [] := rfl
    have e4 : ∀ k, eachUniquePair SrcField.str k fs [] = fs := fun k => by cases k <;> rfl
    simp only [Buf.inject, makeObject_nil, Res.bind_ok, Buf.merge, ho, e1, e2, e3, hz, hf, Res.ofRead, e4, List.length_nil, Nat.add_zero]
  rw [hpr, ha.length]
  constructor
  · intro hle'
    obtain ⟨m, hm⟩ := hiff.2 ⟨Nat.le_refl _, hle'⟩
    exact ⟨Buf.ofBytes m, by rw [hm]; rfl⟩
  · intro hlt
    cases hc : objectFromCopies ps.length fs (zeros (n' + 8)) with
    | none => rfl
    | some m => have := (hiff.1 ⟨m, hc⟩).2; omega

end Dart
