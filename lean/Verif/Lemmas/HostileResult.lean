import Verif.Lemmas.HostileClosed

/-
The fields of validated objects, and what `project` and merging make of them.
-/
namespace Dart
open Spec

/-! ### Fields of a validated object -/

theorem copyElem_part {m : Bytes} {t : RawType} {q n : Nat} (hz : findSizeof m t q = some n) (hn : q + n ≤ m.length) (p : Nat) (m' : Bytes) :
    copyElem ⟨m, t, some q⟩ p m' = (writeBytes m' p (cutOut m q n)).map (·, (cutOut m q n).length) := by
  have hs : Buf.sizeof ⟨m, t, some q⟩ = some n := by
    unfold Buf.sizeof
    cases t <;> first | exact hz | (simp only [findSizeof] at hz; exact hz)
  have he : Buf.elemBytes ⟨m, t, some q⟩ n = some (cutOut m q n) := by
    unfold Buf.elemBytes
    split
    · rename_i h0; subst h0; simp [cutOut]
    · exact if_pos hn
  unfold copyElem
  rw [hs]
  simp only [Option.bind_eq_bind, Option.bind_some, he, cutOut_length hn]
  cases writeBytes m' p (cutOut m q n) <;> rfl

theorem LiesIn.findSizeof {c m : Bytes} {p q n : Nat} {t : RawType} (h : LiesIn c m p) (hz : findSizeof c t q = some n) :
    Dart.findSizeof m t (p + q) = some n := by
  cases t <;> simp only [Dart.findSizeof, Option.map_eq_some_iff] at hz ⊢ <;> first
    | exact hz
    | exact h.readU hz
    | (obtain ⟨y, h1, h2⟩ := hz; exact ⟨y, h.readU h1, h2⟩)

theorem entry_of {m : Bytes} {kp vp f kb vb : Nat} {vt : RawType} (hk : validBuffer m f .string kp kb = .ok true) (hkb : kp + kb ≤ m.length)
    (hka : 2 ∣ kp) (hv : validBuffer m f vt vp vb = .ok true) (hvb : vp + vb ≤ m.length) (hva : vt.align ∣ vp) :
    ∃ e : Entry, e.src = ⟨e.key, ⟨m, .string, some kp⟩, ⟨m, vt, some vp⟩⟩ ∧ strv m .string kp = some e.key ∧ e.type = vt ∧
      decode (m.length + 1) m vt vp = some e.val := by
  obtain ⟨nk, k1, k2, k3⟩ := part_valid hk hkb hka
  obtain ⟨nv, v1, v2, v3⟩ := part_valid hv hvb hva
  obtain ⟨w, d1, d2⟩ := part_value (show vp + nv ≤ m.length by omega) hva v3
  obtain ⟨wk, e1, e2⟩ := part_value (show kp + nk ≤ m.length by omega) (show RawType.string.align ∣ kp from hka) k3
  have lk := cutOut_length (show kp + nk ≤ m.length by omega)
  have lv := cutOut_length (show vp + nv ≤ m.length by omega)
  simp only [decode, Option.map_eq_some_iff] at e1 e2
  obtain ⟨s, s1, rfl⟩ := e1
  obtain ⟨s', s2, s3⟩ := e2
  cases s3
  have hvz : findSizeof (cutOut m vp nv) vt 0 = some nv := by
    obtain ⟨x, x1, _⟩ := part_valid v3 (by omega) (Nat.dvd_zero _)
    have := (LiesIn.cut (show vp + nv ≤ m.length by omega)).findSizeof x1
    rw [Nat.add_zero, v1] at this
    rw [x1, this]
  have hsz := strv_length s2
  rw [k1] at hsz
  refine ⟨⟨⟨s, ⟨m, .string, some kp⟩, ⟨m, vt, some vp⟩⟩, s, w, vt, cutOut m kp nk, cutOut m vp nv, rfl, copyElem_part k1 (by omega), rfl,
    copyElem_part v1 (by omega), by rw [lk]; simpa using hsz, by rw [lk]; exact k3, s1, by rw [lv]; exact v3, by rw [lv]; exact d1,
    by rw [lv]; exact hvz⟩, rfl, s2, rfl, ?_⟩
  exact decode_out m _ _ _ _ _ (by omega) d2

/-- All fields of a validated object. -/
theorem entries_of {b : Buf} (hb : SafeBuf b) (ht : b.type = .object) : ∃ (p n : Nat) (es : List Entry), b.addr = some p ∧ b.object = .ok p ∧
    findSizeof b.mem .object p = some n ∧ n < 2 ^ 32 ∧ 8 + 8 * es.length ≤ n ∧ srcFields b.mem p = some (es.map (·.src)) ∧
    IterShows b (es.map fun e => (e.key, e.val)) := by
  obtain ⟨p, hp, hs⟩ := hb.addr (by simp [ht])
  rw [ht] at hs
  obtain ⟨hal, n, hn, _, ⟨_, total, h1, h2, h3, g, hv⟩, _⟩ := hs
  have hlt : total < 2 ^ 32 := (readU_bound h1).2
  have fields : ∀ i, i < n → ∃ e : Entry, srcField b.mem p i = some e.src ∧
      (∃ k, b.keyAt i = .ok k ∧ k.strv = .ok e.key) ∧ ∃ v, b.valueAt i = .ok v ∧ v.value = some e.val := by
    intro i hi
    cases g with
    | zero => simp [validBuffer] at hv
    | succ g =>
      obtain ⟨_, total', h1', hb', n', hn', hnt, hty, hl⟩ := validTable_true.1 hv
      rw [h1] at h1'; cases h1'
      rw [hn] at hn'; cases hn'
      obtain ⟨kp, vt, vp, c1, ⟨kb, c2, c3, c4⟩, c5, ⟨vb, c6, c7, c8⟩⟩ := validFields_safe
        (S := fun t q => ∃ bb, q + bb ≤ b.mem.length ∧ t.align ∣ q ∧ validBuffer b.mem g t q bb = .ok true)
        (fun t q h1 h2 h3 h4 => ⟨_, by omega, h3, h4⟩) n 0 p (Nat.le_refl p) hl i (by omega) (by omega)
      obtain ⟨e, e1, e2, e3, e4⟩ := entry_of c4 c2 c3 c8 c6 c7
      refine ⟨e, ?_, ⟨b.sub (.string, some kp), ?_, ?_⟩, b.sub (vt, some vp), ?_, ?_⟩
      · simp [srcField, c1, e2, c5, e1]
      · simp [Buf.keyAt, Buf.object, ht, hp, Res.ofRead, Res.bind, c1]
      · simp [Buf.strv, Buf.sub, Res.ofRead, Res.bind, e2]
      · simp [Buf.valueAt, ht, hp, Res.ofRead, Res.bind, c5]
      · simp only [Buf.value, Buf.sub]
        cases vt <;> first | exact e4 | (simp only [decode] at e4 ⊢; exact e4)
  have all : ∀ j, j ≤ n → ∃ es : List Entry, es.length = j ∧ (List.range j).mapM (srcField b.mem p) = some (es.map (·.src)) ∧
      ∀ i e, es[i]? = some e → (∃ k, b.keyAt i = .ok k ∧ k.strv = .ok e.key) ∧ ∃ v, b.valueAt i = .ok v ∧ v.value = some e.val := by
    intro j
    induction j with
    | zero => exact fun _ => ⟨[], rfl, rfl, fun i e h => by simp at h⟩
    | succ j ih =>
      intro hj
      obtain ⟨es, l1, l2, l3⟩ := ih (by omega)
      obtain ⟨e, f1, f2⟩ := fields j (by omega)
      refine ⟨es ++ [e], by simp [l1], ?_, fun i r hr => ?_⟩
      · rw [List.range_succ, List.mapM_append, l2]
        simp [f1]
      · rw [List.getElem?_append] at hr
        split at hr
        · exact l3 i r hr
        · have hi : i = j := by
            have := (List.getElem?_eq_some_iff.1 hr).1
            simp at this
            omega
          subst hi
          rw [l1, Nat.sub_self] at hr
          simp at hr
          subst hr
          exact f2
  obtain ⟨es, l1, l2, l3⟩ := all n (Nat.le_refl _)
  refine ⟨p, total, es, hp, by simp [Buf.object, ht, hp, Res.ofRead], h1, hlt, by omega, ?_, ⟨?_, fun i f hf => ?_⟩⟩
  · simp only [srcFields, hn, Option.bind_eq_bind, Option.bind_some]
    exact l2
  · simp [Buf.size, ht, hp, Res.ofRead, Res.bind, hn, l1]
  · rw [List.getElem?_map, Option.map_eq_some_iff] at hf
    obtain ⟨e, he, rfl⟩ := hf
    exact l3 i e he

/-- An object shows one list of fields only. -/
theorem iterShows_unique {b : Buf} {fs gs : List (Bytes × Val)} (hf : IterShows b fs) (hg : IterShows b gs) : fs = gs := by
  have hl : fs.length = gs.length := by
    have := hf.count
    rw [hg.count] at this
    exact (Res.ok.inj this).symm
  refine List.ext_getElem hl fun i h1 h2 => ?_
  obtain ⟨⟨k, k1, k2⟩, v, v1, v2⟩ := hf.field i fs[i] (List.getElem?_eq_getElem h1)
  obtain ⟨⟨k', k1', k2'⟩, v', v1', v2'⟩ := hg.field i gs[i] (List.getElem?_eq_getElem h2)
  rw [k1] at k1'; cases k1'
  rw [v1] at v1'; cases v1'
  rw [k2] at k2'
  rw [v2] at v2'
  exact Prod.ext (Res.ok.inj k2') (Option.some.inj v2')

theorem Entry.size_pos (e : Entry) (h : e.val ≠ .null) : 0 < e.vb.length := by
  refine Nat.pos_of_ne_zero fun h0 => h ?_
  have hv := e.vvalid
  have hd := e.vval
  have he : e.vb = [] := List.eq_nil_of_length_eq_zero h0
  rw [he] at hv hd
  revert hv hd
  generalize e.type = t
  intro hv hd
  cases t
  case null => simp only [decode] at hd; exact (Option.some.inj hd).symm
  all_goals exact absurd hv (by decide)

theorem endsAt_pieces (es : List Entry) : ∀ off, endsAt off es = endOf off (es.map fun e => ⟨e.key, e.type, e.vb.length⟩) := by
  induction es with
  | nil => exact fun _ => rfl
  | cons e es ih => intro off; rw [List.map_cons, endOf_cons]; simp only [endsAt, e.klen, ih]

theorem Entry.allSrc (es : List Entry) : AllSrc (es.map (·.src)) (es.map fun e => ⟨e.key, e.type, e.vb.length⟩) := by
  induction es with
  | nil => exact .nil
  | cons e es ih => exact .cons ⟨e.str, ⟨e.kb, e.klen, fun p m => by rw [e.kcopy, e.klen]⟩, e.vtype, ⟨e.vb, rfl, e.vcopy⟩⟩ ih

/-- The copying constructors on fields of validated objects. -/
theorem copies_result {es : List Entry} {guess n : Nat} {m : Bytes} (h : objectFromCopies guess (es.map (·.src)) (zeros n) = some m)
    (hn8 : 8 ≤ n) (h8 : 8 ∣ n) (hn : n < 2 ^ 32) : IterShows (Buf.ofBytes m) (es.map fun e => (e.key, e.val)) ∧
      ((∀ e ∈ es, e.val ≠ .null) → accepts m) ∧ m.length = n ∧ Stored' m es := by
  have hend := ((objectFromCopies_iff (Entry.allSrc es) hn8).1 ⟨m, h⟩).2
  rw [← endsAt_pieces] at hend
  obtain ⟨hl, hs⟩ := objectFromCopies_stored h h8 hn hend
  exact ⟨hs.shows, fun h => hs.accepted fun e he => e.size_pos (h e he), hl, hs⟩

theorem ofBytes_shape (m : Bytes) : (Buf.ofBytes m).mem = m := rfl

/-- What projecting gives. -/
theorem project_result {b c : Buf} {fs : List (Bytes × Val)} (hb : SafeBuf b) (ht : b.type = .object) (hf : IterShows b fs)
    (hr : fs.Pairwise fun x y => KeyBefore x.1 y.1) {ks : List Bytes} (hc : b.project ks = .ok c) {n : Nat} (hn : b.sizeof = some n)
    (h8 : 8 ∣ n) : c = Buf.ofBytes c.mem ∧ IterShows c (fs.filter (·.1 ∈ ks)) ∧
      ((∀ f ∈ fs, f.1 ∈ ks → f.2 ≠ .null) → accepts c.mem) ∧ c.mem.length = n ∧ ∃ es, Stored' c.mem es := by
  obtain ⟨p, n', es, hp, ho, hz, hlt, hle, hsrc, hit⟩ := entries_of hb ht
  have := iterShows_unique hf hit
  subst this
  have hnn : n' = n := by
    simp only [Buf.sizeof, ht, hp, hz, Option.some.injEq] at hn
    exact hn
  subst hnn
  have hsorted : es.Pairwise fun x y => keyLt x.key y.key = true := by
    rw [List.pairwise_map] at hr
    exact hr.imp fun h => keyLt_iff_spec.2 h
  have hsel : projectEachPair SrcField.str (sortByKey id ks) (es.map (·.src)) = (es.filter fun e => decide (e.key ∈ ks)).map (·.src) := by
    rw [projectEachPair_map]
    have he : SrcField.str ∘ (fun e : Entry => e.src) = Entry.key := funext fun e => e.str
    rw [he, projectEachPair_filter _ hsorted (sortByKey_sorted id ks)]
    congr 1
    apply List.filter_congr
    intro f _
    simp [(sortByKey_perm id ks).mem_iff]
  simp only [Buf.project, ho, hz, hsrc, hsel, Res.bind, Res.ofRead] at hc
  cases hm : objectFromCopies ks.length ((es.filter fun e => decide (e.key ∈ ks)).map (·.src)) (zeros n') with
  | none => rw [hm] at hc; cases hc
  | some m =>
    rw [hm] at hc
    cases hc
    obtain ⟨r1, r2, r3, r4⟩ := copies_result hm (by omega) h8 hlt
    refine ⟨rfl, ?_, fun h => r2 fun e he => ?_, r3, _, r4⟩
    · rw [List.filter_map]; exact r1
    · simp only [List.mem_filter, decide_eq_true_eq] at he
      exact h (e.key, e.val) (List.mem_map.2 ⟨e, he.1, rfl⟩) he.2

/-- What merging gives. -/
theorem merge_result {b c d : Buf} {fs gs : List (Bytes × Val)} (hb : SafeBuf b) (hbt : b.type = .object) (hc : SafeBuf c)
    (hct : c.type = .object) (hf : IterShows b fs) (hg : IterShows c gs) (hr : fs.Pairwise fun x y => KeyBefore x.1 y.1)
    {n k : Nat} (hn : b.sizeof = some n) (hk : c.sizeof = some k) (h8 : 8 ∣ n + k) (hlt : n + k < 2 ^ 32) (hd : b.merge c = .ok d) :
    d = Buf.ofBytes d.mem ∧ IterShows d (mergeFields fs gs) ∧ ((∀ f ∈ mergeFields fs gs, f.2 ≠ .null) → accepts d.mem) ∧
      d.mem.length = n + k ∧ ∃ es, Stored' d.mem es := by
  obtain ⟨p, n', es, hp, ho, hz, _, hle, hsrc, hit⟩ := entries_of hb hbt
  obtain ⟨q, k', ds, hq, ho', hz', _, hle', hsrc', hit'⟩ := entries_of hc hct
  have := iterShows_unique hf hit
  subst this
  have := iterShows_unique hg hit'
  subst this
  have hnn : n' = n := by
    simp only [Buf.sizeof, hbt, hp, hz, Option.some.injEq] at hn
    exact hn
  subst hnn
  have hkk : k' = k := by
    simp only [Buf.sizeof, hct, hq, hz', Option.some.injEq] at hk
    exact hk
  subst hkk
  have he : SrcField.str ∘ (fun e : Entry => e.src) = Entry.key := funext fun e => e.str
  have hsel : ∀ N, eachUniquePair SrcField.str N (es.map (·.src)) (ds.map (·.src)) = (eachUniquePair Entry.key N es ds).map (·.src) := fun N => by
    rw [eachUniquePair_map, he]
  have hmer : (eachUniquePair Entry.key (es.length + ds.length) es ds).map (fun e => (e.key, e.val)) =
      mergeFields (es.map fun e => (e.key, e.val)) (ds.map fun e => (e.key, e.val)) := by
    rw [← eachUniquePair_eq (es.length + ds.length) (sorted_iff.1 hr) (by simp), eachUniquePair_map]
    rfl
  simp only [Buf.merge, ho, ho', hz, hz', hsrc, hsrc', hsel, Res.bind, Res.ofRead, List.length_map] at hd
  cases hm : objectFromCopies (es.length + ds.length) ((eachUniquePair Entry.key (es.length + ds.length) es ds).map (·.src)) (zeros (n' + k')) with
  | none => rw [hm] at hd; cases hd
  | some m =>
    rw [hm] at hd
    cases hd
    obtain ⟨r1, r2, r3, r4⟩ := copies_result hm (by omega) h8 hlt
    rw [hmer] at r1
    refine ⟨rfl, r1, fun h => r2 fun e he => ?_, r3, _, r4⟩
    exact h (e.key, e.val) (by rw [← hmer]; exact List.mem_map.2 ⟨e, he, rfl⟩)

end Dart
