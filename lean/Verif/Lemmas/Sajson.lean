import Verif.Lemmas.FromJson
import Verif.Spec.Sajson

/-
JSON with sajson as the parser, helpers.
-/
namespace Dart
open Spec

theorem jsonFields_map (fs : List (Bytes × SDoc)) : jsonFields fs = fs.map fun f => (f.1, f.2.json) := by
  induction fs with
  | nil => rfl
  | cons f fs ih => obtain ⟨k, v⟩ := f; simp [jsonFields, ih]
theorem jsonFields_length (fs : List (Bytes × SDoc)) : (jsonFields fs).length = fs.length := by
  rw [jsonFields_map, List.length_map]
theorem jsonElems_length : ∀ es : List SDoc, (jsonElems es).length = es.length
  | [] => rfl
  | d :: es => by simp [jsonElems, jsonElems_length es]

theorem wrapInt_toInt (i : BitVec 32) : wrapInt i.toInt = i.signExtend 64 := rfl

theorem toInt_range (i : BitVec 32) : -2 ^ 31 ≤ i.toInt ∧ i.toInt < 2 ^ 31 := by
  have h1 := BitVec.le_toInt i
  have h2 := BitVec.toInt_lt (x := i)
  exact ⟨h1, h2⟩

/-! ### The dynamic packet -/

mutual
theorem drive_run : ∀ (d : SDoc) (s : Parser), d.drive s = s.run d.json.events
  | .null, s => by rw [SDoc.json, Json.events, run_single, SDoc.drive]
  | .bool b, s => by rw [SDoc.json, Json.events, run_single, SDoc.drive]
  | .int i, s => by
    have := toInt_range i
    rw [SDoc.json, Json.events, run_single, intEvent_step s (by omega) (by omega)]
    rfl
  | .dbl d, s => by rw [SDoc.json, Json.events, run_single, SDoc.drive]
  | .str t, s => by rw [SDoc.json, Json.events, run_single, SDoc.drive]
  | .arr es, s => by
    rw [SDoc.json, Json.events, Parser.run, Parser.step, Res.bind, run_append, SDoc.drive, driveElems_run es]
    congr 1
    funext t
    exact (run_single t .endArray).symm
  | .obj fs, s => by
    rw [SDoc.json, Json.events, Parser.run, Parser.step, Res.bind, run_append, SDoc.drive, driveFields_run fs]
    congr 1
    funext t
    exact (run_single t .endObject).symm
theorem driveElems_run : ∀ (es : List SDoc) (s : Parser), driveElems es s = s.run (elemEvents (jsonElems es))
  | [], s => rfl
  | d :: es, s => by
    rw [jsonElems, elemEvents, run_append, driveElems, drive_run d]
    congr 1
    funext t
    exact driveElems_run es t
theorem driveFields_run : ∀ (fs : List (Bytes × SDoc)) (s : Parser), driveFields fs s = s.run (fieldEvents (jsonFields fs))
  | [], s => rfl
  | (k, d) :: fs, s => by
    rw [jsonFields, fieldEvents, Parser.run, driveFields]
    congr 1
    funext t
    rw [run_append, drive_run d]
    congr 1
    funext u
    exact driveFields_run fs u
end

theorem stoHeap_json (d : SDoc) : d.toHeap = d.json.toHeap := by
  unfold SDoc.toHeap Json.toHeap
  rw [drive_run]

/-! ### The finalized buffer -/

theorem sidentify_json (d : SDoc) : d.identify = d.json.identify := by
  cases d <;> simp only [SDoc.identify, SDoc.json, Json.identify]
  rename_i i
  have := toInt_range i
  rw [if_pos (by omega)]
  rfl

theorem sidentify_image (d : SDoc) : d.identify = d.json.image.rawType := by
  rw [sidentify_json, identify_image]

theorem cstr_noNul {k : Bytes} (h : 0 ∉ k) : cstr k = k := by
  unfold cstr
  induction k with
  | nil => rfl
  | cons c k ih =>
    simp only [List.mem_cons, not_or] at h
    rw [List.takeWhile_cons, if_pos (by simpa using fun e => h.1 e.symm), ih h.2]

theorem layoutStr_short {k : Bytes} (h : k.length ≤ 65535) (p : Nat) (m : Bytes) :
    layoutStr k p m = (layoutString 2 k p m).bind fun m' => (findSizeof m' .string p).bind fun sz => some (m', sz) := by
  unfold layoutStr identifyString
  rw [if_neg (by omega)]
  split <;> simp only [Option.bind_eq_bind, findSizeof]

mutual
/-- With names of moderate length and without NUL bytes, the bytes written are those for the other parser. -/
theorem slower_lower : ∀ (d : SDoc) (p : Nat) (m : Bytes), Within d.json → NoNulNames d.json → d.lower p m = d.json.lower p m
  | .null, _, _, _, _ => by simp only [SDoc.lower, SDoc.json, Json.lower]
  | .bool _, _, _, _, _ => by simp only [SDoc.lower, SDoc.json, Json.lower]
  | .int i, _, _, _, _ => by
    have := toInt_range i
    simp only [SDoc.lower, SDoc.json, Json.lower]
    rw [if_pos (by omega)]
    rfl
  | .dbl _, _, _, _, _ => by simp only [SDoc.lower, SDoc.json, Json.lower]
  | .str _, _, _, _, _ => by simp only [SDoc.lower, SDoc.json, Json.lower]
  | .arr es, p, m, h, hn => by
    simp only [SDoc.json, Within, NoNulNames] at h hn
    simp only [SDoc.lower, SDoc.json, Json.lower, jsonElems_length]
    congr 1
    funext m
    rw [slowerElems_lower es _ _ _ _ h.2 hn]
  | .obj fs, p, m, h, hn => by
    simp only [SDoc.json, Within, NoNulNames] at h hn
    simp only [SDoc.lower, SDoc.json, Json.lower, jsonFields_length]
    congr 1
    funext m
    rw [slowerFields_lower fs _ _ _ _ h hn]
theorem slowerFields_lower : ∀ (fs : List (Bytes × SDoc)) (p i off : Nat) (m : Bytes), WithinFields (jsonFields fs) →
    NoNulFields (jsonFields fs) → slowerFields fs p i off m = lowerFields (jsonFields fs) p i off m
  | [], _, _, _, _, _, _ => by simp only [slowerFields, jsonFields, lowerFields]
  | (k, d) :: fs, p, i, off, m, h, hn => by
    simp only [jsonFields, WithinFields, NoNulFields] at h hn
    simp only [slowerFields, jsonFields, lowerFields, cstr_noNul hn.1, layoutStr_short h.1, sidentify_json,
      Option.bind_eq_bind, Option.bind_assoc, Option.bind_some]
    congr 1
    funext m
    congr 1
    funext m
    congr 1
    funext sz
    rw [slower_lower d _ _ h.2.1 hn.2.1]
    congr 1
    funext x
    exact slowerFields_lower fs _ _ _ _ h.2.2 hn.2.2
theorem slowerElems_lower : ∀ (es : List SDoc) (p i off : Nat) (m : Bytes), WithinElems (jsonElems es) →
    NoNulElems (jsonElems es) → slowerElems es p i off m = lowerElems (jsonElems es) p i off m
  | [], _, _, _, _, _, _ => by simp only [slowerElems, jsonElems, lowerElems]
  | d :: es, p, i, off, m, h, hn => by
    simp only [jsonElems, WithinElems, NoNulElems] at h hn
    simp only [slowerElems, jsonElems, lowerElems, sidentify_json]
    congr 1
    funext m
    rw [slower_lower d _ _ h.1 hn.1]
    congr 1
    funext x
    exact slowerElems_lower es _ _ _ _ h.2 hn.2
end

/-! ### Documents in order -/

open Classical in
/-- A way to sort that leaves alone what is in order. -/
noncomputable def sortOnce (fs : List (Bytes × Json)) : List (Bytes × Json) :=
  if fs.Pairwise fun a b => ¬ KeyBefore b.1 a.1 then fs else sortMembers fs

theorem sortOnce_sorts : Sorts sortOnce := by
  intro fs
  unfold sortOnce
  split
  · rename_i h; exact ⟨.refl _, h⟩
  · exact sortMembers_sorts fs

mutual
theorem arrange_inOrder : ∀ j : Json, InOrder j → j.arrange sortOnce = j
  | .null, _ => rfl
  | .bool _, _ => rfl
  | .num _, _ => rfl
  | .dbl _, _ => rfl
  | .str _, _ => rfl
  | .arr es, h => by
    unfold InOrder at h
    rw [Json.arrange, arrangeElems_inOrder es h]
  | .obj fs, h => by
    unfold InOrder at h
    rw [Json.arrange, arrangeFields_inOrder fs h.2, sortOnce, if_pos h.1]
theorem arrangeElems_inOrder : ∀ es : List Json, InOrderElems es → arrangeElems sortOnce es = es
  | [], _ => rfl
  | j :: es, h => by
    unfold InOrderElems at h
    rw [arrangeElems, arrange_inOrder j h.1, arrangeElems_inOrder es h.2]
theorem arrangeFields_inOrder : ∀ fs : List (Bytes × Json), InOrderFields fs → arrangeFields sortOnce fs = fs
  | [], _ => rfl
  | (k, j) :: fs, h => by
    unfold InOrderFields at h
    rw [arrangeFields, arrange_inOrder j h.1, arrangeFields_inOrder fs h.2]
end

theorem image_inOrder {j : Json} (ho : InOrder j) (hw : Within j) (hd : DistinctNames j) : j.image = j.toVal := by
  have := arrange_image sortOnce_sorts j hw hd
  rwa [arrange_inOrder j ho] at this

/-! ### What sajson delivers -/

mutual
theorem delivers_span {w : Int → Prop} : ∀ {j : Json} {d : SDoc}, Delivers w j d → d.json.span = j.span
  | _, _, .null => rfl
  | _, _, .bool _ => rfl
  | _, _, .int _ _ => rfl
  | _, _, .large _ _ _ => rfl
  | _, _, .dbl _ => rfl
  | _, _, .str _ => rfl
  | _, _, .arr h => by simp only [SDoc.json, Json.span, deliversElems_span h]
  | _, _, .obj h hp => by
    have hq := hp.map fun f : Bytes × SDoc => (f.1, f.2.json)
    rw [← jsonFields_map, ← jsonFields_map] at hq
    simp only [SDoc.json, Json.span, fieldsSpan_perm hq, deliversMembers_span h]
theorem deliversElems_span {w : Int → Prop} : ∀ {js : List Json} {ds : List SDoc}, DeliversElems w js ds →
    elemsSpan (jsonElems ds) = elemsSpan js
  | _, _, .nil => rfl
  | _, _, .cons h h' => by simp only [jsonElems, elemsSpan, delivers_span h, deliversElems_span h']
theorem deliversMembers_span {w : Int → Prop} : ∀ {fs : List (Bytes × Json)} {gs : List (Bytes × SDoc)},
    DeliversMembers w fs gs → fieldsSpan (jsonFields gs) = fieldsSpan fs
  | _, _, .nil => rfl
  | _, _, .cons h h' => by simp only [jsonFields, fieldsSpan, delivers_span h, deliversMembers_span h']
end

theorem deliversMembers_names {w : Int → Prop} : ∀ {fs : List (Bytes × Json)} {gs : List (Bytes × SDoc)},
    DeliversMembers w fs gs → gs.map (·.1) = fs.map (·.1)
  | _, _, .nil => rfl
  | _, _, .cons _ h => by simp [deliversMembers_names h]

theorem lookup_toFields_nodup (fs : List (Bytes × Json)) (hn : (fs.map (·.1)).Nodup) (k : Bytes) :
    lookup (toFields [] fs) k = lookup (fs.map fun f => (f.1, f.2.toVal)) k := by
  rw [lookup_toFields, lookup_lastOf fs hn]
  cases lastOf fs k <;> rfl

mutual
/-- If all whole numbers come as integers, the value is the one of the document. -/
theorem delivers_toVal {w : Int → Prop} : ∀ {j : Json} {d : SDoc}, Delivers w j d → WholeNumbers w j → DistinctNames j →
    d.json.toVal = j.toVal
  | _, _, .null, _, _ => rfl
  | _, _, .bool _, _, _ => rfl
  | _, _, .int _ _, _, _ => rfl
  | _, _, .large _ _ h, hw, _ => absurd hw h
  | _, _, .dbl _, _, _ => rfl
  | _, _, .str _, _, _ => rfl
  | _, _, .arr h, hw, hd => by
    unfold WholeNumbers at hw
    unfold DistinctNames at hd
    simp only [SDoc.json, Json.toVal, deliversElems_toVal h hw hd]
  | _, _, .obj (gs := gs) (hs := hs) h hp, hw, hd => by
    unfold WholeNumbers at hw
    unfold DistinctNames at hd
    simp only [SDoc.json, Json.toVal]
    congr 1
    have hng : (gs.map (·.1)).Nodup := by rw [deliversMembers_names h]; exact hd.1
    have hnh : (hs.map (·.1)).Nodup := (hp.map (·.1)).nodup_iff.2 hng
    have hj : ∀ l : List (Bytes × SDoc), (jsonFields l).map (·.1) = l.map (·.1) := by
      intro l; rw [jsonFields_map, List.map_map]; rfl
    refine sorted_ext (toFields_sorted _ [] List.Pairwise.nil) (toFields_sorted _ [] List.Pairwise.nil) (funext fun k => ?_)
    rw [lookup_toFields_nodup _ (by rw [hj]; exact hnh), lookup_toFields_nodup _ hd.1,
      ← deliversMembers_toVal h hw hd.2]
    refine lookup_perm ?_ ?_ k
    · rw [List.map_map]; exact (by rw [show (fun f : Bytes × Val => f.1) ∘ (fun f : Bytes × Json => (f.1, f.2.toVal)) = (·.1) from rfl, hj]; exact hng)
    · refine List.Perm.map _ ?_
      rw [jsonFields_map, jsonFields_map]
      exact hp.map _
theorem deliversElems_toVal {w : Int → Prop} : ∀ {js : List Json} {ds : List SDoc}, DeliversElems w js ds →
    WholeElems w js → DistinctElems js → toElems (jsonElems ds) = toElems js
  | _, _, .nil, _, _ => rfl
  | _, _, .cons h h', hw, hd => by
    unfold WholeElems at hw
    unfold DistinctElems at hd
    simp only [jsonElems, toElems, delivers_toVal h hw.1 hd.1, deliversElems_toVal h' hw.2 hd.2]
theorem deliversMembers_toVal {w : Int → Prop} : ∀ {fs : List (Bytes × Json)} {gs : List (Bytes × SDoc)},
    DeliversMembers w fs gs → WholeFields w fs → DistinctFields fs →
    ((jsonFields gs).map fun f => (f.1, f.2.toVal)) = fs.map fun f => (f.1, f.2.toVal)
  | _, _, .nil, _, _ => rfl
  | _, _, .cons h h', hw, hd => by
    unfold WholeFields at hw
    unfold DistinctFields at hd
    simp only [jsonFields, List.map_cons, delivers_toVal h hw.1 hd.1, deliversMembers_toVal h' hw.2 hd.2]
end

/-! ### Writes stay in bounds -/

theorem keySize_le (k : Bytes) : 2 + k.length + 1 ≤ strSize k := by
  unfold strSize strLw; split <;> omega

mutual
theorem slower_inb : ∀ (d : SDoc) {p : Nat} {m : Bytes}, d.identify.align ∣ p → p + sizeVal d.json.image ≤ m.length →
    ∃ m' sz, d.lower p m = some (m', sz) ∧ m'.length = m.length ∧ sz ≤ sizeVal d.json.image
  | .obj fs, p, m, ha, h => by
    have hle := le_alignUp (fieldsEnd (8 + 8 * fs.length) (imageFields (jsonFields fs))) (a := 8) (by decide)
    have hle2 := le_fieldsEnd (8 + 8 * fs.length) (imageFields (jsonFields fs))
    simp only [SDoc.json, Json.image, sizeVal, imageFields_length, jsonFields_length] at h ⊢
    obtain ⟨a, ea, la⟩ := writeBytes_inb (m := m) (p := p + 4) (bs := leBytes 4 fs.length) (by simp; omega)
    obtain ⟨b, o, eb, lb, ho⟩ := slowerFields_inb fs (p := p) (i := 0) (off := 8 + 8 * fs.length)
      (B := 8 + 8 * fs.length) (m := a) ha (by omega) (by omega) (by omega)
    have hm := alignUp_mono 8 ho
    obtain ⟨c, ec, lc⟩ := writeBytes_inb (m := b) (p := p) (bs := leBytes 4 (alignUp o 8)) (by simp; omega)
    have r := readU_write ec
    simp only [SDoc.lower, ea, eb, ec, findSizeof, r, Option.bind_eq_bind, Option.bind_some]
    exact ⟨_, _, rfl, by omega, Nat.le_trans (Nat.mod_le _ _) hm⟩
  | .arr es, p, m, ha, h => by
    have hle2 := le_elemsEnd (8 + 8 * es.length) (imageElems (jsonElems es))
    simp only [SDoc.json, Json.image, sizeVal, imageElems_length, jsonElems_length] at h ⊢
    obtain ⟨a, ea, la⟩ := writeBytes_inb (m := m) (p := p + 4) (bs := leBytes 4 es.length) (by simp; omega)
    obtain ⟨b, o, eb, lb, ho⟩ := slowerElems_inb es (p := p) (i := 0) (off := 8 + 8 * es.length)
      (B := 8 + 8 * es.length) (m := a) ha (by omega) (by omega) (by omega)
    obtain ⟨c, ec, lc⟩ := writeBytes_inb (m := b) (p := p) (bs := leBytes 4 o) (by simp; omega)
    have r := readU_write ec
    simp only [SDoc.lower, ea, eb, ec, findSizeof, r, Option.bind_eq_bind, Option.bind_some]
    exact ⟨_, _, rfl, by omega, Nat.le_trans (Nat.mod_le _ _) ho⟩
  | .str s, p, m, ha, h => by
    have := layoutVal_inb (.str s) (p := p) (m := m) ha h
    simpa only [SDoc.lower, layoutVal, SDoc.json, Json.image] using this
  | .int i, p, m, ha, h => by
    have hs := slower_lower (.int i) p m (by simp only [SDoc.json, Within]; have := toInt_range i; omega) trivial
    rw [hs, lower_image]
    exact layoutVal_inb _ (sidentify_image _ ▸ ha) h
  | .dbl d, p, m, ha, h => by
    rw [slower_lower (.dbl d) p m trivial trivial, lower_image]
    exact layoutVal_inb _ (sidentify_image _ ▸ ha) h
  | .bool b, p, m, ha, h => by
    rw [slower_lower (.bool b) p m trivial trivial, lower_image]
    exact layoutVal_inb _ (sidentify_image _ ▸ ha) h
  | .null, p, m, ha, h => by
    rw [slower_lower .null p m trivial trivial, lower_image]
    exact layoutVal_inb _ (sidentify_image _ ▸ ha) h
theorem slowerFields_inb : ∀ (fs : List (Bytes × SDoc)) {p i off B : Nat} {m : Bytes}, 8 ∣ p → off ≤ B →
    p + 8 + 8 * (i + fs.length) ≤ m.length → p + fieldsEnd B (imageFields (jsonFields fs)) ≤ m.length →
    ∃ m' o, slowerFields fs p i off m = some (m', o) ∧ m'.length = m.length ∧ o ≤ fieldsEnd B (imageFields (jsonFields fs))
  | [], p, i, off, B, m, ha, hB, hi, h => by
    simp only [slowerFields, jsonFields, imageFields, fieldsEnd]
    exact ⟨_, _, rfl, rfl, hB⟩
  | (k, v) :: fs, p, i, off, B, m, ha, hB, hi, h => by
    have a2 : (2 : Nat) ∣ p := Nat.dvd_trans (by decide) ha
    have av : v.identify.align ∣ p := Nat.dvd_trans (align_dvd_eight _) ha
    have hk := le_alignUp off (a := 2) (by decide)
    have hkB := alignUp_mono 2 hB
    have hks := keySize_le k
    simp only [jsonFields, imageFields, fieldsEnd, List.length_cons, ← sidentify_image] at h hi ⊢
    have hend := le_fieldsEnd (alignUp (alignUp B 2 + strSize k) v.identify.align + sizeVal v.json.image)
      (imageFields (jsonFields fs))
    have hvB := le_alignUp (alignUp B 2 + strSize k) (align_pos v.identify)
    have hs : RawType.string.align = 2 := rfl
    have ek : off + (p + alignUp off 2 - (p + off)) = alignUp off 2 := by omega
    obtain ⟨a, ea, la⟩ := writeBytes_inb (m := m) (p := p + 8 + 8 * i)
      (bs := objEntry v.identify (alignUp off 2) k) (by simp; omega)
    obtain ⟨b, eb, lb, hb⟩ := layoutString_inb (lw := 2) (s := k) (m := a) (p := p + alignUp off 2) (by omega)
    have hmod := Nat.mod_le k.length (256 ^ 2)
    generalize hsz : 2 + k.length % 256 ^ 2 + 1 = sz at *
    have hv := le_alignUp (alignUp off 2 + sz) (align_pos v.identify)
    have ev : alignUp off 2 + sz + (p + alignUp (alignUp off 2 + sz) v.identify.align - (p + (alignUp off 2 + sz)))
        = alignUp (alignUp off 2 + sz) v.identify.align := by omega
    have hvm : alignUp (alignUp off 2 + sz) v.identify.align ≤ alignUp (alignUp B 2 + strSize k) v.identify.align :=
      alignUp_mono _ (by omega)
    obtain ⟨c, s2, ec, lc, hc⟩ := slower_inb v (p := p + alignUp (alignUp off 2 + sz) v.identify.align) (m := b)
      ((Nat.dvd_add_right av).2 (dvd_alignUp _ _)) (by omega)
    obtain ⟨d, o, ed, ld, hd⟩ := slowerFields_inb fs (p := p) (i := i + 1)
      (off := alignUp (alignUp off 2 + sz) v.identify.align + s2)
      (B := alignUp (alignUp B 2 + strSize k) v.identify.align + sizeVal v.json.image) (m := c) ha (by omega) (by omega)
      (by omega)
    refine ⟨d, o, ?_, by omega, hd⟩
    simp only [slowerFields, hs, alignUp_add_left (by decide : 0 < 2) a2, ek, ea, eb, findSizeof, hb, hsz, Option.map_some,
      Option.bind_eq_bind, Option.bind_some, alignUp_add_left (align_pos _) av, ev, ec, ed]
theorem slowerElems_inb : ∀ (es : List SDoc) {p i off B : Nat} {m : Bytes}, 8 ∣ p → off ≤ B →
    p + 8 + 8 * (i + es.length) ≤ m.length → p + elemsEnd B (imageElems (jsonElems es)) ≤ m.length →
    ∃ m' o, slowerElems es p i off m = some (m', o) ∧ m'.length = m.length ∧ o ≤ elemsEnd B (imageElems (jsonElems es))
  | [], p, i, off, B, m, ha, hB, hi, h => by
    simp only [slowerElems, jsonElems, imageElems, elemsEnd]
    exact ⟨_, _, rfl, rfl, hB⟩
  | v :: es, p, i, off, B, m, ha, hB, hi, h => by
    have av : v.identify.align ∣ p := Nat.dvd_trans (align_dvd_eight _) ha
    simp only [jsonElems, imageElems, elemsEnd, List.length_cons, ← sidentify_image] at h hi ⊢
    have hend := le_elemsEnd (alignUp B v.identify.align + sizeVal v.json.image) (imageElems (jsonElems es))
    have hv := le_alignUp off (align_pos v.identify)
    have hvm : alignUp off v.identify.align ≤ alignUp B v.identify.align := alignUp_mono _ hB
    have ev : off + (p + alignUp off v.identify.align - (p + off)) = alignUp off v.identify.align := by omega
    obtain ⟨a, ea, la⟩ := writeBytes_inb (m := m) (p := p + 8 + 8 * i)
      (bs := arrEntry v.identify (alignUp off v.identify.align)) (by simp; omega)
    obtain ⟨c, s2, ec, lc, hc⟩ := slower_inb v (p := p + alignUp off v.identify.align) (m := a)
      ((Nat.dvd_add_right av).2 (dvd_alignUp _ _)) (by omega)
    obtain ⟨d, o, ed, ld, hd⟩ := slowerElems_inb es (p := p) (i := i + 1) (off := alignUp off v.identify.align + s2)
      (B := alignUp B v.identify.align + sizeVal v.json.image) (m := c) ha (by omega) (by omega) (by omega)
    refine ⟨d, o, ?_, by omega, hd⟩
    simp only [slowerElems, ea, Option.bind_eq_bind, Option.bind_some, alignUp_add_left (align_pos _) av, ev, ec, ed]
end

/-- The parsed buffer shows the value of the document. -/
theorem fromSajson_shows {fill : Nat → Bytes} (hf : ∀ n, (fill n).length = n) {x : Extensions} {t : Bytes}
    {w : Int → Prop} {j : Json} {hs : List (Bytes × SDoc)} (ht : IsText x t j) (hd : Delivers w j (.obj hs))
    (hl : t.length < 2 ^ 29) (hw : Within (SDoc.obj hs).json) (hn : DistinctNames (SDoc.obj hs).json)
    (ho : InOrder (SDoc.obj hs).json) (hz : NoNulNames (SDoc.obj hs).json) :
    ∃ b, Buf.fromSajson fill t.length (.obj hs) = .ok b ∧ Shows false b (SDoc.obj hs).json.toVal ∧
      b.mem.length < 2 ^ 32 := by
  have h1 := isText_length ht
  have h2 := size_span (SDoc.obj hs).json
  rw [delivers_span hd] at h2
  have hi := image_inOrder ho hw hn
  rw [hi] at h2
  have hm := hf (t.length * 8)
  obtain ⟨hwf, f⟩ := wf_of_size _ (ordered_toVal _ hw) (by omega : sizeVal (SDoc.obj hs).json.toVal < 2 ^ 32)
  obtain ⟨m', e, l, hst, _⟩ := layoutVal_stored _ (p := 0) (m := fill (t.length * 8)) (Nat.dvd_zero _) f (by omega)
  refine ⟨Buf.ofBytes m', ?_, .inr ⟨0, ?_, rfl, hst, (fun h => by cases h), Nat.dvd_zero _, hwf, f⟩, ?_⟩
  · simp only [Buf.fromSajson, slower_lower _ _ _ hw hz, lower_image, hi, e]
  · simp only [SDoc.json, Json.toVal]; rfl
  · show m'.length < _; omega

end Dart
