import Verif.Lemmas.Builder
import Verif.Spec.Obtained
import Verif.Lemmas.FromJson
import Verif.Lemmas.Sajson

/-
`make_object` on buffers, and everything that can be obtained.
-/
namespace Dart
open Dart.Spec
variable {z : Bool}

/-- The packet stands for the value. -/
def PktOf (z : Bool) : Pkt → Val → Prop
  | .heap x, v => x = v ∧ v.WF ∧ ∃ n, upperBound v = some n
  | .buf b, v => Shows z b v

theorem PktOf.rawType {p : Pkt} {v : Val} (h : PktOf z p v) : p.rawType.forTable = v.rawType.forTable := by
  cases p with
  | heap x => simp only [PktOf] at h; simp only [Pkt.rawType]; rw [h.1]
  | buf b => exact Shows.forTable h

theorem PktOf.align {p : Pkt} {v : Val} (h : PktOf z p v) : p.rawType.align = v.rawType.align := by
  rw [← forTable_align, h.rawType, forTable_align]

theorem PktOf.ub {p : Pkt} {v : Val} (h : PktOf z p v) : ∃ n, p.upperBound = some n ∧ sizeVal v ≤ n := by
  cases p with
  | heap x =>
    obtain ⟨rfl, hw, n, hn⟩ := h
    exact ⟨n, hn, (sizeVal_le_ub _ n hw hn).1⟩
  | buf b => exact ⟨_, Shows.sizeof h, Nat.le_refl _⟩

theorem PktOf.wf {p : Pkt} {v : Val} (h : PktOf z p v) : v.WF := by
  cases p with
  | heap x => exact h.2.1
  | buf b =>
    rcases h with ⟨_, rfl⟩ | ⟨_, _, _, h⟩
    · simp [Val.WF]
    · exact h.wf

theorem PktOf.fits {p : Pkt} {v : Val} (h : PktOf z p v) : Fits v := by
  cases p with
  | heap x => obtain ⟨rfl, hw, n, hn⟩ := h; exact (sizeVal_le_ub _ n hw hn).2
  | buf b =>
    rcases h with ⟨_, rfl⟩ | ⟨_, _, _, h⟩
    · simp [Fits]
    · exact h.fits

theorem PktOf.layout {p : Pkt} {v : Val} (h : PktOf z p v) : ∃ bs, Image z v bs ∧
    ∀ (X Y : Bytes) (q N : Nat), q = X.length → v.rawType.align ∣ q → sizeVal v ≤ N →
    p.layout q (X ++ (zeros N ++ Y)) = some (X ++ (bs ++ (zeros (N - sizeVal v) ++ Y)), sizeVal v) := by
  cases p with
  | heap x =>
    refine ⟨enc v, Image.enc (PktOf.fits h), fun X Y q N hq ha hN => ?_⟩
    rw [h.1]; exact layoutVal_ok v X Y q N hq ha (PktOf.fits h) hN
  | buf b =>
    obtain ⟨bs, hb⟩ := Shows.copies h
    exact ⟨bs, hb.1, fun X Y q N hq _ hN => hb.ok X Y q N hq hN⟩

theorem PktOf.layoutKey {p : Pkt} {s : Bytes} (h : PktOf z p (.str s)) (X Y : Bytes) (q N : Nat) (hq : q = X.length)
    (hN : strSize s ≤ N) :
    p.layout q (X ++ (zeros N ++ Y)) = some (X ++ (encStr s ++ (zeros (N - strSize s) ++ Y)), strSize s) := by
  cases p with
  | heap x =>
    have hw := h.wf
    simp only [Val.WF] at hw
    rw [h.1]
    simp only [Pkt.layout, layoutVal]
    exact layoutStr_ok s X Y q N hq hw hN
  | buf b =>
    obtain ⟨bs, hb⟩ := Shows.copies h
    have := hb.ok X Y q N hq (by simpa [sizeVal] using hN)
    rw [hb.1.str] at this
    simp only [sizeVal] at this
    exact this

theorem Shows.strv {b : Buf} {s : Bytes} (h : Shows z b (.str s)) : b.strv = .ok s := by
  rcases h with ⟨_, h⟩ | ⟨p, h1, h2, hm, _, _, hw, _⟩
  · cases h
  · simp only [Val.WF] at hw
    simp only [Stored] at hm
    obtain ⟨X, Y, h3, h4⟩ := hasBytes_iff.1 hm
    have := str_read s X Y p h4 hw
    rw [← h3] at this
    have hr : Val.rawType (.str s) = identifyString s := rfl
    rw [hr] at h1
    rw [← h1] at this
    have ht : b.type = .string ∨ b.type = .bigString := by
      rw [h1]
      exact (identifyString_cases s).symm
    unfold Buf.strv
    rcases ht with e | e <;> simp only [e, h2, Res.ofRead, Res.bind] at this ⊢ <;> rw [this]

theorem PktOf.isStr {p : Pkt} {v : Val} (h : PktOf z p v) : p.isStr = true ↔ ∃ s, v = .str s := by
  cases p with
  | heap x =>
    obtain ⟨rfl, _⟩ := h
    cases x <;> simp [Pkt.isStr]
  | buf b =>
    simp only [Pkt.isStr, Shows.getType h, decide_eq_true_eq]
    cases v <;> simp [Val.ty]

theorem PktOf.strv {p : Pkt} {s : Bytes} (h : PktOf z p (.str s)) : p.strv = .ok s := by
  cases p with
  | heap x => obtain ⟨rfl, _⟩ := h; rfl
  | buf b => exact Shows.strv h

/-! ### Pairs -/

/-- The pair stands for the field. -/
def PairOf (z : Bool) (q : PktPair × Bytes × Val) : Prop :=
  q.1.1 = q.2.1 ∧ PktOf z q.1.2.1 (.str q.2.1) ∧ PktOf z q.1.2.2 q.2.2

theorem PairOf.writes {q : PktPair × Bytes × Val} (h : PairOf z q) :
    ∃ bs, Image z q.2.2 bs ∧ Writes (pairWriter q.1) (q.2, bs) := by
  obtain ⟨bs, hb, hl⟩ := h.2.2.layout
  exact ⟨bs, hb, h.2.2.rawType, h.1, fun X Y p N hp hN => h.2.1.layoutKey X Y p N hp hN,
    fun X Y p N hp ha hN => hl X Y p N hp ha hN, hb.1⟩

theorem insertSorted_map {α β : Type} (key : β → Bytes) (g : α → β) (x : α) (l : List α) :
    insertSorted key (g x) (l.map g) = (insertSorted (key ∘ g) x l).map g := by
  induction l with
  | nil => rfl
  | cons y l ih =>
    simp only [List.map_cons, insertSorted, Function.comp]
    split
    · rw [ih]; rfl
    · rfl

theorem sortByKey_map {α β : Type} (key : β → Bytes) (g : α → β) (l : List α) :
    sortByKey key (l.map g) = (sortByKey (key ∘ g) l).map g := by
  induction l with
  | nil => rfl
  | cons x l ih => simp only [List.map_cons, sortByKey, ih, insertSorted_map]

/-- Each key differs from the one before it. -/
def AdjNe : Option Bytes → List Bytes → Prop
  | _, [] => True
  | prev, k :: ks => prev ≠ some k ∧ AdjNe (some k) ks

theorem str_align {s : Bytes} (h : s.length ≤ 65535) : (Val.rawType (.str s)).align = 2 := by
  have h1 : ¬ s.length > 65535 := by omega
  simp only [Val.rawType, identifyString, h1, if_false]
  split <;> rfl

theorem pairsBytes_ok (rs : List (PktPair × Bytes × Val)) : ∀ (prev : Option Bytes), (∀ q ∈ rs, PairOf z q) →
    AdjNe prev (rs.map (·.2.1)) → (∀ q ∈ rs, q.2.1.length ≤ 65535) →
    ∃ s, pairsBytes prev (rs.map (·.1)) = .ok s ∧ ∀ off, fieldsEnd off (rs.map (·.2)) ≤ off + s := by
  induction rs with
  | nil => intro prev _ _ _; exact ⟨0, rfl, fun off => by simp [fieldsEnd]⟩
  | cons q rs ih =>
    intro prev hp ha hl
    obtain ⟨⟨s, pk, pv⟩, k, v⟩ := q
    obtain ⟨e, hk, hv⟩ := hp ((s, pk, pv), k, v) (by simp)
    simp only at e hk hv
    subst e
    have hlk : s.length ≤ 65535 := hl ((s, pk, pv), s, v) (by simp)
    simp only [List.map_cons, AdjNe] at ha
    obtain ⟨t, ht, hend⟩ := ih (some s) (fun q hq => hp q (by simp [hq])) ha.2 (fun q hq => hl q (by simp [hq]))
    obtain ⟨ku, hku, hku'⟩ := hk.ub
    obtain ⟨vu, hvu, hvu'⟩ := hv.ub
    have hsz : sizeVal (.str s) = strSize s := by simp [sizeVal]
    refine ⟨(ku + pk.rawType.align - 1) + (vu + pv.rawType.align - 1) + t, ?_, fun off => ?_⟩
    · have h1 : ¬ s.length > 65535 := by omega
      simp only [List.map_cons, pairsBytes, ha.1, if_false, h1, hku, hvu, Res.ofRead, Res.bind, ht]
    · simp only [List.map_cons, fieldsEnd]
      have h1 := hend (alignUp (alignUp off 2 + strSize s) v.rawType.align + sizeVal v)
      have h2 := alignUp_lt off (a := 2) (by decide)
      have h3 := alignUp_lt (alignUp off 2 + strSize s) (align_pos v.rawType)
      have h4 := align_pos v.rawType
      rw [hk.align, str_align hlk, hv.align]
      omega

theorem pairsBytes_throw (rs : List (PktPair × Bytes × Val)) : ∀ (prev : Option Bytes), (∀ q ∈ rs, PairOf z q) →
    ¬ (AdjNe prev (rs.map (·.2.1)) ∧ ∀ q ∈ rs, q.2.1.length ≤ 65535) →
    pairsBytes prev (rs.map (·.1)) = .throw .invalidArgument := by
  induction rs with
  | nil => intro prev _ h; exact absurd ⟨trivial, by simp⟩ h
  | cons q rs ih =>
    intro prev hp h
    obtain ⟨⟨s, pk, pv⟩, k, v⟩ := q
    obtain ⟨e, hk, hv⟩ := hp ((s, pk, pv), k, v) (by simp)
    simp only at e hk hv
    subst e
    obtain ⟨ku, hku, _⟩ := hk.ub
    obtain ⟨vu, hvu, _⟩ := hv.ub
    simp only [List.map_cons, pairsBytes]
    by_cases h1 : prev = some s
    · simp [h1]
    · by_cases h2 : s.length > 65535
      · simp [h1, h2]
      · have := ih (some s) (fun q hq => hp q (by simp [hq])) (fun hc => h ⟨⟨h1, hc.1⟩, fun q hq => by
          rcases List.mem_cons.1 hq with rfl | hq
          · simp only; omega
          · exact hc.2 q hq⟩)
        simp only [h1, h2, if_false, hku, hvu, Res.ofRead, Res.bind, this]

/-- Weakly sorted without equal neighbours is strictly sorted. -/
theorem strict_of_adj {α : Type} (key : α → Bytes) (l : List α)
    (hs : l.Pairwise fun a b => keyLt (key b) (key a) = false) :
    ∀ prev, AdjNe prev (l.map key) → l.Pairwise fun a b => keyLt (key a) (key b) = true := by
  induction l with
  | nil => intro _ _; exact .nil
  | cons a l ih =>
    intro prev h
    simp only [List.map_cons, AdjNe] at h
    obtain ⟨h1, h2⟩ := List.pairwise_cons.1 hs
    have hl := ih h2 _ h.2
    refine List.pairwise_cons.2 ⟨?_, hl⟩
    cases l with
    | nil => intro b hb; cases hb
    | cons c l =>
      simp only [List.map_cons, AdjNe, ne_eq, Option.some.injEq] at h
      have hac : keyLt (key a) (key c) = true := by
        cases hlt : keyLt (key a) (key c) with
        | true => rfl
        | false => exact absurd (keyLt_total hlt (h1 c (by simp))) h.2.1
      intro b hb
      rcases List.mem_cons.1 hb with rfl | hb
      · exact hac
      · exact keyLt_trans hac ((List.pairwise_cons.1 hl).1 b hb)

theorem adj_of_nodup (ks : List Bytes) (hn : ks.Nodup) : ∀ prev, (∀ p, prev = some p → p ∉ ks) → AdjNe prev ks := by
  induction ks with
  | nil => intro _ _; trivial
  | cons k ks ih =>
    intro prev hp
    obtain ⟨h1, h2⟩ := List.nodup_cons.1 hn
    refine ⟨fun e => hp k e (by simp), ih h2 _ (fun p hp' => ?_)⟩
    cases hp'; exact h1

theorem nodup_of_strict {α : Type} (key : α → Bytes) {l : List α}
    (h : l.Pairwise fun a b => keyLt (key a) (key b) = true) : (l.map key).Nodup := by
  refine List.Pairwise.map _ ?_ h
  intro a b h e
  exact keyLt_ne h e

theorem objectFromPairs_images (rs : List (PktPair × (Bytes × Val) × Bytes)) (hr : ∀ q ∈ rs, Writes (pairWriter q.1) q.2)
    (total : Nat) (hend : sizeVal (.obj (rs.map (·.2.1))) ≤ total) :
    objectFromPairs (rs.map (·.1)) (zeros total) =
      some (encObjW (rs.map (·.2)) ++ zeros (total - sizeVal (.obj (rs.map (·.2.1))))) := by
  have hge := le_fieldsEnd (8 + 8 * rs.length) (rs.map (·.2.1))
  have hlen : (rs.map (·.2.1)).length = rs.length := by simp
  have hlen' : (rs.map (·.2)).length = rs.length := by simp
  have hmm : (rs.map (·.2)).map (·.1) = rs.map (·.2.1) := by simp
  have hle := le_alignUp (fieldsEnd (8 + 8 * rs.length) (rs.map (·.2.1))) (a := 8) (by decide)
  have hsz : sizeVal (.obj (rs.map (·.2.1))) = alignUp (fieldsEnd (8 + 8 * rs.length) (rs.map (·.2.1))) 8 := by
    simp [sizeVal]
  have hz : zeros total = zeros 4 ++ (zeros 4 ++ (zeros (8 * rs.length) ++ (zeros 0 ++
      (zeros (total - (8 + 8 * rs.length)) ++ [])))) := by
    simp only [List.append_nil, ← zeros_add]; congr 1; omega
  have hmap : (rs.map (·.1)).map pairWriter = (rs.map fun x => (pairWriter x.1, x.2)).map (·.1) := by simp
  have hmap2 : rs.map (·.2) = (rs.map fun x => (pairWriter x.1, x.2)).map (·.2) := by simp
  have hmap3 : rs.map (·.2.1) = (rs.map fun x => (pairWriter x.1, x.2)).map (·.2.1) := by simp
  have hW := writeFields_ok (rs.map fun x => (pairWriter x.1, x.2))
    (by
      intro x hx'
      obtain ⟨y, hy, rfl⟩ := List.mem_map.1 hx'
      exact hr y hy)
    (zeros 4 ++ leBytes 4 rs.length) (zeros 0) [] 0 (8 + 8 * rs.length) (total - (8 + 8 * rs.length))
    (by simp) (by simp) (by rw [← hmap3]; omega)
  rw [← hmap, ← hmap2, ← hmap3] at hW
  simp only [List.length_map, List.append_assoc, List.append_nil] at hW
  unfold objectFromPairs
  rw [hz]
  simp only [List.append_nil, List.length_map]
  rw [writeBytes_mid (zeros 4) (zeros 4) _ _ _ (by simp) (by simp)]
  simp only [Option.bind_eq_bind, Option.bind_some]
  rw [hW]
  simp only [Option.bind_some, finishObject]
  have hparts := obj_enc_parts (rs.map (·.2)) total (by rw [hmm]; exact hend)
  rw [hmm, hlen'] at hparts
  rw [hparts]
  have hrest : 8 + 8 * rs.length + (total - (8 + 8 * rs.length)) = total := by omega
  have h0 : zeros 0 = [] := rfl
  rw [hrest, h0, List.nil_append]
  rw [← List.nil_append (zeros 4 ++ _), writeBytes_mid [] (zeros 4) _ _ 0 rfl (by simp)]
  simp [sizeVal]

theorem choose_pairs (rs : List (PktPair × Bytes × Val)) (hr : ∀ q ∈ rs, PairOf z q) :
    ∃ ys : List (PktPair × (Bytes × Val) × Bytes), ys.map (·.1) = rs.map (·.1) ∧ ys.map (·.2.1) = rs.map (·.2) ∧
      (∀ y ∈ ys, Writes (pairWriter y.1) y.2) ∧ ∀ i ∈ ys.map (·.2), Image z i.1.2 i.2 := by
  induction rs with
  | nil => exact ⟨[], rfl, rfl, by simp, by simp⟩
  | cons r rs ih =>
    obtain ⟨ys, h1, h2, h3, h4⟩ := ih (fun q hq => hr q (by simp [hq]))
    obtain ⟨bs, hi, hw⟩ := (hr r (by simp)).writes
    refine ⟨(r.1, r.2, bs) :: ys, by simp [h1], by simp [h2], ?_, ?_⟩
    · intro y hy
      rcases List.mem_cons.1 hy with rfl | hy
      · exact hw
      · exact h3 y hy
    · intro y hy
      rw [List.map_cons] at hy
      rcases List.mem_cons.1 hy with rfl | hy
      · exact hi
      · exact h4 y hy

/-- What the constructor from pairs leaves in memory. -/
theorem objectFromPairs_ok (rs : List (PktPair × Bytes × Val)) (hr : ∀ q ∈ rs, PairOf z q) (total : Nat)
    (hend : sizeVal (.obj (rs.map (·.2))) ≤ total) :
    ∃ bs, Image z (.obj (rs.map (·.2))) bs ∧ objectFromPairs (rs.map (·.1)) (zeros total) =
      some (bs ++ zeros (total - sizeVal (.obj (rs.map (·.2))))) := by
  obtain ⟨ys, e1, e2, hW, hI⟩ := choose_pairs rs hr
  have h1 := objectFromPairs_images ys hW total (by rw [e2]; exact hend)
  have h2 := Image.objW hI
  rw [List.map_map] at h2
  have e3 : ys.map ((fun x => x.1) ∘ fun x => x.2) = rs.map (·.2) := e2
  rw [e3] at h2
  rw [e1, e2] at h1
  exact ⟨_, h2, h1⟩

theorem sortPairs_eq (qs : List (PktPair × Bytes × Val)) (hq : ∀ q ∈ qs, PairOf z q) :
    sortByKey (·.1) (qs.map (·.1)) = (sortByKey (fun q => q.2.1) qs).map (·.1) := by
  have hre : qs.map (fun q => ((q.2.1, q.1.2), q.2)) = qs := by
    conv => rhs; rw [← List.map_id qs]
    apply List.map_congr_left
    intro x hx
    obtain ⟨⟨s, p⟩, f⟩ := x
    have := (hq _ hx).1
    simp only at this
    simp [this]
  have h1 := sortByKey_map (fun p : PktPair => p.1) (fun q : PktPair × Bytes × Val => ((q.2.1, q.1.2) : PktPair)) qs
  have h2 : qs.map (·.1) = qs.map (fun q => ((q.2.1, q.1.2) : PktPair)) := by
    conv => lhs; rw [← hre]
    rw [List.map_map]; rfl
  rw [h2, h1]
  apply List.map_congr_left
  intro q hq'
  have := (hq q ((sortByKey_perm _ _).mem_iff.1 hq')).1
  obtain ⟨⟨s, p⟩, f⟩ := q
  simp only at this
  simp [this]

/-- Building from pairs: what is accepted, and the result. -/
theorem buildBuffer_exact (qs : List (PktPair × Bytes × Val)) (hq : ∀ q ∈ qs, PairOf z q) :
    (((qs.map (·.2.1)).Nodup ∧ ∀ q ∈ qs, q.2.1.length ≤ 65535) →
      ∃ fs n bs, fs.Perm (qs.map (·.2)) ∧ (Val.obj fs).WF ∧ sizeVal (.obj fs) ≤ n ∧ Image z (.obj fs) bs ∧
        buildBuffer (qs.map (·.1)) = .ok (Buf.ofBytes (bs ++ zeros (n - sizeVal (.obj fs))))) ∧
    (¬ ((qs.map (·.2.1)).Nodup ∧ ∀ q ∈ qs, q.2.1.length ≤ 65535) →
      buildBuffer (qs.map (·.1)) = .throw .invalidArgument) := by
  have hsort := sortPairs_eq qs hq
  have hperm := sortByKey_perm (fun q : PktPair × Bytes × Val => q.2.1) qs
  have hr : ∀ q ∈ sortByKey (fun q : PktPair × Bytes × Val => q.2.1) qs, PairOf z q := fun q h => hq q (hperm.mem_iff.1 h)
  have hweak := sortByKey_sorted (fun q : PktPair × Bytes × Val => q.2.1) qs
  generalize sortByKey (fun q : PktPair × Bytes × Val => q.2.1) qs = rs at hsort hperm hr hweak
  have hp1 : (rs.map (·.2.1)).Perm (qs.map (·.2.1)) := hperm.map _
  constructor
  · rintro ⟨hn, hl⟩
    have hadj := adj_of_nodup _ (hp1.nodup_iff.2 hn) none (by simp)
    have hstrict := strict_of_adj _ rs hweak none hadj
    have hl' : ∀ q ∈ rs, q.2.1.length ≤ 65535 := fun q h => hl q (hperm.mem_iff.1 h)
    obtain ⟨s, hs, hend⟩ := pairsBytes_ok rs none hr hadj hl'
    have hle : sizeVal (.obj (rs.map (·.2))) ≤
        s + (8 + 8 * (rs.length + 1)) + alignUp (s + (8 + 8 * (rs.length + 1))) 8 := by
      have h1 := hend (8 + 8 * rs.length)
      have h2 := alignUp_mono 8 (show fieldsEnd (8 + 8 * rs.length) (rs.map (·.2)) ≤ s + (8 + 8 * (rs.length + 1)) by omega)
      simp only [sizeVal, List.length_map]
      omega
    obtain ⟨bs, hbs, hok⟩ := objectFromPairs_ok rs hr _ hle
    refine ⟨rs.map (·.2), s + (8 + 8 * (rs.length + 1)) + alignUp (s + (8 + 8 * (rs.length + 1))) 8, bs,
      hperm.map _, wf_obj.2 ⟨?_, ?_⟩, hle, hbs, ?_⟩
    · refine List.Pairwise.map _ ?_ hstrict
      intro a b h; exact h
    · intro f hf
      obtain ⟨q, hq', rfl⟩ := List.mem_map.1 hf
      exact ⟨hl' q hq', (hr q hq').2.2.wf⟩
    · simp only [buildBuffer, hsort, maxBytes, hs, Res.bind, List.length_map]
      rw [hok]
      rfl
  · intro hnot
    have : ¬ (AdjNe none (rs.map (·.2.1)) ∧ ∀ q ∈ rs, q.2.1.length ≤ 65535) := by
      rintro ⟨ha, hl⟩
      exact hnot ⟨hp1.nodup_iff.1 (nodup_of_strict _ (strict_of_adj _ rs hweak none ha)),
        fun q h => hl q (hperm.mem_iff.2 h)⟩
    simp only [buildBuffer, hsort, maxBytes, pairsBytes_throw rs none hr this, Res.bind]

/-- A list of arguments, key and value in turn. -/
def flatArgs : List (Pkt × Pkt) → List Pkt
  | [] => []
  | (k, v) :: r => k :: v :: flatArgs r

theorem flatArgs_length (ps : List (Pkt × Pkt)) : (flatArgs ps).length = 2 * ps.length := by
  induction ps with
  | nil => rfl
  | cons p ps ih => simp only [flatArgs, List.length_cons, ih]; omega

theorem exists_flat : ∀ (args : List Pkt), args.length % 2 = 0 → ∃ ps, args = flatArgs ps
  | [], _ => ⟨[], rfl⟩
  | [_], h => by simp at h
  | k :: v :: r, h => by
    obtain ⟨ps, rfl⟩ := exists_flat r (by simp only [List.length_cons] at h; omega)
    exact ⟨(k, v) :: ps, rfl⟩

theorem mem_flatArgs {ps : List (Pkt × Pkt)} {p : Pkt} : p ∈ flatArgs ps ↔ ∃ q ∈ ps, p = q.1 ∨ p = q.2 := by
  induction ps with
  | nil => simp [flatArgs]
  | cons q ps ih => obtain ⟨k, v⟩ := q; simp [flatArgs, ih]; grind

/-- Grouping: all keys are strings, or it throws. -/
theorem groupPairs_ok (ps : List (Pkt × Pkt)) (us : List (Bytes × Val))
    (hl : ps.length = us.length)
    (hp : ∀ i (hi : i < ps.length), PktOf z ps[i].1 (.str (us[i]'(hl ▸ hi)).1) ∧ PktOf z ps[i].2 (us[i]'(hl ▸ hi)).2) :
    ∃ qs : List (PktPair × Bytes × Val), groupPairs (flatArgs ps) = .ok (qs.map (·.1)) ∧ qs.map (·.2) = us ∧
      ∀ q ∈ qs, PairOf z q := by
  induction ps generalizing us with
  | nil =>
    have : us = [] := List.length_eq_zero_iff.1 hl.symm
    subst this
    exact ⟨[], rfl, rfl, by simp⟩
  | cons p ps ih =>
    cases us with
    | nil => simp at hl
    | cons u us =>
      obtain ⟨pk, pv⟩ := p
      obtain ⟨k, v⟩ := u
      obtain ⟨h1, h2⟩ := hp 0 (by simp)
      simp only [List.getElem_cons_zero] at h1 h2
      obtain ⟨qs, q1, q2, q3⟩ := ih us (by simpa using hl) (fun i hi => by
        have := hp (i + 1) (by simp; omega)
        simpa using this)
      refine ⟨((k, pk, pv), k, v) :: qs, ?_, by simp [q2], ?_⟩
      · have : pk.isStr = true := h1.isStr.2 ⟨k, rfl⟩
        simp only [flatArgs, groupPairs, this, if_true, h1.strv, Res.bind, q1, List.map_cons]
      · intro q hq
        rcases List.mem_cons.1 hq with rfl | hq
        · exact ⟨rfl, h1, h2⟩
        · exact q3 q hq

theorem groupPairs_throw (ps : List (Pkt × Pkt)) (hp : ∀ p ∈ ps, ∃ v, PktOf z p.1 v)
    (hex : ∃ p ∈ ps, p.1.isStr = false) : groupPairs (flatArgs ps) = .throw .invalidArgument := by
  induction ps with
  | nil => simp at hex
  | cons p ps ih =>
    obtain ⟨pk, pv⟩ := p
    simp only [flatArgs, groupPairs]
    cases hs : pk.isStr with
    | false => simp
    | true =>
      obtain ⟨v, hv⟩ := hp (pk, pv) (by simp)
      obtain ⟨s, rfl⟩ := hv.isStr.1 hs
      have := ih (fun p hp' => hp p (by simp [hp'])) (by
        obtain ⟨p, hp', he⟩ := hex
        rcases List.mem_cons.1 hp' with rfl | hp'
        · simp only at he; rw [hs] at he; cases he
        · exact ⟨p, hp', he⟩)
      simp only [if_true, hv.strv, Res.bind, this]

theorem groupPairs_inv : ∀ (args : List Pkt) (ps : List PktPair), groupPairs args = .ok ps →
    (∃ qs : List (Pkt × Pkt), args = flatArgs qs ∧ qs = ps.map (·.2)) ∧ ∀ q ∈ ps, q.2.1.isStr = true
  | [], ps, h => by cases h; exact ⟨⟨[], rfl, rfl⟩, by simp⟩
  | [k], ps, h => by
    simp only [groupPairs] at h
    split at h <;> cases h
  | k :: v :: r, ps, h => by
    simp only [groupPairs] at h
    split at h
    · rename_i hk
      obtain ⟨s, _, h⟩ := Res.bind_eq_ok.1 h
      obtain ⟨ps', h', h⟩ := Res.bind_eq_ok.1 h
      cases h
      obtain ⟨⟨qs, e1, e2⟩, h2⟩ := groupPairs_inv r ps' h'
      refine ⟨⟨(k, v) :: qs, by rw [e1]; rfl, by rw [e2]; rfl⟩, ?_⟩
      intro q hq
      rcases List.mem_cons.1 hq with rfl | hq
      · exact hk
      · exact h2 q hq
    · cases h

theorem pairsBytes_inv (rs : List PktPair) : ∀ (prev : Option Bytes) (s : Nat), pairsBytes prev rs = .ok s →
    ∀ q ∈ rs, (∃ n, q.2.1.upperBound = some n) ∧ ∃ n, q.2.2.upperBound = some n := by
  induction rs with
  | nil => intro _ _ _ q hq; cases hq
  | cons r rs ih =>
    intro prev s h q hq
    obtain ⟨k, pk, pv⟩ := r
    simp only [pairsBytes] at h
    split at h
    · cases h
    · split at h
      · cases h
      · obtain ⟨ku, h1, h⟩ := Res.bind_eq_ok.1 h
        obtain ⟨vu, h2, h⟩ := Res.bind_eq_ok.1 h
        obtain ⟨t, h3, h⟩ := Res.bind_eq_ok.1 h
        rcases List.mem_cons.1 hq with rfl | hq
        · constructor
          · cases hu : pk.upperBound with
            | none => rw [hu] at h1; cases h1
            | some n => exact ⟨n, rfl⟩
          · cases hu : pv.upperBound with
            | none => rw [hu] at h2; cases h2
            | some n => exact ⟨n, rfl⟩
        · exact ih _ _ h3 q hq

/-- If building succeeds, the arguments can all be laid out. -/
theorem makeObject_inv {args : List Pkt} {d : Buf} (h : Buf.makeObject args = .ok d) :
    ∀ p ∈ args, ∃ n, p.upperBound = some n := by
  unfold Buf.makeObject at h
  split at h
  · cases h
  · obtain ⟨ps, h1, h2⟩ := Res.bind_eq_ok.1 h
    unfold buildBuffer at h2
    obtain ⟨n, h3, _⟩ := Res.bind_eq_ok.1 h2
    unfold maxBytes at h3
    obtain ⟨s, h4, _⟩ := Res.bind_eq_ok.1 h3
    obtain ⟨⟨qs, e1, e2⟩, _⟩ := groupPairs_inv _ _ h1
    intro p hp
    rw [e1] at hp
    obtain ⟨q, hq, hpq⟩ := mem_flatArgs.1 hp
    rw [e2] at hq
    obtain ⟨r, hr, rfl⟩ := List.mem_map.1 hq
    have := pairsBytes_inv _ _ _ h4 r ((sortByKey_perm _ _).mem_iff.2 hr)
    rcases hpq with rfl | rfl
    · exact this.1
    · exact this.2

/-- Reading off the pairs of a list of packets. -/
theorem pairs_exist (ps : List (Pkt × Pkt)) (h : ∀ p ∈ ps, (∃ s, PktOf z p.1 (.str s)) ∧ ∃ v, PktOf z p.2 v) :
    ∃ us : List (Bytes × Val), ∃ hl : ps.length = us.length, ∀ i (hi : i < ps.length),
      PktOf z ps[i].1 (.str (us[i]'(hl ▸ hi)).1) ∧ PktOf z ps[i].2 (us[i]'(hl ▸ hi)).2 := by
  induction ps with
  | nil => exact ⟨[], rfl, fun i hi => by simp at hi⟩
  | cons p ps ih =>
    obtain ⟨us, hl, hu⟩ := ih (fun p hp => h p (by simp [hp]))
    obtain ⟨⟨s, hs⟩, v, hv⟩ := h p (by simp)
    refine ⟨(s, v) :: us, by simp [hl], fun i hi => ?_⟩
    cases i with
    | zero => exact ⟨hs, hv⟩
    | succ i => simpa using hu i (by simpa using hi)

/-- The root of a new allocation. -/
theorem shows_image {fs : List (Bytes × Val)} {bs : Bytes} (hw : (Val.obj fs).WF) (hf : Fits (.obj fs))
    (hi : Image z (.obj fs) bs) (Y : Bytes) : Shows z (Buf.ofBytes (bs ++ Y)) (.obj fs) :=
  .inr ⟨0, rfl, rfl, hi.at (X := []) rfl ⟨0, rfl⟩ hw hf⟩

theorem fits_obj_of {fs : List (Bytes × Val)} (h : ∀ f ∈ fs, f.1.length ≤ 65535 ∧ Fits f.2)
    (hs : sizeVal (.obj fs) < 2 ^ 32) : Fits (.obj fs) := by
  simp only [Fits]
  exact ⟨hs, (fitsFields_iff fs).2 h⟩

theorem makeObject_image (ps : List (Pkt × Pkt)) (us : List (Bytes × Val)) (hl : ps.length = us.length)
    (hp : ∀ i (hi : i < ps.length), PktOf z ps[i].1 (.str (us[i]'(hl ▸ hi)).1) ∧ PktOf z ps[i].2 (us[i]'(hl ▸ hi)).2) :
    (((us.map (·.1)).Nodup ∧ ∀ u ∈ us, u.1.length ≤ 65535) →
      ∃ fs n bs, fs.Perm us ∧ (Val.obj fs).WF ∧ (∀ f ∈ fs, f.1.length ≤ 65535 ∧ Fits f.2) ∧ sizeVal (.obj fs) ≤ n ∧
        Image z (.obj fs) bs ∧
        Buf.makeObject (flatArgs ps) = .ok (Buf.ofBytes (bs ++ zeros (n - sizeVal (.obj fs))))) ∧
    (¬ ((us.map (·.1)).Nodup ∧ ∀ u ∈ us, u.1.length ≤ 65535) →
      Buf.makeObject (flatArgs ps) = .throw .invalidArgument) := by
  obtain ⟨qs, q1, q2, q3⟩ := groupPairs_ok ps us hl hp
  have hodd : ¬ (flatArgs ps).length % 2 = 1 := by rw [flatArgs_length]; omega
  have hm : Buf.makeObject (flatArgs ps) = buildBuffer (qs.map (·.1)) := by
    simp only [Buf.makeObject, hodd, if_false, q1, Res.bind]
  have e1 : us.map (·.1) = qs.map (·.2.1) := by rw [← q2, List.map_map]; rfl
  have e2 : (∀ u ∈ us, u.1.length ≤ 65535) ↔ ∀ q ∈ qs, q.2.1.length ≤ 65535 := by
    rw [← q2]
    exact ⟨fun h q hq => h q.2 (List.mem_map.2 ⟨q, hq, rfl⟩), fun h u hu => by
      obtain ⟨q, hq, rfl⟩ := List.mem_map.1 hu
      exact h q hq⟩
  rw [e1, e2, hm]
  obtain ⟨h1, h2⟩ := buildBuffer_exact qs q3
  refine ⟨fun h => ?_, h2⟩
  obtain ⟨fs, n, bs, f1, f2, f3, f4⟩ := h1 h
  refine ⟨fs, n, bs, q2 ▸ f1, f2, fun f hf => ?_, f3, f4⟩
  obtain ⟨q, hq, rfl⟩ := List.mem_map.1 (f1.mem_iff.1 hf)
  exact ⟨h.2 q hq, (q3 q hq).2.2.fits⟩

theorem wf_mergeFields {fs gs : List (Bytes × Val)} (hf : (Val.obj fs).WF) (hg : (Val.obj gs).WF) :
    (Val.obj (mergeFields fs gs)).WF := by
  obtain ⟨f1, f2⟩ := wf_obj.1 hf
  obtain ⟨g1, g2⟩ := wf_obj.1 hg
  refine wf_obj.2 ⟨mergeFields_sorted f1 g1, fun f h => ?_⟩
  rcases mem_mergeFields _ h with h | h
  · exact f2 f h
  · exact g2 f h

theorem Shows.wf {b : Buf} {v : Val} (h : Shows z b v) : v.WF := PktOf.wf (p := .buf b) h
theorem Shows.fits {b : Buf} {v : Val} (h : Shows z b v) : Fits v := PktOf.fits (p := .buf b) h

theorem Fits.fields {fs : List (Bytes × Val)} (h : Fits (.obj fs)) : ∀ f ∈ fs, f.1.length ≤ 65535 ∧ Fits f.2 := by
  simp only [Fits] at h
  exact (fitsFields_iff fs).1 h.2

theorem Fits.size {fs : List (Bytes × Val)} (h : Fits (.obj fs)) : sizeVal (.obj fs) < 2 ^ 32 := by
  simp only [Fits] at h
  exact h.1

theorem merge_gives {b c d : Buf} {fs gs : List (Bytes × Val)} (hb : Shows z b (.obj fs)) (hc : Shows z c (.obj gs))
    (h : b.merge c = .ok d) (ht : d.mem.length < 2 ^ 32) :
    Shows z d (.obj (mergeFields fs gs)) ∧
    ∃ bs, Image z (.obj (mergeFields fs gs)) bs ∧ d = Buf.ofBytes (bs ++
      zeros (sizeVal (.obj fs) + sizeVal (.obj gs) - sizeVal (.obj (mergeFields fs gs)))) := by
  have hlen := merge_length hb hc h
  have hex := merge_image hb hc (by omega)
  split at hex
  · obtain ⟨⟨bs, hi, h1⟩, h2⟩ := hex
    rw [h1] at h; cases h
    refine ⟨shows_image (wf_mergeFields hb.wf hc.wf) (fits_obj_of (fun f hf => ?_) (by omega)) hi _, bs, hi, rfl⟩
    rcases mem_mergeFields _ hf with hf | hf
    · exact hb.fits.fields f hf
    · exact hc.fits.fields f hf
  · rw [hex] at h; cases h

theorem project_gives {b d : Buf} {fs : List (Bytes × Val)} {ks : List Bytes} (hb : Shows z b (.obj fs))
    (h : b.project ks = .ok d) :
    Shows z d (.obj (fs.filter fun f => f.1 ∈ ks)) ∧
    ∃ bs, Image z (.obj (fs.filter (fun f => f.1 ∈ ks))) bs ∧ d = Buf.ofBytes (bs ++
        zeros (sizeVal (.obj fs) - sizeVal (.obj (fs.filter (fun f => f.1 ∈ ks))))) := by
  have hex := project_image hb ks
  split at hex
  · obtain ⟨⟨bs, hi, h1⟩, h2⟩ := hex
    rw [h1] at h; cases h
    have hw := wf_obj.1 hb.wf
    have := hb.fits.size
    refine ⟨shows_image (wf_obj.2 ⟨filter_sorted hw.1 _, fun f hf => hw.2 f (List.mem_filter.1 hf).1⟩)
      (fits_obj_of (fun f hf => hb.fits.fields f (List.mem_filter.1 hf).1) (by omega)) hi _, bs, hi, rfl⟩
  · rw [hex] at h; cases h

theorem object_ok {b : Buf} {v : Val} {p : Nat} (hb : Shows z b v) (h : b.object = .ok p) : ∃ fs, v = .obj fs := by
  have ht := hb.getType
  unfold Buf.object at h
  split at h
  · rename_i e
    simp only [Buf.getType, e, RawType.simplify] at ht
    cases v <;> simp [Val.ty] at ht
    exact ⟨_, rfl⟩
  · cases h

/-- Everything obtained stands for some well formed value. -/
theorem Obtained.shows {signed exact : Bool} {b : Buf} (h : Obtained signed exact b) : ∃ v, Shows exact b v := by
  induction h with
  | finalized hw h => exact ⟨_, (shows_root hw h).weaken⟩
  | parsed hx h =>
    cases h with
    | text hs hf ht hl hw hd h =>
      obtain ⟨_, h1, h2, _⟩ := fromJson_shows hs hf ht hl hw hd
      rw [h1] at h; cases h
      exact ⟨_, hx ▸ h2⟩
    | sajson hf ht hd hl hw hn ho hz h =>
      obtain ⟨_, h1, h2, _⟩ := fromSajson_shows hf ht hd hl hw hn ho hz
      rw [h1] at h; cases h
      exact ⟨_, hx ▸ h2⟩
  | read _ hd ih =>
    obtain ⟨v, hv⟩ := ih
    exact hd.shows hv
  | merged _ _ h hl ih1 ih2 =>
    obtain ⟨v, hv⟩ := ih1
    obtain ⟨w, hw⟩ := ih2
    have h' := h
    unfold Buf.merge at h'
    obtain ⟨p, hp, h'⟩ := Res.bind_eq_ok.1 h'
    obtain ⟨q, hq, _⟩ := Res.bind_eq_ok.1 h'
    obtain ⟨fs, rfl⟩ := object_ok hv hp
    obtain ⟨gs, rfl⟩ := object_ok hw hq
    exact ⟨_, (merge_gives hv hw h hl).1⟩
  | projected _ h ih =>
    obtain ⟨v, hv⟩ := ih
    have h' := h
    unfold Buf.project at h'
    obtain ⟨p, hp, _⟩ := Res.bind_eq_ok.1 h'
    obtain ⟨fs, rfl⟩ := object_ok hv hp
    exact ⟨_, (project_gives hv h).1⟩
  | made hb hh h hl ih =>
    rename_i args d
    have hub := makeObject_inv h
    have hpk : ∀ p ∈ args, ∃ v, PktOf exact p v := by
      intro p hp
      cases p with
      | heap v => exact ⟨v, rfl, hh v hp, hub _ hp⟩
      | buf b => exact ih b hp
    have hev : args.length % 2 = 0 := by
      unfold Buf.makeObject at h
      split at h
      · cases h
      · omega
    obtain ⟨ps, rfl⟩ := exists_flat args hev
    have hstr : ∀ p ∈ ps, p.1.isStr = true := by
      intro p hp
      cases hs : p.1.isStr with
      | true => rfl
      | false =>
        have hodd : ¬ (flatArgs ps).length % 2 = 1 := by omega
        have := groupPairs_throw ps (fun p hp => hpk _ (mem_flatArgs.2 ⟨p, hp, .inl rfl⟩)) ⟨p, hp, hs⟩
        simp only [Buf.makeObject, hodd, if_false, this, Res.bind] at h
        cases h
    obtain ⟨us, hl', hu⟩ := pairs_exist ps (fun p hp => by
      obtain ⟨v, hv⟩ := hpk _ (mem_flatArgs.2 ⟨p, hp, .inl rfl⟩)
      obtain ⟨s, rfl⟩ := hv.isStr.1 (hstr p hp)
      exact ⟨⟨s, hv⟩, hpk _ (mem_flatArgs.2 ⟨p, hp, .inr rfl⟩)⟩)
    obtain ⟨h1, h2⟩ := makeObject_image ps us hl' hu
    by_cases hc : (us.map (·.1)).Nodup ∧ ∀ u ∈ us, u.1.length ≤ 65535
    · obtain ⟨fs, n, bs, f1, f2, f3, f4, hi, f5⟩ := h1 hc
      rw [f5] at h; cases h
      refine ⟨.obj fs, shows_image f2 (fits_obj_of f3 ?_) hi _⟩
      simp only [Buf.ofBytes, List.length_append, hi.1, zeros_length] at hl
      omega
    · rw [h2 hc] at h; cases h

theorem shows_new {fs : List (Bytes × Val)} (hw : (Val.obj fs).WF) (hf : Fits (.obj fs)) (Y : Bytes) :
    Shows true (Buf.ofBytes (enc (.obj fs) ++ Y)) (.obj fs) := shows_image hw hf (Image.enc hf) Y

theorem makeObject_exact (ps : List (Pkt × Pkt)) (us : List (Bytes × Val)) (hl : ps.length = us.length)
    (hp : ∀ i (hi : i < ps.length), PktOf true ps[i].1 (.str (us[i]'(hl ▸ hi)).1) ∧ PktOf true ps[i].2 (us[i]'(hl ▸ hi)).2) :
    (((us.map (·.1)).Nodup ∧ ∀ u ∈ us, u.1.length ≤ 65535) →
      ∃ fs n, fs.Perm us ∧ (Val.obj fs).WF ∧ (∀ f ∈ fs, f.1.length ≤ 65535 ∧ Fits f.2) ∧ sizeVal (.obj fs) ≤ n ∧
        Buf.makeObject (flatArgs ps) = .ok (Buf.ofBytes (enc (.obj fs) ++ zeros (n - sizeVal (.obj fs))))) ∧
    (¬ ((us.map (·.1)).Nodup ∧ ∀ u ∈ us, u.1.length ≤ 65535) →
      Buf.makeObject (flatArgs ps) = .throw .invalidArgument) := by
  obtain ⟨h1, h2⟩ := makeObject_image ps us hl hp
  refine ⟨fun h => ?_, h2⟩
  obtain ⟨fs, n, bs, f1, f2, f3, f4, f5, f6⟩ := h1 h
  cases f5.2.2 rfl
  exact ⟨fs, n, f1, f2, f3, f4, f6⟩

theorem merge_shows {b c d : Buf} {fs gs : List (Bytes × Val)} (hb : Shows z b (.obj fs)) (hc : Shows z c (.obj gs))
    (h : b.merge c = .ok d) (ht : d.mem.length < 2 ^ 32) :
    Shows z d (.obj (mergeFields fs gs)) ∧
    (z = true → d = Buf.ofBytes (enc (.obj (mergeFields fs gs)) ++
      zeros (sizeVal (.obj fs) + sizeVal (.obj gs) - sizeVal (.obj (mergeFields fs gs))))) := by
  obtain ⟨h1, bs, h2, h3⟩ := merge_gives hb hc h ht
  exact ⟨h1, fun hz => h2.2.2 hz ▸ h3⟩

theorem project_shows {b d : Buf} {fs : List (Bytes × Val)} {ks : List Bytes} (hb : Shows z b (.obj fs))
    (h : b.project ks = .ok d) :
    Shows z d (.obj (fs.filter fun f => f.1 ∈ ks)) ∧
    (z = true → d = Buf.ofBytes (enc (.obj (fs.filter (fun f => f.1 ∈ ks))) ++
        zeros (sizeVal (.obj fs) - sizeVal (.obj (fs.filter (fun f => f.1 ∈ ks)))))) := by
  obtain ⟨h1, bs, h2, h3⟩ := project_gives hb h
  exact ⟨h1, fun hz => h2.2.2 hz ▸ h3⟩

end Dart
