import Verif.Lemmas.HostileCopy
import Verif.Lemmas.HostileResult
import Verif.Spec.Chain

/-
Projecting and merging one after the other, beginning with untrusted bytes.
-/
namespace Dart
open Spec

theorem forTable_sizeof (m : Bytes) (t : RawType) (p : Nat) : findSizeof m t.forTable p = findSizeof m t p := by cases t <;> rfl

/-- The fields of an object laid out in memory of its own. -/
theorem Stored'.pieces {m : Bytes} {es : List Entry} (h : Stored' m es) :
    Pieces (Buf.ofBytes m) (es.map fun e => ⟨e.key, e.type.forTable, e.vb.length⟩) where
  count := by simp [Buf.size, Buf.ofBytes, Res.ofRead, Res.bind, h.count]
  field := fun i f hf => by
    rw [List.getElem?_map, Option.map_eq_some_iff] at hf
    obtain ⟨e, he, rfl⟩ := hf
    obtain ⟨a, v, hf, hle⟩ := h.laid.at es (i := i) he
    rw [Nat.zero_add] at hf
    refine ⟨⟨(Buf.ofBytes m).sub (.string, some a), ?_, ?_⟩, (Buf.ofBytes m).sub (e.type.forTable, some v), ?_, rfl, ?_⟩
    · simp [Buf.keyAt, Buf.object, Buf.ofBytes, Res.ofRead, Res.bind, hf.keyAt]
    · have := hf.keyStr.strv e.kstr
      rw [Nat.add_zero] at this
      simp [Buf.strv, Buf.sub, Buf.ofBytes, Res.ofRead, Res.bind, this]
    · simp [Buf.valueAt, Buf.ofBytes, Res.ofRead, Res.bind, hf.value]
    · have hz := hf.bytes.findSizeof e.vsize
      rw [Nat.add_zero, ← forTable_sizeof] at hz
      simp only [Buf.sizeof, Buf.sub, Buf.ofBytes]
      generalize e.type.forTable = t at hz ⊢
      cases t <;> first | exact hz | (simp only [findSizeof] at hz ⊢; exact hz)

theorem Stored'.sizeof {m : Bytes} {es : List Entry} (h : Stored' m es) :
    (Buf.ofBytes m).sizeof = some (alignUp (endsAt (8 + 8 * es.length) es) 8) := h.size

theorem endsAt_table (es : List Entry) : ∀ off, endOf off (es.map fun e => ⟨e.key, e.type.forTable, e.vb.length⟩) = endsAt off es := by
  induction es with
  | nil => exact fun _ => rfl
  | cons e es ih => intro off; rw [List.map_cons, endOf_cons]; simp only [endsAt, e.klen, ih, table_align]

/-- What is known of every value on the way. -/
structure ChainResult (c : Buf) (us : List (Bytes × Val)) (w : Nat) : Prop where
  whole : c = Buf.ofBytes c.mem
  accepted : accepts c.mem
  shows : IterShows c us
  ordered : us.Pairwise fun x y => KeyBefore x.1 y.1
  full : ∀ f ∈ us, f.2 ≠ .null
  size : ∃ n, c.sizeof = some n ∧ 8 ∣ n ∧ n ≤ w

theorem stored_size {m : Bytes} {es : List Entry} (h : Stored' m es) : ∃ n, (Buf.ofBytes m).sizeof = some n ∧ 8 ∣ n ∧ n ≤ m.length :=
  ⟨_, h.sizeof, dvd_alignUp _ _, h.room⟩

theorem whole_type {c : Buf} (h : c = Buf.ofBytes c.mem) : c.type = .object := by rw [h]; rfl

theorem ChainResult.safe {c : Buf} {us : List (Bytes × Val)} {w : Nat} (h : ChainResult c us w) : SafeBuf c := by
  rw [h.whole]; exact accepts_safe h.accepted

theorem ChainResult.pick {b c : Buf} {us : List (Bytes × Val)} {w : Nat} (h : ChainResult b us w) (hw : w < 2 ^ 32) {ks : List Bytes}
    (hc : b.project ks = .ok c) : ChainResult c (us.filter (·.1 ∈ ks)) w ∧ ∃ es, Stored' c.mem es := by
  obtain ⟨n, z1, z2, z3⟩ := h.size
  obtain ⟨h1, h2, h3, h4, es, h5⟩ := project_result h.safe (whole_type h.whole) h.shows h.ordered hc z1 z2
  refine ⟨⟨h1, h3 fun f hf _ => h.full f hf, h2, h.ordered.filter _, fun f hf => h.full f (List.mem_filter.1 hf).1, ?_⟩, es, h5⟩
  obtain ⟨k, k1, k2, k3⟩ := stored_size h5
  exact ⟨k, by rw [h1]; exact k1, k2, by omega⟩

theorem ChainResult.join {b c d : Buf} {us vs : List (Bytes × Val)} {w x : Nat} (h : ChainResult b us w) (h' : ChainResult c vs x)
    (hw : w + x < 2 ^ 32) (hd : b.merge c = .ok d) : ChainResult d (mergeFields us vs) (w + x) ∧ ∃ es, Stored' d.mem es := by
  obtain ⟨n, z1, z2, z3⟩ := h.size
  obtain ⟨k, y1, y2, y3⟩ := h'.size
  obtain ⟨h1, h2, h3, h4, es, h5⟩ := merge_result h.safe (whole_type h.whole) h'.safe (whole_type h'.whole) h.shows h'.shows h.ordered
    z1 y1 (Nat.dvd_add z2 y2) (by omega) hd
  have hfull : ∀ f ∈ mergeFields us vs, f.2 ≠ .null := fun f hf => (mem_mergeFields us hf).elim (h.full f) (h'.full f)
  refine ⟨⟨h1, h3 hfull, h2, sorted_iff.2 (mergeFields_sorted (sorted_iff.1 h.ordered) (sorted_iff.1 h'.ordered)), hfull, ?_⟩, es, h5⟩
  obtain ⟨j, j1, j2, j3⟩ := stored_size h5
  exact ⟨j, by rw [h1]; exact j1, j2, by omega⟩

theorem tame_result {m : Bytes} {fs : List (Bytes × Val)} (h : Tame m fs) : ChainResult (Buf.ofBytes m) fs m.length := by
  obtain ⟨bs, hb, h8⟩ := h.size
  refine ⟨rfl, h.accepted, h.shows, h.ordered, h.full, bs.length, ?_, h8, ?_⟩
  all_goals
    have hb : (Res.ofRead (findSizeof m .object 0)).bind (fun n => Res.ofRead (readBytes m 0 n)) = .ok bs := hb
    simp only [Res.ofRead] at hb
    cases hz : findSizeof m .object 0 with
    | none => rw [hz] at hb; cases hb
    | some n =>
      rw [hz] at hb
      simp only [Res.bind_ok] at hb
      cases hr : readBytes m 0 n with
      | none => rw [hr] at hb; cases hb
      | some bs' =>
        rw [hr] at hb
        simp only [Res.ok.injEq] at hb
        subst hb
        have hl := readBytes_length hr
        first
          | (show findSizeof m .object 0 = _; rw [hz, hl])
          | (unfold readBytes at hr
             split at hr
             · omega
             · cases hr)

theorem bind_ok_inv {α β : Type} {r : Res α} {f : α → Res β} {b : β} (h : r.bind f = .ok b) : ∃ a, r = .ok a ∧ f a = .ok b := by
  cases r with
  | ok a => exact ⟨a, rfl, h⟩
  | ub => cases h
  | throw _ => cases h

theorem chain_result : ∀ (e : Chain), e.Good → e.weight < 2 ^ 32 → ∀ {c : Buf}, e.run = .ok c →
    ∃ us, ChainResult c us e.weight ∧ (∀ k, lookup us k = e.holds k) ∧ (e.isMade = true → ∃ es, Stored' c.mem es)
  | .given m fs, hg, _, c, hc => by
    cases hc
    exact ⟨fs, tame_result hg, fun _ => rfl, fun h => by cases h⟩
  | .pick e ks, hg, hw, c, hc => by
    obtain ⟨b, hb, hc⟩ := bind_ok_inv hc
    obtain ⟨us, r, hl, _⟩ := chain_result e hg hw hb
    obtain ⟨r', hs⟩ := r.pick hw hc
    exact ⟨_, r', fun k => by rw [lookup_filter, hl]; rfl, fun _ => hs⟩
  | .join e f, hg, hw, d, hd => by
    obtain ⟨b, hb, hd⟩ := bind_ok_inv hd
    obtain ⟨c, hc, hd⟩ := bind_ok_inv hd
    have hw' : e.weight + f.weight < 2 ^ 32 := hw
    obtain ⟨us, r, hl, _⟩ := chain_result e hg.1 (by omega) hb
    obtain ⟨vs, r', hl', _⟩ := chain_result f hg.2 (by omega) hc
    obtain ⟨r'', hs⟩ := r.join r' hw' hd
    exact ⟨_, r'', fun k => by rw [lookup_mergeFields (sorted_iff.1 r.ordered) (sorted_iff.1 r'.ordered), hl, hl']; rfl, fun _ => hs⟩

/-- What was laid out by projecting or merging can be projected and copied. -/
theorem ChainResult.next {c : Buf} {us : List (Bytes × Val)} {w : Nat} (h : ChainResult c us w) {es : List Entry} (hs : Stored' c.mem es) :
    (∀ ks : List Bytes, ks.length ≤ us.length → ∃ d, c.project ks = .ok d) ∧ ∃ d, c.inject [] = .ok d := by
  have hu : us = es.map fun e => (e.key, e.val) := by
    refine iterShows_unique h.shows ?_
    rw [h.whole]; exact hs.shows
  have hp := hs.pieces
  rw [← h.whole] at hp
  have hz := hs.sizeof
  rw [← h.whole] at hz
  have hle := le_alignUp (endsAt (8 + 8 * es.length) es) (a := 8) (by decide)
  have hr : KeysRise (es.map fun e => ⟨e.key, e.type.forTable, e.vb.length⟩) := by
    have := h.ordered
    rw [hu, List.pairwise_map] at this
    unfold KeysRise
    rw [List.pairwise_map]
    exact this
  refine ⟨fun ks hk => (project_iff h.safe (whole_type h.whole) hp hr ks hz).1 ?_,
    (inject_nil_iff h.safe (whole_type h.whole) hp hz).1 ?_⟩
  · have hl : ks.length ≤ es.length := by rw [hu, List.length_map] at hk; exact hk
    refine Nat.le_trans (endOf_sublist List.filter_sublist (b := 8 + 8 * es.length) (by omega)) ?_
    rw [endsAt_table]; exact hle
  · rw [endsAt_table, List.length_map]; omega

end Dart
