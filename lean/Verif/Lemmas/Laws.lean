import Verif.Lemmas.Make
import Verif.Lemmas.Heap

/-
Connecting buffers, their values, and the dynamic counterparts of the operations.
-/
namespace Dart
open Dart.Spec

theorem Shows.value_eq {z : Bool} {b : Buf} {v w : Val} (h : Shows z b v) (hw : b.value = some w) : v = w := by
  rw [h.value] at hw; cases hw; rfl

/-- An obtained buffer shows the value it is converted to. -/
theorem Obtained.shows_value {signed exact : Bool} {b : Buf} {v : Val} (h : Obtained signed exact b)
    (hv : b.value = some v) : Shows exact b v := by
  obtain ⟨w, hw⟩ := h.shows
  exact hw.value_eq hv ▸ hw

/-- A new allocation holding an object has the bytes of the finalized object. -/
theorem new_bytes {fs : List (Bytes × Val)} {Y m : Bytes} (hw : (Val.obj fs).WF)
    (h : finalize (.obj fs) = .ok m) : getBytes (Buf.ofBytes (enc (.obj fs) ++ Y)).mem = getBytes m ∧
      getBytes m = some (enc (.obj fs)) := by
  obtain ⟨gs, n, e, _, hm, h1, h2⟩ := finalize_eq_ok hw h
  have hs := h2.size
  rw [hm, getBytes_enc fs hs]
  exact ⟨getBytes_enc fs hs Y, rfl⟩

/-- The union of two maps, as an object. -/
theorem union_unique {fs gs us : List (Bytes × Val)} (hf : (Val.obj fs).WF) (hg : (Val.obj gs).WF)
    (hu : (Val.obj us).WF) (h : ∀ k, lookup us k = (lookup gs k).or (lookup fs k)) : us = mergeFields fs gs := by
  have hw := wf_obj.1 (wf_mergeFields hf hg)
  refine sorted_ext (wf_obj.1 hu).1 hw.1 ?_
  funext k
  rw [h k, lookup_mergeFields (wf_obj.1 hf).1 (wf_obj.1 hg).1]

theorem restrict_unique {fs us : List (Bytes × Val)} {ks : List Bytes} (hf : (Val.obj fs).WF)
    (hu : (Val.obj us).WF) (h : ∀ k, lookup us k = if k ∈ ks then lookup fs k else none) :
    us = fs.filter fun f => f.1 ∈ ks := by
  refine sorted_ext (wf_obj.1 hu).1 (filter_sorted (wf_obj.1 hf).1 _) ?_
  funext k
  rw [h k, lookup_filter]

theorem wf_filter {fs : List (Bytes × Val)} (hf : (Val.obj fs).WF) (p : Bytes × Val → Bool) :
    (Val.obj (fs.filter p)).WF := by
  have hw := wf_obj.1 hf
  exact wf_obj.2 ⟨filter_sorted hw.1 _, fun f h => hw.2 f (List.mem_filter.1 h).1⟩

/-! ### Arguments -/

theorem Pkt.Usable.pktOf {signed exact : Bool} {p : Pkt} {v : Val} (h : p.Usable signed exact) (hv : p.value = some v) :
    PktOf exact p v := by
  cases p with
  | heap x => cases hv; exact ⟨rfl, h.1, h.2⟩
  | buf b => exact Obtained.shows_value h hv

theorem Pkt.Usable.exists_value {signed exact : Bool} {p : Pkt} (h : p.Usable signed exact) :
    ∃ v, p.value = some v ∧ PktOf exact p v := by
  cases p with
  | heap x => exact ⟨x, rfl, rfl, h.1, h.2⟩
  | buf b => obtain ⟨v, hv⟩ := Obtained.shows h; exact ⟨v, hv.value, hv⟩

theorem args_pairs {signed exact : Bool} (ps : List (Bytes × Val)) : ∀ (args : List Pkt), (∀ a ∈ args, a.Usable signed exact) →
    args.map Pkt.value = ps.flatMap (fun p => [some (.str p.1), some p.2]) →
    ∃ qs : List (Pkt × Pkt), args = flatArgs qs ∧ ∃ hl : qs.length = ps.length, ∀ i (hi : i < qs.length),
      PktOf exact qs[i].1 (.str (ps[i]'(hl ▸ hi)).1) ∧ PktOf exact qs[i].2 (ps[i]'(hl ▸ hi)).2 := by
  induction ps with
  | nil =>
    intro args _ h
    have : args = [] := by simpa using h
    subst this
    exact ⟨[], rfl, rfl, fun i hi => by simp at hi⟩
  | cons p ps ih =>
    intro args hu h
    simp only [List.flatMap_cons, List.cons_append, List.nil_append] at h
    match args, h with
    | [], h => simp at h
    | [_], h => simp at h
    | k :: v :: r, h =>
      simp only [List.map_cons, List.cons.injEq] at h
      obtain ⟨qs, e, hl, hq⟩ := ih r (fun a ha => hu a (by simp [ha])) h.2.2
      refine ⟨(k, v) :: qs, by rw [e]; rfl, by simp [hl], fun i hi => ?_⟩
      cases i with
      | zero => exact ⟨(hu k (by simp)).pktOf h.1, (hu v (by simp)).pktOf h.2.1⟩
      | succ i => simpa using hq i (by simpa using hi)

theorem perm_unique {fs gs ps : List (Bytes × Val)} (hn : (ps.map (·.1)).Nodup) (hf : (Val.obj fs).WF)
    (hg : (Val.obj gs).WF) (h1 : fs.Perm ps) (h2 : gs.Perm ps) : fs = gs := by
  refine sorted_ext (wf_obj.1 hf).1 (wf_obj.1 hg).1 ?_
  funext k
  rw [lookup_perm hn h1, lookup_perm hn h2]

theorem lastPair_eq_lookup (ps : List (Bytes × Val)) (hn : (ps.map (·.1)).Nodup) (k : Bytes) :
    lastPair (ps.map fun p => (.str p.1, p.2)) k = lookup ps k := by
  induction ps with
  | nil => rfl
  | cons p ps ih =>
    obtain ⟨a, v⟩ := p
    simp only [List.map_cons, List.nodup_cons] at hn
    rw [List.map_cons, lastPair_cons, ih hn.2, lookup_cons]
    by_cases h : k = a
    · subst h
      have : lookup ps k = none := by
        cases hl : lookup ps k with
        | none => rfl
        | some x =>
          exfalso
          apply hn.1
          simp only [lookup, Option.map_eq_some_iff] at hl
          obtain ⟨f, hf, _⟩ := hl
          have h1 := List.find?_some hf
          have h2 := List.mem_of_find?_eq_some hf
          exact List.mem_map.2 ⟨f, h2, by simpa using h1⟩
      simp [this]
    · simp [h]

/-- The dynamic `inject` with distinct keys of legal length. -/
theorem heapInject_ok (ps fs : List (Bytes × Val)) (hf : (Val.obj fs).WF) (hn : (ps.map (·.1)).Nodup)
    (hk : ∀ p ∈ ps, p.1.length ≤ 65535) (hv : ∀ p ∈ ps, p.2.WF) :
    ∃ rs, Val.inject (.obj fs) (ps.flatMap fun p => [.str p.1, p.2]) = .ok (.obj rs) ∧ (Val.obj rs).WF ∧
      ∀ k, lookup rs k = (lookup ps k).or (lookup fs k) := by
  have hfl : (ps.flatMap fun p => [Val.str p.1, p.2]) =
      ((ps.map fun p => (Val.str p.1, p.2)).flatMap fun p => [p.1, p.2]) := by
    rw [List.flatMap_map]
  have hprop : Proper (.obj fs) := ⟨by simpa only [Val.WF] using hf.1, fun f h => ((wf_obj.1 hf).2 f h).1⟩
  have href := injectLoop_refines (ps.map fun p => (Val.str p.1, p.2)) hprop
  have herr : (ps.map fun p => (Val.str p.1, p.2)).findSome? (fun p => keyError p.1) = none := by
    rw [List.findSome?_eq_none_iff]
    intro p hp
    obtain ⟨q, hq, rfl⟩ := List.mem_map.1 hp
    simp [keyError, hk q hq]
  simp only [shape_obj, step, herr] at href
  obtain ⟨w, h1, h2, h3⟩ := href
  cases w with
  | obj rs =>
    refine ⟨rs, by rw [hfl]; exact h1, ?_, fun k => ?_⟩
    · exact wf_injectLoop _ hf (fun p hp => by
        obtain ⟨q, hq, rfl⟩ := List.mem_map.1 hp
        exact hv q hq) h1
    · rw [shape_obj] at h2
      injection h2 with h2
      rw [h2]
      simp only [lastPair_eq_lookup ps hn]
  | _ => simp [shape] at h2

theorem heapProject_ok (fs : List (Bytes × Val)) (ks : List Bytes) (hf : (Val.obj fs).WF) :
    ∃ rs, Val.project (.obj fs) ks = .ok (.obj rs) ∧ (Val.obj rs).WF ∧
      ∀ k, lookup rs k = if k ∈ ks then lookup fs k else none := by
  have hprop : Proper (.obj fs) := ⟨by simpa only [Val.WF] using hf.1, fun f h => ((wf_obj.1 hf).2 f h).1⟩
  obtain ⟨rs, h1, h2, h3⟩ := projectLoop_spec fs hprop ks [] (by simp [Proper])
  refine ⟨rs, h1, wf_projectLoop fs hf ks (by simp [Val.WF, WFFields]) h1, fun k => ?_⟩
  rw [h3]
  by_cases hk : k ∈ ks <;> simp [hk, lookup]

/-- Building from usable arguments, in terms of the pairs. -/
theorem make_spec {signed exact : Bool} (args : List Pkt) (ps : List (Bytes × Val))
    (hu : ∀ a ∈ args, a.Usable signed exact)
    (hv : args.map Pkt.value = ps.flatMap (fun p => [some (.str p.1), some p.2])) :
    (((ps.map (·.1)).Nodup ∧ ∀ p ∈ ps, p.1.length ≤ 65535) →
      ∃ fs n bs, fs.Perm ps ∧ (Val.obj fs).WF ∧ (∀ f ∈ fs, f.1.length ≤ 65535 ∧ Fits f.2) ∧ sizeVal (.obj fs) ≤ n ∧
        Image exact (.obj fs) bs ∧
        Buf.makeObject args = .ok (Buf.ofBytes (bs ++ zeros (n - sizeVal (.obj fs))))) ∧
    (¬ ((ps.map (·.1)).Nodup ∧ ∀ p ∈ ps, p.1.length ≤ 65535) →
      Buf.makeObject args = .throw .invalidArgument) := by
  obtain ⟨qs, rfl, hl, hq⟩ := args_pairs ps args hu hv
  exact makeObject_image qs ps hl hq

theorem made_wf {signed exact : Bool} (args : List Pkt) (ps : List (Bytes × Val))
    (hu : ∀ a ∈ args, a.Usable signed exact)
    (hv : args.map Pkt.value = ps.flatMap (fun p => [some (.str p.1), some p.2])) : ∀ p ∈ ps, p.2.WF := by
  obtain ⟨qs, rfl, hl, hq⟩ := args_pairs ps args hu hv
  intro p hp
  obtain ⟨i, hi, rfl⟩ := List.getElem_of_mem hp
  exact (hq i (by omega)).2.wf

/-- What injecting pairs into an obtained object gives. -/
theorem inject_spec {signed exact : Bool} {b d : Buf} {fs ps : List (Bytes × Val)} {args : List Pkt}
    (hb : Obtained signed exact b) (vb : b.value = some (.obj fs)) (hu : ∀ a ∈ args, a.Usable signed exact)
    (hv : args.map Pkt.value = ps.flatMap (fun p => [some (.str p.1), some p.2]))
    (hm : ∀ c, Buf.makeObject args = .ok c → c.mem.length < 2 ^ 32)
    (hd : b.inject args = .ok d) (hl : d.mem.length < 2 ^ 32) :
    (ps.map (·.1)).Nodup ∧ (∀ p ∈ ps, p.1.length ≤ 65535) ∧ ∃ us Y, (Val.obj us).WF ∧ Shows exact d (.obj us) ∧
      (exact = true → d = Buf.ofBytes (enc (.obj us) ++ Y)) ∧ ∀ k, lookup us k = (lookup ps k).or (lookup fs k) := by
  obtain ⟨h1, h2⟩ := make_spec args ps hu hv
  have sb := hb.shows_value vb
  by_cases hc : (ps.map (·.1)).Nodup ∧ ∀ p ∈ ps, p.1.length ≤ 65535
  · refine ⟨hc.1, hc.2, ?_⟩
    obtain ⟨gs, n, bs, g1, g2, g3, g4, gi, g5⟩ := h1 hc
    have hsz := hm _ g5
    simp only [Buf.ofBytes, List.length_append, gi.1, zeros_length] at hsz
    simp only [Buf.inject, g5, Res.bind] at hd
    have sc := shows_image g2 (fits_obj_of g3 (by omega)) gi (zeros (n - sizeVal (.obj gs)))
    obtain ⟨m1, m2⟩ := merge_shows sb sc hd hl
    refine ⟨_, _, wf_mergeFields sb.wf g2, m1, m2, fun k => ?_⟩
    rw [lookup_mergeFields (wf_obj.1 sb.wf).1 (wf_obj.1 g2).1, lookup_perm hc.1 g1]
  · simp only [Buf.inject, h2 hc, Res.bind] at hd
    cases hd

/-! ### Operands of successful operations are objects -/

theorem merge_base {signed exact : Bool} {b c d : Buf} (hb : Obtained signed exact b) (h : b.merge c = .ok d) :
    ∃ fs, Shows exact b (.obj fs) := by
  obtain ⟨v, hv⟩ := hb.shows
  simp only [Buf.merge] at h
  obtain ⟨p, hp, _⟩ := Res.bind_eq_ok.1 h
  obtain ⟨fs, rfl⟩ := object_ok hv hp
  exact ⟨fs, hv⟩

theorem merge_incoming {signed exact : Bool} {b c d : Buf} (_ : Obtained signed exact b) (hc : Obtained signed exact c)
    (h : b.merge c = .ok d) : ∃ gs, Shows exact c (.obj gs) := by
  obtain ⟨v, hv⟩ := hc.shows
  simp only [Buf.merge] at h
  obtain ⟨p, hp, h⟩ := Res.bind_eq_ok.1 h
  obtain ⟨q, hq, _⟩ := Res.bind_eq_ok.1 h
  obtain ⟨fs, rfl⟩ := object_ok hv hq
  exact ⟨fs, hv⟩

theorem project_base {signed exact : Bool} {b d : Buf} {ks : List Bytes} (hb : Obtained signed exact b)
    (h : b.project ks = .ok d) : ∃ fs, Shows exact b (.obj fs) := by
  obtain ⟨v, hv⟩ := hb.shows
  simp only [Buf.project] at h
  obtain ⟨p, hp, _⟩ := Res.bind_eq_ok.1 h
  obtain ⟨fs, rfl⟩ := object_ok hv hp
  exact ⟨fs, hv⟩

theorem same_bytes {fs : List (Bytes × Val)} (h : sizeVal (.obj fs) < 2 ^ 32) (Y Z : Bytes) :
    getBytes (Buf.ofBytes (enc (.obj fs) ++ Y)).mem = getBytes (Buf.ofBytes (enc (.obj fs) ++ Z)).mem := by
  simp only [Buf.ofBytes]
  rw [getBytes_enc fs h, getBytes_enc fs h]

theorem bytes_some {fs : List (Bytes × Val)} (h : sizeVal (.obj fs) < 2 ^ 32) (Y : Bytes) :
    (getBytes (Buf.ofBytes (enc (.obj fs) ++ Y)).mem).isSome := by
  simp only [Buf.ofBytes]
  rw [getBytes_enc fs h]
  rfl

end Dart
