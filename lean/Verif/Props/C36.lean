import Verif.Lemmas.Laws
import Verif.Model.Sample

/-
C36: dynamic and finalized inject and project agree; algebraic laws. Values agree for all buffers a client can come by,
bytes unless JSON parsed into a buffer is involved (`exact`), which leaves arbitrary bytes in unused places.
-/
namespace Dart.Props
open Spec

/-- C36: injecting pairs into the dynamic object and finalizing gives the same bytes as injecting
them into the finalized object. -/
theorem C36_inject_commutes_with_finalize (signed exact : Bool) (fs us ps : List (Bytes × Val)) (m m' : Bytes)
    (args : List Pkt) (d : Buf) (hw : (Val.obj fs).WF) (hm : finalize (.obj fs) = .ok m)
    (ha : ∀ a ∈ args, a.Usable signed exact)
    (va : args.map Pkt.value = ps.flatMap (fun p => [some (.str p.1), some p.2]))
    (hc : ∀ c, Buf.makeObject args = .ok c → c.mem.length < 2 ^ 32)
    (hd : (Buf.ofBytes m).inject args = .ok d) (hl : d.mem.length < 2 ^ 32)
    (hu : Val.inject (.obj fs) (ps.flatMap fun p => [.str p.1, p.2]) = .ok (.obj us))
    (hm' : finalize (.obj us) = .ok m') :
    d.value = some (.obj us) ∧ (exact = true → getBytes d.mem = getBytes m' ∧ (getBytes m').isSome) := by
  have ho : Obtained signed exact (Buf.ofBytes m) := .finalized hw hm
  obtain ⟨v, hv⟩ := ho.shows
  have vb : (Buf.ofBytes m).value = some (.obj fs) := by
    obtain ⟨_, _, _, _, hm2, _, h2⟩ := finalize_eq_ok hw hm
    rw [hm2]
    exact (shows_new hw h2 _).value
  obtain ⟨hn, hk, ws, Y, w1, w2, w3, w4⟩ := inject_spec ho vb ha va hc hd hl
  obtain ⟨rs, r1, r2, r3⟩ := heapInject_ok ps fs hw hn hk (made_wf args ps ha va)
  rw [r1] at hu; cases hu
  have e : us = ws := sorted_ext (wf_obj.1 r2).1 (wf_obj.1 w1).1 (funext fun k => by rw [r3 k, w4 k])
  subst e
  obtain ⟨h3, h4⟩ := new_bytes (Y := Y) r2 hm'
  exact ⟨w2.value, fun hx => by rw [w3 hx]; exact ⟨h3, by rw [h4]; rfl⟩⟩

/-- C36: projecting the dynamic object and finalizing gives the same bytes as projecting the
finalized object. -/
theorem C36_project_commutes_with_finalize (signed : Bool) (fs us : List (Bytes × Val)) (ks : List Bytes)
    (m m' : Bytes) (d : Buf) (hw : (Val.obj fs).WF) (hm : finalize (.obj fs) = .ok m)
    (hd : (Buf.ofBytes m).project ks = .ok d)
    (hu : Val.project (.obj fs) ks = .ok (.obj us)) (hm' : finalize (.obj us) = .ok m') :
    getBytes d.mem = getBytes m' ∧ (getBytes m').isSome ∧ d.value = some (.obj us) := by
  have ho : Obtained signed true (Buf.ofBytes m) := .finalized hw hm
  obtain ⟨_, _, _, _, hm2, _, h2⟩ := finalize_eq_ok hw hm
  have sb := shows_new hw h2 (zeros (‹Nat› - sizeVal (.obj fs)))
  rw [← hm2] at sb
  obtain ⟨rs, r1, r2, r3⟩ := heapProject_ok fs ks hw
  rw [r1] at hu; cases hu
  have e := restrict_unique hw r2 r3
  subst e
  obtain ⟨h1, h2⟩ := project_shows sb hd
  rw [h2 rfl]
  obtain ⟨h3, h4⟩ := new_bytes (Y := zeros (sizeVal (.obj fs) - sizeVal (.obj (fs.filter (fun f => f.1 ∈ ks))))) r2 hm'
  exact ⟨h3, by rw [h4]; rfl, by rw [← h2 rfl]; exact h1.value⟩

/-- C36: injecting the same object a second time changes nothing. -/
theorem C36_merge_idempotent (signed exact : Bool) (b c d e : Buf) (hb : Obtained signed exact b) (hc : Obtained signed exact c)
    (hd : b.merge c = .ok d) (hld : d.mem.length < 2 ^ 32) (he : d.merge c = .ok e) (hle : e.mem.length < 2 ^ 32) :
    e.value = d.value ∧ (exact = true → getBytes e.mem = getBytes d.mem ∧ (getBytes d.mem).isSome) := by
  obtain ⟨fs, sb⟩ := merge_base hb hd
  obtain ⟨gs, sc⟩ := merge_incoming hb hc hd
  obtain ⟨d1, d2⟩ := merge_shows sb sc hd hld
  obtain ⟨e1, e2⟩ := merge_shows d1 sc he hle
  have hf := (wf_obj.1 sb.wf).1
  have hg := (wf_obj.1 sc.wf).1
  have hdw := wf_mergeFields sb.wf sc.wf
  have hu : mergeFields fs gs = mergeFields (mergeFields fs gs) gs := by
    refine union_unique hdw sc.wf hdw fun k => ?_
    rw [lookup_mergeFields hf hg]
    cases lookup gs k <;> rfl
  rw [← hu] at e1 e2
  exact ⟨e1.value.trans d1.value.symm, fun hx => ⟨by rw [e2 hx, d2 hx]; exact same_bytes d1.fits.size _ _,
    by rw [d2 hx]; exact bytes_some d1.fits.size _⟩⟩

/-- C36: injecting an object into itself gives the same value. -/
theorem C36_merge_self (signed exact : Bool) (b d : Buf) (hb : Obtained signed exact b) (hd : b.merge b = .ok d)
    (hld : d.mem.length < 2 ^ 32) : d.value = b.value ∧ b.value.isSome := by
  obtain ⟨fs, sb⟩ := merge_base hb hd
  obtain ⟨d1, d2⟩ := merge_shows sb sb hd hld
  have hu : fs = mergeFields fs fs := by
    refine union_unique sb.wf sb.wf sb.wf fun k => ?_
    cases lookup fs k <;> rfl
  rw [← hu] at d1
  exact ⟨d1.value.trans sb.value.symm, by rw [sb.value]; rfl⟩

/-- C36: injecting is associative: `(a ⊕ b) ⊕ c` and `a ⊕ (b ⊕ c)` have the same value and bytes. -/
theorem C36_merge_associative (signed exact : Bool) (a b c ab abc bc abc' : Buf)
    (ha : Obtained signed exact a) (hb : Obtained signed exact b) (hc : Obtained signed exact c)
    (h1 : a.merge b = .ok ab) (h2 : ab.merge c = .ok abc) (h3 : b.merge c = .ok bc) (h4 : a.merge bc = .ok abc')
    (l1 : ab.mem.length < 2 ^ 32) (l2 : abc.mem.length < 2 ^ 32) (l3 : bc.mem.length < 2 ^ 32)
    (l4 : abc'.mem.length < 2 ^ 32) :
    abc.value = abc'.value ∧ (exact = true → getBytes abc.mem = getBytes abc'.mem ∧ (getBytes abc.mem).isSome) := by
  obtain ⟨fs, sa⟩ := merge_base ha h1
  obtain ⟨gs, sb⟩ := merge_incoming ha hb h1
  obtain ⟨hs, sc⟩ := merge_incoming hb hc h3
  obtain ⟨s1, e1⟩ := merge_shows sa sb h1 l1
  obtain ⟨s2, e2⟩ := merge_shows s1 sc h2 l2
  obtain ⟨s3, e3⟩ := merge_shows sb sc h3 l3
  obtain ⟨s4, e4⟩ := merge_shows sa s3 h4 l4
  have hu : mergeFields (mergeFields fs gs) hs = mergeFields fs (mergeFields gs hs) := by
    refine union_unique sa.wf s3.wf s2.wf fun k => ?_
    rw [lookup_mergeFields (wf_obj.1 s1.wf).1 (wf_obj.1 sc.wf).1, lookup_mergeFields (wf_obj.1 sa.wf).1 (wf_obj.1 sb.wf).1,
      lookup_mergeFields (wf_obj.1 sb.wf).1 (wf_obj.1 sc.wf).1]
    cases lookup hs k <;> rfl
  refine ⟨?_, fun hx => ⟨?_, ?_⟩⟩
  · rw [s2.value, s4.value, hu]
  · rw [e2 hx, e4 hx, hu]; exact same_bytes s4.fits.size _ _
  · rw [e2 hx]; exact bytes_some s2.fits.size _

/-- C36: projecting twice is projecting on the keys in both requests. -/
theorem C36_project_twice (signed exact : Bool) (b d e f : Buf) (ks ls both : List Bytes) (hb : Obtained signed exact b)
    (hd : b.project ks = .ok d) (he : d.project ls = .ok e) (hf : b.project both = .ok f)
    (hboth : ∀ k, k ∈ both ↔ k ∈ ks ∧ k ∈ ls) :
    e.value = f.value ∧ (exact = true → getBytes e.mem = getBytes f.mem ∧ (getBytes e.mem).isSome) := by
  obtain ⟨fs, sb⟩ := project_base hb hd
  obtain ⟨s1, e1⟩ := project_shows sb hd
  obtain ⟨s2, e2⟩ := project_shows s1 he
  obtain ⟨s3, e3⟩ := project_shows sb hf
  have hu : (fs.filter fun f => decide (f.1 ∈ both)) =
      (fs.filter fun f => decide (f.1 ∈ ks)).filter fun f => decide (f.1 ∈ ls) := by
    rw [List.filter_filter]
    apply List.filter_congr
    intro f _
    simp only [hboth, Bool.decide_and, Bool.and_comm]
  refine ⟨?_, fun hx => ⟨?_, ?_⟩⟩
  · rw [s2.value, s3.value, hu]
  · rw [e2 hx, e3 hx, hu]; exact same_bytes s2.fits.size _ _
  · rw [e2 hx]; exact bytes_some s2.fits.size _

/-- C36: projecting distributes over injecting. -/
theorem C36_project_of_merge (signed exact : Bool) (b c d e b' c' d' : Buf) (ks : List Bytes) (hb : Obtained signed exact b)
    (hc : Obtained signed exact c) (hd : b.merge c = .ok d) (hl : d.mem.length < 2 ^ 32) (he : d.project ks = .ok e)
    (hb' : b.project ks = .ok b') (hc' : c.project ks = .ok c') (hd' : b'.merge c' = .ok d')
    (hl' : d'.mem.length < 2 ^ 32) :
    e.value = d'.value ∧ (exact = true → getBytes e.mem = getBytes d'.mem ∧ (getBytes e.mem).isSome) := by
  obtain ⟨fs, sb⟩ := merge_base hb hd
  obtain ⟨gs, sc⟩ := merge_incoming hb hc hd
  obtain ⟨s1, e1⟩ := merge_shows sb sc hd hl
  obtain ⟨s2, e2⟩ := project_shows s1 he
  obtain ⟨s3, e3⟩ := project_shows sb hb'
  obtain ⟨s4, e4⟩ := project_shows sc hc'
  obtain ⟨s5, e5⟩ := merge_shows s3 s4 hd' hl'
  have hu : ((mergeFields fs gs).filter fun f => decide (f.1 ∈ ks)) =
      mergeFields (fs.filter fun f => decide (f.1 ∈ ks)) (gs.filter fun f => decide (f.1 ∈ ks)) := by
    refine union_unique s3.wf s4.wf s2.wf fun k => ?_
    rw [lookup_filter, lookup_filter, lookup_filter, lookup_mergeFields (wf_obj.1 sb.wf).1 (wf_obj.1 sc.wf).1]
    split <;> rfl
  refine ⟨?_, fun hx => ⟨?_, ?_⟩⟩
  · rw [s2.value, s5.value, hu]
  · rw [e2 hx, e5 hx, hu]; exact same_bytes s5.fits.size _ _
  · rw [e2 hx]; exact bytes_some s2.fits.size _

/-- Non-vacuity: the hypotheses of the laws hold for the sample and a second object. -/
example : (match finalize sample, finalize (.obj [([97], .int 5), ([122], .bool false)]) with
    | .ok m, .ok m' =>
      let b := Buf.ofBytes m; let c := Buf.ofBytes m'
      match b.merge c, b.merge b, c.merge b, b.project [[97], [98]], c.project [[97], [98]] with
      | .ok d, .ok _, .ok cb, .ok b', .ok c' => match d.merge c, d.merge b, b.merge cb, d.project [[97], [98]], b'.merge c' with
        | .ok _, .ok x, .ok y, .ok e, .ok d' => decide (getBytes x.mem = getBytes y.mem ∧ getBytes e.mem = getBytes d'.mem)
        | _, _, _, _, _ => false
      | _, _, _, _, _ => false
    | _, _ => false) = true := by decide +kernel

end Dart.Props
