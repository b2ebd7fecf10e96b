import Verif.Lemmas.Laws
import Verif.Model.Sample

/-
C11: injecting into a finalized object is right-biased union.
-/
namespace Dart.Props
open Spec

/-- C11: whenever merging two finalized objects gives a result, it is the finalized form of the union
of both: under every key the incoming value if there is one, else the base value. `us` is the dynamic
object with that content; converting the result gives exactly `us`, and the bytes are those of
finalizing `us` (unless JSON parsed into a buffer is involved, which leaves arbitrary bytes in unused places). The
buffers may be any a client can come by, also nested objects and the results of earlier merges. -/
theorem C11_merge_is_union (signed exact : Bool) (b c d : Buf) (fs gs us : List (Bytes × Val))
    (hb : Obtained signed exact b) (hc : Obtained signed exact c)
    (vb : b.value = some (.obj fs)) (vc : c.value = some (.obj gs))
    (hd : b.merge c = .ok d) (hl : d.mem.length < 2 ^ 32)
    (hu : (Val.obj us).WF) (hus : ∀ k, lookup us k = (lookup gs k).or (lookup fs k)) :
    d.value = some (.obj us) ∧
    (exact = true → ∀ m, finalize (.obj us) = .ok m → getBytes d.mem = getBytes m ∧ (getBytes m).isSome) := by
  have sb := hb.shows_value vb
  have sc := hc.shows_value vc
  have e := union_unique sb.wf sc.wf hu hus
  subst e
  obtain ⟨h1, h2⟩ := merge_shows sb sc hd hl
  refine ⟨h1.value, fun hx m hm => ?_⟩
  rw [h2 hx]
  obtain ⟨h3, h4⟩ := new_bytes (Y := zeros (sizeVal (.obj fs) + sizeVal (.obj gs) - sizeVal (.obj (mergeFields fs gs)))) hu hm
  exact ⟨h3, by rw [h4]; rfl⟩

/-- C11: such a union always exists and is unique, and has all keys in order without duplicates
(`Val.WF`), so the previous theorem determines the result. -/
theorem C11_union_exists (fs gs : List (Bytes × Val)) (hf : (Val.obj fs).WF) (hg : (Val.obj gs).WF) :
    ∃ us, ((Val.obj us).WF ∧ ∀ k, lookup us k = (lookup gs k).or (lookup fs k)) ∧
      ∀ vs, (Val.obj vs).WF → (∀ k, lookup vs k = (lookup gs k).or (lookup fs k)) → vs = us :=
  ⟨mergeFields fs gs, ⟨wf_mergeFields hf hg, lookup_mergeFields (wf_obj.1 hf).1 (wf_obj.1 hg).1⟩,
    fun _ hv h => union_unique hf hg hv h⟩

/-- C11: the same for `inject` with a list of pairs (dynamic values or buffers). If it gives a
result, the keys were distinct. -/
theorem C11_inject_is_union (signed exact : Bool) (b d : Buf) (args : List Pkt) (fs ps us : List (Bytes × Val))
    (hb : Obtained signed exact b) (vb : b.value = some (.obj fs)) (ha : ∀ a ∈ args, a.Usable signed exact)
    (va : args.map Pkt.value = ps.flatMap (fun p => [some (.str p.1), some p.2]))
    (hm : ∀ c, Buf.makeObject args = .ok c → c.mem.length < 2 ^ 32)
    (hd : b.inject args = .ok d) (hl : d.mem.length < 2 ^ 32)
    (hu : (Val.obj us).WF) (hus : ∀ k, lookup us k = (lookup ps k).or (lookup fs k)) :
    (ps.map (·.1)).Nodup ∧ d.value = some (.obj us) ∧
    (exact = true → ∀ m, finalize (.obj us) = .ok m → getBytes d.mem = getBytes m ∧ (getBytes m).isSome) := by
  obtain ⟨hn, hk, ws, Y, w1, w2, w3, w4⟩ := inject_spec hb vb ha va hm hd hl
  have e : us = ws := sorted_ext (wf_obj.1 hu).1 (wf_obj.1 w1).1 (funext fun k => by rw [hus k, w4 k])
  subst e
  refine ⟨hn, w2.value, fun hx m hm => ?_⟩
  rw [w3 hx]
  obtain ⟨h3, h4⟩ := new_bytes (Y := Y) hu hm
  exact ⟨h3, by rw [h4]; rfl⟩

/-- C11: the result of a merge is again an obtained buffer, so that the theorems apply to chains. -/
theorem C11_chains (signed exact : Bool) (b c d : Buf) (hb : Obtained signed exact b) (hc : Obtained signed exact c)
    (hd : b.merge c = .ok d) (hl : d.mem.length < 2 ^ 32) :
    Obtained signed exact d ∧ ∃ v, d.value = some v ∧ v.WF := by
  have ho := Obtained.merged hb hc hd hl
  obtain ⟨v, hv⟩ := ho.shows
  exact ⟨ho, v, hv.value, hv.wf⟩

/-- Non-vacuity: merging {"a":5,"cc":null} into the sample replaces both, and gives the bytes of the
finalized union. -/
example : (match finalize sample, finalize (.obj [([97], .int 5), ([99, 99], .null)]),
      finalize (.obj [([97], .int 5), ([98], .arr [.null, .bool true, .str [120, 121], .int 70000]),
        ([99, 99], .null), ([108, 111, 110, 103], .str (List.replicate 30 97))]) with
    | .ok m, .ok m', .ok u => match (Buf.ofBytes m).merge (Buf.ofBytes m') with
      | .ok d => decide (getBytes d.mem = getBytes u)
      | _ => false
    | _, _, _ => false) = true := by decide +kernel
example : (match finalize sample with
    | .ok m => match (Buf.ofBytes m).inject [.heap (.str [122]), .heap (.bool true), .heap (.str [97]), .heap .null] with
      | .ok d => match d.keys with
        | .ok ks => ks.map fun k => k.strv.toOption
        | _ => []
      | _ => []
    | _ => []) = [some [97], some [98], some [122], some [99, 99], some [108, 111, 110, 103]] := by decide +kernel

end Dart.Props
