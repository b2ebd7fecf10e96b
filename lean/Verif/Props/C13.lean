import Verif.Lemmas.Laws
import Verif.Model.Sample

/-
C13: projecting a finalized object keeps exactly the requested fields.
-/
namespace Dart.Props
open Spec

/-- C13: whenever projecting a finalized object on a list of keys gives a result, it is the finalized
form of the object restricted to the requested keys (`us`): the same value under every requested key
that is present, nothing else. The bytes are those of finalizing `us` (unless JSON parsed into a buffer is involved,
which leaves arbitrary bytes in unused places). -/
theorem C13_project_is_restriction (signed exact : Bool) (b d : Buf) (fs us : List (Bytes × Val)) (ks : List Bytes)
    (hb : Obtained signed exact b) (vb : b.value = some (.obj fs)) (hd : b.project ks = .ok d)
    (hu : (Val.obj us).WF) (hus : ∀ k, lookup us k = if k ∈ ks then lookup fs k else none) :
    d.value = some (.obj us) ∧
    (exact = true → ∀ m, finalize (.obj us) = .ok m → getBytes d.mem = getBytes m ∧ (getBytes m).isSome) := by
  have sb := hb.shows_value vb
  have e := restrict_unique sb.wf hu hus
  subst e
  obtain ⟨h1, h2⟩ := project_shows sb hd
  refine ⟨h1.value, fun hx m hm => ?_⟩
  rw [h2 hx]
  obtain ⟨h3, h4⟩ := new_bytes (Y := zeros (sizeVal (.obj fs) - sizeVal (.obj (fs.filter (fun f => f.1 ∈ ks))))) hu hm
  exact ⟨h3, by rw [h4]; rfl⟩

/-- C13: the restriction always exists and is unique. -/
theorem C13_restriction_exists (fs : List (Bytes × Val)) (ks : List Bytes) (hf : (Val.obj fs).WF) :
    ∃ us, ((Val.obj us).WF ∧ ∀ k, lookup us k = if k ∈ ks then lookup fs k else none) ∧
      ∀ vs, (Val.obj vs).WF → (∀ k, lookup vs k = if k ∈ ks then lookup fs k else none) → vs = us :=
  ⟨fs.filter fun f => f.1 ∈ ks, ⟨wf_filter hf _, lookup_filter fs ks⟩, fun _ hv h => restrict_unique hf hv h⟩

/-- C13: order and repetition in the request do not matter to the content. -/
theorem C13_request_is_a_set (signed exact : Bool) (b d d' : Buf) (fs : List (Bytes × Val)) (ks ks' : List Bytes)
    (hb : Obtained signed exact b) (vb : b.value = some (.obj fs)) (hk : ∀ k, k ∈ ks ↔ k ∈ ks')
    (hd : b.project ks = .ok d) (hd' : b.project ks' = .ok d') :
    d.value = d'.value ∧ d.value.isSome ∧ (exact = true → d = d') := by
  have sb := hb.shows_value vb
  have e : (fs.filter fun f => decide (f.1 ∈ ks)) = fs.filter fun f => decide (f.1 ∈ ks') := by
    apply List.filter_congr
    intro f _
    simp [hk]
  obtain ⟨h1, h2⟩ := project_shows sb hd
  obtain ⟨h1', h2'⟩ := project_shows sb hd'
  refine ⟨by rw [h1.value, h1'.value, e], by rw [h1.value]; rfl, fun hx => ?_⟩
  rw [h2 hx, h2' hx, e]

/-- Non-vacuity: projecting the sample on three keys, one of them absent and one repeated, gives the
bytes of the finalized restriction. -/
example : (match finalize sample, finalize (.obj [([97], .int 1), ([99, 99], .obj [([107], .dec 0x3fe0000000000000)])]) with
    | .ok m, .ok u => match (Buf.ofBytes m).project [[99, 99], [97], [122], [97]] with
      | .ok d => decide (getBytes d.mem = getBytes u)
      | _ => false
    | _, _ => false) = true := by decide +kernel

end Dart.Props
