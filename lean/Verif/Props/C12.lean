import Verif.Lemmas.Overflow
import Verif.Lemmas.Room
import Verif.Spec.Small

/-
C12: injecting into a finalized object never writes outside the allocation.
-/
namespace Dart.Props
open Spec

/-- Base and incoming object of the overflow: three 8-byte integers, three 2-byte integers, keys
interleaved. -/
def overflowBase : Val := .obj [([97, 97, 97, 97, 1], .int (BitVec.ofNat 64 (2 ^ 40))),
  ([97, 97, 97, 97, 3], .int (BitVec.ofNat 64 (2 ^ 40))), ([97, 97, 97, 97, 5], .int (BitVec.ofNat 64 (2 ^ 40)))]
def overflowIncoming : Val := .obj [([97, 97, 97, 97, 2], .int 1), ([97, 97, 97, 97, 4], .int 1),
  ([97, 97, 97, 97, 6], .int 1)]

/-- C12, negation: the claim is false. Merging these two well-formed small objects writes outside
the allocation (outcome `ub`). -/
theorem C12_negation_overflow : (match finalize overflowBase, finalize overflowIncoming with
    | .ok m, .ok m' => match (Buf.ofBytes m).merge (Buf.ofBytes m') with
      | .ub => true
      | _ => false
    | _, _ => false) = true := by decide +kernel

/-- The same overflow through `inject` with a list of pairs. -/
theorem C12_negation_inject : (match finalize overflowBase with
    | .ok m => match (Buf.ofBytes m).inject [.heap (.str [97, 97, 97, 97, 2]), .heap (.int 1),
        .heap (.str [97, 97, 97, 97, 4]), .heap (.int 1), .heap (.str [97, 97, 97, 97, 6]), .heap (.int 1)] with
      | .ub => true
      | _ => false
    | _ => false) = true := by decide +kernel

/-- The two objects are well formed. -/
theorem overflow_wf : overflowBase.WF ∧ overflowIncoming.WF := by
  simp only [overflowBase, overflowIncoming, wf_obj, Sorted]
  refine ⟨⟨by decide +kernel, by simp [Val.WF.eq_def]⟩, by decide +kernel, by simp [Val.WF.eq_def]⟩

/-- C12: exactly when nothing is written outside the allocation: if the fields of the union, stored behind a table with
room for the fields of both objects, fit into the sizes of both objects. -/
theorem C12_safe_iff (signed exact : Bool) (b c : Buf) (fs gs us : List (Bytes × Val)) (n k : Nat)
    (hb : Obtained signed exact b) (hc : Obtained signed exact c)
    (vb : b.value = some (.obj fs)) (vc : c.value = some (.obj gs))
    (sb : b.sizeof = some n) (sc : c.sizeof = some k) (hnk : n + k < 2 ^ 32)
    (hu : (Val.obj us).WF) (hus : ∀ key, lookup us key = (lookup gs key).or (lookup fs key)) :
    ((∃ d, b.merge c = .ok d) ↔ roomFields (8 + 8 * (fs.length + gs.length)) us ≤ n + k) ∧
    ((¬ ∃ d, b.merge c = .ok d) ↔ b.merge c = .ub) := by
  have hb' := hb.shows_value vb
  have hc' := hc.shows_value vc
  have e := union_unique hb'.wf hc'.wf hu hus
  subst e
  rw [hb'.sizeof] at sb; cases sb
  rw [hc'.sizeof] at sc; cases sc
  have hex := merge_image hb' hc' hnk
  rw [roomFields_eq _ (by simp only [Val.WF] at hu; exact hu.2)]
  by_cases hfit : fieldsEnd (8 + 8 * (fs.length + gs.length)) (mergeFields fs gs) ≤ sizeVal (.obj fs) + sizeVal (.obj gs)
  · rw [if_pos hfit] at hex
    obtain ⟨⟨_, _, h⟩, _⟩ := hex
    simp [hfit, h]
  · rw [if_neg hfit] at hex
    simp [hfit, hex]

/-- In the negation above the union needs 146 bytes, of which 80 + 64 are there. -/
example : roomFields (8 + 8 * (3 + 3)) [([97, 97, 97, 97, 1], .int (BitVec.ofNat 64 (2 ^ 40))),
    ([97, 97, 97, 97, 2], .int 1), ([97, 97, 97, 97, 3], .int (BitVec.ofNat 64 (2 ^ 40))), ([97, 97, 97, 97, 4], .int 1),
    ([97, 97, 97, 97, 5], .int (BitVec.ofNat 64 (2 ^ 40))), ([97, 97, 97, 97, 6], .int 1)] = 146 ∧
    overflowBase.room = 80 ∧ overflowIncoming.room = 64 := by decide +kernel

/-- C12 (partial; full claim: for all pairs of objects, which is false): nothing is written outside
the allocation if the incoming fields stay together, i.e. no base field that is kept lies between two
incoming ones in key order. Missing: interleaved fields. -/
theorem C12_incoming_contiguous_partial (signed exact : Bool) (b c : Buf) (fs gs : List (Bytes × Val)) (n k : Nat)
    (hb : Obtained signed exact b) (hc : Obtained signed exact c)
    (vb : b.value = some (.obj fs)) (vc : c.value = some (.obj gs))
    (sb : b.sizeof = some n) (sc : c.sizeof = some k) (hnk : n + k < 2 ^ 32)
    (h : ∀ f ∈ fs, ∀ g ∈ gs, ∀ g' ∈ gs, KeyBefore g.1 f.1 → KeyBefore f.1 g'.1 → f.1 ∈ gs.map (·.1)) :
    ∃ d, b.merge c = .ok d := by
  have hb' := hb.shows_value vb
  have hc' := hc.shows_value vc
  rw [hb'.sizeof] at sb; cases sb
  rw [hc'.sizeof] at sc; cases sc
  have hf := (wf_obj.1 hb'.wf).1
  have hg := (wf_obj.1 hc'.wf).1
  have hex := merge_image hb' hc' hnk
  have hfit : fieldsEnd (8 + 8 * (fs.length + gs.length)) (mergeFields fs gs) ≤
      sizeVal (.obj fs) + sizeVal (.obj gs) := by
    by_cases hne : gs = []
    · subst hne
      rw [mergeFields_nil_right]
      have := three_runs (fs := fs) (gs := []) (A := fs) (M := []) (B := []) (by simp) (by simp)
      simpa using this
    · rw [merge_one_run hf hg hne (fun f hf g hg g' hg' h1 h2 =>
        h f hf g hg g' hg' (keyLt_iff_spec.1 h1) (keyLt_iff_spec.1 h2))]
      exact three_runs (before_append_after fs gs hf hne) (List.Sublist.refl _)
  rw [if_pos hfit] at hex
  obtain ⟨⟨_, _, h⟩, _⟩ := hex
  exact ⟨_, h⟩

/-- C12 (partial): in particular injecting a single pair is always safe. -/
theorem C12_single_pair_partial (signed exact : Bool) (b c : Buf) (fs : List (Bytes × Val)) (key : Bytes) (x : Val) (n k : Nat)
    (hb : Obtained signed exact b) (hc : Obtained signed exact c)
    (vb : b.value = some (.obj fs)) (vc : c.value = some (.obj [(key, x)]))
    (sb : b.sizeof = some n) (sc : c.sizeof = some k) (hnk : n + k < 2 ^ 32) :
    ∃ d, b.merge c = .ok d := by
  refine C12_incoming_contiguous_partial signed exact b c fs [(key, x)] n k hb hc vb vc sb sc hnk ?_
  intro f _ g hg g' hg' h1 h2
  simp only [List.mem_singleton] at hg hg'
  subst hg; subst hg'
  have := keyLt_asymm (keyLt_iff_spec.2 h1)
  rw [keyLt_iff_spec.2 h2] at this
  cases this

/-- C12 (partial): the same if all incoming keys lie before all base keys or after all of them. -/
theorem C12_base_contiguous_partial (signed exact : Bool) (b c : Buf) (fs gs : List (Bytes × Val)) (n k : Nat)
    (hb : Obtained signed exact b) (hc : Obtained signed exact c)
    (vb : b.value = some (.obj fs)) (vc : c.value = some (.obj gs))
    (sb : b.sizeof = some n) (sc : c.sizeof = some k) (hnk : n + k < 2 ^ 32)
    (h : ∀ g ∈ gs, (∀ f ∈ fs, KeyBefore g.1 f.1) ∨ (∀ f ∈ fs, KeyBefore f.1 g.1)) :
    ∃ d, b.merge c = .ok d := by
  have hb' := hb.shows_value vb
  have hc' := hc.shows_value vc
  rw [hb'.sizeof] at sb; cases sb
  rw [hc'.sizeof] at sc; cases sc
  have hf := (wf_obj.1 hb'.wf).1
  have hg := (wf_obj.1 hc'.wf).1
  have hex := merge_image hb' hc' hnk
  have hfit : fieldsEnd (8 + 8 * (fs.length + gs.length)) (mergeFields fs gs) ≤
      sizeVal (.obj fs) + sizeVal (.obj gs) := by
    by_cases hne : fs = []
    · subst hne
      rw [mergeFields_nil_left]
      have := three_runs (fs := gs) (gs := []) (A := gs) (M := []) (B := []) (by simp) (by simp)
      rw [List.append_nil, List.append_nil] at this
      simp only [List.length_nil, Nat.zero_add, Nat.add_zero] at this ⊢
      omega
    · rw [merge_base_run hf hg hne (fun g hg => (h g hg).imp (fun h f hf => keyLt_iff_spec.2 (h f hf))
        (fun h f hf => keyLt_iff_spec.2 (h f hf)))]
      have := three_runs (fs := gs) (gs := fs) (before_append_after gs fs hg hne) (List.Sublist.refl fs)
      rw [Nat.add_comm gs.length] at this
      omega
  rw [if_pos hfit] at hex
  obtain ⟨⟨_, _, h⟩, _⟩ := hex
  exact ⟨_, h⟩

/-- C12 (partial): however the keys interleave, the merge is safe if all values are null, booleans,
integers of at most 16 bits or strings of at most 65535 bytes. -/
theorem C12_small_values_partial (signed exact : Bool) (b c : Buf) (fs gs : List (Bytes × Val)) (n k : Nat)
    (hb : Obtained signed exact b) (hc : Obtained signed exact c)
    (vb : b.value = some (.obj fs)) (vc : c.value = some (.obj gs))
    (sb : b.sizeof = some n) (sc : c.sizeof = some k) (hnk : n + k < 2 ^ 32)
    (hf : ∀ f ∈ fs, Small f.2) (hg : ∀ g ∈ gs, Small g.2) : ∃ d, b.merge c = .ok d := by
  have hb' := hb.shows_value vb
  have hc' := hc.shows_value vc
  rw [hb'.sizeof] at sb; cases sb
  rw [hc'.sizeof] at sc; cases sc
  have hsmall : ∀ v : Val, Small v → v.rawType.align ∣ 2 := by
    intro v hv
    cases v with
    | null => decide
    | bool _ => simp only [Val.rawType]; decide
    | int i =>
      simp only [Small] at hv
      have h1 : ¬ (i.toInt > 2147483647 ∨ i.toInt < -2147483648) := by omega
      have h2 : ¬ (i.toInt > 32767 ∨ i.toInt < -32768) := by omega
      simp only [Val.rawType, identifyInteger, h1, h2, if_false]
      decide
    | str s => rw [str_align hv]; exact Nat.dvd_refl 2
    | _ => exact absurd hv id
  have hex := merge_image hb' hc' hnk
  rw [if_pos (two_aligned_fits (fun f h => hsmall _ (hf f h)) (fun g h => hsmall _ (hg g h)))] at hex
  obtain ⟨⟨_, _, h⟩, _⟩ := hex
  exact ⟨_, h⟩

/-- Non-vacuity of the safe cases: contiguous incoming keys with the same 8-byte values, and small
values interleaved in any number of runs. -/
example : (match finalize overflowBase, finalize (.obj [([97, 97, 97, 97, 3], .int 1), ([97, 97, 97, 97, 4], .int 1)]) with
    | .ok m, .ok m' => match (Buf.ofBytes m).merge (Buf.ofBytes m') with
      | .ok d => d.size.toOption
      | _ => none
    | _, _ => none) = some 4 := by decide +kernel
example : (match finalize overflowIncoming, finalize (.obj [([97, 97, 97, 97, 1], .null), ([97, 97, 97, 97, 3], .int 1),
      ([97, 97, 97, 97, 5], .str [120]), ([97, 97, 97, 97, 6], .bool true)]) with
    | .ok m, .ok m' => match (Buf.ofBytes m).merge (Buf.ofBytes m') with
      | .ok d => d.size.toOption
      | _ => none
    | _, _ => none) = some 6 := by decide +kernel

end Dart.Props
