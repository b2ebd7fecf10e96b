import Verif.Lemmas.Laws
import Verif.Model.Sample

/-
C29: building a finalized object directly from pairs.
-/
namespace Dart.Props
open Spec

/-- C29: given a list of pairs (the arguments stand for key, value, key, value, …), `make_object`
succeeds if the keys are distinct and at most 65535 bytes long, and throws `invalid_argument`
otherwise. In no case does it write outside its allocation (`ub`). -/
theorem C29_accepts_exactly (signed exact : Bool) (args : List Pkt) (ps : List (Bytes × Val))
    (ha : ∀ a ∈ args, a.Usable signed exact)
    (va : args.map Pkt.value = ps.flatMap (fun p => [some (.str p.1), some p.2])) :
    (((ps.map (·.1)).Nodup ∧ ∀ p ∈ ps, p.1.length ≤ 65535) → ∃ d, Buf.makeObject args = .ok d) ∧
    (¬ ((ps.map (·.1)).Nodup ∧ ∀ p ∈ ps, p.1.length ≤ 65535) → Buf.makeObject args = .throw .invalidArgument) := by
  obtain ⟨h1, h2⟩ := make_spec args ps ha va
  exact ⟨fun h => by obtain ⟨fs, n, _, _, _, _, _, _, h⟩ := h1 h; exact ⟨_, h⟩, h2⟩

/-- C29: anything that is not a list of pairs with string keys is rejected: an odd number of
arguments, or an argument in key position whose value is not a string. -/
theorem C29_rejects_other_arguments (signed exact : Bool) (args : List Pkt) (ha : ∀ a ∈ args, a.Usable signed exact)
    (h : args.length % 2 = 1 ∨ ∃ (i : Nat) (a : Pkt), args[2 * i]? = some a ∧ ∀ s, a.value ≠ some (.str s)) :
    Buf.makeObject args = .throw .invalidArgument := by
  by_cases hodd : args.length % 2 = 1
  · simp [Buf.makeObject, hodd]
  · obtain ⟨i, a, hi, hs⟩ := h.resolve_left hodd
    obtain ⟨ps, rfl⟩ := exists_flat args (by omega)
    have hpk : ∀ p ∈ flatArgs ps, ∃ v, PktOf exact p v := fun p hp => by
      obtain ⟨v, _, hv⟩ := (ha p hp).exists_value
      exact ⟨v, hv⟩
    have hget : ∀ (ps : List (Pkt × Pkt)) (i : Nat), (flatArgs ps)[2 * i]? = ps[i]?.map (·.1) := by
      intro ps
      induction ps with
      | nil => simp [flatArgs]
      | cons p ps ih =>
        intro i
        cases i with
        | zero => simp [flatArgs]
        | succ i =>
          have := ih i
          simp only [flatArgs] at this ⊢
          simpa [Nat.mul_add] using this
    rw [hget] at hi
    obtain ⟨p, hp, rfl⟩ := Option.map_eq_some_iff.1 hi
    have hmem := List.mem_of_getElem? hp
    obtain ⟨v, hv1, hv⟩ := (ha p.1 (mem_flatArgs.2 ⟨p, hmem, .inl rfl⟩)).exists_value
    have hns : p.1.isStr = false := by
      cases hc : p.1.isStr with
      | false => rfl
      | true =>
        obtain ⟨s, rfl⟩ := hv.isStr.1 hc
        exact absurd hv1 (hs s)
    have := groupPairs_throw ps (fun q hq => hpk _ (mem_flatArgs.2 ⟨q, hq, .inl rfl⟩)) ⟨p, hmem, hns⟩
    simp only [Buf.makeObject, hodd, if_false, this, Res.bind]

/-- C29 (partial; full claim: without the hypothesis that the dynamic object can be finalized, which
is false, see below): the bytes are those of building the dynamic object from the same pairs and
finalizing it (unless JSON parsed into a buffer is involved, which leaves arbitrary bytes in unused places). Missing:
objects of 4 GiB and more. -/
theorem C29_same_bytes_partial (signed exact : Bool) (args : List Pkt) (ps : List (Bytes × Val)) (d : Buf)
    (ha : ∀ a ∈ args, a.Usable signed exact)
    (va : args.map Pkt.value = ps.flatMap (fun p => [some (.str p.1), some p.2]))
    (hd : Buf.makeObject args = .ok d) :
    ∃ us, Val.makeObject (ps.flatMap fun p => [.str p.1, p.2]) = .ok (.obj us) ∧ us.Perm ps ∧
      ∀ m, finalize (.obj us) = .ok m →
        d.value = some (.obj us) ∧ (exact = true → getBytes d.mem = getBytes m ∧ (getBytes m).isSome) := by
  obtain ⟨h1, h2⟩ := make_spec args ps ha va
  by_cases hc : (ps.map (·.1)).Nodup ∧ ∀ p ∈ ps, p.1.length ≤ 65535
  · obtain ⟨fs, n, bs, f1, f2, f3, f4, fi, f5⟩ := h1 hc
    rw [f5] at hd; cases hd
    obtain ⟨rs, r1, r2, r3⟩ := heapInject_ok ps [] (wf_obj.2 ⟨by simp [Sorted], by simp⟩) hc.1 hc.2 (made_wf args ps ha va)
    have e : rs = fs := sorted_ext (wf_obj.1 r2).1 (wf_obj.1 f2).1 (funext fun k => by
      rw [r3 k, lookup_perm hc.1 f1]; cases lookup ps k <;> rfl)
    subst e
    refine ⟨rs, r1, f1, fun m hm => ?_⟩
    obtain ⟨_, _, _, _, _, _, hfit⟩ := finalize_eq_ok r2 hm
    obtain ⟨h3, h4⟩ := new_bytes (Y := zeros (n - sizeVal (.obj rs))) r2 hm
    exact ⟨(shows_image r2 hfit fi _).value, fun hx => by rw [fi.2.2 hx]; exact ⟨h3, by rw [h4]; rfl⟩⟩
  · rw [h2 hc] at hd; cases hd

/-- C29: the order of the pairs, and whether they are given as dynamic values or as buffers, does not
matter. -/
theorem C29_order_irrelevant (signed exact : Bool) (args args' : List Pkt) (ps ps' : List (Bytes × Val))
    (ha : ∀ a ∈ args, a.Usable signed exact) (ha' : ∀ a ∈ args', a.Usable signed exact)
    (va : args.map Pkt.value = ps.flatMap (fun p => [some (.str p.1), some p.2]))
    (va' : args'.map Pkt.value = ps'.flatMap (fun p => [some (.str p.1), some p.2]))
    (hp : ps.Perm ps') :
    (∃ d d', Buf.makeObject args = .ok d ∧ Buf.makeObject args' = .ok d' ∧
      (d.mem.length < 2 ^ 32 → d.value = d'.value ∧ d.value.isSome ∧
        (exact = true → getBytes d.mem = getBytes d'.mem ∧ (getBytes d.mem).isSome))) ∨
    (Buf.makeObject args = .throw .invalidArgument ∧ Buf.makeObject args' = .throw .invalidArgument) := by
  obtain ⟨h1, h2⟩ := make_spec args ps ha va
  obtain ⟨h1', h2'⟩ := make_spec args' ps' ha' va'
  have hiff : ((ps.map (·.1)).Nodup ∧ ∀ p ∈ ps, p.1.length ≤ 65535) ↔
      ((ps'.map (·.1)).Nodup ∧ ∀ p ∈ ps', p.1.length ≤ 65535) := by
    rw [(hp.map (·.1)).nodup_iff]
    simp only [hp.mem_iff]
  by_cases hc : (ps.map (·.1)).Nodup ∧ ∀ p ∈ ps, p.1.length ≤ 65535
  · left
    obtain ⟨fs, n, bs, f1, f2, f3, f4, fi, f5⟩ := h1 hc
    obtain ⟨fs', n', bs', f1', f2', f3', f4', fi', f5'⟩ := h1' (hiff.1 hc)
    refine ⟨_, _, f5, f5', fun hl => ?_⟩
    have e := perm_unique hc.1 f2 f2' f1 (f1'.trans hp.symm)
    subst e
    simp only [Buf.ofBytes, List.length_append, fi.1, zeros_length] at hl
    have hfit := fits_obj_of f3 (by omega)
    have v1 := (shows_image f2 hfit fi (zeros (n - sizeVal (.obj fs)))).value
    refine ⟨?_, by rw [v1]; rfl, fun hx => ?_⟩
    · rw [v1, (shows_image f2 hfit fi' _).value]
    · rw [fi.2.2 hx, fi'.2.2 hx]
      simp only [Buf.ofBytes]
      rw [getBytes_enc fs (by omega), getBytes_enc fs (by omega)]
      exact ⟨rfl, rfl⟩
  · exact .inr ⟨h2 hc, h2' (mt hiff.2 hc)⟩

theorem exists_length (n : Nat) : ∃ x : Bytes, x.length = n := ⟨List.replicate n 0, List.length_replicate⟩

/-- C29, negation of the full claim: there is no limit on the size of the whole object. With two
strings of 2 GiB, finalizing the dynamic object throws `length_error`, while `make_object` returns an
object whose recorded size is 48 bytes. -/
theorem C29_negation_no_size_limit :
    ∃ (x : Bytes) (d : Buf), x.length = 2 ^ 31 ∧
      Buf.makeObject [.heap (.str [97]), .heap (.str x), .heap (.str [98]), .heap (.str x)] = .ok d ∧
      d.sizeof = some 48 ∧ finalize (.obj [([97], .str x), ([98], .str x)]) = .throw .lengthError := by
  obtain ⟨x, hlen⟩ := exists_length (2 ^ 31)
  have hlen' : x.length = 2147483648 := hlen
  have husable : ∀ s : Bytes, s.length < 2 ^ 32 → (Pkt.heap (.str s)).Usable true true :=
    fun s h => ⟨by simp only [Val.WF.eq_def]; exact h, _, rfl⟩
  obtain ⟨h1, _⟩ := make_spec (signed := true) (exact := true)
    [.heap (.str [97]), .heap (.str x), .heap (.str [98]), .heap (.str x)] [([97], .str x), ([98], .str x)]
    (by intro a ha; simp only [List.mem_cons, List.not_mem_nil, or_false] at ha
        rcases ha with rfl | rfl | rfl | rfl <;> refine husable _ ?_ <;> simp [hlen']) (by simp [Pkt.value])
  obtain ⟨fs, n, bs, f1, f2, f3, f4, fi, f5⟩ := h1 ⟨by simp, by simp⟩
  rw [fi.2.2 rfl] at f5
  have hw : (Val.obj [([97], .str x), ([98], .str x)]).WF := by
    rw [wf_obj]
    refine ⟨?_, by simp [Val.WF.eq_def, hlen']⟩
    simp only [Sorted, List.pairwise_cons, List.mem_cons, List.not_mem_nil, or_false, forall_eq]
    exact ⟨by decide +kernel, by simp, by simp⟩
  have e := perm_unique (by simp) f2 hw f1 (List.Perm.refl _)
  subst e
  have hsz : sizeVal (.obj [([97], .str x), ([98], .str x)]) = 2 ^ 32 + 48 := by
    have hr : (Val.str x).rawType.align = 4 := by
      simp only [Val.rawType, identifyString]
      rw [if_pos (by omega)]; rfl
    have hs : strSize x = 2147483653 := by
      simp only [strSize, strLw, identifyString]
      rw [if_pos (by omega), hlen']
    have hk : ∀ c : UInt8, strSize [c] = 4 := fun _ => rfl
    simp only [sizeVal, fieldsEnd, hr, hs, hk, List.length_cons, List.length_nil, alignUp]
  refine ⟨x, _, hlen, f5, ?_, ?_⟩
  · simp only [Buf.sizeof, Buf.ofBytes, findSizeof, enc, List.append_assoc]
    rw [show leBytes 4 (sizeVal (.obj [([97], .str x), ([98], .str x)])) = leBytes 4 48 by
      rw [hsz, Nat.add_comm]; exact leBytes_add_pow 4 48]
    exact readU_mid [] _ 4 48 0 rfl (by decide)
  · have hub : stringUB x = 2147483653 := by
      simp only [stringUB, identifyString]
      rw [if_pos (by omega)]
      simp only [hlen']
    have : upperBound (.obj [([97], .str x), ([98], .str x)]) = none := by
      simp only [upperBound, fieldsUB, hub, bind, Option.bind]
      rw [if_pos]
      refine Nat.lt_of_lt_of_le ?_ (le_alignUp _ (by decide))
      omega
    simp only [finalize, this]

/-- C29, negation: an argument that is itself too large to be finalized is not refused. `basic_packet::upper_bound` is `noexcept`
(include/dart/packet/detail.tcc 13) and the `length_error` of the value ends the program (`ub`), where finalizing it throws. -/
theorem C29_negation_large_argument :
    (∀ k v, k.length ≤ 65535 → upperBound v = none → Buf.makeObject [.heap (.str k), .heap v] = .ub) ∧
    ∃ x : Bytes, x.length = 2 ^ 31 ∧ upperBound (.obj [([97], .str x), ([98], .str x)]) = none ∧
      finalize (.obj [([97], .str x), ([98], .str x)]) = .throw .lengthError := by
  constructor
  · intro k v hk hv
    have h1 : Pkt.isStr (.heap (.str k)) = true := rfl
    have h2 : Pkt.strv (.heap (.str k)) = .ok k := rfl
    have h4 : (Pkt.heap v).upperBound = none := hv
    have h5 : (Pkt.heap (.str k)).upperBound = some (stringUB k) := by simp [Pkt.upperBound, upperBound]
    have h6 : ¬ k.length > 65535 := by omega
    simp [Buf.makeObject, groupPairs, h1, h2, Res.bind, buildBuffer, sortByKey, insertSorted, maxBytes, pairsBytes, h4, h5, h6, Res.ofRead]
  · obtain ⟨x, d, h1, _, _, h2⟩ := C29_negation_no_size_limit
    refine ⟨x, h1, ?_, h2⟩
    simp only [finalize] at h2
    cases hu : upperBound (.obj [([97], .str x), ([98], .str x)]) with
    | none => rfl
    | some n =>
      rw [hu] at h2
      simp only at h2
      split at h2 <;> cases h2

/-- Non-vacuity: a repeated key, three arguments, a numeric key; and a buffer among the arguments, in
two orders. -/
example : (match Buf.makeObject [.heap (.str [97]), .heap .null, .heap (.str [97]), .heap .null],
      Buf.makeObject [.heap (.str [97]), .heap .null, .heap (.str [98])], Buf.makeObject [.heap (.int 1), .heap .null] with
    | .throw .invalidArgument, .throw .invalidArgument, .throw .invalidArgument => true
    | _, _, _ => false) = true := by decide +kernel
example : (match finalize sample with
    | .ok m => match Buf.makeObject [.heap (.str [98]), .buf (Buf.ofBytes m), .heap (.str [97]), .heap (.int 7)],
        Buf.makeObject [.heap (.str [97]), .heap (.int 7), .heap (.str [98]), .heap sample],
        finalize (.obj [([97], .int 7), ([98], sample)]) with
      | .ok d, .ok d', .ok m => decide (getBytes d.mem = getBytes m ∧ getBytes d'.mem = getBytes m)
      | _, _, _ => false
    | _ => false) = true := by decide +kernel

end Dart.Props
