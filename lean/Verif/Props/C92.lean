import Verif.Lemmas.SizeParse
import Verif.Lemmas.Packet
import Verif.Lemmas.JsonText
import Verif.Lemmas.Room
import Verif.Lemmas.Laws
import Verif.Lemmas.Overflow
import Verif.Spec.Obtained
import Verif.Model.Sample

/-
C92: how many bytes a finalized object takes, and which objects are too large.
-/
namespace Dart.Props
open Spec

/-- C92: an object finalizes unless it is huge. 42 bytes for each value in it, and the characters of its keys and strings, are enough
memory; if that is within 4 GiB, there is no exception. -/
theorem C92_small_succeeds (fs : List (Bytes × Val)) (hw : (Val.obj fs).WF)
    (h : 42 * weight (.obj fs) + textLength (.obj fs) ≤ 2 ^ 32) :
    ∃ m, finalize (.obj fs) = .ok m ∧ m.length + 19 ≤ 42 * weight (.obj fs) + textLength (.obj fs) := by
  obtain ⟨n, h1, h2⟩ := small_upperBound _ hw (by omega)
  obtain ⟨h3, h4, _⟩ := finalize_ok hw h1
  have hr : (Val.obj fs).rawType.align = 8 := rfl
  exact ⟨_, h3, by simp only [List.length_append, enc_length, zeros_length]; omega⟩

/-- C92: the bytes handed out are as many as the value takes by the rules of the format (`Val.room`), and 8 bytes for each value and the
characters at least; so an object for which this is 4 GiB or more is refused with a length error. -/
theorem C92_size (v : Val) (m : Bytes) (hw : v.WF) (h : finalize v = .ok m) :
    ∃ bs, getBytes m = some bs ∧ bs.length = v.room ∧ 8 * weight v + textLength v ≤ bs.length ∧ bs.length < 2 ^ 32 := by
  obtain ⟨fs, n, rfl, _, hm, h1, h2⟩ := finalize_eq_ok hw h
  simp only [Fits] at h2
  have hs := enc_length (.obj fs)
  refine ⟨enc (.obj fs), by rw [hm]; exact getBytes_enc fs h2.1 _, ?_, ?_, by omega⟩
  · rw [hs, room_eq _ hw]
  · rw [hs]; exact le_sizeVal_obj _

/-- C92: what is too large is refused. -/
theorem C92_large_refused (fs : List (Bytes × Val)) (hw : (Val.obj fs).WF)
    (h : 2 ^ 32 ≤ 8 * weight (.obj fs) + textLength (.obj fs)) : finalize (.obj fs) = .throw .lengthError := by
  cases hu : upperBound (.obj fs) with
  | none => simp only [finalize, hu]
  | some n =>
    obtain ⟨_, _, h3⟩ := finalize_ok hw hu
    simp only [Fits] at h3
    have := le_sizeVal_obj fs
    omega

/-- C92: the memory allocated exceeds the bytes handed out by less than 23 bytes for each value. -/
theorem C92_unused (v : Val) (m bs : Bytes) (hw : v.WF) (h : finalize v = .ok m) (hb : getBytes m = some bs) :
    bs.length ≤ m.length ∧ m.length + 8 ≤ bs.length + 23 * weight v := by
  obtain ⟨fs, n, rfl, hu, hm, h1, h2⟩ := finalize_eq_ok hw h
  simp only [Fits] at h2
  rw [hm, getBytes_enc fs h2.1] at hb
  cases hb
  have := ub_le_sizeVal _ n hw hu
  have hr : (Val.obj fs).rawType.align = 8 := rfl
  rw [hm]
  simp only [List.length_append, enc_length, zeros_length]
  omega

/-- C92: projecting saves at least 8 bytes for every field left out. -/
theorem C92_projected (signed exact : Bool) (b d : Buf) (fs us : List (Bytes × Val)) (ks : List Bytes) (n k : Nat)
    (hb : Obtained signed exact b) (vb : b.value = some (.obj fs)) (hd : b.project ks = .ok d) (vd : d.value = some (.obj us))
    (sb : b.sizeof = some n) (sd : d.sizeof = some k) : us.length ≤ fs.length ∧ k + 8 * (fs.length - us.length) ≤ n := by
  have hs := hb.shows_value vb
  obtain ⟨h1, _⟩ := project_shows hs hd
  rw [h1.value] at vd
  cases vd
  rw [hs.sizeof] at sb; cases sb
  rw [h1.sizeof] at sd; cases sd
  exact ⟨List.length_filter_le _ _, sizeVal_filter _ _⟩

/-- C92: the memory allocated for a projection is that of the whole object, whatever was asked for; what is not needed stays zero. -/
theorem C92_projection_keeps_size (signed exact : Bool) (b d : Buf) (fs : List (Bytes × Val)) (ks : List Bytes) (n k : Nat)
    (hb : Obtained signed exact b) (vb : b.value = some (.obj fs)) (hd : b.project ks = .ok d)
    (sb : b.sizeof = some n) (sd : d.sizeof = some k) : d.mem.length = n ∧ d.mem.drop k = List.replicate (n - k) 0 := by
  have hs := hb.shows_value vb
  rw [hs.sizeof] at sb; cases sb
  have hex := project_image hs ks
  split at hex
  · obtain ⟨⟨bs, h0, h⟩, h'⟩ := hex
    obtain ⟨h1, _⟩ := project_shows hs hd
    rw [h1.sizeof] at sd; cases sd
    rw [h] at hd; cases hd
    have hl := h0.1
    constructor
    · simp only [Buf.ofBytes, List.length_append, zeros_length]; omega
    · simp only [Buf.ofBytes]
      rw [← hl, List.drop_left]
      rfl
  · rw [hd] at hex; cases hex

/-- C92 (partial; missing: results of 4 GiB and more are not refused, see below): merging two objects takes no more bytes than both, and 8
less for every field replaced. -/
theorem C92_merged_partial (signed exact : Bool) (b c d : Buf) (fs gs us : List (Bytes × Val)) (n k t : Nat)
    (hb : Obtained signed exact b) (hc : Obtained signed exact c) (vb : b.value = some (.obj fs)) (vc : c.value = some (.obj gs))
    (hd : b.merge c = .ok d) (vd : d.value = some (.obj us)) (sb : b.sizeof = some n) (sc : c.sizeof = some k)
    (hnk : n + k < 2 ^ 32) (sd : d.sizeof = some t) :
    us.length ≤ fs.length + gs.length ∧ t + 8 * (fs.length + gs.length - us.length) ≤ n + k := by
  have hb' := hb.shows_value vb
  have hc' := hc.shows_value vc
  rw [hb'.sizeof] at sb; cases sb
  rw [hc'.sizeof] at sc; cases sc
  have hex := merge_image hb' hc' hnk
  split at hex
  · rename_i hfit
    obtain ⟨⟨bs, h0, h⟩, h'⟩ := hex
    have hle := mergeFields_length fs gs
    have hdl : d.mem.length < 2 ^ 32 := by
      rw [h] at hd; cases hd
      have := h0.1
      simp only [Buf.ofBytes, List.length_append, zeros_length]
      omega
    obtain ⟨h1, _⟩ := merge_shows hb' hc' hd hdl
    rw [h1.value] at vd
    cases vd
    rw [h1.sizeof] at sd; cases sd
    refine ⟨hle, ?_⟩
    simp only [sizeVal]
    rw [← alignUp_add_right (by decide) (Nat.dvd_mul_right 8 _), ← fieldsEnd_shift _ _ (Nat.dvd_mul_right 8 _)]
    refine alignUp_le_of_dvd (by decide) (Nat.dvd_add (dvd_alignUp _ _) (dvd_alignUp _ _)) ?_
    simp only [sizeVal] at hfit
    have : 8 + 8 * (mergeFields fs gs).length + 8 * (fs.length + gs.length - (mergeFields fs gs).length) =
      8 + 8 * (fs.length + gs.length) := by omega
    rw [this]
    exact hfit
  · rw [hd] at hex; cases hex

/-- C92: merging sets no limit: what is recorded as the size of the merged object is the lower 32 bits of its size. -/
theorem C92_merged_size (signed exact : Bool) (b c d : Buf) (fs gs us : List (Bytes × Val))
    (hb : Obtained signed exact b) (hc : Obtained signed exact c) (vb : b.value = some (.obj fs)) (vc : c.value = some (.obj gs))
    (hd : b.merge c = .ok d) (hu : (Val.obj us).WF) (hus : ∀ k, lookup us k = (lookup gs k).or (lookup fs k)) :
    d.sizeof = some ((Val.obj us).room % 2 ^ 32) := by
  have hb' := hb.shows_value vb
  have hc' := hc.shows_value vc
  have e := union_unique hb'.wf hc'.wf hu hus
  rw [room_eq _ hu, e]
  exact merge_sizeof hb' hc' hd

/-- C92, negation of "an object of 4 GiB or more is refused" for merging: two objects with a string of 2 GiB each finalize, the object with both
strings is refused, and merging the two finalized objects gives an object with the recorded size of 48 bytes. -/
theorem C92_negation_merge_no_limit : ∃ (x m m' : Bytes) (d : Buf), x.length = 2 ^ 31 ∧ finalize (.obj [([97], .str x)]) = .ok m ∧
    finalize (.obj [([98], .str x)]) = .ok m' ∧ finalize (.obj [([97], .str x), ([98], .str x)]) = .throw .lengthError ∧
    (Buf.ofBytes m).merge (Buf.ofBytes m') = .ok d ∧ d.sizeof = some 48 := by
  obtain ⟨x, hlen⟩ : ∃ x : Bytes, x.length = 2147483648 := ⟨List.replicate 2147483648 0, List.length_replicate⟩
  have hk : ∀ c : UInt8, ([c] : Bytes).length = 1 := fun _ => rfl
  have hw1 : ∀ c : UInt8, (Val.obj [([c], .str x)]).WF := fun c => by
    simp only [Val.WF, WFFields, List.pairwise_singleton, hlen, hk]; exact ⟨trivial, by decide, by decide, trivial⟩
  have hw : (Val.obj [([97], .str x), ([98], .str x)]).WF := by
    rw [wf_obj]
    refine ⟨?_, by simp [Val.WF.eq_def, hlen]⟩
    simp only [Sorted, List.pairwise_cons, List.mem_cons, List.not_mem_nil, or_false, forall_eq]
    exact ⟨by decide +kernel, by simp, by simp⟩
  have hsmall : ∀ c : UInt8, ∃ m, finalize (.obj [([c], .str x)]) = .ok m := fun c => by
    obtain ⟨m, h, _⟩ := C92_small_succeeds [([c], .str x)] (hw1 c) (by
      simp only [weight, weightFields, textLength, textFields, hlen, hk]; omega)
    exact ⟨m, h⟩
  obtain ⟨m, hm⟩ := hsmall 97
  obtain ⟨m', hm'⟩ := hsmall 98
  have hr : (Val.str x).rawType.align = 4 := by
    simp only [Val.rawType, identifyString]
    rw [if_pos (by omega)]; rfl
  have hs : strSize x = 2147483653 := by
    simp only [strSize, strLw, identifyString]
    rw [if_pos (by omega), hlen]
  have hks : ∀ c : UInt8, strSize [c] = 4 := fun _ => rfl
  have hus : ∀ k, lookup [([97], Val.str x), ([98], .str x)] k = (lookup [([98], .str x)] k).or (lookup [([97], .str x)] k) := by
    intro k
    simp only [lookup]
    by_cases h1 : k = [97]
    · subst h1; simp
    · by_cases h2 : k = [98]
      · subst h2; simp
      · simp [Ne.symm h1, Ne.symm h2]
  have he := union_unique (hw1 97) (hw1 98) hw hus
  have sb := (shows_root (hw1 97) hm).weaken (z := true)
  have sc := (shows_root (hw1 98) hm').weaken (z := true)
  obtain ⟨d, hd⟩ := merge_disjoint sb sc (by rw [← he]; rfl) (by
    rw [← he]
    simp only [sizeVal, fieldsEnd, hr, hs, hks, List.length_cons, List.length_nil, alignUp]
    omega)
  refine ⟨x, m, m', d, hlen, hm, hm', C92_large_refused _ hw (by
    simp only [weight, weightFields, textLength, textFields, hlen, hk]; omega), hd, ?_⟩
  rw [merge_sizeof sb sc hd, ← he]
  simp only [sizeVal, fieldsEnd, hr, hs, hks, List.length_cons, List.length_nil, alignUp]

/-- C92: neither does parsing into a finalized object, which allocates 8 bytes for each byte of the text: what is recorded is the lower 32 bits of
the size, if every member is below 4 GiB by itself. -/
theorem C92_parsed_size {sort : List (Bytes × Json) → List (Bytes × Json)} (hs : Sorts sort) {fill : Nat → Bytes}
    (hf : ∀ n, (fill n).length = n) {x : Extensions} {t : Bytes} {fs : List (Bytes × Json)} {us : List (Bytes × Val)}
    (ht : IsText x t (.obj fs)) (hw : Within (.obj fs)) (hd : DistinctNames (.obj fs)) (hv : (Json.obj fs).toHeap = .ok (.obj us))
    (hu : (Val.obj us).WF) (hm : ∀ f ∈ us, f.2.room < 2 ^ 32) :
    ∃ b, Buf.fromJson sort fill t.length (.obj fs) = .ok b ∧ b.mem.length = 8 * t.length ∧ (Val.obj us).room ≤ 8 * t.length ∧
      b.sizeof = some ((Val.obj us).room % 2 ^ 32) := by
  have e : (Json.obj fs).toVal = .obj us := by
    rw [toHeap_obj (lim_of_moderate _ hw)] at hv
    rw [Json.toVal]
    cases hv; rfl
  have hl := hf (t.length * 8)
  obtain ⟨m', sz, h, l, _⟩ := lower_inb (fun fs => (hs fs).1) ht hl
  have hb : Buf.fromJson sort fill t.length (.obj fs) = .ok (Buf.ofBytes m') := by simp only [Buf.fromJson, h]
  have h1 := isText_length ht
  have h2 := size_span ((Json.obj fs).arrange sort)
  rw [arrange_span fun fs => (hs fs).1, arrange_image hs _ hw hd, e] at h2
  refine ⟨_, hb, by simp only [Buf.ofBytes]; omega, by rw [room_eq _ hu]; omega, ?_⟩
  rw [room_eq _ hu]
  refine fromJson_sizeof hs hf ht hw hd e (fun f h => ?_) hb
  rw [← room_eq _ ((wf_obj.1 hu).2 f h).2]
  exact hm f h

/-- C92, negation of "an object of 4 GiB or more is refused" for parsing: there is a text of an object with two strings of 2 GiB that the parser of
dynamic values accepts, whose result cannot be finalized; parsed into a finalized object, it gives one with the recorded size of 48 bytes. -/
theorem C92_negation_parse_no_limit {sort : List (Bytes × Json) → List (Bytes × Json)} (hs : Sorts sort) {fill : Nat → Bytes}
    (hf : ∀ n, (fill n).length = n) : ∃ (t : Bytes) (fs : List (Bytes × Json)) (v : Val) (b : Buf), IsText .default t (.obj fs) ∧
      (Json.obj fs).toHeap = .ok v ∧ finalize v = .throw .lengthError ∧ Buf.fromJson sort fill t.length (.obj fs) = .ok b ∧
      b.sizeof = some 48 := by
  obtain ⟨x, hlen, hx⟩ : ∃ x : Bytes, x.length = 2147483648 ∧ CharsText x x :=
    ⟨List.replicate 2147483648 0x61, List.length_replicate, charsText_plain _⟩
  have hk : ∀ c : UInt8, ([c] : Bytes).length = 1 := fun _ => rfl
  have hws : (Val.str x).WF := by simp only [Val.WF, hlen]; decide
  have hw : (Val.obj [([97], .str x), ([98], .str x)]).WF := by
    rw [wf_obj]
    refine ⟨?_, by simp [hws]⟩
    simp only [Sorted, List.pairwise_cons, List.mem_cons, List.not_mem_nil, or_false, forall_eq]
    exact ⟨by decide +kernel, by simp, by simp⟩
  have hr : (Val.str x).rawType.align = 4 := by
    simp only [Val.rawType, identifyString]
    rw [if_pos (by omega)]; rfl
  have hsz : strSize x = 2147483653 := by
    simp only [strSize, strLw, identifyString]
    rw [if_pos (by omega), hlen]
  have hks : ∀ c : UInt8, strSize [c] = 4 := fun _ => rfl
  have key : ∀ c : UInt8, 0x61 ≤ c → c ≤ 0x7a → StringText [0x22, c, 0x22] [c] := fun c h1 h2 =>
    ⟨[c], .plain (UInt8.le_trans (by decide) h1) (fun h => by subst h; exact absurd h1 (by decide))
      (fun h => by subst h; exact absurd h1 (by decide)) .nil, rfl⟩
  have val : ValueText .default (0x22 :: (x ++ [0x22])) (.str x) := .str ⟨x, hx, rfl⟩
  have ht : IsText .default _ (.obj [([97], .str x), ([98], .str x)]) := ⟨[], _, [], .nil,
    .obj (.cons (w₁ := []) (w₂ := []) (w₃ := []) (w₄ := []) .nil .nil .nil .nil (key 97 (by decide) (by decide)) val
      (.one (w₁ := []) (w₂ := []) (w₃ := []) (w₄ := []) (c := []) .nil .nil .nil .nil (key 98 (by decide) (by decide)) val (.inl rfl))),
    ⟨[], [], [], .nil, rfl, .inl rfl, .inl rfl⟩, rfl⟩
  have hwi : Within (.obj [([97], .str x), ([98], .str x)]) := by simp only [Within, WithinFields, hk]; decide
  have hd : DistinctNames (.obj [([97], .str x), ([98], .str x)]) := by simp [DistinctNames, DistinctFields]
  have hv : (Json.obj [([97], .str x), ([98], .str x)]).toHeap = .ok (.obj [([97], .str x), ([98], .str x)]) := by
    rw [toHeap_obj (lim_of_moderate _ hwi)]
    rfl
  obtain ⟨b, h1, _, _, h2⟩ := C92_parsed_size hs hf ht hwi hd hv hw (by
    have : (Val.str x).room < 2 ^ 32 := by rw [room_eq _ hws]; simp only [sizeVal, hsz]; decide
    simp [this])
  refine ⟨_, _, _, b, ht, hv, C92_large_refused _ hw (by
    simp only [weight, weightFields, textLength, textFields, hlen, hk]; omega), h1, ?_⟩
  rw [h2, room_eq _ hw]
  simp only [sizeVal, fieldsEnd, hr, hsz, hks, List.length_cons, List.length_nil, alignUp]

/-- Non-vacuity: the sample has 10 values and 41 characters; 232 bytes are allocated, of which 192 are handed out. -/
example : weight sample = 10 ∧ textLength sample = 41 ∧ sample.room = 192 ∧
    (finalize sample).toOption.map List.length = some 232 := by decide +kernel

/-- Non-vacuity: leaving two fields of the sample out saves 96 bytes, which stay allocated; merging an object that replaces two fields takes 160 of the
192 and 40 bytes of both. -/
example : (match finalize sample with
    | .ok m => match (Buf.ofBytes m).project [[97], [98]] with
      | .ok d => some ((Buf.ofBytes m).sizeof, d.sizeof, d.mem.length)
      | _ => none
    | _ => none) = some (some 192, some 96, 192) := by decide +kernel
example : (match finalize sample, finalize (.obj [([97], .int 5), ([99, 99], .null)]) with
    | .ok m, .ok m' => match (Buf.ofBytes m).merge (Buf.ofBytes m') with
      | .ok d => some ((Buf.ofBytes m').sizeof, d.sizeof)
      | _ => none
    | _, _ => none) = some (some 40, some 160) := by decide +kernel

/-- Non-vacuity: `{"a":[1,-2.5],"\n":null}` has 24 bytes; 192 are allocated, and a size of 64 is recorded. -/
example : ((Buf.fromJson sortMembers (List.replicate · 7) 24
      (.obj [([0x61], .arr [.num 1, .dbl 0xc004000000000000]), ([0x0a], .null)])).bind fun b => .ok (b.mem.length, b.sizeof)) =
    .ok (192, some 64) := by decide +kernel

/-- Non-vacuity: an object with a string of 4 GiB less one byte is too large. -/
example (s : Bytes) (hs : s.length = 2 ^ 32 - 1) : (Val.obj [([97], .str s)]).WF ∧
    2 ^ 32 ≤ 8 * weight (.obj [([97], .str s)]) + textLength (.obj [([97], .str s)]) := by
  have hk : ([97] : Bytes).length = 1 := rfl
  constructor
  · simp only [Val.WF, WFFields, List.pairwise_singleton, hs, hk]; exact ⟨trivial, by decide, by omega, trivial⟩
  · simp only [weight, weightFields, textLength, textFields, hs, hk]; omega
example : ∃ s : Bytes, s.length = 2 ^ 32 - 1 := ⟨List.replicate (2 ^ 32 - 1) 97, List.length_replicate⟩

end Dart.Props
