import Verif.Lemmas.Packet
import Verif.Lemmas.ValidEnc
import Verif.Lemmas.EqualBuf
import Verif.Props.C20

/-
C43: parsing JSON straight into a finalized buffer. `Buf.fromJson sort fill n j` is `dart::buffer::from_json` of a text of
`n` bytes that parses to the document `j`; `sort` is what `std::sort` does with the members, `fill` what the allocated
memory contains.
-/
namespace Dart.Props
open Spec

/-- For every text (of less than 512 MiB) of an object without repeated names: whatever the memory contained and in
whatever order the members come, the buffer holds the value the document stands for, the same that the dynamic parser
gives; and the buffer is one that the theorems about reading, iterating, merging and so on apply to. -/
theorem C43_parse {sort : List (Bytes × Json) → List (Bytes × Json)} (hs : Sorts sort) {fill : Nat → Bytes}
    (hf : ∀ n, (fill n).length = n) {x : Extensions} {t : Bytes} {fs : List (Bytes × Json)}
    (ht : IsText x t (.obj fs)) (hl : t.length < 2 ^ 29) (hw : Within (.obj fs)) (hd : DistinctNames (.obj fs)) :
    ∃ b v, Buf.fromJson sort fill t.length (.obj fs) = .ok b ∧ (Json.obj fs).toHeap = .ok v ∧ b.value = some v ∧
      Means (.obj fs) v ∧ ∀ signed, Obtained signed false b := by
  obtain ⟨b, h1, h2, _⟩ := fromJson_shows hs hf ht hl hw hd
  refine ⟨b, _, h1, ?_, h2.value, means_toVal _ hw, fun signed => .parsed rfl (.text hs hf ht hl hw hd h1)⟩
  rw [toHeap_obj (lim_of_moderate _ hw), Json.toVal]

/-- The validator says the same about the buffer as about the finalized result of the dynamic parser. -/
theorem C43_valid {sort : List (Bytes × Json) → List (Bytes × Json)} (hs : Sorts sort) {fill : Nat → Bytes}
    (hf : ∀ n, (fill n).length = n) {x : Extensions} {t : Bytes} {fs : List (Bytes × Json)}
    (ht : IsText x t (.obj fs)) (hl : t.length < 2 ^ 29) (hw : Within (.obj fs)) (hd : DistinctNames (.obj fs))
    {b : Buf} (hb : Buf.fromJson sort fill t.length (.obj fs) = .ok b) {v : Val} (hv : (Json.obj fs).toHeap = .ok v)
    {m : Bytes} (hm : finalize v = .ok m) : isValid b.mem = isValid m := by
  obtain ⟨b', h1, h2, _⟩ := fromJson_shows hs hf ht hl hw hd
  rw [hb] at h1; cases h1
  have e : v = (Json.obj fs).toVal := by
    rw [toHeap_obj (lim_of_moderate _ hw)] at hv
    rw [Json.toVal]
    cases hv; rfl
  have hwf := toVal_wf ht hl hw hd
  subst e
  rw [isValid_finalized hwf hm]
  rw [Json.toVal] at *
  obtain ⟨p, _, h4, hat⟩ := h2.obj
  have h0 : p = 0 := by
    simp only [Buf.fromJson] at hb
    split at hb
    · cases hb; cases h4; rfl
    · cases hb
  subst h0
  have hsz := hat.size_le
  exact At.valid _ b.mem 0 b.mem.length (b.mem.length + 1) hat (by omega) (by omega)

/-- Parsing the same text twice: if the two results compare equal they hold the same value, and comparing never goes
wrong; but see below. -/
theorem C43_equal_implies_same_value {sort sort' : List (Bytes × Json) → List (Bytes × Json)} (hs : Sorts sort)
    (hs' : Sorts sort') {fill fill' : Nat → Bytes} (hf : ∀ n, (fill n).length = n) (hf' : ∀ n, (fill' n).length = n)
    {x x' : Extensions} {t t' : Bytes} {fs gs : List (Bytes × Json)} (ht : IsText x t (.obj fs)) (ht' : IsText x' t' (.obj gs))
    (hl : t.length < 2 ^ 29) (hl' : t'.length < 2 ^ 29) (hw : Within (.obj fs)) (hw' : Within (.obj gs))
    (hd : DistinctNames (.obj fs)) (hd' : DistinctNames (.obj gs)) {b c : Buf}
    (hb : Buf.fromJson sort fill t.length (.obj fs) = .ok b) (hc : Buf.fromJson sort' fill' t'.length (.obj gs) = .ok c) :
    ∃ r, b.eq false false c = .ok r ∧ (r = true → (Json.obj fs).toHeap = (Json.obj gs).toHeap) := by
  obtain ⟨b', h1, h2, _⟩ := fromJson_shows hs hf ht hl hw hd
  rw [hb] at h1; cases h1
  obtain ⟨c', h3, h4, _⟩ := fromJson_shows hs' hf' ht' hl' hw' hd'
  rw [hc] at h3; cases h3
  obtain ⟨r, h5, h6, _⟩ := Buf.eq_image h2 h4 (sameObj := false) (samePtr := false) (by simp) (by simp)
  refine ⟨r, h5, fun h => ?_⟩
  have := h6 h
  rw [toHeap_obj (lim_of_moderate _ hw), toHeap_obj (lim_of_moderate _ hw')]
  rw [Json.toVal, Json.toVal] at this
  rw [this]

/-! What goes wrong. -/

/-- The two results of parsing a document, with memory full of `a` and full of `b`, compared with each other and each with
the result of the dynamic parser. -/
def parseTwice (a b : UInt8) (n : Nat) (j : Json) : Option (Res Bool × Res Bool × Res Bool) := do
  let x ← (Buf.fromJson sortMembers (List.replicate · a) n j).toOption
  let y ← (Buf.fromJson sortMembers (List.replicate · b) n j).toOption
  let v ← j.toHeap.toOption
  some (x.eq false false y, x.eqVal true v, y.eqVal true v)

/-- Equality of parsed buffers depends on what the memory contained: two results of parsing `{"a":1}` may compare
unequal, though both compare equal to the dynamic result. -/
theorem C43_same_text_unequal :
    parseTwice 0 1 7 (.obj [([97], .num 1)]) = some (.ok false, .ok true, .ok true) ∧
    parseTwice 0 0 7 (.obj [([97], .num 1)]) = some (.ok true, .ok true, .ok true) := by decide +kernel

/-- What `{"a":n}` gives: as an integer from the dynamic parser, and as integer and as decimal from the buffer. -/
def parseBoth (n : Int) : Res (BitVec 64) × Res (BitVec 64) × Res (BitVec 64) :=
  let b := (Buf.fromJson sortMembers zeros 30 (.obj [([97], .num n)])).bind fun b => b.get true [97]
  (((Json.obj [([97], .num n)]).toHeap.bind fun v => v.get [97]).bind (·.integer), b.bind (·.integer), b.bind (·.decimal))

/-- Whole numbers of 2^63 or more are a negative integer for one parser and a decimal for the other. -/
theorem C43_large_numbers_differ :
    parseBoth (2 ^ 63) = (.ok 0x8000000000000000#64, .throw .typeError, .ok 0x43e0000000000000#64) ∧
    parseBoth (2 ^ 63 - 1) = (.ok 0x7fffffffffffffff#64, .ok 0x7fffffffffffffff#64, .throw .typeError) := by
  decide +kernel

/-- With repeated names, as in `{"a":1,"a":2}`, the buffer has a field for each of them, the dynamic packet only one. -/
theorem C43_repeated_names_kept :
    ((Buf.fromJson sortMembers zeros 13 (.obj [([97], .num 1), ([97], .num 2)])).bind fun b => b.size) = .ok 2 ∧
    ((Json.obj [([97], .num 1), ([97], .num 2)]).toHeap.bind fun v => v.size) = .ok 1 := by decide +kernel

/-- A document with a name of more than 65535 bytes, which the dynamic parser refuses, is accepted; the result cannot be
made by finalizing anything. -/
theorem C43_long_names_accepted {sort : List (Bytes × Json) → List (Bytes × Json)} (hs : Sorts sort) {fill : Nat → Bytes}
    (hf : ∀ n, (fill n).length = n) {x : Extensions} {t : Bytes} {fs : List (Bytes × Json)}
    (ht : IsText x t (.obj fs)) (h : LongName (.obj fs)) (ho : OtherLimits (.obj fs)) :
    (∃ b, Buf.fromJson sort fill t.length (.obj fs) = .ok b) ∧ (Json.obj fs).toHeap = .throw .invalidArgument := by
  obtain ⟨b, n, h1, _⟩ := C20_fits hs hf ht
  refine ⟨⟨b, h1⟩, ?_⟩
  unfold Json.toHeap; rw [run_long _ _ ho h (.inr rfl)]; rfl

/-! Concrete cases: the text of C20. -/

example : Within (.obj sampleMembers) := by simp [sampleMembers, Within, WithinFields, WithinElems]
example : DistinctNames (.obj sampleMembers) := by
  simp [sampleMembers, DistinctNames, DistinctFields, DistinctElems]
example : sampleText.length < 2 ^ 29 := by decide
example : ((Buf.fromJson sortMembers (List.replicate · 7) sampleText.length (.obj sampleMembers)).bind fun b =>
    (b.get true [97]).bind fun a => (a.getIdx 1).bind fun d => d.decimal) = .ok 0xc004000000000000#64 := by decide +kernel

end Dart.Props
