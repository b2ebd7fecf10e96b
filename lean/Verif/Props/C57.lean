import Verif.Lemmas.Sajson
import Verif.Lemmas.Packet
import Verif.Model.Validate
import Verif.Props.C42

/-
C57: JSON with sajson as the parser. `Delivers w j d` says that `d` is what sajson may hand over for a text of the document
`j`; `d.toHeap` is then what `dart::heap::from_json` returns, and `Buf.fromSajson fill n d` what `dart::buffer::from_json`
returns for a text of `n` bytes, where `fill` is what the allocated memory contains. `d.json` is `d` as a document of the
kind used for the other parser.
-/
namespace Dart.Props
open Spec

/-- The dynamic packet: every object or array gives the value it stands for. -/
theorem C57_heap {d : SDoc} (hw : Within d.json) (hr : (∃ fs, d = .obj fs) ∨ ∃ es, d = .arr es) :
    ∃ v, d.toHeap = .ok v ∧ Means d.json v := by
  rw [stoHeap_json]
  refine C42_parse hw ?_
  rcases hr with ⟨fs, rfl⟩ | ⟨es, rfl⟩
  · exact .inl ⟨jsonFields fs, by rw [SDoc.json]⟩
  · exact .inr ⟨jsonElems es, by rw [SDoc.json]⟩

/-- In whatever order the members are handed over, it is the packet that comes from RapidJSON, if no name is repeated and all
whole numbers are handed over as integers. -/
theorem C57_same_as_rapidjson {w : Int → Prop} {j : Json} {d : SDoc} (hd : Delivers w j d) (hi : WholeNumbers w j)
    (hn : DistinctNames j) (hj : Within j) (hw : Within d.json) (hr : (∃ fs, j = .obj fs) ∨ ∃ es, j = .arr es) :
    ∃ v, d.toHeap = .ok v ∧ j.toHeap = .ok v := by
  have e := delivers_toVal hd hi hn
  have h1 := lim_of_moderate _ hj
  have h2 := lim_of_moderate _ hw
  rw [stoHeap_json]
  rcases hr with ⟨fs, rfl⟩ | ⟨es, rfl⟩
  · cases hd
    simp only [SDoc.json, Json.toVal] at e h2 ⊢
    exact ⟨_, (toHeap_obj h2).trans (congrArg _ e), toHeap_obj h1⟩
  · cases hd
    simp only [SDoc.json, Json.toVal] at e h2 ⊢
    exact ⟨_, (toHeap_arr h2).trans (congrArg _ e), toHeap_arr h1⟩

/-- The finalized buffer, for a text of less than 512 MiB, if sajson hands over the members of each object in the order of
their names and no name is repeated or contains NUL: it holds the same value as the dynamic packet, and it is one that the
theorems about reading, iterating, merging and so on apply to. -/
theorem C57_buffer_partial {fill : Nat → Bytes} (hf : ∀ n, (fill n).length = n) {x : Extensions} {t : Bytes}
    {w : Int → Prop} {j : Json} {fs : List (Bytes × SDoc)} (ht : IsText x t j) (hd : Delivers w j (.obj fs))
    (hl : t.length < 2 ^ 29) (hw : Within (SDoc.obj fs).json) (hn : DistinctNames (SDoc.obj fs).json)
    (ho : InOrder (SDoc.obj fs).json) (hz : NoNulNames (SDoc.obj fs).json) :
    ∃ b v, Buf.fromSajson fill t.length (.obj fs) = .ok b ∧ (SDoc.obj fs).toHeap = .ok v ∧ b.value = some v ∧
      Means (SDoc.obj fs).json v ∧ ∀ signed, Obtained signed false b := by
  obtain ⟨b, h1, h2, _⟩ := fromSajson_shows hf ht hd hl hw hn ho hz
  refine ⟨b, _, h1, ?_, h2.value, means_toVal _ hw, fun signed => .parsed rfl (.sajson hf ht hd hl hw hn ho hz h1)⟩
  rw [stoHeap_json]
  simp only [SDoc.json] at hw ⊢
  rw [toHeap_obj (lim_of_moderate _ hw), Json.toVal]

/-- Memory: eight bytes for every byte of the text are enough, whatever the document, whatever the length of the names and
whatever order the members come in. -/
theorem C57_fits {fill : Nat → Bytes} (hf : ∀ n, (fill n).length = n) {x : Extensions} {t : Bytes} {w : Int → Prop}
    {j : Json} {d : SDoc} (ht : IsText x t j) (hd : Delivers w j d) :
    ∃ b, Buf.fromSajson fill t.length d = .ok b ∧ b.mem.length = 8 * t.length := by
  have h1 := isText_length ht
  have h2 := size_span d.json
  rw [delivers_span hd] at h2
  have hm := hf (t.length * 8)
  obtain ⟨m', sz, e, l, _⟩ := slower_inb d (p := 0) (m := fill (t.length * 8)) (Nat.dvd_zero _) (by omega)
  refine ⟨Buf.ofBytes m', ?_, ?_⟩
  · simp only [Buf.fromSajson, e]
  · show m'.length = _; omega

/-! What goes wrong. -/

/-- Unlike with RapidJSON, a text of an array is not refused: the bytes of the array are taken for those of an object. -/
theorem C57_array_taken_for_object {fill : Nat → Bytes} (hf : ∀ n, (fill n).length = n) {x : Extensions} {t : Bytes}
    {w : Int → Prop} {es : List Json} {d : SDoc} (ht : IsText x t (.arr es)) (hd : Delivers w (.arr es) d) :
    ∃ b, Buf.fromSajson fill t.length d = .ok b ∧ b.getType = .object := by
  obtain ⟨b, h, _⟩ := C57_fits hf ht hd
  refine ⟨b, h, ?_⟩
  unfold Buf.fromSajson at h
  split at h
  · cases h; rfl
  · cases h

/-- What iterating over the result for the text `[30583]` does: the number of fields and the name of the first. -/
def arrayAsObject : Res Nat × Res Bytes :=
  let b := Buf.fromSajson zeros 7 (.arr [.int 30583])
  (b.bind fun b => b.size.bind fun n => .ok n, b.bind fun b => (b.keyAt 0).bind fun k => k.strv)

/-- The number is then the length of a name, and the name is read far beyond the memory. -/
theorem C57_array_read_out_of_bounds : arrayAsObject = (.ok 1, .ub) := by decide +kernel

/-- Looking up `a` and `b` in the result for `{"b":1,"a":2}`, with the members as in the text: in the buffer and in the
dynamic packet. -/
def unsortedLookups : List (Res (BitVec 64)) :=
  let d : SDoc := .obj [([98], .int 1), ([97], .int 2)]
  let b := Buf.fromSajson zeros 13 d
  let v := d.toHeap
  [b.bind fun b => (b.get true [97]).bind (·.integer), b.bind fun b => (b.get true [98]).bind (·.integer),
    v.bind fun v => (v.get [97]).bind (·.integer), v.bind fun v => (v.get [98]).bind (·.integer)]

/-- The code relies on sajson for the order: nothing sorts the members or notices that they are not sorted, and what is out
of order is not found. -/
theorem C57_order_needed : unsortedLookups = [.throw .typeError, .ok 1, .ok 2, .ok 1] := by decide +kernel

/-- A number that sajson hands over as a `double` is a decimal, even if it is whole and RapidJSON gives an integer. -/
theorem C57_large_numbers_decimal {w : Int → Prop} {k : Bytes} {n : Int} {d : SDoc} (hk : k.length ≤ 65535)
    (h1 : -2 ^ 63 ≤ n) (h2 : n < 2 ^ 63) (hw : ¬ w n) (hd : Delivers w (.obj [(k, .num n)]) d) :
    ∃ x : BitVec 64, d.toHeap = .ok (.obj [(k, .dec x)]) ∧
      (Json.obj [(k, .num n)]).toHeap = .ok (.obj [(k, .int (BitVec.ofInt 64 n))]) := by
  cases hd with
  | obj h hp =>
    cases h with
    | cons h h' =>
      cases h'
      have := List.perm_singleton.1 hp
      subst this
      generalize hj : Json.num n = j at h
      cases h <;> first | cases hj | skip
      · exact absurd ‹_› hw
      · rename_i x _
        refine ⟨x, ?_, ?_⟩
        · rw [stoHeap_json]
          simp only [SDoc.json, jsonFields]
          rw [toHeap_obj (by simp [Json.Lim, LimFields, hk])]
          rfl
        · rw [toHeap_obj (by simp only [Json.Lim, LimFields]; exact ⟨hk, ⟨h1, by omega⟩, trivial⟩)]
          rfl

/-- A name of any length is stored behind 16 bits for the length: what is read back is its beginning, of a length that is
right only modulo 65536. (With RapidJSON the dynamic parser refuses such names.) -/
theorem C57_long_names_cut {fill : Nat → Bytes} (hf : ∀ n, (fill n).length = n) {k : Bytes} {n : Nat}
    (hn : k.length + 9 ≤ n) : ∃ b, Buf.fromSajson fill n (.obj [(k, .null)]) = .ok b ∧ b.size = .ok 1 ∧
      ((b.keyAt 0).bind fun k => k.strv) = .ok (k.take (k.length % 65536)) := by
  have hm := hf (n * 8)
  obtain ⟨a, ea, la⟩ := writeBytes_inb (m := fill (n * 8)) (p := 0 + 4) (bs := leBytes 4 1) (by simp; omega)
  obtain ⟨b, eb, lb⟩ := writeBytes_inb (m := a) (p := 0 + 8 + 8 * 0) (bs := objEntry .null 16 k) (by simp; omega)
  obtain ⟨c, ec, lc⟩ := writeBytes_inb (m := b) (p := 16) (bs := leBytes 2 k.length) (by simp; omega)
  obtain ⟨d, ed, ld⟩ := writeBytes_inb (m := c) (p := 16 + 2) (bs := k) (by omega)
  obtain ⟨e, ee, le⟩ := writeBytes_inb (m := d) (p := 16 + 2 + k.length) (bs := [0]) (by simp; omega)
  have hlen : readBytes e 16 2 = some (leBytes 2 k.length) := by
    rw [readBytes_write_other ee (by omega), readBytes_write_other ed (by omega)]
    have := readBytes_write ec
    rwa [leBytes_length] at this
  have hsz : readU e 2 16 = some (k.length % 65536) := by
    simp [readU, hlen, leNat_leBytes]
  generalize ho : 16 + (2 + k.length % 65536 + 1) = o
  obtain ⟨f, ef, lf⟩ := writeBytes_inb (m := e) (p := 0) (bs := leBytes 4 (alignUp o 8)) (by simp; omega)
  have hal : alignUp o RawType.null.align = o := alignUp_of_dvd (by decide) (by simp [RawType.align])
  have hr := readU_write ef
  have hkeep : ∀ q l, 4 ≤ q → readBytes f q l = readBytes e q l := fun q l hq =>
    readBytes_write_other ef (by simp; omega)
  have hcount : readU f 4 4 = some 1 := by
    have h0 := readBytes_write ea
    rw [leBytes_length] at h0
    unfold readU
    rw [hkeep _ _ (by omega), readBytes_write_other ee (by omega), readBytes_write_other ed (by omega),
      readBytes_write_other ec (by omega), readBytes_write_other eb (by omega)]
    rw [show (0 + 4 : Nat) = 4 from rfl] at h0
    rw [h0]; rfl
  have hoff : readU f 4 8 = some 16 := by
    have h0 := readBytes_write eb
    have hX := hasBytes_iff.1 h0
    obtain ⟨X, Y, rfl, hX⟩ := hX
    have h1 := (objEntry_reads (m := X ++ (objEntry .null 16 k ++ Y)) (t := .null) (off := 16) (base := 0) (idx := 0) rfl hX
      (by decide)).1
    unfold entOff at h1
    rw [← h1]
    unfold readU
    rw [hkeep _ _ (by omega), readBytes_write_other ee (by omega), readBytes_write_other ed (by omega),
      readBytes_write_other ec (by omega)]
  have hname : ∀ l, l ≤ k.length → readBytes f 18 l = some (k.take l) := by
    intro l hl
    rw [hkeep _ _ (by omega), readBytes_write_other ee (by omega)]
    obtain ⟨X, Y, rfl, hX⟩ := hasBytes_iff.1 (readBytes_write ed)
    unfold readBytes
    rw [if_pos (by simp; omega), List.drop_append_of_le_length (by omega), List.drop_of_length_le (by omega), List.nil_append,
      List.take_append_of_le_length hl]
  refine ⟨Buf.ofBytes f, ?_, ?_, ?_⟩
  · simp only [Buf.fromSajson, SDoc.lower, slowerFields, SDoc.identify, List.length_singleton, Option.bind_eq_bind, ea,
      Option.bind_some]
    have h16 : alignUp (0 + (8 + 8 * 1)) RawType.string.align = 16 := by decide
    simp only [h16, Nat.zero_add, Nat.mul_one, Nat.reduceAdd, Nat.sub_self, Nat.add_zero]
    simp only [Nat.zero_add, Nat.mul_zero, Nat.add_zero] at eb
    simp only [eb, layoutString, ec, ed, ee, Option.bind_eq_bind, Option.bind_some, findSizeof, hsz, Option.map_some, ho,
      hal, Nat.sub_self, Nat.add_zero, ef, hr]
  · simp [Buf.size, Buf.ofBytes, numElems, hcount, Res.ofRead, Res.bind]
  · have hmod := Nat.mod_le k.length 65536
    have hsz' : readU f 2 16 = some (k.length % 65536) := by
      unfold readU; rw [hkeep _ _ (by omega)]; exact hsz
    simp [Buf.keyAt, Buf.ofBytes, Buf.object, Res.ofRead, Res.bind, loadKey, entOff, hoff, Buf.sub, Buf.strv, Dart.strv,
      strWidth, hsz', hname _ hmod]

/-! Concrete cases. -/

/-- What sajson hands over for the text of C20, `{"a":[1,-2.5],"\n":null}`. -/
def sampleDelivered : SDoc := .obj [([0x0a], .null), ([0x61], .arr [.int 1, .dbl 0xc004000000000000])]

example : Delivers (fun n => -2 ^ 31 ≤ n ∧ n < 2 ^ 31) (.obj [([0x61], .arr [.num 1, .dbl 0xc004000000000000]), ([0x0a], .null)])
    sampleDelivered :=
  .obj (gs := [([0x61], .arr [.int 1, .dbl 0xc004000000000000]), ([0x0a], .null)])
    (.cons (.arr (.cons (.int 1 (by decide)) (.cons (.dbl _) .nil))) (.cons .null .nil)) (.swap _ _ _)
example : InOrder sampleDelivered.json := by
  simp [sampleDelivered, SDoc.json, jsonFields, jsonElems, InOrder, InOrderFields, InOrderElems, ← keyLt_iff_spec]
  decide
example : NoNulNames sampleDelivered.json := by
  simp [sampleDelivered, SDoc.json, jsonFields, jsonElems, NoNulNames, NoNulFields, NoNulElems]
example : Within sampleDelivered.json := by
  simp [sampleDelivered, SDoc.json, jsonFields, jsonElems, Within, WithinFields, WithinElems]
example : DistinctNames sampleDelivered.json := by
  simp [sampleDelivered, SDoc.json, jsonFields, jsonElems, DistinctNames, DistinctFields, DistinctElems]
example : ((Buf.fromSajson (List.replicate · 7) 24 sampleDelivered).bind fun b =>
    (b.get true [97]).bind fun a => (a.getIdx 1).bind fun d => d.decimal) = .ok 0xc004000000000000#64 := by decide +kernel

end Dart.Props
