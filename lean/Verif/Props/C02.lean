import Verif.Lemmas.Shows
import Verif.Model.Sample

/-
C02: lookups by key in finalized objects. `signed` says whether plain `char` is signed on the target.
All statements are about any buffer obtained from a finalized object, at any depth.
-/
namespace Dart.Props

/-- The lookups agree that `key` is absent. -/
def Misses (signed : Bool) (b : Buf) (key : Bytes) : Prop :=
  b.hasKey signed key = .ok false ∧ b.at signed key = .throw .outOfRange ∧
    ∃ b', b.get signed key = .ok b' ∧ b'.value = some .null

/-- The lookups agree that `key` is present with value `w`. -/
def Finds (signed : Bool) (b : Buf) (key : Bytes) (w : Val) : Prop :=
  b.hasKey signed key = .ok true ∧
    ∃ b', b.get signed key = .ok b' ∧ b.at signed key = .ok b' ∧ b'.value = some w

/-- C02 (any keys whatsoever): a lookup either misses, or finds a field of the object with exactly
this key and returns its value; `has_key`, `get` and `at` agree and no read leaves the buffer. -/
theorem C02_hit_sound (signed : Bool) (v : Val) (m : Bytes) (hw : v.WF) (h : finalize v = .ok m)
    (b : Buf) (hb : Derived signed (Buf.ofBytes m) b) (fs : List (Bytes × Val)) (hv : b.value = some (.obj fs))
    (key : Bytes) : Misses signed b key ∨ ∃ w, (key, w) ∈ fs ∧ Finds signed b key w := by
  obtain ⟨x, hx⟩ := hb.shows (shows_root hw h)
  rw [hx.value] at hv; cases hv
  rcases hx.get (signed := signed) key with ⟨h1, h2, b', h3, h4⟩ | ⟨i, hi, rfl, h1, b', h2, h3, h4⟩
  · exact .inl ⟨h1, h2, b', h3, h4.value⟩
  · exact .inr ⟨fs[i].2, List.getElem_mem hi, h1, b', h2, h3, h4.value⟩

/-- C02: a key that is not in the object is never found. -/
theorem C02_absent_not_found (signed : Bool) (v : Val) (m : Bytes) (hw : v.WF) (h : finalize v = .ok m)
    (b : Buf) (hb : Derived signed (Buf.ofBytes m) b) (fs : List (Bytes × Val)) (hv : b.value = some (.obj fs))
    (key : Bytes) (habs : ∀ w, (key, w) ∉ fs) : Misses signed b key := by
  rcases C02_hit_sound signed v m hw h b hb fs hv key with h | ⟨w, h, _⟩
  · exact h
  · exact absurd h (habs w)

/-- C02, partial: every key present is found with its value, provided no stored key contains a NUL
byte, stored keys of the length looked for start (first two bytes) below 0x80 when `char` is signed,
and no stored key is longer than 255 bytes when looking for one of 255 bytes. Missing for the full
claim: those three cases, in which the code does miss present keys (see the negations). -/
theorem C02_present_found_partial (signed : Bool) (v : Val) (m : Bytes) (hw : v.WF) (h : finalize v = .ok m)
    (b : Buf) (hb : Derived signed (Buf.ofBytes m) b) (fs : List (Bytes × Val)) (hv : b.value = some (.obj fs))
    (key : Bytes) (w : Val) (hmem : (key, w) ∈ fs)
    (noNul : ∀ f ∈ fs, (0 : UInt8) ∉ f.1)
    (low : signed = true → ∀ f ∈ fs, f.1.length = key.length → ∀ c ∈ f.1.take 2, c.toNat < 128)
    (cap : key.length = 255 → ∀ f ∈ fs, f.1.length ≤ 255) : Finds signed b key w := by
  obtain ⟨x, hx⟩ := hb.shows (shows_root hw h)
  rw [hx.value] at hv; cases hv
  obtain ⟨p, h1, h2, h3⟩ := hx.obj
  obtain ⟨i, hi, e⟩ := List.mem_iff_getElem.1 hmem
  have ek : fs[i].1 = key := by rw [e]
  obtain ⟨kp, hk⟩ := getKey_complete (signed := signed) h3 i hi (by rw [ek]; exact ⟨noNul, low, cap⟩)
  rw [ek] at hk
  obtain ⟨hi', vp, _, hat, _, hg⟩ := getValueImpl_hit h3 hk
  have hs : Shows true _ _ := shows_at' hat
  rw [e] at hs hg
  exact ⟨by simp [Buf.hasKey, Buf.object, h1, h2, Res.ofRead, Res.bind, hk], _,
    by simp [Buf.get, Buf.object, h1, h2, Res.ofRead, Res.bind, hg],
    by simp [Buf.at, Buf.object, h1, h2, Res.ofRead, Res.bind, hg], hs.value⟩

/-- C02 on targets where `char` is unsigned needs only the other two conditions. -/
theorem C02_present_found_unsigned_partial (v : Val) (m : Bytes) (hw : v.WF) (h : finalize v = .ok m)
    (b : Buf) (hb : Derived false (Buf.ofBytes m) b) (fs : List (Bytes × Val)) (hv : b.value = some (.obj fs))
    (key : Bytes) (w : Val) (hmem : (key, w) ∈ fs)
    (noNul : ∀ f ∈ fs, (0 : UInt8) ∉ f.1)
    (short : ∀ f ∈ fs, f.1.length ≤ 255) : Finds false b key w :=
  C02_present_found_partial false v m hw h b hb fs hv key w hmem noNul (by simp) (fun _ => short)

/-- Decides `Finds`/`Misses` disagreement on a finalized value: the key is reported absent. -/
def reportsAbsent (signed : Bool) (v : Val) (key : Bytes) : Bool :=
  match finalize v with
  | .ok m => (Buf.ofBytes m).hasKey signed key == .ok false
  | _ => false

/-- `{"a": 1, "\x80": 2}`. -/
def highByteObject : Val := .obj [([0x61], .int 1), ([0x80], .int 2)]

/-- C02 fails for signed `char`: the key 0x80 of `{"a": 1, "\x80": 2}` is reported absent. -/
theorem C02_negation_signed_char : highByteObject.WF ∧ reportsAbsent true highByteObject [0x80] = true := by
  refine ⟨?_, by decide +kernel⟩
  simp only [highByteObject, Val.WF, WFFields, Spec.KeyBefore]
  refine ⟨?_, by decide⟩
  simp only [List.pairwise_cons, List.mem_cons, List.not_mem_nil, or_false, forall_eq]
  exact ⟨Or.inr ⟨rfl, 0, by decide, by decide, by decide, by omega⟩, by simp⟩

/-- `{"b…": 1, "a…": 2, "a…": 3}` with keys of 255, 256 and 257 bytes. -/
def longKeyObject3 : Val :=
  .obj [(List.replicate 255 98, .int 1), (List.replicate 256 97, .int 2), (List.replicate 257 97, .int 3)]

/-- C02 fails at the one-byte length cap: of three keys with 255, 256 and 257 bytes the first is
reported absent, whatever the signedness of `char`. -/
theorem C02_negation_length_255 (signed : Bool) :
    longKeyObject3.WF ∧ reportsAbsent signed longKeyObject3 (List.replicate 255 98) = true := by
  refine ⟨?_, ?_⟩
  · simp only [longKeyObject3, Val.WF, WFFields, Spec.KeyBefore, List.length_replicate]
    refine ⟨?_, by omega, trivial, by omega, trivial, by omega, trivial, trivial⟩
    refine .cons ?_ (.cons ?_ (.cons (by simp only [List.not_mem_nil, false_implies, implies_true]) .nil))
    · intro x hx
      left
      rcases List.mem_cons.1 hx with rfl | hx
      · simp only [List.length_replicate]; omega
      · rcases List.mem_singleton.1 hx with rfl
        simp only [List.length_replicate]; omega
    · intro x hx
      left
      rcases List.mem_singleton.1 hx with rfl
      simp only [List.length_replicate]; omega
  · cases signed <;> decide +kernel

/-- `{"a\0": 1}`: a key with an embedded NUL byte. -/
def nulKeyObject : Val := .obj [([97, 0], .int 1)]

/-- C02 fails for keys with an embedded NUL byte: the only key of `{"a\0": 1}` is reported absent. -/
theorem C02_negation_embedded_nul (signed : Bool) :
    nulKeyObject.WF ∧ reportsAbsent signed nulKeyObject [97, 0] = true := by
  refine ⟨?_, by cases signed <;> decide +kernel⟩
  simp [nulKeyObject, Val.WF, WFFields]

/-- Non-vacuity: in the sample all four keys are found (and meet the conditions of the partial
theorem, also when `char` is signed), while "zz" is not. -/
example : ∃ m, finalize sample = .ok m ∧
    (Buf.ofBytes m).hasKey true [97] = .ok true ∧ (Buf.ofBytes m).hasKey true [98] = .ok true ∧
    (Buf.ofBytes m).hasKey true [99, 99] = .ok true ∧ (Buf.ofBytes m).hasKey true [108, 111, 110, 103] = .ok true ∧
    (Buf.ofBytes m).hasKey true [122, 122] = .ok false := by
  refine ⟨_, (finalize_ok sample_wf (n := 232) (by decide +kernel)).1, ?_⟩
  decide +kernel

end Dart.Props
