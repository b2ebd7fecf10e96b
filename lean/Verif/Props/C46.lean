import Verif.Lemmas.YamlScalar
import Verif.Lemmas.Packet
import Verif.Props.C42

/-
C46: what the YAML parser builds. `parseYaml strtod (some y)` is `dart::heap::from_yaml` of a text whose first document is
`y`. `strtod` is the function of the C library; `Strtod.Standard` is what the C standard says of it.
-/
namespace Dart.Props
open Spec

/-- Scalars are resolved as specified: null, booleans, decimal, octal and hexadecimal integers, decimal numbers, all else
strings. Partial: not with NUL, hexadecimal fractions, or 8 and 9 after superfluous zeros in numbers with a point. -/
theorem C46_scalar_partial {strtod : Strtod} (hs : Strtod.Standard strtod) {t : Bytes} (hu : Usual t) {j : Json}
    (h : Resolves strtod t j) : Means j (parseScalar strtod t) := by
  rw [parseScalar_ok hs hu h]
  refine means_toVal j ?_
  cases h with
  | int _ h1 h2 => exact ⟨h1, h2⟩
  | _ => trivial

/-- Every scalar resolves, and to one value only. -/
theorem C46_resolution_partial {strtod : Strtod} (hs : Strtod.Standard strtod) {t : Bytes} (hu : Usual t) :
    ∃ j, Resolves strtod t j ∧ ∀ j', Resolves strtod t j' → ∀ v, Means j v ↔ Means j' v := by
  obtain ⟨j, hj⟩ := resolves_total strtod t
  refine ⟨j, hj, fun j' hj' v => ?_⟩
  have h1 := C46_scalar_partial hs hu hj
  have h2 := C46_scalar_partial hs hu hj'
  exact ⟨fun h => C42_unique h h1 ▸ h2, fun h => C42_unique h h2 ▸ h1⟩

/-- A document whose root is a mapping or sequence gives the value it stands for: mappings are objects, sequences are
arrays, the last of several members with the same key counts. Partial: no aliases, only scalars as keys (`AsJson`), usual
scalars, and quoted scalars only if they would be strings without the quotes (`UsualIn`). -/
theorem C46_parse_partial {strtod : Strtod} (hs : Strtod.Standard strtod) {y : Yaml} {j : Json} (hj : AsJson strtod y j)
    (hu : UsualIn strtod y) (hw : Within j) (hr : (∃ es, y = .seq es) ∨ ∃ fs, y = .map fs) :
    ∃ v, parseYaml strtod (some y) = .ok v ∧ Means j v := by
  rcases hr with ⟨es, rfl⟩ | ⟨fs, rfl⟩
  · cases hj with
    | seq hj => rw [parseYaml_seq (scalarsFine hs) hj hu]; exact C42_parse hw (.inr ⟨_, rfl⟩)
  · cases hj with
    | map hj => rw [parseYaml_map (scalarsFine hs) hj hu]; exact C42_parse hw (.inl ⟨_, rfl⟩)

/-- The YAML parser and the JSON parser agree: if a YAML document stands for a JSON document, they give the same value or
throw the same exception. -/
theorem C46_same_as_json_partial {strtod : Strtod} (hs : Strtod.Standard strtod) {y : Yaml} {j : Json} (hj : AsJson strtod y j)
    (hu : UsualIn strtod y) (hr : (∃ es, y = .seq es) ∨ ∃ fs, y = .map fs) : parseYaml strtod (some y) = j.toHeap := by
  rcases hr with ⟨es, rfl⟩ | ⟨fs, rfl⟩
  · cases hj with | seq hj => exact parseYaml_seq (scalarsFine hs) hj hu
  · cases hj with | map hj => exact parseYaml_map (scalarsFine hs) hj hu

/-- A key of more than 65535 bytes anywhere makes the parser throw. -/
theorem C46_long_keys_partial {strtod : Strtod} (hs : Strtod.Standard strtod) {y : Yaml} {j : Json} (hj : AsJson strtod y j)
    (hu : UsualIn strtod y) (hl : LongName j) (ho : OtherLimits j) (hr : (∃ es, y = .seq es) ∨ ∃ fs, y = .map fs) :
    parseYaml strtod (some y) = .throw .invalidArgument := by
  rw [C46_same_as_json_partial hs hj hu hr]; exact C42_long_names hl ho

/-- A text without documents gives an empty object; a scalar as root throws. -/
theorem C46_empty_and_scalar (strtod : Strtod) (q : Bool) (t : Bytes) :
    parseYaml strtod none = .ok (.obj []) ∧ parseYaml strtod (some (.scalar q t)) = .throw .parseError := ⟨rfl, rfl⟩

/-- No document with an alias is accepted. -/
theorem C46_alias_rejected (strtod : Strtod) {y : Yaml} (h : HasAlias y) (v : Val) : parseYaml strtod (some y) ≠ .ok v := by
  intro hp
  simp only [parseYaml, Option.map_some, Option.getD_some, Res.bind_eq_ok] at hp
  obtain ⟨s, h1, _⟩ := hp
  exact run_alias strtod y.events _ s (alias_event y h) h1

/-- A finalized packet from YAML contains the value that `parseYaml` gives; one whose root is a sequence throws. -/
theorem C46_packet {strtod : Strtod} {y : Option Yaml} {v : Val} (h : parseYaml strtod y = .ok v) (hw : v.WF) :
    Pkt.fromYaml strtod false y = .ok (.heap v) ∧
    (∀ p, Pkt.fromYaml strtod true y = .ok p → p.isFinalized = true ∧ p.toHeap = .ok v) ∧
    (∀ es, v = .arr es → Pkt.fromYaml strtod true y = .throw .typeError) := by
  refine ⟨by simp [Pkt.fromYaml, h, Res.bind], fun p hp => ?_, fun es he => ?_⟩
  · simp only [Pkt.fromYaml, h, Res.bind, if_true] at hp
    have hh : Held false (.heap v) ⟨false, v⟩ := ⟨rfl, hw⟩
    obtain ⟨out, h1, h2⟩ := finalize_held hh
    rw [hp] at h2
    cases out with
    | error e => exact h2.elim
    | ok s =>
      obtain ⟨h3, h4⟩ := Held.inState h2
      rw [h3, h4]
      unfold FinalizeOk at h1
      cases v <;> simp at h1
      subst h1; exact ⟨rfl, rfl⟩
  · subst he
    simp only [Pkt.fromYaml, h, Res.bind, if_true]
    rfl

/-! ### Where the claim fails -/

/-- A sequence or mapping as a key (valid YAML) in the root mapping is undefined behaviour: `key_stack.back()` of an empty
vector. -/
theorem C46_complex_key_undefined {strtod : Strtod} (hs : Strtod.Standard strtod) {fs rest : List (Yaml × Yaml)}
    {ms : List (Bytes × Json)} {k v : Yaml} {j : Json} (hf : AsMembers strtod fs ms) (hfu : UsualMembers strtod fs)
    (hfw : WithinFields ms) (hk : (∃ es, k = .seq es) ∨ ∃ fs, k = .map fs) (hj : AsJson strtod k j) (hu : UsualIn strtod k)
    (hw : Within j) : parseYaml strtod (some (.map (fs ++ (k, v) :: rest))) = .ub :=
  parseYaml_complex (scalarsFine hs) hf hfu (limFields_of_moderate ms hfw) hk hj hu (lim_of_moderate j hw)

/-- Elsewhere such a key can silently give a wrong value: `x: [{? [1] : y}, [z]]` becomes `{"y": [{"x": [1]}, ["z"]]}`. -/
theorem C46_complex_key_wrong_value (strtod : Strtod) :
    parseYaml strtod (some (.map [(.scalar false [120], .seq [.map [(.seq [.scalar false [49]], .scalar false [121])],
      .seq [.scalar false [122]]])])) =
    .ok (.obj [([121], .arr [.obj [([120], .arr [.int 1])], .arr [.str [122]]])]) := rfl

/-- Quoted scalars are not always strings: `["5", "null", "true"]` becomes `[5, null, true]`. -/
theorem C46_quoted_wrong (strtod : Strtod) :
    parseYaml strtod (some (.seq [.scalar true [53], .scalar true [0x6e, 0x75, 0x6c, 0x6c], .scalar true [0x74, 0x72, 0x75, 0x65]])) =
    .ok (.arr [.int 5, .null, .bool true]) := rfl

/-- `08.5` is a number, but is read as a string, while `07.5` is read as a number. -/
theorem C46_leading_zero_wrong (strtod : Strtod) (d : BitVec 64) (h : strtod [0x30, 0x37, 0x2e, 0x35] = (some d, 4)) :
    FloatText [0x30, 0x38, 0x2e, 0x35] ∧ parseScalar strtod [0x30, 0x38, 0x2e, 0x35] = .str [0x30, 0x38, 0x2e, 0x35] ∧
    parseScalar strtod [0x30, 0x37, 0x2e, 0x35] = .dec d := by
  refine ⟨⟨[], [0x30, 0x38], [0x2e, 0x35], [], .inl rfl, ⟨by simp, by decide⟩, .inr ⟨[0x35], by decide, rfl⟩, .inl rfl,
    by simp, rfl⟩, rfl, ?_⟩
  have : parseMaybeNumber strtod [0x30, 0x37, 0x2e, 0x35] =
    match strtod [0x30, 0x37, 0x2e, 0x35] with
    | (some d, k) => if k = 4 then some (.dec d) else none
    | (none, _) => none := rfl
  rw [parseScalar_number strtod (by decide), this, h]
  rfl

/-- A NUL character cuts the text for the comparison: `"null\0x"` (double quoted) becomes null. -/
theorem C46_nul_wrong (strtod : Strtod) : parseScalar strtod [0x6e, 0x75, 0x6c, 0x6c, 0, 0x78] = .null := rfl

/-! Concrete cases. -/

/-- There are functions as the standard demands. -/
theorem standard_exists : ∃ strtod : Strtod, Strtod.Standard strtod ∧
    ∀ t, FloatText t → (strtod t).1 = some 0x3ff8000000000000 := by
  classical
  refine ⟨fun t => if FloatText t then (some 0x3ff8000000000000, t.length) else (some 0, 0), ⟨fun h => by simp [h], ?_⟩,
    fun t h => by simp [h]⟩
  intro t ht h
  by_cases hf : FloatText t
  · exact .inl hf
  · simp only [if_neg hf] at h
    cases t with
    | nil => exact absurd rfl ht
    | cons c t => simp at h

/-- `{b: -0x1F, a: [1.5, yes], b: "it"}` -/
def document : Yaml := .map [(.scalar false [98], .scalar false [0x2d, 0x30, 0x78, 0x31, 0x46]),
  (.scalar false [97], .seq [.scalar false [0x31, 0x2e, 0x35], .scalar false [0x79, 0x65, 0x73]]),
  (.scalar true [98], .scalar true [0x69, 0x74])]

/-- `{"b": -31, "a": [1.5, "yes"], "b": "it"}` -/
def documentJson : Json := .obj [([98], .num (-31)), ([97], .arr [.dbl 0x3ff8000000000000, .str [0x79, 0x65, 0x73]]),
  ([98], .str [0x69, 0x74])]

theorem letters_are_strings (strtod : Strtod) {c : UInt8} {r : Bytes}
    (hc : ¬ ((0x30 ≤ c ∧ c ≤ 0x39) ∨ c = 0x2b ∨ c = 0x2d)) (h1 : c :: r ≠ [0x6e, 0x75, 0x6c, 0x6c])
    (h2 : c :: r ≠ [0x74, 0x72, 0x75, 0x65]) (h3 : c :: r ≠ [0x66, 0x61, 0x6c, 0x73, 0x65]) :
    Resolves strtod (c :: r) (.str (c :: r)) := by
  refine .str h1 h2 h3 (fun n hn => ?_) (fun hf => ?_)
  · obtain ⟨d, s, he, hd⟩ := int_head hn; cases he; exact hc hd
  · obtain ⟨d, s, he, hd⟩ := float_head hf; cases he; exact hc hd

theorem float_sample : FloatText [0x31, 0x2e, 0x35] :=
  ⟨[], [0x31], [0x2e, 0x35], [], .inl rfl, ⟨by simp, by decide⟩, .inr ⟨[0x35], by decide, rfl⟩, .inl rfl, by simp, rfl⟩

theorem int_sample : YamlInt [0x2d, 0x30, 0x78, 0x31, 0x46] (-31) :=
  ⟨[0x2d], [0x30, 0x78, 0x31, 0x46], 31, .inr (.inr rfl),
    .inr (.inr ⟨0x78, [0x31, 0x46], .inl rfl, ⟨by simp, by decide⟩, rfl, by decide⟩), rfl, rfl⟩

/-- What begins with another character is usual, and so on. -/
theorem usual_sample {t : Bytes} (h0 : 0 ∉ t) (h1 : ∀ c ∈ t, c ≠ 0x30) : Usual t := by
  refine ⟨h0, fun s x r _ _ ht => ?_, fun s i f e hp hi => ?_⟩
  · exact absurd rfl (h1 0x30 (by rw [ht]; simp))
  · obtain ⟨_, _, _, _, _, rfl⟩ := hp
    match i, hi with
    | _ :: i, rfl => exact absurd rfl (h1 0x30 (by simp))

example : ∃ strtod, Strtod.Standard strtod ∧ AsJson strtod document documentJson ∧ Within documentJson := by
  obtain ⟨strtod, h1, h2⟩ := standard_exists
  refine ⟨strtod, h1, ?_, by simp [documentJson, Within, WithinFields, WithinElems]⟩
  refine .map (.cons (.plain (.int int_sample (by decide) (by decide))) (.cons (.seq (.cons (.plain (.float float_sample (h2 _ float_sample)))
    (.cons (.plain ?_) .nil))) (.cons (.quoted _) .nil)))
  exact letters_are_strings strtod (by decide) (by decide) (by decide) (by decide)

theorem usual_hex : Usual [0x2d, 0x30, 0x78, 0x31, 0x46] := by
  refine ⟨by decide, fun s x r hs _ ht => ?_, fun s i f e hp hi => ?_⟩
  · rcases hs with rfl | rfl | rfl
    · simp at ht
    · simp at ht
    · simp only [List.cons_append, List.nil_append, List.cons.injEq, true_and] at ht
      rw [← ht.2]
      exact ⟨by simp, by decide⟩
  · obtain ⟨hs, hd, _, _, _, ht⟩ := hp
    have h0 : i.length = 1 := by
      match i, hi with
      | [_], rfl => rfl
      | _ :: d :: i, rfl =>
        have := hd.2 d (by simp)
        rcases hs with rfl | rfl | rfl
        · simp at ht
        · simp at ht
        · simp only [List.cons_append, List.nil_append, List.cons.injEq, true_and] at ht
          rw [← ht.1] at this
          exact absurd this (by decide)
    match i, hi with
    | [_], rfl => intro c hc; rw [List.mem_singleton.1 hc]; decide

example (strtod : Strtod) : UsualIn strtod document :=
  ⟨⟨usual_hex, by simp⟩, ⟨⟨usual_sample (by decide) (by decide), by simp⟩, ⟨usual_sample (by decide) (by decide), by simp⟩,
    trivial⟩, ⟨usual_sample (by decide) (by decide), fun _ => letters_are_strings strtod (by decide) (by decide) (by decide) (by decide)⟩,
    trivial⟩

example : (parseYaml (fun _ => (some 0x3ff8000000000000, 3)) (some document)) =
    .ok (.obj [([97], .arr [.dec 0x3ff8000000000000, .str [0x79, 0x65, 0x73]]), ([98], .str [0x69, 0x74])]) := rfl
example : parseScalar (fun _ => (none, 0)) [0x2d, 0x30, 0x78, 0x31, 0x46] = .int (-31) := rfl
example : parseScalar (fun _ => (none, 0)) [0x30, 0x31, 0x37] = .int 15 := rfl
example : HasAlias (.map [(.scalar false [97], .seq [.alias])]) := by simp [HasAlias, HasAliasMembers, HasAliasElems]

end Dart.Props
