import Verif.Lemmas.ContainerSame
import Verif.Lemmas.Laws
import Verif.Props.C44

/-
C45: comparing packets with containers. `t.compare signed p x` is `p == x` for a packet `p` and a value `x` of the C++
type `t`; `Same t v x` says when they are equal.
-/
namespace Dart.Props
open Spec

/-- `p == x` says whether the packet and the container are equal, whatever the packet holds and however containers are
nested.
Missing for the full property: `forward_list`, multimaps and maps to types that can be null, and integers of more than
2^53 in magnitude; for these it is wrong (see below). -/
theorem C45_compare_partial {signed : Bool} {t : CTy} {x : t.type} {v : Val} (hc : Comparable t) (hf : Fit t x) (hw : v.WF)
    (hv : SmallInts v) (hx : SmallIn t x) : ∃ r, t.compare signed (.heap v) x = .ok r ∧ (r = true ↔ Same t v x) :=
  compare_ok t hc hf hw hv hx

/-- A `forward_list` is compared correctly with an array that is not longer. -/
theorem C45_forward_list_partial {signed : Bool} {t : CTy} {xs : List t.type} {es : List Val} (hc : Comparable t)
    (hf : Fit (.fwd t) xs) (hw : (Val.arr es).WF) (hv : SmallInts (.arr es)) (hx : SmallIn (.fwd t) xs) (hl : es.length ≤ xs.length) :
    ∃ r, (CTy.fwd t).compare signed (.heap (.arr es)) xs = .ok r ∧ (r = true ↔ Same (.fwd t) (.arr es) xs) :=
  forward_compare hc hf hw hv hx hl

/-- A multimap is compared correctly with an object that has no other keys. -/
theorem C45_multimap_partial {signed : Bool} {less : Bytes → Bytes → Bool} {t : CTy} {m : List (Bytes × t.type)}
    {fs : List (Bytes × Val)} (hl : Orders less) (hc : Comparable t) (hf : Fit (.mmap less t) m) (hw : (Val.obj fs).WF)
    (hv : SmallInts (.obj fs)) (hx : SmallIn (.mmap less t) m) (hk : ∀ k w, (k, w) ∈ fs → ∃ x, (k, x) ∈ m) :
    ∃ r, (CTy.mmap less t).compare signed (.heap (.obj fs)) m = .ok r ∧ (r = true ↔ Same (.mmap less t) (.obj fs) m) := by
  obtain ⟨r, h1, h2⟩ := multimap_compare (signed := signed) hl hc hf hw hv hx
  have hwf := (wf_obj.1 hw).1
  refine ⟨r, h1, h2.trans ⟨fun h => ⟨fs, rfl, fun k w hm => ?_, fun k x hm => ?_⟩, ?_⟩⟩
  · obtain ⟨x, hx⟩ := hk k w hm
    obtain ⟨es, he, zs, hz, hs⟩ := h k x hx
    have hlk := lookup_of_mem hwf hm
    rw [lookup_of_mem hwf he] at hlk
    cases hlk
    refine ⟨es, rfl, ?_, zs, hz, hs⟩
    rintro rfl
    have hzn : zs = [] := List.length_eq_zero_iff.1 (by rw [← hs.length]; rfl)
    subst hzn
    have : x ∈ valuesAt k m := mem_valuesAt.2 hx
    rw [hz.nil_eq.symm] at this
    cases this
  · obtain ⟨es, he, _⟩ := h k x hm
    exact ⟨_, he⟩
  · rintro ⟨fs', e, g1, g2⟩ k x hm
    cases e
    obtain ⟨w, hw⟩ := g2 k x hm
    obtain ⟨es, rfl, _, hs⟩ := g1 k w hw
    exact ⟨es, hw, hs⟩

/-- The packet made from a container equals it: for all integers, and for `forward_list`s, multimaps and maps to types
that can be null as well, unless there is a NaN. (Multimaps to types with `forward_list`s are left out, see below.) -/
theorem C45_own_conversion {signed : Bool} {t : CTy} {x : t.type} {v : Val} (hs : Steady t) (hf : Fit t x) (h : t.toDart x = .ok v)
    (hn : NoNaN v) : t.compare signed (.heap v) x = .ok true := by
  obtain ⟨w, h1, h2, h3⟩ := toDart_ok t x hf (ordersIn_of_steady t hs)
  rw [h] at h1
  cases h1
  exact compare_own t h3 hf h2 hn hs

/-- Comparing has an answer, whatever the packet holds, unless the type has a `forward_list` in it. -/
theorem C45_always_answers {signed : Bool} {t : CTy} (x : t.type) (v : Val) (hn : NoForward t) (hf : Fit t x) :
    ∃ r, t.compare signed (.heap v) x = .ok r := compare_total t v x hn hf

/-- Finalized packets compare like the dynamic packets of the same value, if their keys are ones that lookups find. -/
theorem C45_finalized {signed exact : Bool} {b : Buf} (hb : Obtained signed exact b) {v : Val} (hv : b.value = some v)
    (hp : v.PlainKeys signed) (t : CTy) (x : t.type) : t.compare signed (.buf b) x = t.compare signed (.heap v) x :=
  compare_same t x ⟨true, v, ⟨rfl, hb.shows_value hv⟩, hp, rfl⟩

/-! What is wrong. -/

/-- Comparing an array with a `forward_list` that is a proper prefix of it reads past the end of the list. -/
theorem C45_forward_list_overrun {signed : Bool} {t : CTy} {xs : List t.type} {es : List Val} {e : Val} {gs : List Val}
    (h : Each (fun e x => t.compare signed (.heap e) x = .ok true) es xs) :
    (CTy.fwd t).compare signed (.heap (.arr (es ++ e :: gs))) xs = .ub := by
  have key : ∀ {es : List Val} {xs : List t.type}, Each (fun e x => t.compare signed (.heap e) x = .ok true) es xs →
      eqForward (t.compare signed) ((es ++ e :: gs).map .heap) xs = .ub := by
    intro es
    induction es with
    | nil => intro xs h; cases xs with
      | nil => rfl
      | cons _ _ => exact h.elim
    | cons a es ih => intro xs h; cases xs with
      | nil => exact h.elim
      | cons x xs => rw [List.cons_append, List.map_cons, eqForward, h.1, Res.bind_ok, if_pos rfl, ih h.2]
  exact key h

/-- Keys of the packet that a multimap does not have are ignored: every object equals the empty multimap. -/
theorem C45_multimap_ignores_keys_wrong {signed : Bool} (less : Bytes → Bytes → Bool) (t : CTy) (fs : List (Bytes × Val)) :
    (CTy.mmap less t).compare signed (.heap (.obj fs)) [] = .ok true := rfl

/-- A key the packet does not have counts as null: `{"b": null}` equals the map from `"a"` to an empty optional. -/
theorem C45_map_missing_key_wrong {signed : Bool} (less : Bytes → Bytes → Bool) (t : CTy) :
    (CTy.map less (.opt t)).compare signed (.heap (.obj [([98], .null)])) [([97], none)] = .ok true ∧
    ¬ Same (.map less (.opt t)) (.obj [([98], .null)]) [([97], none)] := by
  refine ⟨rfl, ?_⟩
  rintro ⟨fs, e, h, _⟩
  cases e
  obtain ⟨w, hw, _⟩ := h [97] none (List.mem_cons_self ..)
  simp at hw

/-- Values of a multimap may be compared in all combinations, so that even a packet made from a multimap to
`forward_list`s must not be compared with it. -/
theorem C45_multimap_of_lists_wrong {signed : Bool} :
    (CTy.mmap bytesLess (.fwd (.scalar .bool))).toDart [([97], [true]), ([97], [true, false])] =
      .ok (.obj [([97], .arr [.arr [.bool true], .arr [.bool true, .bool false]])]) ∧
    (CTy.mmap bytesLess (.fwd (.scalar .bool))).compare signed
      (.heap (.obj [([97], .arr [.arr [.bool true], .arr [.bool true, .bool false]])]))
      [([97], [true]), ([97], [true, false])] = .ub := ⟨rfl, rfl⟩

/-- Large integers in containers, as in C41: the array of the integer 2^53 + 1 equals the vector of the double 2^53. -/
theorem C45_large_integer_wrong {signed : Bool} :
    (CTy.seq (.scalar .dbl)).compare signed (.heap (.arr [.int (2 ^ 53 + 1)])) [intToDouble (2 ^ 53)] = .ok true := by
  have h : (Val.int (2 ^ 53 + 1)).eqNative (.dbl (intToDouble (2 ^ 53))) = .ok true := by decide +kernel
  generalize (Val.int (2 ^ 53 + 1)) = v at h ⊢
  generalize intToDouble (2 ^ 53) = d at h ⊢
  show Res.bind (v.eqNative (.dbl d)) _ = _
  rw [h]
  rfl

/-! Concrete cases. -/

example : Comparable sampleTy := ⟨bytesLess_orders, rfl, trivial, trivial, trivial⟩
example : Steady sampleTy := ⟨bytesLess_orders, trivial, trivial, trivial⟩
example : SmallIn sampleTy sampleMap := by
  intro e he
  rcases List.mem_cons.1 he with rfl | he
  · trivial
  · rcases List.mem_cons.1 he with rfl | he
    · intro x hx
      change x ∈ ([1, -2] : List Int) at hx
      rcases List.mem_cons.1 hx with rfl | hx
      · show (1 : Int).natAbs ≤ 2 ^ 53; decide
      · rcases List.mem_cons.1 hx with rfl | hx
        · show (-2 : Int).natAbs ≤ 2 ^ 53; decide
        · cases hx
    · cases he
example : SmallInts (.obj [([98], .arr [.int 1, .int (-2)]), ([97, 97], .str [104, 105])]) := by
  refine ⟨⟨?_, ?_, trivial⟩, trivial, trivial⟩ <;> (simp only [SmallInts]; decide)
example : sampleTy.compare true (.heap (.obj [([98], .arr [.int 1, .int (-2)]), ([97, 97], .str [104, 105])])) sampleMap = .ok true := rfl
/-- Another value, and an additional key. -/
example : sampleTy.compare true (.heap (.obj [([98], .arr [.int 1, .int 2]), ([97, 97], .str [104, 105])])) sampleMap = .ok false := rfl
example : sampleTy.compare true (.heap (.obj [([97], .null), ([98], .arr [.int 1, .int (-2)]), ([97, 97], .str [104, 105])])) sampleMap =
    .ok false := rfl
/-- Sets are equal to arrays in any order, but with as many elements. -/
example : (CTy.set .str bytesLess).compare true (.heap (.arr [.str [98], .str [97]])) ([[97], [98]] : List Bytes) = .ok true := rfl
example : (CTy.set .str bytesLess).compare true (.heap (.arr [.str [98], .str [98]])) ([[97], [98]] : List Bytes) = .ok false := rfl
/-- So are the values of a multimap. -/
example : (CTy.mmap bytesLess (.scalar .bool)).compare true (.heap (.obj [([97], .arr [.bool false, .bool true])]))
    [([97], true), ([97], false)] = .ok true := rfl

end Dart.Props
