import Verif.Lemmas.AbiSafe

/-
C49: the C functions that build an object or array from a format string and variadic arguments build what the
documentation says. `initVaErr .obj rc fmt as` is `dart_heap_obj_init_va_rc_err(&pkt, rc, fmt, as...)`, and alike for packets,
arrays and the functions without `_rc`; `initVa` is the functions that return the packet. `Item` is what a caller wants
to pass, `Item.fmt` and `Item.Given` the letters and arguments for it, and `Builds` the value it stands for.
-/
namespace Dart.Props
open Spec Abi

/-- An item stands for at most one value. -/
theorem C49_unique {x : Item} {v w : Val} (hv : Builds x v) (hw : Builds x w) : v = w := builds_unique hv hw

/-- Objects: the letters and arguments of any list of keys and items give the object of them. Commas at the end of the
format may be left out, and there may be more arguments. Partial: no `unsigned long` of 2^63 or more (`Fine`, which also
limits keys to 65535 bytes). -/
theorem C49_object_partial {l : List (Bytes × Item)} {as : List VArg} {fmt : Bytes} {rc : Nat} (hg : GivenPairs l as)
    (hf : FinePairs l) (hfmt : UpToCommas fmt (fmtPairs l ++ [chr ','])) (hl : (fmtPairs l).length < maxElems)
    (hrc : rc = 1 ∨ rc = 2) (more : List VArg) :
    ∃ v, Builds (.obj l) v ∧ initVaErr .obj rc fmt (as ++ more) = .ok (.noError, some v) ∧
      initVa .obj rc fmt (as ++ more) = .ok (v, none) := by
  obtain ⟨ps, gs, hb, hs, hk, hp⟩ := parsePairs_items l (u := fmt) (rest := []) (fs := []) more (n := initFuel fmt) hg hf
    (.inr ⟨rfl, hfmt⟩) hl (Nat.le_refl _) .nil
  have e : initVaErr .obj rc fmt (as ++ more) = .ok (.noError, some (.obj gs)) := by
    simp only [initVaErr, if_pos hrc, parseInto, hp]
  exact ⟨_, .obj hb (sorted_iff.2 hs) (fun k => by rw [hk k]; simp [lookup_nil]), e, by simp only [initVa, e, Res.bind]⟩

/-- Arrays likewise. -/
theorem C49_array_partial {l : List Item} {as : List VArg} {fmt : Bytes} {rc : Nat} (hg : GivenElems l as)
    (hf : FineElems l) (hfmt : UpToCommas fmt (fmtElems l ++ [chr ','])) (hl : (fmtElems l).length < maxElems)
    (hrc : rc = 1 ∨ rc = 2) (more : List VArg) :
    ∃ v, Builds (.arr l) v ∧ initVaErr .arr rc fmt (as ++ more) = .ok (.noError, some v) ∧
      initVa .arr rc fmt (as ++ more) = .ok (v, none) := by
  obtain ⟨vs, hb, hp⟩ := parseVals_items l (u := fmt) (rest := []) (es := []) more (n := initFuel fmt) hg hf
    (.inr ⟨rfl, hfmt⟩) (by simpa using hl) (Nat.le_refl _)
  have e : initVaErr .arr rc fmt (as ++ more) = .ok (.noError, some (.arr vs)) := by
    simp only [initVaErr, if_pos hrc, parseInto, hp, List.nil_append]
  exact ⟨_, .arr hb, e, by simp only [initVa, e, Res.bind]⟩

/-- A comma that closes the outermost object or array ends the format: whatever is behind it is ignored. -/
theorem C49_rest_ignored_partial {rc : Nat} (hrc : rc = 1 ∨ rc = 2) (rest : Bytes) (more : List VArg) :
    (∀ {l : List (Bytes × Item)} {as : List VArg}, GivenPairs l as → FinePairs l → (fmtPairs l).length < maxElems →
      ∃ v, Builds (.obj l) v ∧ initVaErr .obj rc (fmtPairs l ++ [chr ','] ++ rest) (as ++ more) = .ok (.noError, some v)) ∧
    (∀ {l : List Item} {as : List VArg}, GivenElems l as → FineElems l → (fmtElems l).length < maxElems →
      ∃ v, Builds (.arr l) v ∧ initVaErr .arr rc (fmtElems l ++ [chr ','] ++ rest) (as ++ more) = .ok (.noError, some v)) := by
  constructor
  · intro l as hg hf hl
    obtain ⟨ps, gs, hb, hs, hk, hp⟩ := parsePairs_items l (u := fmtPairs l ++ [chr ','] ++ rest) (rest := rest) (fs := []) more
      (n := initFuel (fmtPairs l ++ [chr ','] ++ rest)) hg hf (.inl rfl) hl (Nat.le_refl _) .nil
    refine ⟨_, .obj hb (sorted_iff.2 hs) (fun k => by rw [hk k]; simp [lookup_nil]), ?_⟩
    simp only [initVaErr, if_pos hrc, parseInto, hp]
  · intro l as hg hf hl
    obtain ⟨vs, hb, hp⟩ := parseVals_items l (u := fmtElems l ++ [chr ','] ++ rest) (rest := rest) (es := []) more
      (n := initFuel (fmtElems l ++ [chr ','] ++ rest)) hg hf (.inl rfl) (by simpa using hl) (Nat.le_refl _)
    refine ⟨_, .arr hb, ?_⟩
    simp only [initVaErr, if_pos hrc, parseInto, hp, List.nil_append]

/-- The full claim is false: every `unsigned long` of 2^63 or more becomes a negative number, without an error. -/
theorem C49_unsigned_long_wrong {i : BitVec 64} (h : 2 ^ 63 ≤ i.toNat) :
    (∀ v, ¬ Builds (.arr [.ulong i]) v) ∧
    ∃ n : BitVec 64, n.toInt < 0 ∧ initVaErr .arr 1 [chr 'u', chr 'l'] [.ulong i] = .ok (.noError, some (.arr [.int n])) := by
  constructor
  · intro v hv
    cases hv with
    | arr hv =>
      cases hv with
      | cons hv _ =>
        cases hv with
        | ulong hn => have := BitVec.toInt_lt (x := ‹BitVec 64›) ; omega
  · refine ⟨i, ?_, ?_⟩
    · rw [BitVec.toInt_eq_toNat_cond]; have := i.isLt; rw [if_neg (by omega)]; omega
    · simp [initVaErr, parseInto, initFuel, parseVals, parseVal, identifyVararg, chr_u, chr_l, pushBack_arr (es := []) (by simp [maxElems])]

/-! ### The hypotheses can be met -/

/-- The bytes of a text. -/
def ascii (s : String) : Bytes := s.toList.map Char.toUInt8

/-- The example of the documentation with more in it: `{"hello":"world","b":[1,{},null],"hello":"x"}`. -/
def c49Items : List (Bytes × Item) :=
  [(ascii "hello", .str (ascii "world")), (ascii "b", .arr [.int 1, .obj [], .null]), (ascii "hello", .sized (ascii "x"))]

def c49Args : List VArg :=
  [.ptr (ascii "hello" ++ [0]), .ptr (ascii "world" ++ [0, 7]), .ptr (ascii "b" ++ [0]), .int 1, .ptr (ascii "hello" ++ [0]),
    .ptr (ascii "xyz"), .size 1]

example : fmtPairs c49Items = ascii "saio,n,S" := by decide +kernel

theorem c49Given : GivenPairs c49Items c49Args := by
  refine ⟨.ptr (ascii "hello" ++ [0]), [.ptr (ascii "world" ++ [0, 7])], _, ⟨by decide +kernel, [], rfl⟩,
    ⟨_, ⟨by decide +kernel, [7], rfl⟩, rfl⟩, ?_, rfl⟩
  refine ⟨.ptr (ascii "b" ++ [0]), [.int 1], _, ⟨by decide +kernel, [], rfl⟩, ?_, ?_, rfl⟩
  · exact ⟨[.int 1], [], rfl, ⟨[], [], rfl, ⟨[], [], rfl, rfl, rfl⟩, rfl⟩, rfl⟩
  · exact ⟨.ptr (ascii "hello" ++ [0]), [.ptr (ascii "xyz"), .size 1], [], ⟨by decide +kernel, [], rfl⟩, ⟨ascii "yz", rfl⟩, rfl, rfl⟩

theorem c49Fine : FinePairs c49Items :=
  ⟨by decide +kernel, trivial, by decide +kernel, ⟨trivial, trivial, trivial, trivial⟩, by decide +kernel, trivial, trivial⟩

example : ∃ v, Builds (.obj c49Items) v ∧ initVaErr .obj 1 (ascii "saio,n,S") (c49Args ++ []) = .ok (.noError, some v) ∧
    initVa .obj 1 (ascii "saio,n,S") (c49Args ++ []) = .ok (v, none) :=
  C49_object_partial c49Given c49Fine ⟨[chr ','], by simp, by decide +kernel⟩ (by decide +kernel) (.inl rfl) []

/-- It is the object expected. -/
theorem c49Builds : Builds (.obj c49Items)
    (.obj [(ascii "b", .arr [.int 1, .obj [], .null]), (ascii "hello", .str (ascii "x"))]) := by
  refine .obj (ps := [(ascii "hello", .str (ascii "world")), (ascii "b", .arr [.int 1, .obj [], .null]),
    (ascii "hello", .str (ascii "x"))]) ?_ ?_ fun k => ?_
  · exact .cons (.str _) (.cons (.arr (.cons (.int (by decide)) (.cons (.obj .nil .nil fun _ => rfl) (.cons .null .nil))))
      (.cons (.sized _) .nil))
  · simp only [List.pairwise_cons, List.mem_cons, List.not_mem_nil, or_false, forall_eq, List.Pairwise.nil, and_true, false_implies,
      implies_true]
    exact .inl (by decide +kernel)
  · by_cases h1 : ascii "hello" = k
    · subst h1; rfl
    · by_cases h2 : ascii "b" = k
      · subst h2; rfl
      · simp [lookup, h1, h2]

example : ∃ v, Builds (.arr [.int 1, .arr [.arr [.bool 3]]]) v ∧
    initVaErr .arr 2 (ascii "iaab") ([.int 1, .int 3] ++ [.size 2]) = .ok (.noError, some v) ∧
    initVa .arr 2 (ascii "iaab") ([.int 1, .int 3] ++ [.size 2]) = .ok (v, none) :=
  C49_array_partial (l := [.int 1, .arr [.arr [.bool 3]]])
    ⟨[.int 1], [.int 3], rfl, ⟨[.int 3], [], ⟨[.int 3], [], ⟨[.int 3], [], rfl, rfl, rfl⟩, rfl, rfl⟩, rfl, rfl⟩, rfl⟩
    (by simp [FineElems, Item.Fine]) ⟨[chr ',', chr ',', chr ','], by simp, by decide +kernel⟩ (by decide +kernel) (.inr rfl) _

example : 2 ^ 63 ≤ (BitVec.ofNat 64 (2 ^ 64 - 1)).toNat := by decide +kernel

end Dart.Props
