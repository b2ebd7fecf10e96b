import Verif.Spec.Abi
import Verif.Lemmas.Heap

/-
The variadic initialisers of the C interface read what their format says.
-/
namespace Dart.Abi
open Dart.Spec

theorem chr_o : chr 'o' = 0x6f := rfl
theorem chr_a : chr 'a' = 0x61 := rfl
theorem chr_s : chr 's' = 0x73 := rfl
theorem chr_S : chr 'S' = 0x53 := rfl
theorem chr_u : chr 'u' = 0x75 := rfl
theorem chr_i : chr 'i' = 0x69 := rfl
theorem chr_l : chr 'l' = 0x6c := rfl
theorem chr_d : chr 'd' = 0x64 := rfl
theorem chr_b : chr 'b' = 0x62 := rfl
theorem chr_n : chr 'n' = 0x6e := rfl
theorem chr_blank : chr ' ' = 0x20 := rfl
theorem chr_comma : chr ',' = 0x2c := rfl

/-! ### Strings -/

theorem takeWhile_nul {s t : Bytes} (h : (0 : UInt8) ∉ s) : (s ++ 0 :: t).takeWhile (· != 0) = s := by
  induction s with
  | nil => simp
  | cons c s ih =>
    simp only [List.mem_cons, not_or] at h
    have hc : (c != 0) = true := by simp [bne_iff_ne]; exact fun e => h.1 e.symm
    simp [List.cons_append, List.takeWhile_cons, hc, ih h.2]

theorem argStr_points {a : VArg} {s : Bytes} (h : PointsTo a s) (as : List VArg) : argStr (a :: as) = .ok (s, as) := by
  obtain ⟨h0, t, rfl⟩ := h
  simp [argStr, cStr, takeWhile_nul h0, Res.bind]

/-! ### Appending to arrays, adding to objects -/

theorem pushBack_arr {es : List Val} (h : es.length < maxElems) (v : Val) :
    (Val.arr es).pushBack v = .ok (.arr (es ++ [v])) := by
  have h' : es.length < 2 ^ 64 := by simp only [maxElems] at h; omega
  have e : (BitVec.ofNat 64 es.length).toNat = es.length := by rw [BitVec.toNat_ofNat]; omega
  simp only [Val.pushBack, Val.size, Res.bind, Val.insert, e]
  rw [if_neg (by omega), if_neg (by omega)]
  simp

theorem insert_obj {fs : List (Bytes × Val)} {k : Bytes} (h : k.length ≤ 65535) (v : Val) :
    (Val.obj fs).insert (.str k) v = .ok (.obj (mapInsert k v fs)) := by
  simp only [Val.insert]
  rw [if_neg (by omega)]

/-! ### The end of a format -/

/-- The input is `full` and then `rest`, or ends in `full` without some of its last commas. -/
def Ends (u full rest : Bytes) : Prop := u = full ++ rest ∨ (rest = [] ∧ UpToCommas u full)

theorem Ends.split {u A F rest : Bytes} (h : Ends u (A ++ F) rest) :
    (∃ w, u = A ++ w ∧ Ends w F rest) ∨ (rest = [] ∧ UpToCommas u A ∧ ∀ c ∈ F, c = chr ',') := by
  rcases h with rfl | ⟨rfl, cs, hc, e⟩
  · exact .inl ⟨F ++ rest, by simp, .inl rfl⟩
  · rcases List.append_eq_append_iff.1 e with ⟨w, rfl, e'⟩ | ⟨w, rfl, e'⟩
    · refine .inr ⟨rfl, ⟨w, fun c h => hc c ?_, rfl⟩, fun c h => hc c ?_⟩
      · rw [e']; simp [h]
      · rw [e']; simp [h]
    · exact .inl ⟨w, rfl, .inr ⟨rfl, cs, hc, e'.symm⟩⟩

theorem Ends.letter {u rest : Bytes} {A : Bytes} {c : UInt8} (h : Ends u (A ++ [c]) rest) (hc : c ≠ chr ',') :
    u = A ++ [c] ++ rest := by
  rcases h.split with ⟨w, rfl, h2⟩ | ⟨_, _, h⟩
  · rcases h2 with rfl | ⟨rfl, cs, hcs, e⟩
    · simp
    · cases w with
      | nil => exact absurd (hcs c (by rw [List.nil_append] at e; rw [e]; simp)) hc
      | cons d w => simp at e; obtain ⟨rfl, rfl, rfl⟩ := e; simp
  · exact absurd (h c (by simp)) hc

theorem Ends.cons {u rest : Bytes} {F : Bytes} {c : UInt8} (h : Ends u (c :: F) rest) (hc : c ≠ chr ',') :
    ∃ w, u = c :: w ∧ Ends w F rest := by
  rcases Ends.split (A := [c]) h with ⟨w, rfl, h2⟩ | ⟨rfl, ⟨cs, hcs, e⟩, h2⟩
  · exact ⟨w, rfl, h2⟩
  · cases u with
    | nil => exact absurd (hcs c (by rw [List.nil_append] at e; rw [e]; simp)) hc
    | cons d w => simp at e; obtain ⟨rfl, rfl, rfl⟩ := e; exact ⟨[], rfl, .inr ⟨rfl, F, h2, rfl⟩⟩

theorem fmt_head (x : Item) : ∃ c t, x.fmt = c :: t ∧ c ≠ chr ',' := by
  cases x <;> simp only [Item.fmt, List.cons_append] <;> exact ⟨_, _, rfl, by decide⟩

theorem fmt_head_cut {x : Item} {u : Bytes} (h : UpToCommas u x.fmt) : ∃ c t, u = c :: t ∧ c ≠ chr ',' := by
  obtain ⟨c, t, e, hc⟩ := fmt_head x
  obtain ⟨cs, hcs, e'⟩ := h
  cases u with
  | nil => exact absurd (hcs c (by rw [List.nil_append] at e'; rw [e', e]; simp)) hc
  | cons d w => rw [e] at e'; simp at e'; obtain ⟨rfl, _⟩ := e'; exact ⟨_, _, rfl, hc⟩

theorem UpToCommas.length_le {u full : Bytes} (h : UpToCommas u full) : u.length ≤ full.length := by
  obtain ⟨cs, _, rfl⟩ := h; simp

/-! ### The loops -/

theorem parseVals_end {u rest : Bytes} (h : Ends u [chr ','] rest) (n : Nat) (as : List VArg) (self : Val) :
    parseVals (n + 1) u as self = (self, .ok (rest, as)) := by
  rcases h with rfl | ⟨rfl, cs, hcs, e⟩
  · simp [parseVals, chr_comma]
  · cases u with
    | nil => simp [parseVals]
    | cons c w => simp at e; obtain ⟨rfl, rfl, rfl⟩ := e; simp [parseVals, chr_comma]

theorem parsePairs_end {u rest : Bytes} (h : Ends u [chr ','] rest) (n : Nat) (as : List VArg) (self : Val) :
    parsePairs (n + 1) u as self = (self, .ok (rest, as)) := by
  rcases h with rfl | ⟨rfl, cs, hcs, e⟩
  · simp [parsePairs, chr_comma]
  · cases u with
    | nil => simp [parsePairs]
    | cons c w => simp at e; obtain ⟨rfl, rfl, rfl⟩ := e; simp [parsePairs, chr_comma]

theorem parseVals_step {c : UInt8} {u w : Bytes} {n : Nat} {as bs : List VArg} {es : List Val} {v : Val}
    (hc : c ≠ chr ',') (hv : parseVal n (c :: u) as = .ok (v, w, bs)) (hes : es.length < maxElems) :
    parseVals (n + 1) (c :: u) as (.arr es) = parseVals n w bs (.arr (es ++ [v])) := by
  rw [chr_comma] at hc
  simp only [parseVals, if_neg hc, hv, pushBack_arr hes]

theorem parsePairs_step {c : UInt8} {u w : Bytes} {n : Nat} {a : VArg} {k : Bytes} {as bs : List VArg}
    {fs : List (Bytes × Val)} {v : Val} (hc : c ≠ chr ',') (ha : PointsTo a k) (hv : parseVal n (c :: u) as = .ok (v, w, bs))
    (hk : k.length ≤ 65535) :
    parsePairs (n + 1) (c :: u) (a :: as) (.obj fs) = parsePairs n w bs (.obj (mapInsert k v fs)) := by
  rw [chr_comma] at hc
  simp only [parsePairs, if_neg hc, argStr_points ha, hv, insert_obj hk]

/-! ### Every item is read as what it stands for -/

theorem commas_elems {l : List Item} (h : ∀ c ∈ fmtElems l ++ [chr ','], c = chr ',') : l = [] := by
  cases l with
  | nil => rfl
  | cons x l =>
    obtain ⟨c, t, e, hc⟩ := fmt_head x
    exact absurd (h c (by simp [fmtElems, e])) hc

theorem commas_pairs {l : List (Bytes × Item)} (h : ∀ c ∈ fmtPairs l ++ [chr ','], c = chr ',') : l = [] := by
  cases l with
  | nil => rfl
  | cons x l =>
    obtain ⟨k, x⟩ := x
    obtain ⟨c, t, e, hc⟩ := fmt_head x
    exact absurd (h c (by simp [fmtPairs, e])) hc

theorem signExtend_toInt (i : BitVec 32) : (i.signExtend 64).toInt = i.toInt := by
  rw [BitVec.toInt_signExtend_of_le (by decide)]

theorem zeroExtend_toInt (i : BitVec 32) : (i.zeroExtend 64).toInt = i.toNat := by
  have h := i.isLt
  rw [BitVec.toInt_eq_toNat_of_lt] <;> simp [BitVec.zeroExtend, BitVec.toNat_setWidth] <;> omega

mutual
theorem parseVal_item : ∀ (x : Item) {u rest : Bytes} {as : List VArg} (more : List VArg) {n : Nat}, x.Given as → x.Fine →
    Ends u x.fmt rest → x.fmt.length < maxElems → 2 * u.length ≤ n →
    ∃ v, Builds x v ∧ parseVal n u (as ++ more) = .ok (v, rest, more)
  | .obj l, u, rest, as, more, n, hg, hf, he, hl, hn => by
    simp only [Item.fmt, List.cons_append] at he hl
    obtain ⟨w, rfl, he'⟩ := he.cons (by decide)
    simp only [List.length_cons, List.length_append, List.length_nil] at hn hl
    obtain ⟨m, rfl⟩ : ∃ m, n = m + 1 := ⟨n - 1, by omega⟩
    obtain ⟨ps, fs, hb, hs, hk, hp⟩ := parsePairs_items l (fs := []) more (n := m) hg hf he' (by omega) (by omega) .nil
    refine ⟨_, .obj hb (sorted_iff.2 hs) (fun k => ?_), ?_⟩
    · rw [hk k]; simp [lookup_nil]
    · simp only [parseVal, identifyVararg, chr_o, if_true, hp]
  | .arr l, u, rest, as, more, n, hg, hf, he, hl, hn => by
    simp only [Item.fmt, List.cons_append] at he hl
    obtain ⟨w, rfl, he'⟩ := he.cons (by decide)
    simp only [List.length_cons, List.length_append, List.length_nil] at hn hl
    obtain ⟨m, rfl⟩ : ∃ m, n = m + 1 := ⟨n - 1, by omega⟩
    obtain ⟨vs, hb, hp⟩ := parseVals_items l (es := []) more (n := m) hg hf he' (by simp; omega) (by omega)
    refine ⟨_, .arr hb, ?_⟩
    have : ¬ ((0x61 : UInt8) = 0x6f) := by decide
    simp only [parseVal, identifyVararg, chr_a, if_neg this, if_true, hp, List.nil_append]
  | .str s, u, rest, as, more, n, hg, hf, he, hl, hn => by
    obtain rfl := Ends.letter (A := []) he (by decide)
    obtain ⟨m, rfl⟩ : ∃ m, n = m + 1 := ⟨n - 1, by simp at hn; omega⟩
    obtain ⟨a, ha, rfl⟩ := hg
    refine ⟨_, .str s, ?_⟩
    simp only [parseVal, identifyVararg, chr_s, List.nil_append, List.cons_append, argStr_points ha]
    simp [Res.bind]
  | .sized s, u, rest, as, more, n, hg, hf, he, hl, hn => by
    obtain rfl := Ends.letter (A := []) he (by decide)
    obtain ⟨m, rfl⟩ : ∃ m, n = m + 1 := ⟨n - 1, by simp at hn; omega⟩
    obtain ⟨t, rfl⟩ := hg
    refine ⟨_, .sized s, ?_⟩
    simp [parseVal, identifyVararg, chr_S]
  | .int i, u, rest, as, more, n, hg, hf, he, hl, hn => by
    obtain rfl := Ends.letter (A := []) he (by decide)
    obtain ⟨m, rfl⟩ : ∃ m, n = m + 1 := ⟨n - 1, by simp at hn; omega⟩
    cases hg
    refine ⟨_, .int (signExtend_toInt i), ?_⟩
    simp [parseVal, identifyVararg, chr_i]
  | .uint i, u, rest, as, more, n, hg, hf, he, hl, hn => by
    obtain rfl := Ends.letter (A := [chr 'u']) he (by decide)
    obtain ⟨m, rfl⟩ : ∃ m, n = m + 1 := ⟨n - 1, by simp at hn; omega⟩
    cases hg
    refine ⟨_, .uint (zeroExtend_toInt i), ?_⟩
    simp [parseVal, identifyVararg, chr_u, chr_i]
  | .long i, u, rest, as, more, n, hg, hf, he, hl, hn => by
    obtain rfl := Ends.letter (A := []) he (by decide)
    obtain ⟨m, rfl⟩ : ∃ m, n = m + 1 := ⟨n - 1, by simp at hn; omega⟩
    cases hg
    refine ⟨_, .long i, ?_⟩
    simp [parseVal, identifyVararg, chr_l]
  | .ulong i, u, rest, as, more, n, hg, hf, he, hl, hn => by
    obtain rfl := Ends.letter (A := [chr 'u']) he (by decide)
    obtain ⟨m, rfl⟩ : ∃ m, n = m + 1 := ⟨n - 1, by simp at hn; omega⟩
    cases hg
    simp only [Item.Fine] at hf
    refine ⟨_, .ulong (BitVec.toInt_eq_toNat_of_lt (by omega)), ?_⟩
    simp [parseVal, identifyVararg, chr_u, chr_l]
  | .double d, u, rest, as, more, n, hg, hf, he, hl, hn => by
    obtain rfl := Ends.letter (A := []) he (by decide)
    obtain ⟨m, rfl⟩ : ∃ m, n = m + 1 := ⟨n - 1, by simp at hn; omega⟩
    cases hg
    refine ⟨_, .double d, ?_⟩
    simp [parseVal, identifyVararg, chr_d]
  | .bool i, u, rest, as, more, n, hg, hf, he, hl, hn => by
    obtain rfl := Ends.letter (A := []) he (by decide)
    obtain ⟨m, rfl⟩ : ∃ m, n = m + 1 := ⟨n - 1, by simp at hn; omega⟩
    cases hg
    refine ⟨_, .bool (b := i != 0) (by simp), ?_⟩
    simp [parseVal, identifyVararg, chr_b]
  | .null, u, rest, as, more, n, hg, hf, he, hl, hn => by
    obtain rfl := Ends.letter (A := []) he (by decide)
    obtain ⟨m, rfl⟩ : ∃ m, n = m + 1 := ⟨n - 1, by simp at hn; omega⟩
    cases hg
    refine ⟨_, .null, ?_⟩
    simp [parseVal, identifyVararg, chr_n]
  | .blank, u, rest, as, more, n, hg, hf, he, hl, hn => by
    obtain rfl := Ends.letter (A := []) he (by decide)
    obtain ⟨m, rfl⟩ : ∃ m, n = m + 1 := ⟨n - 1, by simp at hn; omega⟩
    cases hg
    refine ⟨_, .blank, ?_⟩
    simp [parseVal, identifyVararg, chr_blank]
theorem parseVals_items : ∀ (l : List Item) {u rest : Bytes} {as : List VArg} {es : List Val} (more : List VArg) {n : Nat},
    GivenElems l as → FineElems l → Ends u (fmtElems l ++ [chr ',']) rest → es.length + (fmtElems l).length < maxElems →
    2 * u.length + 1 ≤ n →
    ∃ vs, BuildsElems l vs ∧ parseVals n u (as ++ more) (.arr es) = (.arr (es ++ vs), .ok (rest, more))
  | [], u, rest, as, es, more, n, hg, hf, he, hl, hn => by
    obtain ⟨m, rfl⟩ : ∃ m, n = m + 1 := ⟨n - 1, by omega⟩
    cases hg
    exact ⟨[], .nil, by rw [parseVals_end he]; simp⟩
  | x :: l, u, rest, as, es, more, n, hg, hf, he, hl, hn => by
    obtain ⟨bs, cs, hb, hc, rfl⟩ := hg
    simp only [fmtElems, List.length_append, List.append_assoc] at he hl
    obtain ⟨c₀, t₀, e₀, hc₀⟩ := fmt_head x
    have h0 : 0 < x.fmt.length := by rw [e₀]; simp
    obtain ⟨m, rfl⟩ : ∃ m, n = m + 1 := ⟨n - 1, by omega⟩
    rcases he.split with ⟨w, rfl, he'⟩ | ⟨rfl, hu, hcs⟩
    · simp only [List.length_append] at hn
      obtain ⟨v, hv, hp⟩ := parseVal_item x (u := x.fmt ++ w) (rest := w) (cs ++ more) (n := m) hb hf.1 (.inl rfl)
        (by omega) (by simp only [List.length_append]; omega)
      rw [e₀, List.cons_append] at hp
      obtain ⟨vs, hvs, hp'⟩ := parseVals_items l (es := es ++ [v]) more (n := m) hc hf.2 he' (by simp; omega) (by omega)
      refine ⟨v :: vs, .cons hv hvs, ?_⟩
      rw [e₀, List.append_assoc, List.cons_append, parseVals_step hc₀ hp (by omega), hp']
      simp
    · obtain rfl := commas_elems hcs
      obtain ⟨v, hv, hp⟩ := parseVal_item x (u := u) (rest := []) (cs ++ more) (n := m) hb hf.1 (.inr ⟨rfl, hu⟩)
        (by omega) (by omega)
      obtain ⟨c, t, rfl, hc'⟩ := fmt_head_cut hu
      cases hc
      refine ⟨[v], .cons hv .nil, ?_⟩
      rw [List.append_assoc, parseVals_step hc' hp (by omega)]
      obtain ⟨m', rfl⟩ : ∃ m', m = m' + 1 := ⟨m - 1, by simp at hn; omega⟩
      simp [parseVals]
theorem parsePairs_items : ∀ (l : List (Bytes × Item)) {u rest : Bytes} {as : List VArg} {fs : List (Bytes × Val)}
    (more : List VArg) {n : Nat},
    GivenPairs l as → FinePairs l → Ends u (fmtPairs l ++ [chr ',']) rest → (fmtPairs l).length < maxElems →
    2 * u.length + 1 ≤ n → Sorted fs →
    ∃ ps gs, BuildsPairs l ps ∧ Sorted gs ∧ (∀ k, lookup gs k = (lookup ps.reverse k).or (lookup fs k)) ∧
      parsePairs n u (as ++ more) (.obj fs) = (.obj gs, .ok (rest, more))
  | [], u, rest, as, fs, more, n, hg, hf, he, hl, hn, hs => by
    obtain ⟨m, rfl⟩ : ∃ m, n = m + 1 := ⟨n - 1, by omega⟩
    cases hg
    exact ⟨[], fs, .nil, hs, fun k => by simp [lookup_nil], by rw [parsePairs_end he]; simp⟩
  | (k, x) :: l, u, rest, as, fs, more, n, hg, hf, he, hl, hn, hs => by
    obtain ⟨a, bs, cs, ha, hb, hc, rfl⟩ := hg
    simp only [fmtPairs, List.length_append, List.append_assoc] at he hl
    obtain ⟨c₀, t₀, e₀, hc₀⟩ := fmt_head x
    have h0 : 0 < x.fmt.length := by rw [e₀]; simp
    have look : ∀ (v : Val) (ps : List (Bytes × Val)) (j : Bytes),
        (lookup ps.reverse j).or (lookup (mapInsert k v fs) j) = (lookup ((k, v) :: ps).reverse j).or (lookup fs j) := by
      intro v ps j
      simp only [lookup_mapInsert, List.reverse_cons]
      simp only [lookup, List.find?_append, List.find?_cons, List.find?_nil]
      cases List.find? (fun x => x.1 == j) ps.reverse with
      | some p => simp
      | none =>
        by_cases hj : j = k
        · subst hj; simp [put]
        · have : (k == j) = false := by simp; exact fun e => hj e.symm
          simp [put, hj, this, lookup]
    obtain ⟨m, rfl⟩ : ∃ m, n = m + 1 := ⟨n - 1, by omega⟩
    rcases he.split with ⟨w, rfl, he'⟩ | ⟨rfl, hu, hcs⟩
    · simp only [List.length_append] at hn
      obtain ⟨v, hv, hp⟩ := parseVal_item x (u := x.fmt ++ w) (rest := w) (cs ++ more) (n := m) hb hf.2.1 (.inl rfl)
        (by omega) (by simp only [List.length_append]; omega)
      rw [e₀, List.cons_append] at hp
      obtain ⟨ps, gs, hps, hgs, hk, hp'⟩ := parsePairs_items l (fs := mapInsert k v fs) more (n := m) hc hf.2.2 he'
        (by omega) (by omega) (mapInsert_sorted hs)
      refine ⟨(k, v) :: ps, gs, .cons hv hps, hgs, fun j => by rw [hk j, look], ?_⟩
      rw [e₀, List.cons_append, show a :: bs ++ cs ++ more = a :: (bs ++ (cs ++ more)) by simp, parsePairs_step hc₀ ha hp hf.1, hp']
    · obtain rfl := commas_pairs hcs
      obtain ⟨v, hv, hp⟩ := parseVal_item x (u := u) (rest := []) (cs ++ more) (n := m) hb hf.2.1 (.inr ⟨rfl, hu⟩)
        (by omega) (by omega)
      obtain ⟨c, t, rfl, hc'⟩ := fmt_head_cut hu
      cases hc
      refine ⟨[(k, v)], mapInsert k v fs, .cons hv .nil, mapInsert_sorted hs, fun j => ?_, ?_⟩
      · rw [← look v [] j]; simp [lookup_nil]
      · rw [show a :: bs ++ [] ++ more = a :: (bs ++ ([] ++ more)) by simp, parsePairs_step hc' ha hp hf.1]
        obtain ⟨m', rfl⟩ : ∃ m', m = m' + 1 := ⟨m - 1, by simp at hn; omega⟩
        simp [parsePairs]
end

end Dart.Abi
