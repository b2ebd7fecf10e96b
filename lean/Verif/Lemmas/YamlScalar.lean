import Verif.Lemmas.Yaml

/-
YAML scalars, helpers.
-/
namespace Dart
open Spec

theorem digitOf_10 {c : UInt8} {d : Nat} : digitOf 10 c = some d ↔ (0x30 ≤ c ∧ c ≤ 0x39) ∧ d = c.toNat - 0x30 := by
  simp only [digitOf, UInt8.le_iff_toNat_le, UInt8.reduceToNat]
  repeat' split
  all_goals simp only [Option.some.injEq, reduceCtorEq, false_iff]
  all_goals omega

theorem digitOf_8 {c : UInt8} {d : Nat} : digitOf 8 c = some d ↔ (0x30 ≤ c ∧ c ≤ 0x37) ∧ d = c.toNat - 0x30 := by
  simp only [digitOf, UInt8.le_iff_toNat_le, UInt8.reduceToNat]
  repeat' split
  all_goals simp only [Option.some.injEq, reduceCtorEq, false_iff]
  all_goals omega

theorem digitOf_16 (c : UInt8) : digitOf 16 c = hexDigit c := by
  simp only [digitOf, hexDigit, UInt8.le_iff_toNat_le, UInt8.reduceToNat]
  repeat' split
  all_goals first | rfl | (simp only [Option.some.injEq, reduceCtorEq]; omega) | (exfalso; omega)

theorem readDigits_append {base : Nat} {g : UInt8 → Nat} : ∀ (ds rest : Bytes) (acc : Nat),
    (∀ c ∈ ds, digitOf base c = some (g c)) → (∀ c, rest.head? = some c → digitOf base c = none) →
    readDigits base acc (ds ++ rest) = (ds.foldl (fun n c => base * n + g c) acc, ds.length)
  | [], [], acc, _, _ => rfl
  | [], c :: rest, acc, _, h => by
    simp only [List.nil_append, readDigits, h c rfl, List.foldl_nil, List.length_nil]
  | c :: ds, rest, acc, h, h' => by
    simp only [List.cons_append, readDigits, h c (List.mem_cons_self ..),
      readDigits_append ds rest _ (fun c hc => h c (List.mem_cons_of_mem _ hc)) h', List.foldl_cons, List.length_cons]

theorem readDigits_le (base : Nat) : ∀ (s : Bytes) (acc : Nat), (readDigits base acc s).2 ≤ s.length
  | [], _ => Nat.le_refl _
  | c :: s, acc => by
    unfold readDigits
    split
    · simp only [List.length_cons]; have := readDigits_le base s; exact Nat.succ_le_succ (this _)
    · simp

theorem readDigits_all (base : Nat) : ∀ (s : Bytes) (acc : Nat), (readDigits base acc s).2 = s.length →
    ∀ c ∈ s, (digitOf base c).isSome
  | [], _, _, _, h => by cases h
  | c :: s, acc, h, x, hx => by
    unfold readDigits at h
    cases hc : digitOf base c with
    | none => rw [hc] at h; simp at h
    | some d =>
      rw [hc] at h
      simp only [List.length_cons, Nat.add_right_cancel_iff] at h
      rcases List.mem_cons.1 hx with rfl | hx
      · rw [hc]; rfl
      · exact readDigits_all base s _ h x hx

theorem readDigits_dec {ds rest : Bytes} (h : ∀ c ∈ ds, 0x30 ≤ c ∧ c ≤ 0x39)
    (h' : ∀ c, rest.head? = some c → ¬ (0x30 ≤ c ∧ c ≤ 0x39)) : readDigits 10 0 (ds ++ rest) = (digitsValue ds, ds.length) := by
  rw [readDigits_append (g := fun c => c.toNat - 0x30) ds rest 0 (fun c hc => digitOf_10.2 ⟨h c hc, rfl⟩)
    (fun c hc => by
      cases hd : digitOf 10 c with
      | none => rfl
      | some d => exact absurd (digitOf_10.1 hd).1 (h' c hc))]
  rfl

theorem readDigits_oct {ds rest : Bytes} (h : OctalDigits ds)
    (h' : ∀ c, rest.head? = some c → ¬ (0x30 ≤ c ∧ c ≤ 0x37)) : readDigits 8 0 (ds ++ rest) = (octalValue ds, ds.length) := by
  rw [readDigits_append (g := fun c => c.toNat - 0x30) ds rest 0 (fun c hc => digitOf_8.2 ⟨h c hc, rfl⟩)
    (fun c hc => by
      cases hd : digitOf 8 c with
      | none => rfl
      | some d => exact absurd (digitOf_8.1 hd).1 (h' c hc))]
  rfl

theorem readDigits_hex {ds : Bytes} (h : ∀ c ∈ ds, (hexDigit c).isSome) : readDigits 16 0 ds = (hexValue ds, ds.length) := by
  have := readDigits_append (base := 16) (g := fun c => (hexDigit c).getD 0) ds [] 0 (fun c hc => by
    rw [digitOf_16]
    obtain ⟨d, hd⟩ := Option.isSome_iff_exists.1 (h c hc)
    rw [hd]; rfl) (fun c hc => by cases hc)
  rw [List.append_nil] at this
  rw [this]; rfl

theorem hexAhead_dec {ds rest : Bytes} (h : ∀ c ∈ ds, 0x30 ≤ c ∧ c ≤ 0x39) (h' : ∀ c, rest.head? = some c → c ≠ 0x78 ∧ c ≠ 0x58)
    (hd : ds ≠ []) : hexAhead (ds ++ rest) = false := by
  unfold hexAhead
  split
  · rename_i c d r he
    have : c ≠ 0x78 ∧ c ≠ 0x58 := by
      match ds, hd with
      | [_], _ =>
        simp only [List.cons_append, List.nil_append, List.cons.injEq] at he
        exact h' c (by rw [he.2]; rfl)
      | _ :: e :: ds, _ =>
        simp only [List.cons_append, List.cons.injEq] at he
        have := h e (by simp)
        rw [he.2.1] at this
        constructor <;> (rintro rfl; revert this; decide)
    simp [this.1, this.2]
  · rfl

theorem whole_read {t : Bytes} {n : Nat} (h : WholeText t n) : readNumber t = (n, t.length) := by
  rcases h with ⟨h1, h2, rfl⟩ | ⟨ds, h1, rfl, rfl⟩ | ⟨x, ds, hx, h1, rfl, rfl⟩
  · have := hexAhead_dec (rest := []) h1.2 (by simp) h1.1
    rw [List.append_nil] at this
    unfold readNumber
    rw [this, if_neg (by simp), if_neg h2]
    have := readDigits_dec (rest := []) h1.2 (by simp)
    rwa [List.append_nil] at this
  · have h0 : ∀ c ∈ (0x30 :: ds : Bytes), 0x30 ≤ c ∧ c ≤ 0x37 := by
      intro c hc
      rcases List.mem_cons.1 hc with rfl | hc
      · decide
      · exact h1 c hc
    have h2 := hexAhead_dec (ds := 0x30 :: ds) (rest := []) (fun c hc => ⟨(h0 c hc).1, UInt8.le_trans (h0 c hc).2 (by decide)⟩)
      (by simp) (by simp)
    rw [List.append_nil] at h2
    unfold readNumber
    rw [h2, if_neg (by simp), if_pos (show (0x30 :: ds : Bytes).head? = some 0x30 from rfl)]
    have := readDigits_oct (ds := 0x30 :: ds) (rest := []) h0 (by simp)
    rw [List.append_nil] at this
    exact this
  · have h2 : hexAhead (0x30 :: x :: ds) = true := by
      match ds, h1 with
      | d :: ds, h1 =>
        simp only [hexAhead, digitOf_16, h1.2 d (List.mem_cons_self ..), Bool.and_true, Bool.or_eq_true, beq_iff_eq]
        exact hx
    unfold readNumber
    rw [if_pos h2]
    simp only [List.drop_succ_cons, List.drop_zero, readDigits_hex h1.2, List.length_cons]

theorem readNumber_le (s : Bytes) : (readNumber s).2 ≤ s.length := by
  unfold readNumber
  split
  · rename_i h
    unfold hexAhead at h
    split at h
    · have := readDigits_le 16 (List.drop 2 (0x30 :: ‹UInt8› :: ‹UInt8› :: ‹List UInt8›)) 0
      simp only [List.drop_succ_cons, List.drop_zero, List.length_cons] at this ⊢
      omega
    · cases h
  · split
    · exact readDigits_le ..
    · exact readDigits_le ..

theorem whole_of_read {t : Bytes} (ht : t ≠ []) (h : (readNumber t).2 = t.length) : WholeText t (readNumber t).1 := by
  unfold readNumber at h ⊢
  split
  · rename_i hx
    rw [if_pos hx] at h
    unfold hexAhead at hx
    split at hx
    · rename_i c d r
      simp only [List.drop_succ_cons, List.drop_zero, List.length_cons, Nat.add_right_cancel_iff] at h ⊢
      simp only [Bool.and_eq_true, Bool.or_eq_true, beq_iff_eq] at hx
      have hd : ∀ e ∈ (d :: r), (hexDigit e).isSome := fun e he => by
        have := readDigits_all 16 (d :: r) 0 h e he
        rwa [digitOf_16] at this
      exact .inr (.inr ⟨c, d :: r, hx.1, ⟨by simp, hd⟩, rfl, by rw [readDigits_hex hd]⟩)
    · cases hx
  · rename_i hx
    rw [if_neg hx] at h
    split
    · rename_i h0
      rw [if_pos h0] at h
      match t, h0 with
      | c :: ds, h0 =>
        cases h0
        have hd : OctalDigits (0x30 :: ds) := fun c hc => by
          obtain ⟨d, hd⟩ := Option.isSome_iff_exists.1 (readDigits_all 8 _ 0 h c hc)
          exact (digitOf_8.1 hd).1
        have := readDigits_oct (rest := []) hd (by simp)
        rw [List.append_nil] at this
        exact .inr (.inl ⟨ds, fun c hc => hd c (List.mem_cons_of_mem _ hc), rfl, by rw [this]; rfl⟩)
    · rename_i h0
      rw [if_neg h0] at h
      have hd : ∀ c ∈ t, 0x30 ≤ c ∧ c ≤ 0x39 := fun c hc => by
        obtain ⟨d, hd⟩ := Option.isSome_iff_exists.1 (readDigits_all 10 _ 0 h c hc)
        exact (digitOf_10.1 hd).1
      have := readDigits_dec (rest := []) hd (by simp)
      rw [List.append_nil] at this
      exact .inl ⟨⟨ht, hd⟩, h0, by rw [this]⟩

/-- Not a sign. -/
theorem strtoll_plain {s : Bytes} (h1 : s.head? ≠ some 0x2d) (h2 : s.head? ≠ some 0x2b) :
    strtoll s = (((readNumber s).1 : Int), (readNumber s).2) := by
  unfold strtoll
  split
  · simp at h1
  · simp at h2
  · rfl

theorem strtoll_sign {s u : Bytes} (hs : Sign s) (hu : (readNumber u).2 ≠ 0) (h1 : u.head? ≠ some 0x2d) (h2 : u.head? ≠ some 0x2b) :
    strtoll (s ++ u) = (withSign s (readNumber u).1, s.length + (readNumber u).2) := by
  rcases hs with rfl | rfl | rfl
  · rw [List.nil_append, strtoll_plain h1 h2]; simp [withSign]
  · simp only [List.cons_append, List.nil_append, strtoll, if_neg hu, withSign]
    simp [Nat.add_comm]
  · simp only [List.cons_append, List.nil_append, strtoll, if_neg hu, withSign]
    simp [Nat.add_comm]

theorem whole_head {u : Bytes} {m : Nat} (h : WholeText u m) : ∃ c r, u = c :: r ∧ 0x30 ≤ c ∧ c ≤ 0x39 := by
  rcases h with ⟨h1, h2, rfl⟩ | ⟨ds, h1, rfl, rfl⟩ | ⟨x, ds, hx, h1, rfl, rfl⟩
  · match u, h1 with
    | c :: r, h1 => exact ⟨c, r, rfl, h1.2 c (List.mem_cons_self ..)⟩
  · exact ⟨0x30, ds, rfl, by decide, by decide⟩
  · exact ⟨0x30, x :: ds, rfl, by decide, by decide⟩

theorem digit_not_sign {c : UInt8} (h : 0x30 ≤ c ∧ c ≤ 0x39) : c ≠ 0x2d ∧ c ≠ 0x2b := by
  constructor <;> (rintro rfl; revert h; decide)

theorem yamlInt_read {t : Bytes} {n : Int} (h : YamlInt t n) : strtoll t = (n, t.length) := by
  obtain ⟨s, u, m, hs, hu, rfl, rfl⟩ := h
  obtain ⟨c, r, rfl, hc⟩ := whole_head hu
  have hw := whole_read hu
  have hc' := digit_not_sign hc
  rw [strtoll_sign hs (by rw [hw]; simp) (by simp [hc'.1]) (by simp [hc'.2]), hw]
  simp

theorem yamlInt_of_read {t : Bytes} (ht : t ≠ []) (h : (strtoll t).2 = t.length) : YamlInt t (strtoll t).1 := by
  unfold strtoll at h ⊢
  split
  · rename_i s
    split
    · rename_i h0
      simp [h0] at h
    · rename_i h0
      simp only [if_neg h0, List.length_cons, Nat.add_right_cancel_iff] at h
      have hs : s ≠ [] := by rintro rfl; exact h0 (by rw [h]; rfl)
      exact ⟨[0x2d], s, _, .inr (.inr rfl), whole_of_read hs h, rfl, by simp [withSign]⟩
  · rename_i s
    split
    · rename_i h0
      simp [h0] at h
    · rename_i h0
      simp only [if_neg h0, List.length_cons, Nat.add_right_cancel_iff] at h
      have hs : s ≠ [] := by rintro rfl; exact h0 (by rw [h]; rfl)
      exact ⟨[0x2b], s, _, .inr (.inl rfl), whole_of_read hs h, rfl, by simp [withSign]⟩
  · rename_i s _ _
    exact ⟨[], t, _, .inl rfl, whole_of_read ht (by simpa using h), rfl, by simp [withSign]⟩

theorem cstr_of_no_nul {t : Bytes} (h : 0 ∉ t) : cstr t = t := by
  unfold cstr
  induction t with
  | nil => rfl
  | cons c t ih =>
    have : c ≠ 0 := fun e => h (by simp [e])
    rw [List.takeWhile_cons, ih (fun hm => h (List.mem_cons_of_mem _ hm))]
    simp [this]

/-- `strtoll` stops at the fraction or the exponent. -/
theorem float_read {t s i f e : Bytes} (h : FloatParts t s i f e) (hu : i.head? = some 0x30 → OctalDigits i) :
    (strtoll t).2 < t.length ∧ (t[(strtoll t).2]? = some 0x2e ∨ t[(strtoll t).2]? = some 0x65 ∨ t[(strtoll t).2]? = some 0x45) := by
  obtain ⟨hs, hi, hf, he, hfe, rfl⟩ := h
  have hh : ∃ c r, f ++ e = c :: r ∧ (c = 0x2e ∨ c = 0x65 ∨ c = 0x45) := by
    rcases hf with rfl | ⟨ds, _, rfl⟩
    · rcases he with rfl | ⟨x, s, ds, hx, _, _, rfl⟩
      · simp at hfe
      · exact ⟨x, _, rfl, .inr hx⟩
    · exact ⟨0x2e, _, rfl, .inl rfl⟩
  obtain ⟨c, r, hcr, hc⟩ := hh
  rw [hcr]
  have hx : hexAhead (i ++ c :: r) = false := hexAhead_dec hi.2 (by
    intro d hd; cases hd
    rcases hc with rfl | rfl | rfl <;> decide) hi.1
  have hr : (readNumber (i ++ c :: r)).2 = i.length := by
    unfold readNumber
    rw [hx, if_neg (by simp)]
    have hhd : (i ++ c :: r).head? = i.head? := by
      match i, hi.1 with
      | a :: i, _ => rfl
    rw [hhd]
    split
    · rename_i h0
      rw [readDigits_oct (hu h0) (by intro d hd; cases hd; rcases hc with rfl | rfl | rfl <;> decide)]
    · rw [readDigits_dec hi.2 (by intro d hd; cases hd; rcases hc with rfl | rfl | rfl <;> decide)]
  have hne : i ≠ [] := hi.1
  obtain ⟨a, i', rfl⟩ : ∃ a i', i = a :: i' := by
    match i, hne with
    | a :: i', _ => exact ⟨a, i', rfl⟩
  have ha := digit_not_sign (hi.2 a (List.mem_cons_self ..))
  have hst : (strtoll (s ++ (a :: i' ++ c :: r))).2 = s.length + (a :: i').length := by
    rw [strtoll_sign hs (by rw [hr]; simp) (by simp [ha.1]) (by simp [ha.2]), hr]
  rw [hst]
  refine ⟨by simp, ?_⟩
  have : (s ++ (a :: i' ++ c :: r))[s.length + (a :: i').length]? = some c := by
    rw [← List.append_assoc, List.getElem?_append_right (by simp)]
    simp
  rw [this]
  rcases hc with rfl | rfl | rfl <;> simp

theorem float_head {t : Bytes} (h : FloatText t) : ∃ c r, t = c :: r ∧ ((0x30 ≤ c ∧ c ≤ 0x39) ∨ c = 0x2b ∨ c = 0x2d) := by
  obtain ⟨s, i, f, e, hs, hi, _, _, _, rfl⟩ := h
  match i, hi with
  | a :: i, hi =>
    rcases hs with rfl | rfl | rfl
    · exact ⟨a, _, rfl, .inl (hi.2 a (List.mem_cons_self ..))⟩
    · exact ⟨_, _, rfl, .inr (.inl rfl)⟩
    · exact ⟨_, _, rfl, .inr (.inr rfl)⟩

theorem int_head {t : Bytes} {n : Int} (h : YamlInt t n) : ∃ c r, t = c :: r ∧ ((0x30 ≤ c ∧ c ≤ 0x39) ∨ c = 0x2b ∨ c = 0x2d) := by
  obtain ⟨s, u, m, hs, hu, rfl, rfl⟩ := h
  obtain ⟨a, r, rfl, ha⟩ := whole_head hu
  rcases hs with rfl | rfl | rfl
  · exact ⟨a, _, rfl, .inl ha⟩
  · exact ⟨_, _, rfl, .inr (.inl rfl)⟩
  · exact ⟨_, _, rfl, .inr (.inr rfl)⟩

/-- What begins like a number. -/
theorem parseScalar_number (strtod : Strtod) {c : UInt8} {r : Bytes} (h : (0x30 ≤ c ∧ c ≤ 0x39) ∨ c = 0x2b ∨ c = 0x2d) :
    parseScalar strtod (c :: r) = (parseMaybeNumber strtod (c :: r)).getD (.str (c :: r)) := by
  have h1 : c ≠ 0x6e := by rintro rfl; revert h; decide
  have h2 : ¬ (c = 0x74 ∨ c = 0x66) := by rintro (rfl | rfl) <;> (revert h; decide)
  simp only [parseScalar, List.head?_cons, if_neg h1, if_neg h2, if_pos h]

theorem number_int (strtod : Strtod) {t : Bytes} {n : Int} (h0 : 0 ∉ t) (h : YamlInt t n) :
    parseMaybeNumber strtod t = if -2 ^ 63 ≤ n ∧ n < 2 ^ 63 then some (.int (BitVec.ofInt 64 n)) else none := by
  simp only [parseMaybeNumber, cstr_of_no_nul h0, yamlInt_read h, and_true]
  split
  · rfl
  · rw [if_neg (by simp)]

theorem number_float {strtod : Strtod} (hs : Strtod.Standard strtod) {t : Bytes} (hu : Usual t) (h : FloatText t) :
    parseMaybeNumber strtod t = (strtod t).1.map .dec := by
  have h' := h
  obtain ⟨s, i, f, e, hp⟩ := h'
  obtain ⟨h1, h2⟩ := float_read hp (hu.2.2 s i f e hp)
  simp only [parseMaybeNumber, cstr_of_no_nul hu.1]
  rw [if_neg (by omega), if_pos h2]
  have h3 := hs.reads h
  cases hd : strtod t with
  | mk o k =>
    rw [hd] at h3
    cases o with
    | none => rfl
    | some d => simp only [Option.map_some, if_pos h3]

theorem number_other {strtod : Strtod} (hs : Strtod.Standard strtod) {t : Bytes} (hu : Usual t) {c : UInt8} {r : Bytes} (ht : t = c :: r)
    (hc : (0x30 ≤ c ∧ c ≤ 0x39) ∨ c = 0x2b ∨ c = 0x2d) (h1 : ∀ n, ¬ YamlInt t n) (h2 : ¬ FloatText t) :
    parseMaybeNumber strtod t = none := by
  have hne : t ≠ [] := by rw [ht]; simp
  simp only [parseMaybeNumber, cstr_of_no_nul hu.1]
  rw [if_neg (fun h => h1 _ (yamlInt_of_read hne h.2.2))]
  split
  · rename_i hp
    cases hd : strtod t with
    | mk o k =>
      cases o with
      | none => rfl
      | some d =>
        simp only []
        split
        · rename_i hk
          exfalso
          rcases hs.only hne (by rw [hd]; exact hk) with hf | ⟨s, u, hsg, hsu, hcase⟩
          · exact h2 hf
          · rcases hcase with hD | ⟨ds, hu'⟩ | ⟨x, r', hx, hu'⟩ | ⟨y, r', hy, hu'⟩
            · -- digits alone contain no point
              have hall : ∀ z ∈ t, z ≠ 0x2e ∧ z ≠ 0x65 ∧ z ≠ 0x45 := by
                intro z hz
                rw [hsu] at hz
                rcases List.mem_append.1 hz with hz | hz
                · rcases hsg with rfl | rfl | rfl
                  · cases hz
                  · rw [List.mem_singleton.1 hz]; decide
                  · rw [List.mem_singleton.1 hz]; decide
                · have := hD.2 z hz
                  refine ⟨?_, ?_, ?_⟩ <;> (rintro rfl; revert this; decide)
              rcases hp with hp | hp | hp
              · exact (hall _ (List.mem_of_getElem? hp)).1 rfl
              · exact (hall _ (List.mem_of_getElem? hp)).2.1 rfl
              · exact (hall _ (List.mem_of_getElem? hp)).2.2 rfl
            · subst hu'
              rcases hsg with rfl | rfl | rfl
              · rw [List.nil_append, ht] at hsu; cases hsu; revert hc; decide
              · subst hsu
                have : (strtoll ([0x2b] ++ 0x2e :: ds)).2 = 0 := rfl
                rw [this] at hp
                simp at hp
              · subst hsu
                have : (strtoll ([0x2d] ++ 0x2e :: ds)).2 = 0 := rfl
                rw [this] at hp
                simp at hp
            · subst hu'
              have hh := hu.2.1 s x r' hsg hx hsu
              exact h1 _ ⟨s, _, _, hsg, .inr (.inr ⟨x, r', hx, hh, rfl, rfl⟩), hsu, rfl⟩
            · subst hu'
              have hz : ∀ w : UInt8, (w = 0x69 ∨ w = 0x49 ∨ w = 0x6e ∨ w = 0x4e) → (readNumber (w :: r')).2 = 0 := by
                rintro w (rfl | rfl | rfl | rfl) <;> rfl
              rcases hsg with rfl | rfl | rfl
              · rw [List.nil_append, ht] at hsu
                cases hsu
                rcases hy with rfl | rfl | rfl | rfl <;> (revert hc; decide)
              · subst hsu
                have : (strtoll ([0x2b] ++ y :: r')).2 = 0 := by
                  simp only [List.cons_append, List.nil_append, strtoll, if_pos (hz y hy)]
                rw [this] at hp
                simp at hp
              · subst hsu
                have : (strtoll ([0x2d] ++ y :: r')).2 = 0 := by
                  simp only [List.cons_append, List.nil_append, strtoll, if_pos (hz y hy)]
                rw [this] at hp
                simp at hp
        · rfl
  · rfl

/-- What a scalar is read as. -/
theorem parseScalar_ok {strtod : Strtod} (hs : Strtod.Standard strtod) {t : Bytes} {j : Json} (hu : Usual t)
    (h : Resolves strtod t j) : parseScalar strtod t = j.toVal := by
  cases h with
  | null => rfl
  | true => rfl
  | false => rfl
  | int h h1 h2 =>
    obtain ⟨c, r, rfl, hc⟩ := int_head h
    rw [parseScalar_number strtod hc, number_int strtod hu.1 h, if_pos ⟨h1, h2⟩]
    rfl
  | big h h1 =>
    obtain ⟨c, r, rfl, hc⟩ := int_head h
    rw [parseScalar_number strtod hc, number_int strtod hu.1 h, if_neg (by omega)]
    rfl
  | float h h1 =>
    obtain ⟨c, r, rfl, hc⟩ := float_head h
    rw [parseScalar_number strtod hc, number_float hs hu h, h1]
    rfl
  | range h h1 =>
    obtain ⟨c, r, rfl, hc⟩ := float_head h
    rw [parseScalar_number strtod hc, number_float hs hu h, h1]
    rfl
  | str h1 h2 h3 h4 h5 =>
    match t, hu, h1, h2, h3, h4, h5 with
    | [], _, _, _, _, _, _ => rfl
    | c :: r, hu, h1, h2, h3, h4, h5 =>
      by_cases hc : (0x30 ≤ c ∧ c ≤ 0x39) ∨ c = 0x2b ∨ c = 0x2d
      · rw [parseScalar_number strtod hc, number_other hs hu rfl hc h4 h5]; rfl
      · simp only [parseScalar, List.head?_cons, if_neg hc, cstr_of_no_nul hu.1]
        have h23 : ¬ (c :: r = [0x74, 0x72, 0x75, 0x65] ∨ c :: r = [0x66, 0x61, 0x6c, 0x73, 0x65]) := fun h => h.elim h2 h3
        simp only [if_neg h1, if_neg h23, ite_self]
        rfl

/-- Every scalar stands for something. -/
theorem resolves_total (strtod : Strtod) (t : Bytes) : ∃ j, Resolves strtod t j := by
  by_cases h1 : t = [0x6e, 0x75, 0x6c, 0x6c]
  · subst h1; exact ⟨_, Resolves.null⟩
  by_cases h2 : t = [0x74, 0x72, 0x75, 0x65]
  · subst h2; exact ⟨_, Resolves.true⟩
  by_cases h3 : t = [0x66, 0x61, 0x6c, 0x73, 0x65]
  · subst h3; exact ⟨_, Resolves.false⟩
  by_cases h4 : ∃ n, YamlInt t n
  · obtain ⟨n, hn⟩ := h4
    by_cases h5 : -2 ^ 63 ≤ n ∧ n < 2 ^ 63
    · exact ⟨_, .int hn h5.1 h5.2⟩
    · exact ⟨_, .big hn (by omega)⟩
  by_cases h5 : FloatText t
  · cases h6 : (strtod t).1 with
    | some d => exact ⟨_, .float h5 h6⟩
    | none => exact ⟨_, .range h5 h6⟩
  · exact ⟨_, .str h1 h2 h3 (fun n hn => h4 ⟨n, hn⟩) h5⟩

theorem scalarsFine {strtod : Strtod} (hs : Strtod.Standard strtod) : ScalarsFine strtod := by
  intro t j hu h
  have hp := parseScalar_ok hs hu h
  rw [hp]
  cases h with
  | null => exact ⟨.null, rfl, fun _ => rfl⟩
  | true => exact ⟨.bool true, rfl, fun _ => rfl⟩
  | false => exact ⟨.bool false, rfl, fun _ => rfl⟩
  | @int t n h h1 h2 => exact ⟨intEvent n, rfl, fun p => intEvent_step p h1 (by omega)⟩
  | big => exact ⟨.string t, rfl, fun _ => rfl⟩
  | @float t d => exact ⟨.double d, rfl, fun _ => rfl⟩
  | range => exact ⟨.string t, rfl, fun _ => rfl⟩
  | str => exact ⟨.string t, rfl, fun _ => rfl⟩

end Dart
