import Verif.Lemmas.Time
import Verif.Lemmas.Key

namespace Dart.Time
open Dart.Spec Dart.Spec.Time

theorem gmtime_date (t : Int) :
    gmtime t = if fitsInt ((dateOf (t / 86400)).year - 1900) then
      some ⟨(dateOf (t / 86400)).year - 1900, (dateOf (t / 86400)).month - 1, (dateOf (t / 86400)).day,
        t % 86400 / 3600, t % 86400 / 60 % 60, t % 86400 % 60⟩ else none := by
  have ⟨_, h2, _⟩ := dateOf_parts (t / 86400)
  have hy : (dateOf (t / 86400)).year = yearOf (t / 86400) := rfl
  have hm : ((dateOf (t / 86400)).month : Int) - 1 =
      monthOf (isLeap (yearOf (t / 86400))) (t / 86400 - yearStart (yearOf (t / 86400))) := by
    simp only [dateOf]; omega
  have hd : ((dateOf (t / 86400)).day : Int) = t / 86400 - yearStart (yearOf (t / 86400)) -
      daysBefore (isLeap (yearOf (t / 86400)))
        (monthOf (isLeap (yearOf (t / 86400))) (t / 86400 - yearStart (yearOf (t / 86400)))) + 1 := by
    simp only [dateOf]; omega
  rw [hm, hd, hy]
  rfl

theorem timegm_valid {d : Date} (h : d.Valid) (hf : fitsInt (d.year - 1900) = true) (hh mi s : Int) :
    timegm ⟨d.year - 1900, (d.month : Int) - 1, d.day, hh, mi, s⟩ = number d * 86400 + hh * 3600 + mi * 60 + s := by
  obtain ⟨h1, h2, h3, h4⟩ := h
  have e1 : ((d.month : Int) - 1) / 12 = 0 := by omega
  have e2 : (((d.month : Int) - 1) % 12).toNat = d.month - 1 := by omega
  have e3 : d.year - 1900 + 0 + 1900 = d.year := by omega
  simp only [timegm, e1, e2, e3, Int.add_zero, hf, if_true, number]
  have e4 : d.year - 1900 + 1900 = d.year := by omega
  rw [e4]

/-! ### Numbers as text -/

theorem digitsValue_append (a b : Bytes) : digitsValue (a ++ b) = digitsValue a * 10 ^ b.length + digitsValue b := by
  have key : ∀ (b : Bytes) (n : Nat), b.foldl (fun n c => 10 * n + (c.toNat - 0x30)) n =
      n * 10 ^ b.length + b.foldl (fun n c => 10 * n + (c.toNat - 0x30)) 0 := by
    intro b
    induction b with
    | nil => intro n; simp
    | cons c b ih =>
      intro n
      simp only [List.foldl_cons, List.length_cons]
      rw [ih, ih (10 * 0 + _), Nat.pow_succ]
      simp only [Nat.add_mul, Nat.mul_zero, Nat.zero_mul, Nat.zero_add]
      have : 10 * n * 10 ^ b.length = n * (10 ^ b.length * 10) := by
        rw [Nat.mul_comm 10 n, Nat.mul_assoc, Nat.mul_comm 10]
      omega
  simp only [digitsValue, List.foldl_append]
  exact key b _

theorem digit_byte {k : Nat} (h : k < 10) : 0x30 ≤ UInt8.ofNat (0x30 + k) ∧ UInt8.ofNat (0x30 + k) ≤ 0x39 ∧
    (UInt8.ofNat (0x30 + k)).toNat = 0x30 + k := by
  have : (UInt8.ofNat (0x30 + k)).toNat = 0x30 + k := by
    simp only [UInt8.toNat_ofNat']; omega
  refine ⟨?_, ?_, this⟩
  · rw [UInt8.le_iff_toNat_le, this]; simp
  · rw [UInt8.le_iff_toNat_le, this]; simp; omega

theorem written_single {k : Nat} (h : k < 10) : Written [UInt8.ofNat (0x30 + k)] k := by
  have ⟨h1, h2, h3⟩ := digit_byte h
  refine ⟨⟨by simp, ?_⟩, ?_⟩
  · intro c hc
    simp only [List.mem_singleton] at hc
    subst hc
    exact ⟨h1, h2⟩
  · simp only [digitsValue, List.foldl_cons, List.foldl_nil, h3]
    omega

theorem Written.append {a b : Bytes} {m n : Nat} (ha : Written a m) (hb : Written b n) :
    Written (a ++ b) (m * 10 ^ b.length + n) := by
  refine ⟨⟨by simp [ha.1.1], ?_⟩, by rw [digitsValue_append, ha.2, hb.2]⟩
  intro c hc
  rcases List.mem_append.mp hc with h | h
  · exact ha.1.2 c h
  · exact hb.1.2 c h

theorem decimals_written (n : Nat) : Written (decimals n) n := by
  induction n using Nat.strongRecOn with
  | ind n ih =>
    unfold decimals
    split
    · rename_i h; exact written_single h
    · rename_i h
      have := Written.append (ih (n / 10) (by omega)) (written_single (k := n % 10) (by omega))
      simp only [List.length_singleton, Nat.pow_one] at this
      have e : n / 10 * 10 + n % 10 = n := by omega
      rwa [e] at this

theorem zeros_written {b : Bytes} {n : Nat} (h : Written b n) (k : Nat) : Written (List.replicate k 0x30 ++ b) n := by
  induction k with
  | zero => simpa using h
  | succ k ih =>
    have := Written.append (written_single (k := 0) (by omega)) ih
    simpa [List.replicate_succ] using this

theorem padInt_nonneg (w : Nat) {x : Int} (h : 0 ≤ x) : Written (padInt w x) x.toNat := by
  unfold padInt
  rw [if_neg (by omega)]
  have : x.natAbs = x.toNat := by omega
  rw [this]
  exact zeros_written (decimals_written _) _

theorem padInt_neg (w : Nat) {x : Int} (h : x < 0) : ∃ ds, padInt w x = 0x2d :: ds ∧ Written ds x.natAbs := by
  unfold padInt
  rw [if_pos h]
  exact ⟨_, rfl, zeros_written (decimals_written _) _⟩

theorem not_space_digit {c : UInt8} (h : 0x30 ≤ c ∧ c ≤ 0x39) : isSpace c = false ∧ c ≠ 0x2d ∧ c ≠ 0x2b := by
  have h1 := UInt8.le_iff_toNat_le.mp h.1
  have h2 := UInt8.le_iff_toNat_le.mp h.2
  simp at h1 h2
  refine ⟨?_, ?_, ?_⟩
  · simp only [isSpace, Bool.or_eq_false_iff, Bool.and_eq_false_iff, decide_eq_false_iff_not]
    refine ⟨fun e => ?_, .inr fun e => ?_⟩
    · rw [e] at h1; simp at h1
    · have := UInt8.le_iff_toNat_le.mp e; simp at this; omega
  · intro e; rw [e] at h1; simp at h1
  · intro e; rw [e] at h1; simp at h1

/-- What follows a number. -/
def Stops (r : Bytes) : Prop := ∀ c, r.head? = some c → ¬(0x30 ≤ c ∧ c ≤ 0x39)

theorem scanInt_written {ds r : Bytes} {n : Nat} (h : Written ds n) (hr : Stops r) :
    scanInt (ds ++ r) = some ((n : Int), r) := by
  have hd := readDigits_dec h.1.2 hr
  obtain ⟨⟨hne, hall⟩, hv⟩ := h
  cases ds with
  | nil => exact absurd rfl hne
  | cons c ds =>
    have ⟨h1, h2, h3⟩ := not_space_digit (hall c (by simp))
    unfold scanInt
    rw [List.cons_append, List.dropWhile_cons, h1]
    simp only [Bool.false_eq_true, if_false]
    split
    · rename_i hx
      simp only [List.cons.injEq] at hx; exact absurd hx.1 h2
    · rename_i hx
      simp only [List.cons.injEq] at hx; exact absurd hx.1 h3
    · rw [List.cons_append] at hd
      simp only [hd, hv]
      simp

theorem scanInt_neg {ds r : Bytes} {n : Nat} (h : Written ds n) (hr : Stops r) :
    scanInt (0x2d :: (ds ++ r)) = some (-(n : Int), r) := by
  have hd := readDigits_dec h.1.2 hr
  obtain ⟨⟨hne, hall⟩, hv⟩ := h
  unfold scanInt
  rw [List.dropWhile_cons, show isSpace 0x2d = false by decide]
  simp only [Bool.false_eq_true, if_false, hd, hv, if_true]
  have : ds.length ≠ 0 := by simp [hne]
  simp [this]

theorem scanInt_pad (w : Nat) (x : Int) {r : Bytes} (hr : Stops r) : scanInt (padInt w x ++ r) = some (x, r) := by
  by_cases h : 0 ≤ x
  · rw [scanInt_written (padInt_nonneg w h) hr, Int.toNat_of_nonneg h]
  · obtain ⟨ds, h1, h2⟩ := padInt_neg w (by omega : x < 0)
    rw [h1, List.cons_append, scanInt_neg h2 hr]
    have : -(x.natAbs : Int) = x := by omega
    rw [this]

theorem stops_cons {c : UInt8} {r : Bytes} (h : ¬(0x30 ≤ c ∧ c ≤ 0x39)) : Stops (c :: r) := by
  intro d hd
  simp only [List.head?_cons, Option.some.injEq] at hd
  subst hd; exact h

theorem scanField_of {s r : Bytes} {c : UInt8} {x : Int} (h : scanInt s = some (x, c :: r)) (hf : fitsInt x = true) :
    scanField c s = .ok (x, r) := by
  simp [scanField, h, hf, scanChar]

/-! ### No NUL -/

theorem written_noNul {ds : Bytes} {n : Nat} (h : Written ds n) : (0 : UInt8) ∉ ds := by
  intro hm
  have := (h.1.2 0 hm).1
  simp [UInt8.le_iff_toNat_le] at this

theorem pad_noNul (w : Nat) (x : Int) : (0 : UInt8) ∉ padInt w x := by
  by_cases h : 0 ≤ x
  · exact written_noNul (padInt_nonneg w h)
  · obtain ⟨ds, h1, h2⟩ := padInt_neg w (by omega : x < 0)
    rw [h1]
    intro hm
    rcases List.mem_cons.mp hm with h | h
    · cases h
    · exact written_noNul h2 h

theorem textOf_noNul (t : Tm) : (0 : UInt8) ∉ textOf t := by
  simp only [textOf, List.mem_append, List.mem_cons, not_or]
  refine ⟨pad_noNul _ _, by decide, pad_noNul _ _, by decide, pad_noNul _ _, by decide, pad_noNul _ _, by decide,
    pad_noNul _ _, by decide, pad_noNul _ _, by decide⟩

theorem cstr_all {s : Bytes} (h : (0 : UInt8) ∉ s) : cstr s = s := by
  unfold cstr
  induction s with
  | nil => rfl
  | cons c s ih =>
    simp only [List.mem_cons, not_or] at h
    rw [List.takeWhile_cons, if_pos (by simpa using fun e => h.1 e.symm), ih h.2]

/-! ### The seconds -/

theorem digits_zero3 : Digits [0x30, 0x30, 0x30] := ⟨by simp, by decide⟩

theorem ends_Z : EndsNumber [0x5a] := by
  intro c hc
  simp only [List.head?_cons, Option.some.injEq] at hc
  subst hc; decide

theorem truncFloat_ms : ∀ n : Fin 64, truncFloat (n.val * 10 ^ 3 + 0) (10 ^ 3) = n.val := by decide +kernel

theorem scan_sec {sf : ScanFloat} (h : Standard sf) {x : Int} (h0 : 0 ≤ x) (h1 : x < 64) :
    sf (padInt 2 x ++ [0x2e, 0x30, 0x30, 0x30, 0x5a]) = some (some x) := by
  have hw := padInt_nonneg 2 h0
  have := h.decimal (i := padInt 2 x) (f := [0x30, 0x30, 0x30]) (rest := [0x5a]) hw.1 digits_zero3
    (by rw [hw.2]; omega) ends_Z
  have e : digitsValue (padInt 2 x ++ [0x30, 0x30, 0x30]) = x.toNat * 10 ^ 3 + 0 := by
    rw [digitsValue_append, hw.2]; rfl
  rw [e] at this
  have ht := truncFloat_ms ⟨x.toNat, by omega⟩
  simp only at ht
  rw [show ([0x30, 0x30, 0x30] : Bytes).length = 3 from rfl, ht, Int.toNat_of_nonneg h0] at this
  exact this

theorem scan_textOf {sf : ScanFloat} (h : Standard sf) {t : Tm} (hs : 0 ≤ t.sec ∧ t.sec < 64)
    (h1 : fitsInt (t.year + 1900) = true) (h2 : fitsInt (t.mon + 1) = true) (h3 : fitsInt t.mday = true)
    (h4 : fitsInt t.hour = true) (h5 : fitsInt t.min = true) :
    scan sf (textOf t) = .ok (t.year + 1900, t.mon + 1, t.mday, t.hour, t.min, t.sec) := by
  unfold scan textOf
  rw [scanField_of (scanInt_pad 4 _ (stops_cons (by decide))) h1]
  simp only [Res.bind]
  rw [scanField_of (scanInt_pad 2 _ (stops_cons (by decide))) h2]
  simp only
  rw [scanField_of (scanInt_pad 2 _ (stops_cons (by decide))) h3]
  simp only
  rw [scanField_of (scanInt_pad 2 _ (stops_cons (by decide))) h4]
  simp only
  rw [scanField_of (scanInt_pad 2 _ (stops_cons (by decide))) h5]
  simp only [scan_sec h hs.1 hs.2]

end Dart.Time

namespace Dart.Time
open Dart.Spec Dart.Spec.Time

/-! ### Fixed width -/

theorem decimals_lt10 {n : Nat} (h : n < 10) : decimals n = [digit n] := by
  unfold decimals
  rw [if_pos h]
  simp [digit, Nat.mod_eq_of_lt h]

theorem decimals_ge10 {n : Nat} (h : 10 ≤ n) : decimals n = decimals (n / 10) ++ [digit n] := by
  rw [decimals, if_neg (by omega)]
  rfl

theorem padInt_two {n : Nat} (h : n < 100) : padInt 2 (n : Int) = two n := by
  have e : ((n : Int)).natAbs = n := by omega
  unfold padInt
  rw [if_neg (by omega), e]
  by_cases h1 : n < 10
  · have : digit (n / 10) = 0x30 := by
      have : n / 10 = 0 := by omega
      rw [this]; rfl
    simp [decimals_lt10 h1, two, this]
  · rw [decimals_ge10 (by omega), decimals_lt10 (by omega)]
    simp [two]

theorem padInt_four {n : Nat} (h : n < 10000) : padInt 4 (n : Int) = four n := by
  have e : ((n : Int)).natAbs = n := by omega
  have z : ∀ m, m = 0 → digit m = 0x30 := by rintro m rfl; rfl
  unfold padInt
  rw [if_neg (by omega), e]
  by_cases h1 : n < 10
  · simp [decimals_lt10 h1, four, z (n / 10) (by omega), z (n / 100) (by omega), z (n / 1000) (by omega), List.replicate]
  · rw [decimals_ge10 (by omega)]
    by_cases h2 : n < 100
    · rw [decimals_lt10 (by omega)]
      simp [four, z (n / 100) (by omega), z (n / 1000) (by omega), List.replicate]
    · rw [decimals_ge10 (by omega)]
      have e1 : n / 10 / 10 = n / 100 := by omega
      rw [e1]
      by_cases h3 : n < 1000
      · rw [decimals_lt10 (by omega)]
        simp [four, z (n / 1000) (by omega), List.replicate]
      · rw [decimals_ge10 (by omega), decimals_lt10 (by omega)]
        have e2 : n / 100 / 10 = n / 1000 := by omega
        simp [four, e2]

theorem padInt_year {y : Int} (h0 : -999 ≤ y) (h1 : y ≤ 9999) : padInt 4 y = yearText y := by
  unfold yearText
  split
  · rename_i h
    have := padInt_four (n := y.toNat) (by omega)
    rwa [Int.toNat_of_nonneg h] at this
  · have z : ∀ m, m = 0 → digit m = 0x30 := by rintro m rfl; rfl
    unfold padInt
    rw [if_pos (by omega)]
    generalize hn : y.natAbs = n
    by_cases h1 : n < 10
    · simp [decimals_lt10 h1, z (n / 10) (by omega), z (n / 100) (by omega), List.replicate]
    · rw [decimals_ge10 (by omega)]
      by_cases h2 : n < 100
      · rw [decimals_lt10 (by omega)]
        simp [z (n / 100) (by omega), List.replicate]
      · rw [decimals_ge10 (by omega), decimals_lt10 (by omega)]
        have e1 : n / 10 / 10 = n / 100 := by omega
        simp [e1]

/-! ### Seconds with a fraction -/

theorem halfEven_below {i F den s : Nat} (hd : 0 < den) (hF : F * 2 ^ (s + 1) < (2 ^ (s + 1) - 1) * den) :
    halfEven ((i * den + F) * 2 ^ s) den / 2 ^ s = i := by
  have hp : 0 < 2 ^ s := Nat.two_pow_pos s
  have e2 : 2 ^ (s + 1) = 2 * 2 ^ s := by rw [Nat.pow_succ]; omega
  rw [e2] at hF
  have e1 : (i * den + F) * 2 ^ s = F * 2 ^ s + i * 2 ^ s * den := by
    rw [Nat.add_mul, Nat.mul_right_comm, Nat.add_comm]
  have hq : (F * 2 ^ s + i * 2 ^ s * den) / den = F * 2 ^ s / den + i * 2 ^ s := Nat.add_mul_div_right _ _ hd
  have hr : (F * 2 ^ s + i * 2 ^ s * den) % den = F * 2 ^ s % den := Nat.add_mul_mod_self_right _ _ _
  have hF2 : 2 * (F * 2 ^ s) + den < 2 * (2 ^ s * den) := by
    have h1 : F * (2 * 2 ^ s) = 2 * (F * 2 ^ s) := by rw [Nat.mul_left_comm]
    have h2 : (2 * 2 ^ s - 1) * den = 2 * (2 ^ s * den) - den := by rw [Nat.sub_mul, Nat.mul_assoc, Nat.one_mul]
    have h3 : den ≤ 2 ^ s * den := Nat.le_mul_of_pos_left _ hp
    omega
  have h3 : den ≤ 2 ^ s * den := Nat.le_mul_of_pos_left _ hp
  have hdm := Nat.div_add_mod (F * 2 ^ s) den
  have hrl := Nat.mod_lt (F * 2 ^ s) hd
  have hqs : F * 2 ^ s / den < 2 ^ s := Nat.div_lt_of_lt_mul (by rw [Nat.mul_comm den]; omega)
  have hx : F * 2 ^ s / den = 2 ^ s - 1 → den * (F * 2 ^ s / den) = 2 ^ s * den - den := by
    intro h
    rw [h, Nat.mul_comm, Nat.sub_mul, Nat.one_mul]
  have key : halfEven ((i * den + F) * 2 ^ s) den < i * 2 ^ s + 2 ^ s ∧ i * 2 ^ s ≤ halfEven ((i * den + F) * 2 ^ s) den := by
    unfold halfEven
    rw [e1, hq, hr]
    clear e1 hq hr hF e2
    generalize F * 2 ^ s / den = q at *
    generalize F * 2 ^ s % den = r at *
    generalize F * 2 ^ s = A at *
    generalize 2 ^ s * den = B at *
    generalize den * q = C at *
    generalize i * 2 ^ s = I at *
    generalize 2 ^ s = P at *
    by_cases hlast : q = P - 1
    · have hx := hx hlast
      rw [if_pos (by omega)]
      omega
    · split
      · omega
      · split <;> omega
  have e3 : i * 2 ^ s + 2 ^ s = (i + 1) * 2 ^ s := by rw [Nat.add_mul, Nat.one_mul]
  rw [e3] at key
  exact Nat.div_eq_of_lt_le key.2 key.1

theorem truncFloat_below {i F den : Nat} (hi : i < 64) (hd : 0 < den) (hF : F * 2 ^ 19 < (2 ^ 19 - 1) * den) :
    truncFloat (i * den + F) den = i := by
  have hFd : F < den := by omega
  have hq : (i * den + F) / den = i := by
    rw [Nat.add_comm, Nat.add_mul_div_right _ _ hd, Nat.div_eq_of_lt hFd]; omega
  unfold truncFloat
  rw [hq]
  dsimp only
  have hs : ∃ s, 24 - (if i = 0 then 0 else Nat.log2 i + 1) = s + 18 := by
    refine ⟨24 - (if i = 0 then 0 else Nat.log2 i + 1) - 18, ?_⟩
    have : (if i = 0 then 0 else Nat.log2 i + 1) ≤ 6 := by
      split
      · omega
      · rename_i h
        have := (Nat.log2_lt (n := i) (k := 6) h).2 (by omega)
        omega
    omega
  obtain ⟨s, hs⟩ := hs
  rw [hs]
  apply halfEven_below hd
  have hp : 0 < 2 ^ s := Nat.two_pow_pos s
  have e : 2 ^ (s + 18 + 1) = 2 ^ 19 * 2 ^ s := by rw [show s + 18 + 1 = 19 + s by omega, Nat.pow_add]
  rw [e]
  have h1 : F * (2 ^ 19 * 2 ^ s) < (2 ^ 19 - 1) * den * 2 ^ s := by
    rw [← Nat.mul_assoc]
    exact Nat.mul_lt_mul_of_pos_right hF hp
  have h2 : (2 ^ 19 - 1) * den * 2 ^ s ≤ (2 ^ 19 * 2 ^ s - 1) * den := by
    have : (2 ^ 19 - 1) * den * 2 ^ s = ((2 ^ 19 - 1) * 2 ^ s) * den := Nat.mul_right_comm _ _ _
    rw [this]
    apply Nat.mul_le_mul_right
    omega
  omega

end Dart.Time
