import Verif.Lemmas.TimeText
import Verif.Lemmas.Packet

/-
C59: time points are stored as the date and time of their whole second, and come back as that second.
-/
namespace Dart.Props
open Dart.Spec Dart.Spec.Time Dart.Time

/-! ### Storing -/

theorem year_bound {n : Int} {d : Date} (hd : DayOf n d) {b : Int} (h1 : -(365 * b) ≤ n) (h2 : n ≤ 365 * b) :
    1968 - b ≤ d.year ∧ d.year ≤ 1971 + b := by
  have ⟨hv, hn⟩ := DayOf.number hd
  have ⟨h3, h4, _⟩ := number_range hv
  rw [hn] at h3 h4
  simp only [yearStart] at h3 h4
  omega

theorem broken_ok {clock tick : Nat} {c : Int} (hc : 1000 ≤ clock) (hf : fits64 (c * tick) = true) :
    ∃ d, DayOf ((c * tick).tdiv clock / 86400) d ∧ fitsInt (d.year - 1900) = true ∧ fitsInt d.year = true ∧
      broken clock tick c = .ok ⟨d.year - 1900, (d.month : Int) - 1, d.day, (c * tick).tdiv clock % 86400 / 3600,
        (c * tick).tdiv clock % 86400 / 60 % 60, (c * tick).tdiv clock % 86400 % 60⟩ := by
  have hb : -(2 ^ 63 / 1000 + 1) ≤ (c * tick).tdiv clock ∧ (c * tick).tdiv clock ≤ 2 ^ 63 / 1000 + 1 := by
    simp only [fits64, decide_eq_true_eq] at hf
    have h1 : ((c * tick).tdiv clock).natAbs = (c * tick).natAbs / clock := by
      rw [Int.natAbs_tdiv]; rfl
    have h2 : (c * tick).natAbs / clock ≤ (c * tick).natAbs / 1000 := Nat.div_le_div_left hc (by omega)
    generalize c * (tick : Int) = n at *
    omega
  have hd := DayOf.of_dateOf ((c * tick).tdiv clock / 86400)
  have hy := year_bound hd (b := 300000000) (by omega) (by omega)
  have f1 : fitsInt ((dateOf ((c * tick).tdiv clock / 86400)).year - 1900) = true := by
    simp only [fitsInt, decide_eq_true_eq]; omega
  have f2 : fitsInt (dateOf ((c * tick).tdiv clock / 86400)).year = true := by
    simp only [fitsInt, decide_eq_true_eq]; omega
  refine ⟨_, hd, f1, f2, ?_⟩
  unfold broken
  rw [if_pos hf, gmtime_date, if_pos f1]
  have e : (dateOf ((c * tick).tdiv clock / 86400)).year - 1900 + 1900 = (dateOf ((c * tick).tdiv clock / 86400)).year := by
    omega
  simp only [e, f2, if_true]

/-- Reading back the text of a second gives that second. -/
theorem count_text {sf : ScanFloat} (hs : Standard sf) {t : Int} {d : Date} (hd : DayOf (t / 86400) d)
    (f1 : fitsInt (d.year - 1900) = true) (f2 : fitsInt d.year = true) (clock tick : Nat) :
    count sf clock tick (textOf ⟨d.year - 1900, (d.month : Int) - 1, d.day, t % 86400 / 3600, t % 86400 / 60 % 60,
      t % 86400 % 60⟩) = if fits64 (t * clock) then .ok ((t * clock).tdiv tick) else .ub := by
  have ⟨hv, hn⟩ := DayOf.number hd
  have hv' := hv
  obtain ⟨v1, v2, v3, v4⟩ := hv'
  have hl : monthLength d.year d.month ≤ 31 := by
    unfold monthLength; split
    · split <;> omega
    · split <;> omega
  have ey : d.year - 1900 + 1900 = d.year := by omega
  have em : (d.month : Int) - 1 + 1 = d.month := by omega
  unfold count
  rw [cstr_all (textOf_noNul _), scan_textOf hs]
  · simp only [Res.bind, ey, em]
    have fm : fitsInt ((d.month : Int) - 1) = true := by simp only [fitsInt, decide_eq_true_eq]; omega
    simp only [f1, fm, Bool.and_self, if_true]
    rw [timegm_valid hv f1, hn]
    have : t / 86400 * 86400 + t % 86400 / 3600 * 3600 + t % 86400 / 60 % 60 * 60 + t % 86400 % 60 = t := by omega
    rw [this]
  · simp only; omega
  · simpa only [ey] using f2
  · simp only [fitsInt, decide_eq_true_eq]; omega
  · simp only [fitsInt, decide_eq_true_eq]; omega
  · simp only [fitsInt, decide_eq_true_eq]; omega
  · simp only [fitsInt, decide_eq_true_eq]; omega

/-- The text of a time point in the years -999 to 9999 is `YYYY-MM-DDThh:mm:ss.000Z` (`-YYY-…` before the year 0) with the date of the Gregorian calendar,
counted day by day from 1 January 1970, and the time of day of its second; a fraction is dropped towards 1970. -/
theorem C59_text {clock tick : Nat} {c : Int} (hc : 1000 ≤ clock) (hf : fits64 (c * tick) = true) {n : Int} {d : Date}
    {h m s : Nat} (hd : DayOf n d) (hh : h < 24) (hm : m < 60) (hs : s < 60)
    (ht : (c * tick).tdiv clock = n * 86400 + h * 3600 + m * 60 + s) (h0 : -999 ≤ d.year) (h1 : d.year ≤ 9999) :
    toDart clock tick c = .ok (.heap (.str (stamp d h m s))) := by
  obtain ⟨e, he, f1, f2, hb⟩ := broken_ok hc hf
  rw [ht] at he hb
  have en : (n * 86400 + h * 3600 + m * 60 + s) / 86400 = n := by omega
  rw [en] at he
  have hde : e = d := by rw [dayOf_iff.mp he, dayOf_iff.mp hd]
  subst hde
  have ⟨⟨v1, v2, v3, v4⟩, _⟩ := DayOf.number hd
  have hl : monthLength e.year e.month ≤ 31 := by
    unfold monthLength; split
    · split <;> omega
    · split <;> omega
  simp only [toDart, text, hb, Res.bind]
  have e1 : (n * 86400 + h * 3600 + m * 60 + s) % 86400 / 3600 = (h : Nat) := by omega
  have e2 : (n * 86400 + h * 3600 + m * 60 + s) % 86400 / 60 % 60 = (m : Nat) := by omega
  have e3 : (n * 86400 + h * 3600 + m * 60 + s) % 86400 % 60 = (s : Nat) := by omega
  have e4 : e.year - 1900 + 1900 = e.year := by omega
  have e5 : (e.month : Int) - 1 + 1 = e.month := by omega
  rw [e1, e2, e3]
  simp only [textOf, e4, e5, padInt_year h0 h1, padInt_two (show e.month < 100 by omega),
    padInt_two (show e.day < 100 by omega), padInt_two (show h < 100 by omega), padInt_two (show m < 100 by omega),
    padInt_two (show s < 100 by omega), stamp, List.append_assoc, List.cons_append, List.nil_append]

/-! ### There and back -/

/-- A time point whose ticks are `1/k` of a second comes back as its whole second (towards 1970). -/
theorem C59_round_trip {sf : ScanFloat} (hs : Standard sf) {clock tick k : Nat} {c : Int} (hc : 1000 ≤ clock)
    (ht : 0 < tick) (hk : tick * k = clock) (hf : fits64 (c * tick) = true) :
    ∃ p, toDart clock tick c = .ok p ∧ fromDart sf clock tick p = .ok (c.tdiv k * k) := by
  obtain ⟨d, hd, f1, f2, hb⟩ := broken_ok hc hf
  refine ⟨_, by simp only [toDart, text, hb, Res.bind]; rfl, ?_⟩
  have hcount := count_text hs hd f1 f2 clock tick
  have e1 : (c * tick).tdiv clock = c.tdiv k := by
    rw [← hk, Int.natCast_mul, Int.mul_comm c, Int.mul_tdiv_mul_of_pos _ _ (by omega)]
  have e2 : (c.tdiv k * clock).tdiv tick = c.tdiv k * k := by
    rw [← hk, Int.natCast_mul, Int.mul_comm (tick : Int), ← Int.mul_assoc, Int.mul_tdiv_cancel _ (by omega)]
  have e3 : fits64 (c.tdiv k * clock) = true := by
    simp only [fits64, decide_eq_true_eq] at hf ⊢
    have h1 : c.tdiv k * clock = c.tdiv k * k * tick := by
      rw [← hk, Int.natCast_mul, Int.mul_comm (tick : Int), Int.mul_assoc]
    have h2 : (c.tdiv k * k * tick).natAbs ≤ (c * tick).natAbs := by
      rw [Int.natAbs_mul, Int.natAbs_mul, Int.natAbs_mul]
      apply Nat.mul_le_mul_right
      rw [Int.natAbs_tdiv]
      exact Nat.div_mul_le_self _ _
    rw [h1]
    by_cases hn : 0 ≤ c * tick
    · omega
    · have h3 : c.tdiv k * k * tick ≤ 0 := by
        have hc0 : c < 0 := by
          by_cases hc0 : c < 0
          · exact hc0
          · exact absurd (Int.mul_nonneg (by omega : 0 ≤ c) (by omega : (0 : Int) ≤ tick)) hn
        have h4 : c.tdiv k ≤ 0 := by
          have : c.tdiv k = -((-c).tdiv k) := by rw [Int.neg_tdiv, Int.neg_neg]
          have h5 : 0 ≤ (-c).tdiv k := Int.tdiv_nonneg (by omega) (by omega)
          omega
        rw [Int.mul_assoc]
        have := Int.mul_nonneg (by omega : 0 ≤ -(c.tdiv k)) (Int.mul_nonneg (by omega : (0 : Int) ≤ k) (by omega : (0 : Int) ≤ tick))
        rw [Int.neg_mul] at this
        omega
      omega
  rw [e1] at hcount
  rw [e1]
  rw [if_pos e3, e2] at hcount
  simp only [fromDart, Pkt.getType, Val.getType, if_true, Pkt.strv, Res.bind]
  exact hcount

/-- A time point in whole seconds, minutes, hours, … comes back unchanged. -/
theorem C59_round_trip_coarse {sf : ScanFloat} (hs : Standard sf) {clock tick j : Nat} {c : Int} (hc : 1000 ≤ clock)
    (hj : 0 < j) (ht : tick = clock * j) (hf : fits64 (c * tick) = true) :
    ∃ p, toDart clock tick c = .ok p ∧ fromDart sf clock tick p = .ok c := by
  obtain ⟨d, hd, f1, f2, hb⟩ := broken_ok hc hf
  refine ⟨_, by simp only [toDart, text, hb, Res.bind]; rfl, ?_⟩
  have hcount := count_text hs hd f1 f2 clock tick
  have hcp : (0 : Int) < clock := by omega
  have e1 : (c * tick).tdiv clock = c * j := by
    rw [ht, Int.natCast_mul, Int.mul_comm (clock : Int), ← Int.mul_assoc, Int.mul_tdiv_cancel _ (by omega)]
  have e2 : c * j * clock = c * tick := by
    rw [ht, Int.natCast_mul, Int.mul_comm (clock : Int), Int.mul_assoc]
  have htp : (tick : Int) ≠ 0 := by
    rw [ht, Int.natCast_mul]
    exact Int.mul_ne_zero (by omega) (by omega)
  rw [e1] at hcount
  rw [e1]
  rw [e2, if_pos hf, Int.mul_tdiv_cancel _ htp] at hcount
  simp only [fromDart, Pkt.getType, Val.getType, if_true, Pkt.strv, Res.bind]
  exact hcount

/-- Whether a packet is finalized makes no difference. -/
theorem C59_states (sf : ScanFloat) (clock tick : Nat) {signed exact : Bool} {p : Pkt} (hp : Reached signed exact p) {v : Val}
    (hv : p.toHeap = .ok v) (c : Int) :
    fromDart sf clock tick p = fromDart sf clock tick (.heap v) ∧
      Time.compare clock tick p c = Time.compare clock tick (.heap v) c := by
  have h := Reached.held_of hp hv
  have h1 : p.getType = (Pkt.heap v).getType := by rw [h.getType]; exact (getType_eq v).symm
  have h2 : p.strv = (Pkt.heap v).strv := by rw [h.strv]; cases v <;> rfl
  refine ⟨by simp only [fromDart, h1, h2], ?_⟩
  cases p with
  | heap w =>
    obtain ⟨e, _⟩ := h
    injection e with _ e
    rw [e]
  | buf b =>
    have hs := h.2
    have e1 : b.getType = v.getType := h1
    simp only [Time.compare, Buf.eqNative, Val.eqNative, e1, Shows.strv' hs]

/-- A packet that is not a string throws. -/
theorem C59_wrong_type (sf : ScanFloat) (clock tick : Nat) (v : Val) (h : ∀ s, v ≠ .str s) :
    fromDart sf clock tick (.heap v) = .throw .typeError := by
  have : v.getType ≠ .string := by cases v <;> simp_all [Val.getType]
  simp [fromDart, Pkt.getType, this]

/-! ### A `sscanf` for decimal fractions -/

/-- Reads digits, perhaps with a point and more digits. -/
def sampleScan : ScanFloat := fun s =>
  if s.take 3 = [0x6e, 0x61, 0x6e] then some none else
  let k := (readDigits 10 0 s).2
  if k = 0 then none else
  match s.drop k with
  | 0x2e :: r =>
    let j := (readDigits 10 0 r).2
    some (some (truncFloat (digitsValue (s.take k ++ r.take j)) (10 ^ j)))
  | _ => some (some (digitsValue (s.take k)))

theorem sampleScan_standard : Standard sampleScan := by
  have hnan : ∀ {i r : Bytes}, Digits i → (i ++ r).take 3 ≠ [0x6e, 0x61, 0x6e] := by
    intro i r hi h
    obtain ⟨hne, hall⟩ := hi
    cases i with
    | nil => exact hne rfl
    | cons c i =>
      simp only [List.cons_append, List.take_succ_cons, List.cons.injEq] at h
      have := (hall c (by simp)).2
      rw [h.1] at this
      revert this; decide
  constructor
  · intro i f rest hi hf _ he
    have h1 := readDigits_dec (rest := 0x2e :: (f ++ rest)) hi.2 (by
      intro c hc
      simp only [List.head?_cons, Option.some.injEq] at hc
      subst hc; decide)
    have h2 := readDigits_dec (rest := rest) hf.2 (fun c hc => (he c hc).1)
    have hk : i.length ≠ 0 := by simpa using hi.1
    simp only [sampleScan, if_neg (hnan hi), h1, if_neg hk, List.drop_left', h2, List.take_left']
  · intro i rest hi _ he hr
    have h1 := readDigits_dec (rest := rest) hi.2 (fun c hc => (he c hc).1)
    have hk : i.length ≠ 0 := by simpa using hi.1
    simp only [sampleScan, if_neg (hnan hi), h1, if_neg hk, List.drop_left', List.take_left']
    split
    · exact absurd rfl (hr 0x2e rfl).1
    · rfl
  · intro rest
    simp [sampleScan]

/-! ### Comparing -/

/-- The packet of a time point equals exactly the time points of the same whole second (towards 1970). -/
theorem C59_compare {clock tick : Nat} {a b : Int} (hc : 1000 ≤ clock) (ha : fits64 (a * tick) = true)
    (hb : fits64 (b * tick) = true) :
    ∃ p, toDart clock tick a = .ok p ∧
      Time.compare clock tick p b = .ok (decide ((a * tick).tdiv clock = (b * tick).tdiv clock)) := by
  obtain ⟨d, hd, f1, f2, h1⟩ := broken_ok hc ha
  obtain ⟨e, he, g1, g2, h2⟩ := broken_ok hc hb
  refine ⟨_, by simp only [toDart, text, h1, Res.bind]; rfl, ?_⟩
  simp only [Time.compare, text, h2, Res.bind, Val.eqNative, Val.getType, if_true, Val.strv, Res.ok.injEq]
  rw [Bool.eq_iff_iff]
  simp only [beq_iff_eq, decide_eq_true_eq]
  constructor
  · intro h
    have c1 := count_text sampleScan_standard hd f1 f2 0 1
    have c2 := count_text sampleScan_standard he g1 g2 0 1
    have t1 := scan_textOf sampleScan_standard (t := ⟨d.year - 1900, (d.month : Int) - 1, d.day,
      (a * tick).tdiv clock % 86400 / 3600, (a * tick).tdiv clock % 86400 / 60 % 60, (a * tick).tdiv clock % 86400 % 60⟩)
    have t2 := scan_textOf sampleScan_standard (t := ⟨e.year - 1900, (e.month : Int) - 1, e.day,
      (b * tick).tdiv clock % 86400 / 3600, (b * tick).tdiv clock % 86400 / 60 % 60, (b * tick).tdiv clock % 86400 % 60⟩)
    rw [h] at t1
    have ⟨⟨v1, v2, v3, v4⟩, hn⟩ := DayOf.number hd
    have ⟨⟨w1, w2, w3, w4⟩, hm⟩ := DayOf.number he
    have hl : ∀ y m, monthLength y m ≤ 31 := by
      intro y m; unfold monthLength; split
      · split <;> omega
      · split <;> omega
    have l1 := hl d.year d.month
    have l2 := hl e.year e.month
    have ey : ∀ y : Int, y - 1900 + 1900 = y := by intro y; omega
    simp only [fitsInt, decide_eq_true_eq, ey] at t1 t2 f2 g2
    have t1 := t1 (by omega) (by omega) (by omega) (by omega) (by omega) (by omega)
    have t2 := t2 (by omega) (by omega) (by omega) (by omega) (by omega) (by omega)
    rw [t1] at t2
    simp only [Res.ok.injEq, Prod.mk.injEq] at t2
    obtain ⟨e1, e2, e3, e4, e5, e6⟩ := t2
    have : d = e := by
      obtain ⟨dy, dm, dd⟩ := d
      obtain ⟨ey', em, ed⟩ := e
      simp only [Date.mk.injEq] at *
      omega
    subst this
    rw [hn] at hm
    omega
  · intro h
    rw [h] at hd h1 ⊢
    have : d = e := by rw [dayOf_iff.mp hd, dayOf_iff.mp he]
    rw [this]

/-! ### Texts from elsewhere -/

/-- A text with a date, a time in UTC and a fraction, in numbers with any number of digits, is read as its whole second.
Partial: the fraction must be less than `1 - 2^-19`, and the second must lie within the range of the clock. What follows
the fraction is not looked at. -/
theorem C59_parse_partial {sf : ScanFloat} (hsf : Standard sf) (clock tick : Nat) {n : Int} {d : Date} (hd : DayOf n d)
    (h0 : 0 ≤ d.year) (h9 : d.year ≤ 9999) {h m s : Nat} (hh : h < 24) (hm : m < 60) (hs : s ≤ 60)
    {ty tmo td th tm ts f rest : Bytes} (wy : Written ty d.year.toNat) (wmo : Written tmo d.month) (wd : Written td d.day)
    (wh : Written th h) (wm : Written tm m) (ws : Written ts s) (wf : Digits f)
    (hfr : digitsValue f * 2 ^ 19 < (2 ^ 19 - 1) * 10 ^ f.length) (hr : EndsNumber rest) (hnul : (0 : UInt8) ∉ rest)
    (hrange : fits64 ((n * 86400 + h * 3600 + m * 60 + s) * clock) = true) :
    fromDart sf clock tick (.heap (.str (ty ++ 0x2d :: (tmo ++ 0x2d :: (td ++ 0x54 :: (th ++ 0x3a :: (tm ++ 0x3a ::
      (ts ++ 0x2e :: (f ++ rest)))))))) ) = .ok (((n * 86400 + h * 3600 + m * 60 + s) * clock).tdiv tick) := by
  have ⟨hv, hn⟩ := DayOf.number hd
  have hv' := hv
  obtain ⟨v1, v2, v3, v4⟩ := hv'
  have hl : monthLength d.year d.month ≤ 31 := by
    unfold monthLength; split
    · split <;> omega
    · split <;> omega
  have fit : ∀ k : Nat, k ≤ 10000 → fitsInt (k : Int) = true := by
    intro k hk; simp only [fitsInt, decide_eq_true_eq]; omega
  have wf' : Written f (digitsValue f) := ⟨wf, rfl⟩
  have nonul : (0 : UInt8) ∉ ty ++ 0x2d :: (tmo ++ 0x2d :: (td ++ 0x54 :: (th ++ 0x3a :: (tm ++ 0x3a ::
      (ts ++ 0x2e :: (f ++ rest)))))) := by
    simp only [List.mem_append, List.mem_cons, not_or]
    exact ⟨written_noNul wy, by decide, written_noNul wmo, by decide, written_noNul wd, by decide, written_noNul wh,
      by decide, written_noNul wm, by decide, written_noNul ws, by decide, written_noNul wf', hnul⟩
  have hsec := hsf.decimal ws.1 wf (by rw [ws.2]; omega) hr
  rw [digitsValue_append, ws.2, truncFloat_below (by omega) (Nat.pow_pos (by omega)) hfr] at hsec
  simp only [fromDart, Pkt.getType, Val.getType, if_true, Pkt.strv, Res.bind]
  unfold count
  rw [cstr_all nonul]
  unfold scan
  rw [scanField_of (scanInt_written wy (stops_cons (by decide))) (fit _ (by omega))]
  simp only [Res.bind]
  rw [scanField_of (scanInt_written wmo (stops_cons (by decide))) (fit _ (by omega))]
  simp only
  rw [scanField_of (scanInt_written wd (stops_cons (by decide))) (fit _ (by omega))]
  simp only
  rw [scanField_of (scanInt_written wh (stops_cons (by decide))) (fit _ (by omega))]
  simp only
  rw [scanField_of (scanInt_written wm (stops_cons (by decide))) (fit _ (by omega))]
  simp only [hsec]
  have f1 : fitsInt (d.year - 1900) = true := by simp only [fitsInt, decide_eq_true_eq]; omega
  have f2 : fitsInt ((d.month : Int) - 1) = true := by simp only [fitsInt, decide_eq_true_eq]; omega
  rw [Int.toNat_of_nonneg h0]
  simp only [f1, f2, Bool.and_self, if_true]
  rw [timegm_valid hv f1, hn, if_pos hrange]

/-- The bytes of a text. -/
def dateText (s : String) : Bytes := s.toList.map fun c => UInt8.ofNat c.toNat

/-- The claim for all fractions is false: the seconds are read as a `float`, so the last microsecond of a minute is taken
for the next minute (here 2020-01-01, the same with every clock). -/
theorem C59_parse_rounds_up {sf : ScanFloat} (hsf : Standard sf) :
    fromDart sf 1000000000 1000000000 (.heap (.str (dateText "2020-01-01T00:00:59.999999Z"))) = .ok (1577836800 + 60) := by
  have h := hsf.decimal (i := dateText "59") (f := dateText "999999") (rest := [0x5a])
    ⟨by decide, by decide +kernel⟩ ⟨by decide, by decide +kernel⟩ (by decide +kernel) ends_Z
  rw [show truncFloat (digitsValue (dateText "59" ++ dateText "999999")) (10 ^ (dateText "999999").length) = 60 by decide +kernel] at h
  have e : scan sf (cstr (dateText "2020-01-01T00:00:59.999999Z")) = .ok (2020, 1, 1, 0, 0, 60) := by
    have : scan sf (cstr (dateText "2020-01-01T00:00:59.999999Z")) =
        match sf (dateText "59" ++ 0x2e :: (dateText "999999" ++ [0x5a])) with
        | none => .throw .typeError
        | some none => .ub
        | some (some sec) => .ok (2020, 1, 1, 0, 0, sec) := by rfl
    rw [this, h]; rfl
  simp only [fromDart, Pkt.getType, Val.getType, if_true, Pkt.strv, Res.bind, count, e]
  decide +kernel

/-- A time zone is ignored: midnight in UTC+2 is taken for midnight in UTC. -/
theorem C59_offset_ignored {sf : ScanFloat} (hsf : Standard sf) :
    fromDart sf 1000000000 1000000000 (.heap (.str (dateText "2020-01-01T00:00:00+02:00"))) = .ok 1577836800 := by
  have h := hsf.whole (i := dateText "00") (rest := dateText "+02:00")
    ⟨by decide, by decide +kernel⟩ (by decide +kernel)
    (by intro c hc; simp [dateText] at hc; subst hc; decide)
    (by intro c hc; simp [dateText] at hc; subst hc; decide)
  rw [show digitsValue (dateText "00") = 0 by decide +kernel] at h
  have e : scan sf (cstr (dateText "2020-01-01T00:00:00+02:00")) = .ok (2020, 1, 1, 0, 0, 0) := by
    have : scan sf (cstr (dateText "2020-01-01T00:00:00+02:00")) =
        match sf (dateText "00" ++ dateText "+02:00") with
        | none => .throw .typeError
        | some none => .ub
        | some (some sec) => .ok (2020, 1, 1, 0, 0, sec) := by rfl
    rw [this, h]; rfl
  simp only [fromDart, Pkt.getType, Val.getType, if_true, Pkt.strv, Res.bind, count, e]
  decide +kernel

/-- With a clock of nanoseconds every date after the year 2262 overflows, whatever the duration asked for; so does storing
a time point that late. -/
theorem C59_far_dates {sf : ScanFloat} (hsf : Standard sf) (tick : Nat) :
    fromDart sf 1000000000 tick (.heap (.str (dateText "9999-12-31T23:59:59.000Z"))) = .ub ∧
      toDart 1000000000 1000000000 253402300799 = .ub := by
  have h := hsf.decimal (i := dateText "59") (f := dateText "000") (rest := [0x5a])
    ⟨by decide, by decide +kernel⟩ ⟨by decide, by decide +kernel⟩ (by decide +kernel) ends_Z
  rw [show truncFloat (digitsValue (dateText "59" ++ dateText "000")) (10 ^ (dateText "000").length) = 59 by decide +kernel] at h
  have e : scan sf (cstr (dateText "9999-12-31T23:59:59.000Z")) = .ok (9999, 12, 31, 23, 59, 59) := by
    have : scan sf (cstr (dateText "9999-12-31T23:59:59.000Z")) =
        match sf (dateText "59" ++ 0x2e :: (dateText "000" ++ [0x5a])) with
        | none => .throw .typeError
        | some none => .ub
        | some (some sec) => .ok (9999, 12, 31, 23, 59, sec) := by rfl
    rw [this, h]; rfl
  constructor
  · simp only [fromDart, Pkt.getType, Val.getType, if_true, Pkt.strv, Res.bind, count, e]
    rw [if_pos (by decide +kernel), if_neg (by decide +kernel)]
  · have : broken 1000000000 1000000000 253402300799 = .ub := by
      unfold broken; rw [if_neg (by decide +kernel)]
    simp only [toDart, text, this, Res.bind]

/-- A number that does not fit an `int` is undefined behaviour, at the very first place (C11 7.21.6.2, paragraph 10):
from `2147483648` upwards, whatever follows. -/
theorem C59_large_number (sf : ScanFloat) (clock tick : Nat) {ty rest : Bytes} {n : Nat} (wy : Written ty n)
    (hn : 2147483648 ≤ n) (hnul : (0 : UInt8) ∉ rest) :
    fromDart sf clock tick (.heap (.str (ty ++ 0x2d :: rest))) = .ub := by
  have nonul : (0 : UInt8) ∉ ty ++ 0x2d :: rest := by
    simp only [List.mem_append, List.mem_cons, not_or]
    exact ⟨written_noNul wy, by decide, hnul⟩
  have nofit : fitsInt (n : Int) = false := by
    simp only [fitsInt, decide_eq_false_iff_not]; omega
  simp only [fromDart, Pkt.getType, Val.getType, if_true, Pkt.strv, Res.bind]
  unfold count
  rw [cstr_all nonul]
  unfold scan scanField
  rw [scanInt_written wy (stops_cons (by decide))]
  simp only [nofit]
  rfl

example (sf : ScanFloat) :
    fromDart sf 1000000 1 (.heap (.str (dateText "2147483648-01-01T00:00:00Z"))) = .ub :=
  C59_large_number sf _ _ (ty := dateText "2147483648") (rest := dateText "01-01T00:00:00Z") (n := 2147483648)
    ⟨⟨by decide, by decide +kernel⟩, by decide +kernel⟩ (by omega) (by decide +kernel)

/-- Not-a-number is accepted for the seconds, and converted to an `int`. -/
theorem C59_nan {sf : ScanFloat} (hsf : Standard sf) (clock tick : Nat) :
    fromDart sf clock tick (.heap (.str (dateText "2020-01-01T00:00:nan"))) = .ub := by
  have h := hsf.nan []
  have e : scan sf (cstr (dateText "2020-01-01T00:00:nan")) = .ub := by
    have : scan sf (cstr (dateText "2020-01-01T00:00:nan")) =
        match sf [0x6e, 0x61, 0x6e] with
        | none => .throw .typeError
        | some none => .ub
        | some (some sec) => .ok (2020, 1, 1, 0, 0, sec) := by rfl
    rw [this, h]
  simp only [fromDart, Pkt.getType, Val.getType, if_true, Pkt.strv, Res.bind, count, e]

/-- The fraction is lost, and the packets of the times just before and just after 1970 are equal to both. -/
theorem C59_fraction_lost {sf : ScanFloat} (hsf : Standard sf) :
    (∃ p, toDart 1000000000 1 1500000000 = .ok p ∧ fromDart sf 1000000000 1 p = .ok 1000000000) ∧
    ∃ p, toDart 1000000000 1 (-999999999) = .ok p ∧ Time.compare 1000000000 1 p 999999999 = .ok true := by
  refine ⟨?_, ?_⟩
  · exact C59_round_trip hsf (k := 1000000000) (c := 1500000000) (by decide) (by decide) rfl (by decide)
  · exact C59_compare (a := -999999999) (b := 999999999) (by decide) (by decide) (by decide)

/-! Concrete cases. -/

example : DayOf 0 ⟨1970, 1, 1⟩ ∧ DayOf 1 ⟨1970, 1, 2⟩ ∧ DayOf (-1) ⟨1969, 12, 31⟩ ∧ DayOf 18321 ⟨2020, 2, 29⟩ := by
  simp only [dayOf_iff]; decide +kernel

/-- 2020-02-29T12:34:56.789 in milliseconds. -/
example : toDart 1000000000 1000000 1582979696789 = .ok (.heap (.str (dateText "2020-02-29T12:34:56.000Z"))) ∧
    fromDart sampleScan 1000000000 1000000 (.heap (.str (dateText "2020-02-29T12:34:56.000Z"))) = .ok 1582979696000 :=
  ⟨by
    have : text 1000000000 1000000 1582979696789 = .ok (dateText "2020-02-29T12:34:56.000Z") := by decide +kernel
    simp only [toDart, this, Res.bind], by decide +kernel⟩

example : stamp ⟨2020, 2, 29⟩ 12 34 56 = dateText "2020-02-29T12:34:56.000Z" := by decide +kernel
example : stamp ⟨-44, 3, 15⟩ 12 34 56 = dateText "-044-03-15T12:34:56.000Z" := by decide +kernel

end Dart.Props
