import Verif.Spec.Time
import Verif.Lemmas.YamlScalar

namespace Dart.Time
open Dart.Spec Dart.Spec.Time

theorem isLeap_iff (y : Int) : isLeap y = true ↔ LeapYear y := by
  simp only [isLeap, LeapYear, Bool.and_eq_true, Bool.or_eq_true, decide_eq_true_eq]
  omega

/-- The years of a cycle. -/
theorem yearStart_cycle {e c q r : Int} (hc : 0 ≤ c ∧ c ≤ 3) (hq : 0 ≤ q ∧ q ≤ 24) (hr : 0 ≤ r ∧ r ≤ 3) :
    yearStart (e * 400 + c * 100 + q * 4 + r + 1) = 146097 * e + 36524 * c + 1461 * q + 365 * r - 719162 := by
  have h1 : (e * 400 + c * 100 + q * 4 + r + 1 - 1) / 4 = e * 100 + c * 25 + q := by omega
  have h2 : (e * 400 + c * 100 + q * 4 + r + 1 - 1) / 100 = e * 4 + c := by omega
  have h3 : (e * 400 + c * 100 + q * 4 + r + 1 - 1) / 400 = e := by omega
  simp only [yearStart, h1, h2, h3]
  omega

theorem leap_iff (y : Int) : LeapYear y ↔ y % 4 = 0 ∧ (y % 100 = 0 → y % 400 = 0) := by
  simp only [LeapYear]; omega

theorem yearStart_succ (y : Int) : yearStart (y + 1) = yearStart y + if LeapYear y then 366 else 365 := by
  simp only [yearStart, leap_iff]
  have e : y + 1 - 1 = y := by omega
  rw [e]
  split <;> omega

theorem yearOf_spec (n : Int) : yearStart (yearOf n) ≤ n ∧ n < yearStart (yearOf n + 1) := by
  have key : ∃ e c q r, yearOf n = e * 400 + c * 100 + q * 4 + r + 1 ∧ (0 ≤ c ∧ c ≤ 3) ∧ (0 ≤ q ∧ q ≤ 24) ∧
      (0 ≤ r ∧ r ≤ 3) ∧ 146097 * e + 36524 * c + 1461 * q + 365 * r ≤ n + 719162 ∧
      n + 719162 < 146097 * e + 36524 * c + 1461 * q + 365 * r + 366 ∧
      (n + 719162 = 146097 * e + 36524 * c + 1461 * q + 365 * r + 365 → r = 3 ∧ (q = 24 → c = 3)) := by
    refine ⟨(n + 719162) / 146097, min ((n + 719162) % 146097 / 36524) 3, _, _, rfl, ?_⟩
    generalize (n + 719162) = d
    omega
  obtain ⟨e, c, q, r, hy, hc, hq, hr, h1, h2, h3⟩ := key
  rw [yearStart_succ, hy, yearStart_cycle hc hq hr]
  refine ⟨by omega, ?_⟩
  simp only [leap_iff]
  split <;> omega

theorem yearStart_mono {a b : Int} (h : a ≤ b) : yearStart a ≤ yearStart b := by
  simp only [yearStart]; omega

/-- A day falls in one year only. -/
theorem yearOf_unique {n y : Int} (h1 : yearStart y ≤ n) (h2 : n < yearStart (y + 1)) : yearOf n = y := by
  have ⟨h3, h4⟩ := yearOf_spec n
  by_cases hl : yearOf n + 1 ≤ y
  · have := yearStart_mono hl; omega
  · by_cases hg : y + 1 ≤ yearOf n
    · have := yearStart_mono hg; omega
    · omega

theorem monthOf_table : ∀ leap : Bool, ∀ r : Fin 366, (r.val < 365 ∨ leap = true) →
    daysBefore leap (monthOf leap r.val) ≤ r.val ∧ (r.val : Int) < daysBefore leap (monthOf leap r.val + 1) ∧
      monthOf leap r.val ≤ 11 := by
  decide +kernel

theorem monthOf_spec {leap : Bool} {r : Int} (h0 : 0 ≤ r) (h1 : r < if leap then 366 else 365) :
    daysBefore leap (monthOf leap r) ≤ r ∧ r < daysBefore leap (monthOf leap r + 1) ∧ monthOf leap r ≤ 11 := by
  have hr : r.toNat < 366 := by cases leap <;> simp at h1 <;> omega
  have := monthOf_table leap ⟨r.toNat, hr⟩ (by cases leap <;> simp at h1 ⊢ <;> omega)
  simpa [Int.toNat_of_nonneg h0] using this

theorem daysBefore_length : ∀ leap : Bool, ∀ m : Fin 12,
    daysBefore leap (m.val + 1) - daysBefore leap m.val =
      if m.val + 1 = 2 then (if leap then 29 else 28)
      else if m.val + 1 = 4 ∨ m.val + 1 = 6 ∨ m.val + 1 = 9 ∨ m.val + 1 = 11 then 30 else 31 := by decide +kernel

theorem daysBefore_succ (y : Int) {m : Nat} (h1 : 1 ≤ m) (h2 : m ≤ 12) :
    daysBefore (isLeap y) m = daysBefore (isLeap y) (m - 1) + monthLength y m := by
  have := daysBefore_length (isLeap y) ⟨m - 1, by omega⟩
  have e : m - 1 + 1 = m := by omega
  simp only [e] at this
  have hb := isLeap_iff y
  simp only [monthLength, ← hb]
  split at this <;> rename_i hm
  · rw [if_pos hm]
    split at this <;> rename_i hl
    · rw [if_pos hl]; omega
    · rw [if_neg hl]; omega
  · simp only [if_neg hm]
    split at this <;> rename_i hl
    · rw [if_pos hl]; omega
    · rw [if_neg hl]; omega

/-- The number of a date. -/
def number (d : Date) : Int := yearStart d.year + daysBefore (isLeap d.year) (d.month - 1) + (d.day - 1)

theorem daysBefore_zero (leap : Bool) : daysBefore leap 0 = 0 := by cases leap <;> rfl

theorem daysBefore_twelve (leap : Bool) : daysBefore leap 12 = if leap then 366 else 365 := by cases leap <;> rfl

theorem number_next {d : Date} (h : d.Valid) : number d.next = number d + 1 ∧ d.next.Valid := by
  obtain ⟨h1, h2, h3, h4⟩ := h
  unfold Date.next
  have hl : ∀ y m, 1 ≤ monthLength y m := by
    intro y m; unfold monthLength; split
    · split <;> omega
    · split <;> omega
  split
  · rename_i hd
    refine ⟨by simp only [number]; omega, h1, h2, by simp, Nat.succ_le_of_lt hd⟩
  · rename_i hd
    have hs := daysBefore_succ d.year h1 h2
    have hday : d.day = monthLength d.year d.month := by omega
    split
    · rename_i hm
      refine ⟨?_, by simp, Nat.succ_le_of_lt hm, by simp, by simpa using hl _ _⟩
      simp only [number, Nat.add_sub_cancel]
      omega
    · rename_i hm
      have hm : d.month = 12 := by omega
      refine ⟨?_, by simp, by simp, by simp, by simpa using hl _ _⟩
      rw [hm] at hs hday
      rw [daysBefore_twelve] at hs
      have hb := isLeap_iff d.year
      simp only [number, yearStart_succ, ← hb, Nat.sub_self, daysBefore_zero, hm]
      split at hs <;> rename_i hl
      · rw [if_pos hl]; omega
      · rw [if_neg hl]; omega

theorem DayOf.number {n : Int} {d : Date} (h : DayOf n d) : d.Valid ∧ number d = n := by
  induction h with
  | epoch => exact ⟨⟨by decide, by decide, by decide, by decide +kernel⟩, by decide +kernel⟩
  | after _ ih => exact ⟨(number_next ih.1).2, by rw [(number_next ih.1).1, ih.2]⟩
  | before _ hv ih => exact ⟨hv, by have := (number_next hv).1; omega⟩

/-- The date of day `n` by the cycles. -/
def dateOf (n : Int) : Date :=
  let y := yearOf n
  let r := n - yearStart y
  let m := monthOf (isLeap y) r
  ⟨y, m + 1, (r - daysBefore (isLeap y) m + 1).toNat⟩

theorem dateOf_parts (n : Int) :
    let y := yearOf n
    let r := n - yearStart y
    let m := monthOf (isLeap y) r
    m ≤ 11 ∧ 1 ≤ r - daysBefore (isLeap y) m + 1 ∧ r - daysBefore (isLeap y) m + 1 ≤ monthLength y (m + 1) := by
  have ⟨h1, h2⟩ := yearOf_spec n
  rw [yearStart_succ] at h2
  have hb := isLeap_iff (yearOf n)
  simp only [← hb] at h2
  have ⟨h3, h4, h5⟩ := monthOf_spec (leap := isLeap (yearOf n)) (r := n - yearStart (yearOf n)) (by omega) (by
    split at h2 <;> rename_i hl
    · rw [if_pos hl]; omega
    · rw [if_neg hl]; omega)
  dsimp only
  have hs := daysBefore_succ (yearOf n) (m := monthOf (isLeap (yearOf n)) (n - yearStart (yearOf n)) + 1) (by omega) (by omega)
  rw [Nat.add_sub_cancel] at hs
  omega

theorem dateOf_spec (n : Int) : (dateOf n).Valid ∧ number (dateOf n) = n := by
  have ⟨h1, h2, h3⟩ := dateOf_parts n
  refine ⟨⟨by simp [dateOf], by simp only [dateOf]; omega, by simp only [dateOf]; omega, by simp only [dateOf]; omega⟩, ?_⟩
  simp only [Time.number, dateOf, Nat.add_sub_cancel]
  omega

/-- A valid date lies in its year. -/
theorem number_range {d : Date} (h : d.Valid) :
    yearStart d.year ≤ number d ∧ number d < yearStart (d.year + 1) ∧
      daysBefore (isLeap d.year) (d.month - 1) ≤ number d - yearStart d.year ∧
      number d - yearStart d.year < daysBefore (isLeap d.year) d.month := by
  obtain ⟨h1, h2, h3, h4⟩ := h
  have hs := daysBefore_succ d.year h1 h2
  have hm : ∀ leap : Bool, ∀ m : Fin 13, 0 ≤ daysBefore leap m.val ∧ daysBefore leap m.val ≤ daysBefore leap 12 := by
    decide +kernel
  have ha := (hm (isLeap d.year) ⟨d.month - 1, by omega⟩).1
  have hz := (hm (isLeap d.year) ⟨d.month, by omega⟩).2
  simp only at ha hz
  rw [daysBefore_twelve] at hz
  have hb := isLeap_iff d.year
  rw [yearStart_succ]
  simp only [← hb, number]
  refine ⟨by omega, ?_, by omega, by omega⟩
  split at hz <;> rename_i hl
  · rw [if_pos hl]; omega
  · rw [if_neg hl]; omega

theorem monthOf_table2 : ∀ leap : Bool, ∀ m : Fin 12, ∀ r : Fin 366, daysBefore leap m.val ≤ r.val →
    (r.val : Int) < daysBefore leap (m.val + 1) → monthOf leap r.val = m.val := by
  decide +kernel

theorem dateOf_number {d : Date} (h : d.Valid) : dateOf (number d) = d := by
  have ⟨h1, h2, h3, h4⟩ := number_range h
  have hy := yearOf_unique h1 h2
  obtain ⟨g1, g2, g3, g4⟩ := h
  have hr : (number d - yearStart d.year).toNat < 366 := by
    rw [yearStart_succ] at h2
    split at h2 <;> omega
  have hm := monthOf_table2 (isLeap d.year) ⟨d.month - 1, by omega⟩ ⟨_, hr⟩
  have e : d.month - 1 + 1 = d.month := by omega
  simp only [e, Int.toNat_of_nonneg (by omega : 0 ≤ number d - yearStart d.year)] at hm
  have hm := hm h3 h4
  simp only [dateOf, hy, hm, e]
  obtain ⟨y, m, dd⟩ := d
  simp only [Date.mk.injEq, true_and]
  simp only [number] at *
  omega

theorem DayOf.of_dateOf (n : Int) : DayOf n (dateOf n) := by
  have step : ∀ n : Int, (dateOf n).next = dateOf (n + 1) := by
    intro n
    have ⟨h1, h2⟩ := dateOf_spec n
    have ⟨h3, h4⟩ := number_next h1
    rw [← dateOf_number h4, h3, h2]
  have e0 : dateOf 0 = ⟨1970, 1, 1⟩ := by decide +kernel
  have up : ∀ k : Nat, DayOf k (dateOf k) := by
    intro k
    induction k with
    | zero => rw [show ((0 : Nat) : Int) = 0 from rfl, e0]; exact .epoch
    | succ k ih =>
      have := DayOf.after ih
      rw [step] at this
      exact_mod_cast this
  have down : ∀ k : Nat, DayOf (-(k : Int)) (dateOf (-(k : Int))) := by
    intro k
    induction k with
    | zero => exact up 0
    | succ k ih =>
      refine .before ?_ (dateOf_spec _).1
      rw [step]
      have : -((k + 1 : Nat) : Int) + 1 = -(k : Int) := by omega
      rw [this]
      exact ih
  by_cases h : 0 ≤ n
  · have := up n.toNat
    rwa [Int.toNat_of_nonneg h] at this
  · have := down (-n).toNat
    rw [Int.toNat_of_nonneg (by omega), Int.neg_neg] at this
    exact this

theorem dayOf_iff {n : Int} {d : Date} : DayOf n d ↔ d = dateOf n := by
  constructor
  · intro h
    have ⟨h1, h2⟩ := DayOf.number h
    rw [← h2, dateOf_number h1]
  · rintro rfl
    exact DayOf.of_dateOf n

end Dart.Time
