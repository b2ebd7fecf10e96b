import Verif.Model.Basic

namespace Dart

@[simp] theorem leBytes_length (w n : Nat) : (leBytes w n).length = w := by
  induction w generalizing n with
  | zero => rfl
  | succ w ih => simp [leBytes, ih]

theorem leNat_leBytes (w n : Nat) : leNat (leBytes w n) = n % 256 ^ w := by
  induction w generalizing n with
  | zero => simp [leBytes, leNat, Nat.mod_one]
  | succ w ih =>
    simp only [leBytes, leNat, ih]
    rw [Nat.pow_succ, Nat.mul_comm (256 ^ w) 256, Nat.mod_mul]
    simp

theorem leNat_lt (bs : Bytes) : leNat bs < 256 ^ bs.length := by
  induction bs with
  | nil => simp [leNat]
  | cons b bs ih =>
    have hb : b.toNat < 256 := UInt8.toNat_lt b
    simp only [leNat, List.length_cons, Nat.pow_succ]
    omega

theorem leBytes_leNat (bs : Bytes) : leBytes bs.length (leNat bs) = bs := by
  induction bs with
  | nil => rfl
  | cons b bs ih =>
    have hb : b.toNat < 256 := UInt8.toNat_lt b
    simp only [leNat, List.length_cons, leBytes]
    have h1 : (b.toNat + 256 * leNat bs) % 256 = b.toNat := by omega
    have h2 : (b.toNat + 256 * leNat bs) / 256 = leNat bs := by omega
    rw [h1, h2, ih]
    simp

@[simp] theorem zeros_length (n : Nat) : (zeros n).length = n := by simp [zeros]
@[simp] theorem zeros_zero : zeros 0 = [] := rfl

theorem zeros_add (a b : Nat) : zeros (a + b) = zeros a ++ zeros b := by
  simp [zeros, List.replicate_append_replicate]

theorem zeros_split {a n : Nat} (h : a ≤ n) : zeros n = zeros a ++ zeros (n - a) := by
  rw [← zeros_add]; congr 1; omega

theorem readBytes_mid (A B C : Bytes) (p n : Nat) (hp : p = A.length) (hn : n = B.length) :
    readBytes (A ++ (B ++ C)) p n = some B := by
  subst hp hn
  unfold readBytes
  rw [if_pos (by simp)]
  simp

theorem readU_mid (A C : Bytes) (w x p : Nat) (hp : p = A.length) (hx : x < 256 ^ w) :
    readU (A ++ (leBytes w x ++ C)) w p = some x := by
  unfold readU
  rw [readBytes_mid A (leBytes w x) C p w hp (by simp)]
  simp [leNat_leBytes, Nat.mod_eq_of_lt hx]

theorem writeBytes_mid (A B C bs : Bytes) (p : Nat) (hp : p = A.length) (hl : bs.length = B.length) :
    writeBytes (A ++ (B ++ C)) p bs = some (A ++ (bs ++ C)) := by
  subst hp
  unfold writeBytes
  rw [if_pos (by simp; omega), hl]
  congr 1
  rw [List.take_left, ← List.drop_drop, List.drop_left, List.drop_left]
  simp

theorem writeBytes_some_length {m m' : Bytes} {p : Nat} {bs : Bytes}
    (h : writeBytes m p bs = some m') : m'.length = m.length := by
  unfold writeBytes at h
  split at h
  · cases h; simp; omega
  · cases h

theorem align_pos (t : RawType) : 0 < t.align := by cases t <;> decide
theorem align_dvd_eight (t : RawType) : t.align ∣ 8 := by cases t <;> decide

theorem align_cases (t : RawType) : t.align = 1 ∨ t.align = 2 ∨ t.align = 4 ∨ t.align = 8 := by
  cases t <;> decide

theorem le_alignUp (n : Nat) {a : Nat} (ha : 0 < a) : n ≤ alignUp n a := by
  unfold alignUp
  have h := Nat.div_add_mod (n + (a - 1)) a
  have h2 := Nat.mod_lt (n + (a - 1)) ha
  rw [Nat.mul_comm] at h
  omega

theorem alignUp_lt (n : Nat) {a : Nat} (ha : 0 < a) : alignUp n a < n + a := by
  unfold alignUp
  have h := Nat.div_mul_le_self (n + (a - 1)) a
  omega

theorem dvd_alignUp (n a : Nat) : a ∣ alignUp n a := Nat.dvd_mul_left _ _

theorem alignUp_of_dvd {n a : Nat} (ha : 0 < a) (h : a ∣ n) : alignUp n a = n := by
  obtain ⟨k, rfl⟩ := h
  unfold alignUp
  rw [Nat.mul_add_div ha, Nat.div_eq_of_lt (by omega)]
  simp [Nat.mul_comm]

theorem alignUp_mono {m n : Nat} (a : Nat) (h : m ≤ n) : alignUp m a ≤ alignUp n a := by
  unfold alignUp
  exact Nat.mul_le_mul_right _ (Nat.div_le_div_right (by omega))

theorem alignUp_add_left {b n a : Nat} (ha : 0 < a) (hb : a ∣ b) :
    alignUp (b + n) a = b + alignUp n a := by
  obtain ⟨k, rfl⟩ := hb
  unfold alignUp
  rw [Nat.add_assoc, Nat.mul_add_div ha, Nat.add_mul, Nat.mul_comm k a]

theorem alignUp_le_of_dvd {n x a : Nat} (ha : 0 < a) (hx : a ∣ x) (h : n ≤ x) : alignUp n a ≤ x := by
  rw [← alignUp_of_dvd ha hx]; exact alignUp_mono a h

theorem alignUp_one (n : Nat) : alignUp n 1 = n := by simp [alignUp]

theorem ofCode_code (t : RawType) : RawType.ofCode t.code = some t := by cases t <;> rfl
theorem code_lt (t : RawType) : t.code < 12 := by cases t <;> decide
theorem ofCode_some {c : Nat} {t : RawType} (h : RawType.ofCode c = some t) : t.code = c := by
  unfold RawType.ofCode at h
  split at h <;> first | (cases h; rfl) | cases h

theorem toInt_ofInt64 (x : Int) : (BitVec.ofInt 64 x).toInt = x.bmod (2 ^ 64) := BitVec.toInt_ofInt _

theorem bmod_self {n : Nat} {x : Int} (h1 : -(n : Int) ≤ 2 * x) (h2 : 2 * x < n) : x.bmod n = x :=
  Int.bmod_eq_of_le_mul_two (by omega) (by omega)

end Dart
