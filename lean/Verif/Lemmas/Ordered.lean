import Verif.Model.Ordered
import Verif.Lemmas.Basic

namespace Dart

theorem leBytes_getElem (w n i : Nat) (h : i < (leBytes w n).length) :
    (leBytes w n)[i].toNat = n / 256 ^ i % 256 := by
  induction w generalizing n i with
  | zero => simp [leBytes] at h
  | succ w ih =>
    cases i with
    | zero => simp [leBytes]
    | succ i =>
      simp only [leBytes, List.length_cons] at h
      simp only [leBytes, List.getElem_cons_succ]
      rw [ih (n / 256) i (by omega), Nat.div_div_eq_div_mul, Nat.pow_succ, Nat.mul_comm]

theorem hostNat_hostBytes (host : Endian) (w n : Nat) : hostNat host (hostBytes host w n) = n % 256 ^ w := by
  cases host <;> simp [hostNat, hostBytes, leNat_leBytes]

theorem leBytes_bswap (w n : Nat) : leBytes w (bswap w n) = (leBytes w n).reverse := by
  unfold bswap
  have := leBytes_leNat (leBytes w n).reverse
  simpa using this

theorem leBytes_mod (w n : Nat) : leBytes w (n % 256 ^ w) = leBytes w n := by
  have := leBytes_leNat (leBytes w n)
  rw [leBytes_length, leNat_leBytes] at this
  exact this

theorem orderedSet_eq (order host : Endian) (w n : Nat) : orderedSet order host w n = hostBytes order w n := by
  unfold orderedSet
  rw [hostNat_hostBytes]
  cases order <;> cases host <;> simp [shouldSwap, hostBytes, leBytes_bswap, leBytes_mod] <;>
    simp [bswap, leBytes_mod] <;> skip

theorem orderedSet_little (host : Endian) (w n : Nat) (_hn : n < 256 ^ w) :
    orderedSet .little host w n = leBytes w n := orderedSet_eq _ _ _ _

theorem orderedSet_host (order host host' : Endian) (w n : Nat) (_hn : n < 256 ^ w) :
    orderedSet order host w n = orderedSet order host' w n := by rw [orderedSet_eq, orderedSet_eq]

theorem orderedGet_set (order host : Endian) (w n : Nat) (hn : n < 256 ^ w) :
    orderedGet order host w (orderedSet order host w n) = n := by
  rw [orderedSet_eq]
  have h := leNat_leBytes w n
  rw [Nat.mod_eq_of_lt hn] at h
  have hb : ∀ m, leNat (leBytes w (leNat (leBytes w m).reverse)).reverse = leNat (leBytes w m) := by
    intro m
    have := leBytes_bswap w m
    unfold bswap at this
    rw [this, List.reverse_reverse]
  unfold orderedGet
  cases order <;> cases host <;> simp [shouldSwap, hostBytes, hostNat, h, bswap, hb]

theorem orderedMutate_get (order host : Endian) (w n : Nat) (hn : n < 256 ^ w) (cb : Nat → Int) :
    (orderedGet order host w (orderedMutate order host w cb (orderedSet order host w n)) : Int) =
      cb n % (256 ^ w : Nat) := by
  unfold orderedMutate
  rw [orderedGet_set order host w n hn]
  have hp : (0 : Int) < ((256 ^ w : Nat) : Int) := by
    have : 0 < 256 ^ w := Nat.pow_pos (by omega)
    omega
  have h0 := Int.emod_nonneg (cb n) (Int.ne_of_gt hp)
  have h1 := Int.emod_lt_of_pos (cb n) hp
  rw [orderedGet_set order host w _ (by omega)]
  omega

end Dart
