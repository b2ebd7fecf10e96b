import Verif.Lemmas.LookupCost
import Verif.Props.C02

/-
C74: how much of a finalized object a lookup looks at. `Buf.looked` lists, in order, the entries of the
table that `get`, `at` and `has_key` compare the key with.
-/
namespace Dart.Props

/-- The search that lists the entries is the one the other properties are about. -/
theorem C74_same_search (signed : Bool) (m : Bytes) (p : Nat) (key : Bytes) :
    (getKeyN signed m p key).1 = getKey signed m p key := getKeyN_fst

/-- C74: a lookup in a finalized object of `n` fields, at any depth, compares the key with no entry
twice, with fields of the object only, and with at most `log2 n + 1` of them; with none if there is
none. This holds whatever the keys, for lookups that hit and lookups that miss. -/
theorem C74_logarithmic (signed : Bool) (v : Val) (m : Bytes) (hw : v.WF) (h : finalize v = .ok m)
    (b : Buf) (hb : Derived signed (Buf.ofBytes m) b) (fs : List (Bytes × Val)) (hv : b.value = some (.obj fs))
    (key : Bytes) :
    (b.looked signed key).length ≤ Nat.log2 fs.length + 1 ∧ (fs = [] → b.looked signed key = []) ∧
      (b.looked signed key).Nodup ∧ ∀ i ∈ b.looked signed key, i < fs.length := by
  obtain ⟨x, hx⟩ := hb.shows (shows_root hw h)
  rw [hx.value] at hv; cases hv
  obtain ⟨p, h1, h2, h3⟩ := hx.obj
  obtain ⟨g1, _, hlen⟩ := h3.obj_parts
  have he : b.looked signed key = (searchKeyN signed b.mem p key (fs.length + 1) 0 (fs.length - 1)).2 := by
    simp only [Buf.looked, Buf.object, h1, h2, Res.ofRead, getKeyN, g1, toInt32_small hlen]
  have hl := searchKeyN_looks (signed := signed) (m := b.mem) (base := p) (key := key) (fs.length + 1) 0
    ((fs.length : Int) - 1) (by omega)
  rw [← he] at hl
  refine ⟨?_, ?_, hl.once, fun i hi => by have := hl.range i hi; omega⟩
  · by_cases h0 : fs.length = 0
    · rw [hl.empty (by omega)]; simp
    · have hf := hl.few (by omega)
      have h5 : 2 ^ (b.looked signed key).length ≤ 2 * fs.length := by omega
      cases hn : (b.looked signed key).length with
      | zero => omega
      | succ k =>
        rw [hn, Nat.pow_succ] at h5
        have := (Nat.le_log2 h0).2 (show 2 ^ k ≤ fs.length by omega)
        omega
  · rintro rfl
    exact hl.empty (by simp)

/-- C74 for bytes nobody checked: the search in an object that claims to have `n` fields, whatever the
memory contains, looks at no entry twice and at no more than `log2 n + 1`. -/
theorem C74_untrusted (signed : Bool) (m : Bytes) (p n : Nat) (key : Bytes) (hn : numElems m p = some n) :
    (getKeyN signed m p key).2.length ≤ Nat.log2 n + 1 ∧ (n = 0 → (getKeyN signed m p key).2 = []) ∧
      (getKeyN signed m p key).2.Nodup ∧ ∀ i ∈ (getKeyN signed m p key).2, i < n := by
  have he : (getKeyN signed m p key).2 = (searchKeyN signed m p key (n + 1) 0 (toInt32 n - 1)).2 := by
    simp only [getKeyN, hn]
  have hl := searchKeyN_looks (signed := signed) (m := m) (base := p) (key := key) (n + 1) 0
    (toInt32 n - 1) (by omega)
  rw [← he] at hl
  have ht := toInt32_le n
  refine ⟨?_, ?_, hl.once, fun i hi => by have := hl.range i hi; omega⟩
  · by_cases h0 : 0 ≤ toInt32 n - 1
    · have hf := hl.few h0
      have h5 : 2 ^ (getKeyN signed m p key).2.length ≤ 2 * n := by omega
      cases hc : (getKeyN signed m p key).2.length with
      | zero => omega
      | succ k =>
        rw [hc, Nat.pow_succ] at h5
        have := (Nat.le_log2 (show n ≠ 0 by omega)).2 (show 2 ^ k ≤ n by omega)
        omega
    · rw [hl.empty (by omega)]; simp
  · rintro rfl
    exact hl.empty (by omega)

/-- Fields named `"aa"`, `"ab"`, … -/
def namedFields (n : Nat) : List (Bytes × Val) :=
  (List.range n).map fun i => ([97, UInt8.ofNat (97 + i)], .null)

/-! Concrete cases: on these objects some lookups do look at `log2 n + 1` entries, so the bound cannot be
lowered. -/

example : ∀ n ∈ [1, 2, 3, 4, 7, 8, 15, 16],
    (match finalize (.obj (namedFields n)) with
      | .ok m => decide (((Buf.ofBytes m).looked true [97, UInt8.ofNat (96 + n)]).length = Nat.log2 n + 1)
      | _ => false) = true := by decide +kernel

example : (match finalize (.obj (namedFields 16)) with
    | .ok m => (Buf.ofBytes m).looked true [97, 97 + 15] | _ => []) = [7, 11, 13, 14, 15] := by decide +kernel

end Dart.Props
