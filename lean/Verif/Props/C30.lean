import Verif.Lemmas.Str

/-
C30: strings in dynamic values. `make junk base app` is `make_string(base, app)` in memory that contained
`junk`; a `none` would be an access beyond the memory.
-/
namespace Dart.Props

/-- For every string, of whatever length and contents, in one or two parts, and whatever the memory
contained before: storing it stays within the memory, it reads back the same bytes, and it is followed
by a NUL (which for 23 bytes is the length field itself). -/
theorem C30_string_reads_back (junk base app : Bytes) (hj : junk.length = 24) :
    ∃ r, StrRep.make junk base app = some r ∧ r.strv = some (base ++ app) ∧
      ∃ rest, r.chars = base ++ app ++ 0 :: rest := by
  obtain ⟨r, h1, h2⟩ := StrRep.make_stores junk base app hj
  exact ⟨r, h1, h2.strv, h2.chars⟩

/-- Strings of up to 23 bytes, and only these, are stored in place, in 24 bytes; longer ones take
exactly one byte more than their length. -/
theorem C30_in_place_up_to_23 (junk base app : Bytes) (hj : junk.length = 24) :
    (base.length + app.length ≤ 23 → ∃ m, StrRep.make junk base app = some (.inl m) ∧ m.length = 24) ∧
    (23 < base.length + app.length → ∃ m, StrRep.make junk base app = some (.dyn m (base.length + app.length)) ∧
      m.length = base.length + app.length + 1) := by
  obtain ⟨r, h1, h2⟩ := StrRep.make_stores junk base app hj
  rw [h1]
  have hl : (base ++ app).length = base.length + app.length := List.length_append
  generalize base ++ app = s at h2 hl
  rw [← hl]
  cases h2 with
  | short _ pad h hp => exact ⟨fun _ => ⟨_, rfl, by simp; omega⟩, fun hc => by omega⟩
  | full _ h => exact ⟨fun _ => ⟨_, rfl, by simp; omega⟩, fun hc => by omega⟩
  | long _ h => exact ⟨fun hc => by omega, fun _ => ⟨_, rfl, by simp⟩⟩

/-! Concrete cases: 22, 23 and 24 bytes in memory full of 255s. -/

example : ([22, 23, 24].map fun n =>
    (StrRep.make (List.replicate 24 255) (List.replicate n 97) []).map fun r => (r.strv.map List.length, r.chars[n]?)) =
    [some (some 22, some 0), some (some 23, some 0), some (some 24, some 0)] := by decide +kernel
/-- The length field decides: at 23 bytes it is the terminator. -/
example : ((StrRep.make (List.replicate 24 255) (List.replicate 20 97) [98, 99, 0]).bind StrRep.strv) =
    some (List.replicate 20 97 ++ [98, 99, 0]) := by decide +kernel

end Dart.Props
