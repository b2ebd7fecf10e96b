import Verif.Lemmas.LookupReads
import Verif.Props.C02

/-
C85: a lookup leaves the table only for names that may be the key. That bytes are not read is said by putting others in their
place: `m'` is memory in which everything may be different but the table and the names that `MayMatch`.
-/
namespace Dart.Props
open Spec

/-- C85: a lookup in a finalized object at any depth gives the same, whatever is in the rest of the memory. -/
theorem C85_reads (signed : Bool) (v : Val) (m : Bytes) (hw : v.WF) (h : finalize v = .ok m) (b : Buf)
    (hb : Derived signed (Buf.ofBytes m) b) (fs : List (Bytes × Val)) (hv : b.value = some (.obj fs)) (key : Bytes) (m' : Bytes)
    (hl : m'.length = b.mem.length)
    (hs : ∀ p, b.object = .ok p → ∀ i, InTable p fs.length i ∨ InCandidate b.mem p fs key i → m'[i]? = b.mem[i]?) :
    ∃ p, b.object = .ok p ∧ getKey signed m' p key = getKey signed b.mem p key := by
  obtain ⟨x, hx⟩ := hb.shows (shows_root hw h)
  rw [hx.value] at hv; cases hv
  obtain ⟨p, h1, h2, h3⟩ := hx.obj
  have ho : b.object = .ok p := by simp only [Buf.object, h1, h2, Res.ofRead]
  exact ⟨p, ho, getKey_same h3 ⟨hl, hs p ho⟩⟩

theorem untilNul_all : ∀ {l : Bytes}, 0 ∉ l → l.takeWhile (· ≠ 0) = l
  | [], _ => rfl
  | a :: l, h => by
    simp only [List.mem_cons, not_or] at h
    rw [List.takeWhile_cons_of_pos (by simpa using fun e => h.1 e.symm), untilNul_all h.2]

/-- For keys of less than 255 bytes and names without NUL, these are the names of the same length that begin with the same two characters:
what the documentation says. -/
theorem C85_short_keys {key name : Bytes} (hk : key.length < 255) (hn : 0 ∉ name) :
    MayMatch key name ↔ name.length = key.length ∧ name.take 2 = key.take 2 := by
  unfold MayMatch
  rw [untilNul_all hn]
  constructor
  · rintro (h | h)
    · omega
    · exact ⟨by omega, h.2⟩
  · rintro ⟨h1, h2⟩
    exact .inr ⟨by omega, h2⟩

/-- Names that are not as long as the key, of any length up to 255, are never read. -/
theorem C85_other_lengths {key name : Bytes} (hk : key.length ≤ 255) (hn : name.length < 255) (hne : name.length ≠ key.length) (h0 : 0 ∉ name) :
    ¬ MayMatch key name := by
  unfold MayMatch
  rw [untilNul_all h0]
  rintro (h | h) <;> omega

/-- An object with one field, named `aaa…` (256 characters). -/
def longNamed : Val := .obj [(List.replicate 256 0x61, .null)]

/-- Its bytes, and the same with another name behind the unchanged table. -/
def longNamedBytes : Bytes := ((finalize longNamed).toOption).getD []
def longNamedOther : Bytes := longNamedBytes.take 16 ++ (longNamedBytes.drop 16).map fun c => if c = 0x61 then 0x62 else c

/-- For keys of more than 255 bytes the characters in the table are not used: looking for `bbb…` the name `aaa…` is read,
although the table says that it begins with `a`. -/
theorem C85_long_keys : finalize longNamed = .ok longNamedBytes ∧
    getKey true longNamedBytes 0 (List.replicate 256 0x62) = some none ∧
    getKey true longNamedOther 0 (List.replicate 256 0x62) = some (some (0, .null, 16)) := by
  refine ⟨by decide +kernel, by decide +kernel, by decide +kernel⟩

example : MayMatch [0x61, 0x62] [0x61, 0x62] := (C85_short_keys (by decide) (by decide)).2 ⟨rfl, rfl⟩
example : ¬ MayMatch [0x61, 0x62] [0x61, 0x61] := fun h => absurd ((C85_short_keys (by decide) (by decide)).1 h).2 (by decide)

/-- The bytes of `{"b":null,"aa":null,"ab":null}`, and the same with the first two names overwritten. -/
def namedBytes : Bytes := ((finalize (.obj [([0x62], .null), ([0x61, 0x61], .null), ([0x61, 0x62], .null)])).toOption).getD []
def namedOther : Bytes := namedBytes.take 32 ++ (List.replicate 10 0xff ++ namedBytes.drop 42)

/-- The lookup of `"ab"` passes by the second name and finds the third. -/
example : getKey true namedOther 0 [0x61, 0x62] = some (some (2, .null, 42)) ∧
    getKey true namedBytes 0 [0x61, 0x62] = some (some (2, .null, 42)) ∧ namedOther ≠ namedBytes := by decide +kernel

end Dart.Props
