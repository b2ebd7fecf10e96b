import Verif.Lemmas.JsonText

/-
C20: The JSON-to-buffer path never overflows its allocation.
-/
namespace Dart.Props
open Spec

/-- For every text of an object, with any of the format's extensions switched on, of any size, with members in any
order, repeated or not, whatever the allocated memory contains and in whatever order the sorting leaves equal names: all
writes are within the allocation of eight times the text's length, and so is the size recorded for the result. -/
theorem C20_fits {sort : List (Bytes × Json) → List (Bytes × Json)} (hs : Sorts sort) {fill : Nat → Bytes}
    (hf : ∀ n, (fill n).length = n) {x : Extensions} {t : Bytes} {fs : List (Bytes × Json)}
    (ht : IsText x t (.obj fs)) :
    ∃ b n, Buf.fromJson sort fill t.length (.obj fs) = .ok b ∧ b.mem.length = 8 * t.length ∧
      findSizeof b.mem .object 0 = some n ∧ n ≤ 8 * t.length := by
  have hm := hf (t.length * 8)
  obtain ⟨m', sz, e, l, h⟩ := lower_inb (fun fs => (hs fs).1) ht hm
  refine ⟨Buf.ofBytes m', sz, ?_, by simp only [Buf.ofBytes]; omega, ?_, by omega⟩
  · simp only [Buf.fromJson, e]
  · simp only [Json.arrange, Json.lower, Option.bind_eq_bind, Option.bind_eq_some_iff] at e
    obtain ⟨_, _, _, _, _, _, _, hr, he⟩ := e
    cases he
    exact hr

/-- Texts of anything but an object are refused before anything is written. -/
theorem C20_other_root {sort : List (Bytes × Json) → List (Bytes × Json)} {fill : Nat → Bytes} {n : Nat} {j : Json}
    (h : ∀ fs, j ≠ .obj fs) : Buf.fromJson sort fill n j = .throw .typeError := by
  cases j with
  | obj fs => exact absurd rfl (h fs)
  | _ => rfl

/-! Concrete cases. -/

/-- `{"a":[1,-2.5],"\n":null}` -/
def sampleText : Bytes :=
  [0x7b, 0x22, 0x61, 0x22, 0x3a, 0x5b, 0x31, 0x2c, 0x2d, 0x32, 0x2e, 0x35, 0x5d, 0x2c, 0x22, 0x5c, 0x6e, 0x22, 0x3a, 0x6e,
    0x75, 0x6c, 0x6c, 0x7d]

/-- Its members. -/
def sampleMembers : List (Bytes × Json) :=
  [([0x61], .arr [.num 1, .dbl 0xc004000000000000]), ([0x0a], .null)]

theorem sampleText_isText : IsText .default sampleText (.obj sampleMembers) := by
  have digit : ∀ c : UInt8, 0x31 ≤ c → c ≤ 0x39 → Digits [c] := fun c h1 h2 =>
    ⟨by simp, fun d hd => by rw [List.mem_singleton.1 hd]; exact ⟨UInt8.le_trans (by decide) h1, h2⟩⟩
  have one : ValueText .default [0x31] (.num 1) :=
    .num ⟨[0x31], digit _ (by decide) (by decide), by decide, .inl ⟨rfl, by decide⟩⟩ (by decide) (by decide)
  have two : ValueText .default [0x2d, 0x32, 0x2e, 0x35] (.dbl 0xc004000000000000) :=
    .dbl (i := [0x2d, 0x32]) (f := [0x2e, 0x35]) (e := []) (n := -2) _
      ⟨[0x32], digit _ (by decide) (by decide), by decide, .inr ⟨rfl, by decide⟩⟩
      (.inr ⟨[0x35], digit _ (by decide) (by decide), rfl⟩) (.inl rfl) (by simp)
  have arr : ValueText .default [0x5b, 0x31, 0x2c, 0x2d, 0x32, 0x2e, 0x35, 0x5d] (.arr [.num 1, .dbl 0xc004000000000000]) :=
    .arr (t := [0x31, 0x2c, 0x2d, 0x32, 0x2e, 0x35])
      (.cons (w := []) (w' := []) .nil .nil one (.one (w := []) (w' := []) (c := []) .nil .nil two (.inl rfl)))
  have a : StringText [0x22, 0x61, 0x22] [0x61] :=
    ⟨[0x61], .plain (by decide) (by decide) (by decide) .nil, rfl⟩
  have n : StringText [0x22, 0x5c, 0x6e, 0x22] [0x0a] := ⟨[0x5c, 0x6e], .short (by simp [shortEscapes]) .nil, rfl⟩
  exact ⟨[], sampleText, [], .nil,
    .obj (.cons (w₁ := []) (w₂ := []) (w₃ := []) (w₄ := []) .nil .nil .nil .nil a arr
      (.one (w₁ := []) (w₂ := []) (w₃ := []) (w₄ := []) (c := []) .nil .nil .nil .nil n .null (.inl rfl))),
    ⟨[], [], [], .nil, rfl, .inl rfl, .inl rfl⟩, rfl⟩

-- Sorting is possible.
example : Sorts sortMembers := sortMembers_sorts

/-- Arrays in arrays. -/
def nest : Nat → Json
  | 0 => .arr []
  | n + 1 => .arr [nest n]

-- Seven bytes for every byte of `{"":[[...]]}` (here 47 of them) would not be enough.
example : (Json.obj [([], nest 20)]).lower 0 (zeros (7 * 47)) = none := by decide +kernel
example : ((Json.obj [([], nest 20)]).lower 0 (zeros (8 * 47))).map (·.2) = some 352 := by decide +kernel

end Dart.Props
