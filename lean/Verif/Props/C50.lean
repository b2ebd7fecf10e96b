import Verif.Props.C49

/-
C50: the same functions with any format, also with one that is not well formed. `Asks Key [isObj k] fmt as` says that the
arguments are the ones the format asks for, up to the first thing without a meaning, and that the keys meet `Key`;
`Bad 1 fmt` says that the format comes to something without a meaning before the outermost aggregate is closed.
-/
namespace Dart.Props
open Spec Abi

/-- With the arguments the format asks for, nothing is undefined, even if the format is not well formed. -/
theorem C50_safe {Key : Bytes → Prop} {k : Kind} {fmt : Bytes} {as : List VArg} (h : Asks Key [isObj k] fmt as)
    (hl : fmt.length < maxElems) (rc : Nat) : initVaErr k rc fmt as ≠ .ub ∧ initVa k rc fmt as ≠ .ub := by
  have hh := parseInto_ok h hl
  unfold initVa initVaErr
  by_cases hrc : rc = 1 ∨ rc = 2
  · simp only [if_pos hrc]
    rcases hp : parseInto k fmt as with ⟨v, r | e | _⟩
    · simp [Res.bind]
    · rw [hp] at hh
      have : errCode e = .logicError := hh.1.1
      simp [Res.bind, this]
    · rw [hp] at hh; exact hh.1.elim
  · simp [if_neg hrc, Res.bind]

/-- Only the arguments asked for are read: others behind them make no difference. -/
theorem C50_reads_what_it_asks {Key : Bytes → Prop} {k : Kind} {fmt : Bytes} {as : List VArg}
    (h : Asks Key [isObj k] fmt as) (hl : fmt.length < maxElems) (rc : Nat) (more : List VArg) :
    initVaErr k rc fmt (as ++ more) = initVaErr k rc fmt as ∧ initVa k rc fmt (as ++ more) = initVa k rc fmt as := by
  have hh := parseInto_ok h hl
  have e : initVaErr k rc fmt (as ++ more) = initVaErr k rc fmt as := by
    unfold initVaErr
    rw [parseInto_more more (by intro hu; rw [hu] at hh; exact hh.1.elim)]
    rcases parseInto k fmt as with ⟨v, r | e | _⟩ <;> simp [more2]
  exact ⟨e, by simp only [initVa, e]⟩

/-- The code says whether the format is well formed: DART_LOGIC_ERROR if it is not, DART_NO_ERROR if it is; if keys are
longer than 65535 bytes, DART_LOGIC_ERROR is possible too. -/
theorem C50_error {Key : Bytes → Prop} {k : Kind} {fmt : Bytes} {as : List VArg} {rc : Nat} {e : Err} {dst : Option Val}
    (h : Asks Key [isObj k] fmt as) (hl : fmt.length < maxElems) (hrc : rc = 1 ∨ rc = 2)
    (he : initVaErr k rc fmt as = .ok (e, dst)) :
    (e = .noError ∨ e = .logicError) ∧ (Bad 1 fmt → e = .logicError) ∧
    ((∀ k, Key k → k.length ≤ 65535) → (e = .logicError ↔ Bad 1 fmt)) := by
  have hh := parseInto_ok h hl
  unfold initVaErr at he
  simp only [if_pos hrc] at he
  rcases hp : parseInto k fmt as with ⟨v, ⟨rest, bs⟩ | x | _⟩
  · rw [hp] at he hh
    simp only [Res.ok.injEq, Prod.mk.injEq] at he
    obtain ⟨rfl, rfl⟩ := he
    have hb : ¬ Bad 1 fmt := fun hb => bad_zero (hh.1.2.2.1 hb)
    exact ⟨.inl rfl, fun h => absurd h hb, fun _ => ⟨(nomatch ·), fun h => absurd h hb⟩⟩
  · rw [hp] at he hh
    simp only [Res.ok.injEq, Prod.mk.injEq] at he
    obtain ⟨rfl, rfl⟩ := he
    have hx : errCode x = .logicError := hh.1.1
    exact ⟨.inr hx, fun _ => hx, fun hk => ⟨fun _ => hh.1.2 hk, fun _ => hx⟩⟩
  · rw [hp] at he; cases he

/-- The functions that return the packet return null exactly if there is an error. Partial: `*dst` of the functions with `_err`
is not null (`C50_left_behind`). -/
theorem C50_null_partial {Key : Bytes → Prop} {k : Kind} {fmt : Bytes} {as : List VArg} {rc : Nat} {e : Err} {dst : Option Val}
    (h : Asks Key [isObj k] fmt as) (hl : fmt.length < maxElems) (he : initVaErr k rc fmt as = .ok (e, dst)) :
    ∃ v left, initVa k rc fmt as = .ok (v, left) ∧ (v = .null ↔ e ≠ .noError) ∧ (e = .noError → dst = some v ∧ left = none) := by
  have hh := parseInto_ok h hl
  unfold initVaErr at he
  by_cases hrc : rc = 1 ∨ rc = 2
  · rcases hp : parseInto k fmt as with ⟨v, r | x | _⟩
    · simp only [if_pos hrc, hp, Res.ok.injEq, Prod.mk.injEq] at he
      obtain ⟨rfl, rfl⟩ := he
      refine ⟨v, none, by simp [initVa, initVaErr, hrc, hp, Res.bind], ?_, fun _ => ⟨rfl, rfl⟩⟩
      rw [hp] at hh
      rcases hh.2 with ⟨_, fs, rfl⟩ | ⟨_, es, rfl⟩ <;> simp
    · simp only [if_pos hrc, hp, Res.ok.injEq, Prod.mk.injEq] at he
      obtain ⟨rfl, rfl⟩ := he
      rw [hp] at hh
      have hx : errCode x = .logicError := hh.1.1
      exact ⟨.null, some v, by simp [initVa, initVaErr, hrc, hp, Res.bind, hx], by simp [hx], by simp [hx]⟩
    · simp [if_pos hrc, hp] at he
  · simp only [if_neg hrc, Res.ok.injEq, Prod.mk.injEq] at he
    obtain ⟨rfl, rfl⟩ := he
    exact ⟨.null, none, by simp [initVa, initVaErr, hrc, Res.bind], by simp, by simp⟩

/-- An unknown reference counter: DART_CLIENT_ERROR, nothing constructed, no argument read. -/
theorem C50_unknown_counter (k : Kind) {rc : Nat} (h : rc ≠ 1 ∧ rc ≠ 2) (fmt : Bytes) (as : List VArg) :
    initVaErr k rc fmt as = .ok (.clientError, none) ∧ initVa k rc fmt as = .ok (.null, none) := by
  have : ¬ (rc = 1 ∨ rc = 2) := by omega
  simp [initVa, initVaErr, this, Res.bind]

/-- The documentation says that the packet is null if construction fails. It is not: for every format that is not well
formed, `*dst` is an object or array with what came before; and the functions that return null never destroy it. -/
theorem C50_left_behind {Key : Bytes → Prop} {k : Kind} {fmt : Bytes} {as : List VArg} {rc : Nat}
    (h : Asks Key [isObj k] fmt as) (hl : fmt.length < maxElems) (hrc : rc = 1 ∨ rc = 2) (hb : Bad 1 fmt) :
    ∃ v, v ≠ .null ∧ initVaErr k rc fmt as = .ok (.logicError, some v) ∧ initVa k rc fmt as = .ok (.null, some v) := by
  have hh := parseInto_ok h hl
  rcases hp : parseInto k fmt as with ⟨v, ⟨rest, bs⟩ | x | _⟩
  · rw [hp] at hh; exact absurd (hh.1.2.2.1 hb) bad_zero
  · rw [hp] at hh
    have hx : errCode x = .logicError := hh.1.1
    refine ⟨v, ?_, by simp [initVaErr, hrc, hp, hx], by simp [initVa, initVaErr, hrc, hp, Res.bind, hx]⟩
    rcases hh.2 with ⟨_, fs, rfl⟩ | ⟨_, es, rfl⟩ <;> simp
  · rw [hp] at hh; exact hh.1.elim

/-! ### The hypotheses can be met -/

theorem c50Meaningless : Meaningless (ascii "z") := by
  refine ⟨by decide, fun r => by simp [ascii, chr_o, chr_a, chr_comma, Char.toUInt8], ?_⟩
  rintro l r ⟨as, h⟩ e
  cases h <;> simp [ascii, chr_s, chr_S, chr_i, chr_l, chr_u, chr_d, chr_b, chr_n, chr_blank, Char.toUInt8] at e

/-- The arguments for `"ai,z"` in an object: two keys and one integer. -/
theorem c50Asks : Asks (·.length ≤ 65535) [true] (ascii "ai,z")
    [.ptr (ascii "k" ++ [0]), .int 5, .ptr (ascii "l" ++ [0])] := by
  refine .pair ⟨by decide, [], rfl⟩ (by decide +kernel) (.arr (.elem ?_))
  refine AsksVal.letter (l := [chr 'i']) (as := [.int 5]) (.int 5) ?_
  exact .close (.pair ⟨by decide, [], rfl⟩ (by decide +kernel) (.meaningless _ c50Meaningless))

theorem c50Bad : Bad 1 (ascii "ai,z") := .arr (.letter (l := [chr 'i']) ⟨_, .int 0⟩ (.close (.here c50Meaningless)))

example : initVaErr .obj 1 (ascii "ai,z") [.ptr (ascii "k" ++ [0]), .int 5, .ptr (ascii "l" ++ [0])] =
    .ok (.logicError, some (.obj [(ascii "k", .arr [.int 5])])) := by rfl

example : ∃ v, v ≠ .null ∧
    initVaErr .obj 1 (ascii "ai,z") [.ptr (ascii "k" ++ [0]), .int 5, .ptr (ascii "l" ++ [0])] = .ok (.logicError, some v) ∧
    initVa .obj 1 (ascii "ai,z") [.ptr (ascii "k" ++ [0]), .int 5, .ptr (ascii "l" ++ [0])] = .ok (.null, some v) :=
  C50_left_behind (k := .obj) c50Asks (by decide +kernel) (.inl rfl) c50Bad

/-- A format that is well formed. -/
example : Asks (fun _ => True) [isObj .arr] (ascii "i") [.int 1] ∧ ¬ Bad 1 (ascii "i") :=
  ⟨.elem (AsksVal.letter (l := [chr 'i']) (fmt := []) (as := [.int 1]) (bs := []) (.int 1) (.stop _ _)),
    fun h => bad_nil ((bad_letter (l := [chr 'i']) (f := []) (.int 0)).1 h)⟩

end Dart.Props
