import Verif.Lemmas.Abi

/-
The variadic initialisers read the arguments their format asks for, and no others.
-/
namespace Dart.Abi
open Dart.Spec

/-! ### Formats that come to something meaningless -/

theorem bad_zero {fmt : Bytes} : ¬ Bad 0 fmt := by
  intro h; cases h

theorem bad_nil {d : Nat} : ¬ Bad d [] := by
  intro h
  generalize e : ([] : Bytes) = x at h
  cases h with
  | here h => exact h.1 e.symm
  | close h => cases e
  | obj h => cases e
  | arr h => cases e
  | letter hl h => obtain ⟨as, hl⟩ := hl; cases hl <;> cases e

theorem bad_comma {d : Nat} {f : Bytes} : Bad (d + 1) (chr ',' :: f) ↔ Bad d f := by
  refine ⟨fun h => ?_, .close⟩
  generalize e : chr ',' :: f = x at h
  cases h with
  | here h => exact absurd e.symm (h.2.1 f).2.2
  | close h => cases e; exact h
  | obj h => simp [chr_comma, chr_o] at e
  | arr h => simp [chr_comma, chr_a] at e
  | letter hl h =>
    obtain ⟨as, hl⟩ := hl
    cases hl <;> simp [chr_comma, chr_s, chr_S, chr_i, chr_l, chr_u, chr_d, chr_b, chr_n, chr_blank] at e

theorem bad_o {d : Nat} {f : Bytes} : Bad (d + 1) (chr 'o' :: f) ↔ Bad (d + 2) f := by
  refine ⟨fun h => ?_, .obj⟩
  generalize e : chr 'o' :: f = x at h
  cases h with
  | here h => exact absurd e.symm (h.2.1 f).1
  | close h => simp [chr_comma, chr_o] at e
  | obj h => cases e; exact h
  | arr h => simp [chr_o, chr_a] at e
  | letter hl h =>
    obtain ⟨as, hl⟩ := hl
    cases hl <;> simp [chr_o, chr_s, chr_S, chr_i, chr_l, chr_u, chr_d, chr_b, chr_n, chr_blank] at e

theorem bad_a {d : Nat} {f : Bytes} : Bad (d + 1) (chr 'a' :: f) ↔ Bad (d + 2) f := by
  refine ⟨fun h => ?_, .arr⟩
  generalize e : chr 'a' :: f = x at h
  cases h with
  | here h => exact absurd e.symm (h.2.1 f).2.1
  | close h => simp [chr_comma, chr_a] at e
  | obj h => simp [chr_o, chr_a] at e
  | arr h => cases e; exact h
  | letter hl h =>
    obtain ⟨as, hl⟩ := hl
    cases hl <;> simp [chr_a, chr_s, chr_S, chr_i, chr_l, chr_u, chr_d, chr_b, chr_n, chr_blank] at e

theorem letter_unique {l l' f f' : Bytes} {as as' : List VArg} (h : LetterArgs l as) (h' : LetterArgs l' as')
    (e : l ++ f = l' ++ f') : f = f' := by
  cases h <;> cases h' <;>
    simp [chr_s, chr_S, chr_i, chr_l, chr_u, chr_d, chr_b, chr_n, chr_blank] at e <;> exact e

theorem bad_letter {d : Nat} {l f : Bytes} {as : List VArg} (hl : LetterArgs l as) :
    Bad (d + 1) (l ++ f) ↔ Bad (d + 1) f := by
  refine ⟨fun h => ?_, .letter ⟨as, hl⟩⟩
  generalize e : l ++ f = x at h
  cases h with
  | here h => exact absurd e.symm (h.2.2 l f ⟨as, hl⟩)
  | close h => cases hl <;> simp [chr_comma, chr_s, chr_S, chr_i, chr_l, chr_u, chr_d, chr_b, chr_n, chr_blank] at e
  | obj h => cases hl <;> simp [chr_o, chr_s, chr_S, chr_i, chr_l, chr_u, chr_d, chr_b, chr_n, chr_blank] at e
  | arr h => cases hl <;> simp [chr_a, chr_s, chr_S, chr_i, chr_l, chr_u, chr_d, chr_b, chr_n, chr_blank] at e
  | letter hl' h => obtain ⟨as', hl'⟩ := hl'; rwa [letter_unique hl hl' e]

theorem identify_meaningless {fmt : Bytes} (h : Meaningless fmt) : (identifyVararg fmt).1 = .invalid := by
  obtain ⟨h0, hoa, hl⟩ := h
  cases fmt with
  | nil => rfl
  | cons c f =>
    have no : ∀ {l : Bytes} {as : List VArg}, LetterArgs l as → ∀ r, c :: f ≠ l ++ r := fun h r => hl _ r ⟨_, h⟩
    unfold identifyVararg
    by_cases h1 : c = 0x6f
    · exact absurd (by rw [h1]; rfl) (hoa f).1
    by_cases h2 : c = 0x61
    · exact absurd (by rw [h2]; rfl) (hoa f).2.1
    by_cases h3 : c = 0x73
    · exact absurd (by rw [h3]; rfl) (no (.str (a := .ptr [0]) (s := []) ⟨by simp, [], rfl⟩) f)
    by_cases h4 : c = 0x53
    · exact absurd (by rw [h4]; rfl) (no (.sized (mem := []) (Nat.le_refl _)) f)
    by_cases h6 : c = 0x69
    · exact absurd (by rw [h6]; rfl) (no (.int 0) f)
    by_cases h7 : c = 0x6c
    · exact absurd (by rw [h7]; rfl) (no (.long 0) f)
    by_cases h8 : c = 0x64
    · exact absurd (by rw [h8]; rfl) (no (.double 0) f)
    by_cases h9 : c = 0x62
    · exact absurd (by rw [h9]; rfl) (no (.bool 0) f)
    by_cases h10 : c = 0x20
    · exact absurd (by rw [h10]; rfl) (no .blank f)
    by_cases h11 : c = 0x6e
    · exact absurd (by rw [h11]; rfl) (no .null f)
    by_cases h5 : c = 0x75
    · cases f with
      | nil => simp [h5]
      | cons d f =>
        by_cases h12 : d = 0x69
        · exact absurd (by rw [h5, h12]; rfl) (no (.uint 0) f)
        by_cases h13 : d = 0x6c
        · exact absurd (by rw [h5, h13]; rfl) (no (.ulong 0) f)
        simp [h5, h12, h13]
    · simp [h1, h2, h3, h4, h5, h6, h7, h8, h9, h10, h11]

/-- A value is read from the arguments its letter asks for. -/
theorem parseVal_letter {l f : Bytes} {as : List VArg} (h : LetterArgs l as) (bs : List VArg) (n : Nat) :
    ∃ v, parseVal (n + 1) (l ++ f) (as ++ bs) = .ok (v, f, bs) := by
  cases h with
  | str h =>
    rename_i a s
    refine ⟨.str s, ?_⟩
    simp only [List.cons_append, List.nil_append, parseVal, identifyVararg, chr_s, argStr_points h]
    simp [Res.bind]
  | sized h =>
    rename_i mem k
    refine ⟨.str (mem.take k), ?_⟩
    simp only [List.cons_append, List.nil_append, parseVal, identifyVararg, chr_S]
    simp [h]
  | int i => exact ⟨_, by simp [parseVal, identifyVararg, chr_i]; rfl⟩
  | uint i => exact ⟨_, by simp [parseVal, identifyVararg, chr_u, chr_i]; rfl⟩
  | long i => exact ⟨_, by simp [parseVal, identifyVararg, chr_l]; rfl⟩
  | ulong i => exact ⟨_, by simp [parseVal, identifyVararg, chr_u, chr_l]; rfl⟩
  | double i => exact ⟨_, by simp [parseVal, identifyVararg, chr_d]; rfl⟩
  | bool i => exact ⟨_, by simp [parseVal, identifyVararg, chr_b]; rfl⟩
  | null => exact ⟨_, by simp [parseVal, identifyVararg, chr_n]; rfl⟩
  | blank => exact ⟨_, by simp [parseVal, identifyVararg, chr_blank]; rfl⟩

theorem letter_length {l : Bytes} {as : List VArg} (h : LetterArgs l as) : 1 ≤ l.length := by
  cases h <;> simp

/-! ### What a call leaves behind -/

/-- Keys this condition allows are short enough. -/
def ShortKeys (Key : Bytes → Prop) : Prop := ∀ k, Key k → k.length ≤ 65535

/-- How a part of the parse ends, inside the aggregates `ctx` afterwards. -/
def Ended (Key : Bytes → Prop) (before : Nat) (fmt : Bytes) (ctx : List Bool) : Res (Bytes × List VArg) → Prop
  | .ok (rest, as) => rest.length ≤ fmt.length ∧ Asks Key ctx rest as ∧ (Bad before fmt ↔ Bad ctx.length rest)
  | .throw e => errCode e = .logicError ∧ (ShortKeys Key → Bad before fmt)
  | .ub => False

/-- An array or object under construction. -/
def Room (self : Val) (isObj : Bool) (len : Nat) : Prop :=
  (isObj = true ∧ ∃ fs, self = .obj fs) ∨ (isObj = false ∧ ∃ es, self = .arr es ∧ es.length + len < maxElems)

/-- `parseVal` reads one value. -/
def ValOk (Key : Bytes → Prop) (n : Nat) : Prop := ∀ (ctx : List Bool) (fmt : Bytes) (as : List VArg), ctx ≠ [] →
  AsksVal Key ctx fmt as → 2 * fmt.length ≤ n → fmt.length < maxElems → fmt ≠ [] →
  match parseVal n fmt as with
  | .ok (_, rest, bs) => rest.length < fmt.length ∧ Asks Key ctx rest bs ∧ (Bad ctx.length fmt ↔ Bad ctx.length rest)
  | .throw e => errCode e = .logicError ∧ (ShortKeys Key → Bad ctx.length fmt)
  | .ub => False

/-- `parseVals` reads up to the end of the array. -/
def ValsOk (Key : Bytes → Prop) (n : Nat) : Prop := ∀ (ctx : List Bool) (fmt : Bytes) (as : List VArg) (es : List Val),
  Asks Key (false :: ctx) fmt as → 2 * fmt.length + 1 ≤ n → es.length + fmt.length < maxElems →
  Ended Key (ctx.length + 1) fmt ctx (parseVals n fmt as (.arr es)).2 ∧
    ∃ es', (parseVals n fmt as (.arr es)).1 = .arr es'

/-- `parsePairs` reads up to the end of the object. -/
def PairsOk (Key : Bytes → Prop) (n : Nat) : Prop := ∀ (ctx : List Bool) (fmt : Bytes) (as : List VArg)
  (fs : List (Bytes × Val)), Asks Key (true :: ctx) fmt as → 2 * fmt.length + 1 ≤ n → fmt.length < maxElems →
  Ended Key (ctx.length + 1) fmt ctx (parsePairs n fmt as (.obj fs)).2 ∧
    ∃ fs', (parsePairs n fmt as (.obj fs)).1 = .obj fs'

theorem asks_nil {Key : Bytes → Prop} {ctx : List Bool} {as : List VArg} : Asks Key ctx [] as := .stop ctx as

theorem ctx_length {ctx : List Bool} (h : ctx ≠ []) : ∃ d, ctx.length = d + 1 := by
  cases ctx with
  | nil => exact absurd rfl h
  | cons c ctx => exact ⟨ctx.length, rfl⟩

theorem valOk_succ {Key : Bytes → Prop} {n : Nat} (hv : ValsOk Key n) (hp : PairsOk Key n) : ValOk Key (n + 1) := by
  intro ctx fmt as h0 h hn hl hne
  obtain ⟨d, hd⟩ := ctx_length h0
  cases h with
  | obj h =>
    rename_i f
    simp only [List.length_cons] at hn hl
    have hh := (hp ctx f as [] h (by omega) (by omega)).1
    have e : parseVal (n + 1) (chr 'o' :: f) as = match parsePairs n f as (.obj []) with
      | (v, .ok (fmt, args)) => .ok (v, fmt, args)
      | (_, .throw e) => .throw e
      | (_, .ub) => .ub := by simp only [parseVal, identifyVararg, chr_o, if_true]; rfl
    rw [e]
    rcases hq : parsePairs n f as (.obj []) with ⟨v, r⟩
    rw [hq] at hh
    cases r with
    | ok r =>
      obtain ⟨rest, bs⟩ := r
      simp only [Ended] at hh ⊢
      refine ⟨by simp; omega, hh.2.1, ?_⟩
      rw [← hh.2.2, hd, bad_o]
    | throw e => simp only [Ended] at hh ⊢; exact ⟨hh.1, fun hk => by rw [hd]; have := hh.2 hk; rw [hd] at this; exact bad_o.2 this⟩
    | ub => exact hh
  | arr h =>
    rename_i f
    simp only [List.length_cons] at hn hl
    have hh := (hv ctx f as [] h (by omega) (by simp; omega)).1
    have ne : ¬ ((0x61 : UInt8) = 0x6f) := by decide
    have e : parseVal (n + 1) (chr 'a' :: f) as = match parseVals n f as (.arr []) with
      | (v, .ok (fmt, args)) => .ok (v, fmt, args)
      | (_, .throw e) => .throw e
      | (_, .ub) => .ub := by simp only [parseVal, identifyVararg, chr_a, if_neg ne, if_true]; rfl
    rw [e]
    rcases hq : parseVals n f as (.arr []) with ⟨v, r⟩
    rw [hq] at hh
    cases r with
    | ok r =>
      obtain ⟨rest, bs⟩ := r
      simp only [Ended] at hh ⊢
      refine ⟨by simp; omega, hh.2.1, ?_⟩
      rw [← hh.2.2, hd, bad_a]
    | throw e => simp only [Ended] at hh ⊢; exact ⟨hh.1, fun hk => by rw [hd]; have := hh.2 hk; rw [hd] at this; exact bad_a.2 this⟩
    | ub => exact hh
  | letter hla h =>
    obtain ⟨v, e⟩ := parseVal_letter hla _ n
    rw [e]
    have := letter_length hla
    simp only [List.length_append]
    exact ⟨by omega, h, by rw [hd]; exact bad_letter hla⟩
  | meaningless _ h =>
    have e : parseVal (n + 1) fmt as = .throw .logicError := by
      have := identify_meaningless h
      unfold parseVal
      split <;> rename_i q <;> rw [q] at this <;> first | rfl | simp at this
    rw [e]
    exact ⟨rfl, fun _ => by rw [hd]; exact .here h⟩

theorem asks_comma {Key : Bytes → Prop} {c : Bool} {ctx : List Bool} {f : Bytes} {as : List VArg}
    (h : Asks Key (c :: ctx) (chr ',' :: f) as) : Asks Key ctx f as := by
  have nv : ∀ {ctx as}, ¬ AsksVal Key ctx (chr ',' :: f) as := by
    intro ctx as h
    generalize e : chr ',' :: f = x at h
    cases h with
    | obj h => simp [chr_comma, chr_o] at e
    | arr h => simp [chr_comma, chr_a] at e
    | letter hl h => cases hl <;> simp [chr_comma, chr_s, chr_S, chr_i, chr_l, chr_u, chr_d, chr_b, chr_n, chr_blank] at e
    | meaningless _ h => exact (h.2.1 f).2.2 e.symm
  cases h with
  | close h => exact h
  | pair _ _ h => exact absurd h nv
  | elem h => exact absurd h nv

theorem asks_elem {Key : Bytes → Prop} {ctx : List Bool} {c : UInt8} {f : Bytes} {as : List VArg} (hc : c ≠ chr ',')
    (h : Asks Key (false :: ctx) (c :: f) as) : AsksVal Key (false :: ctx) (c :: f) as := by
  cases h with
  | close h => exact absurd rfl hc
  | elem h => exact h

theorem asks_pair {Key : Bytes → Prop} {ctx : List Bool} {c : UInt8} {f : Bytes} {as : List VArg} (hc : c ≠ chr ',')
    (h : Asks Key (true :: ctx) (c :: f) as) :
    ∃ a k bs, as = a :: bs ∧ PointsTo a k ∧ Key k ∧ AsksVal Key (true :: ctx) (c :: f) bs := by
  cases h with
  | close h => exact absurd rfl hc
  | pair h h' h'' => exact ⟨_, _, _, rfl, h, h', h''⟩

theorem valsOk_succ {Key : Bytes → Prop} {n : Nat} (hval : ValOk Key n) (hv : ValsOk Key n) : ValsOk Key (n + 1) := by
  intro ctx fmt as es h hn hl
  cases fmt with
  | nil =>
    simp only [parseVals, Ended]
    exact ⟨⟨Nat.le_refl _, asks_nil, iff_of_false bad_nil bad_nil⟩, es, rfl⟩
  | cons c f =>
    by_cases hc : c = chr ','
    · subst hc
      simp only [parseVals, chr_comma, if_true, Ended]
      refine ⟨⟨by simp, asks_comma h, ?_⟩, es, rfl⟩
      rw [← chr_comma]; exact bad_comma
    · have hc' : ¬ c = 0x2c := hc
      have hh := hval (false :: ctx) (c :: f) as (by simp) (asks_elem hc h) (by omega) (by omega) (by simp)
      simp only [parseVals, if_neg hc']
      rcases hq : parseVal n (c :: f) as with ⟨v, rest, bs⟩ | e | _
      · rw [hq] at hh
        simp only [List.length_cons] at hh hl hn
        dsimp only
        rw [pushBack_arr (by omega)]
        obtain ⟨hr, hes⟩ := hv ctx rest bs (es ++ [v]) hh.2.1 (by omega) (by simp; omega)
        refine ⟨?_, hes⟩
        dsimp only
        revert hr
        cases (parseVals n rest bs (.arr (es ++ [v]))).2 with
        | ok r =>
          intro hr; simp only [Ended, List.length_cons] at hr ⊢
          exact ⟨by omega, hr.2.1, by rw [hh.2.2]; exact hr.2.2⟩
        | throw e => intro hr; exact ⟨hr.1, fun hk => hh.2.2.2 (hr.2 hk)⟩
        | ub => exact id
      · rw [hq] at hh; exact ⟨⟨hh.1, hh.2⟩, es, rfl⟩
      · rw [hq] at hh; exact hh.elim

theorem pairsOk_succ {Key : Bytes → Prop} {n : Nat} (hval : ValOk Key n) (hp : PairsOk Key n) : PairsOk Key (n + 1) := by
  intro ctx fmt as fs h hn hl
  cases fmt with
  | nil =>
    simp only [parsePairs, Ended]
    exact ⟨⟨Nat.le_refl _, asks_nil, iff_of_false bad_nil bad_nil⟩, fs, rfl⟩
  | cons c f =>
    by_cases hc : c = chr ','
    · subst hc
      simp only [parsePairs, chr_comma, if_true, Ended]
      refine ⟨⟨by simp, asks_comma h, ?_⟩, fs, rfl⟩
      rw [← chr_comma]; exact bad_comma
    · have hc' : ¬ c = 0x2c := hc
      obtain ⟨a, k, bs, rfl, hak, hkey, hav⟩ := asks_pair hc h
      have hh := hval (true :: ctx) (c :: f) bs (by simp) hav (by omega) (by omega) (by simp)
      simp only [parsePairs, if_neg hc', argStr_points hak]
      rcases hq : parseVal n (c :: f) bs with ⟨v, rest, cs⟩ | e | _
      · rw [hq] at hh
        simp only [List.length_cons] at hh hl hn
        by_cases hkl : k.length ≤ 65535
        · dsimp only
          rw [insert_obj hkl]
          obtain ⟨hr, hes⟩ := hp ctx rest cs (mapInsert k v fs) hh.2.1 (by omega) (by omega)
          refine ⟨?_, hes⟩
          dsimp only
          revert hr
          cases (parsePairs n rest cs (.obj (mapInsert k v fs))).2 with
          | ok r =>
            intro hr; simp only [Ended, List.length_cons] at hr ⊢
            exact ⟨by omega, hr.2.1, by rw [hh.2.2]; exact hr.2.2⟩
          | throw e => intro hr; exact ⟨hr.1, fun hk => hh.2.2.2 (hr.2 hk)⟩
          | ub => exact id
        · have : (Val.obj fs).insert (.str k) v = .throw .invalidArgument := by
            simp only [Val.insert]; rw [if_pos (by omega)]
          dsimp only
          rw [this]
          exact ⟨⟨rfl, fun hk => absurd (hk k hkey) hkl⟩, fs, rfl⟩
      · rw [hq] at hh; exact ⟨⟨hh.1, hh.2⟩, fs, rfl⟩
      · rw [hq] at hh; exact hh.elim

theorem parse_ok (Key : Bytes → Prop) (n : Nat) : ValOk Key n ∧ ValsOk Key n ∧ PairsOk Key n := by
  induction n with
  | zero =>
    refine ⟨fun ctx fmt as _ _ hn _ hne => ?_, fun ctx fmt as es _ hn _ => by omega, fun ctx fmt as es _ hn _ => by omega⟩
    cases fmt with
    | nil => exact absurd rfl hne
    | cons c f => simp at hn
  | succ n ih => exact ⟨valOk_succ ih.2.1 ih.2.2, valsOk_succ ih.1 ih.2.1, pairsOk_succ ih.1 ih.2.2⟩

/-! ### Arguments after those read make no difference -/

/-- The same result, with more arguments left. -/
def more3 (ms : List VArg) : Res (Val × Bytes × List VArg) → Res (Val × Bytes × List VArg)
  | .ok (v, f, as) => .ok (v, f, as ++ ms)
  | .throw e => .throw e
  | .ub => .ub

/-- The same result, with more arguments left. -/
def more2 (ms : List VArg) : Res (Bytes × List VArg) → Res (Bytes × List VArg)
  | .ok (f, as) => .ok (f, as ++ ms)
  | .throw e => .throw e
  | .ub => .ub

theorem more2_ub {ms : List VArg} {r : Res (Bytes × List VArg)} (h : more2 ms r = .ub) : r = .ub := by
  cases r <;> simp_all [more2]

theorem argStr_more {as ms : List VArg} {r : Bytes × List VArg} (h : argStr as = .ok r) :
    argStr (as ++ ms) = .ok (r.1, r.2 ++ ms) := by
  unfold argStr at h
  split at h
  · rename_i mem as
    simp only [List.cons_append, argStr]
    cases hc : cStr mem with
    | ok s => rw [hc] at h; simp only [Res.bind, Res.ok.injEq] at h ⊢; rw [← h]
    | throw e => rw [hc] at h; cases h
    | ub => rw [hc] at h; cases h
  · cases h

theorem argStr_not_throw {as : List VArg} {e : Exc} : argStr as ≠ .throw e := by
  intro h
  unfold argStr at h
  split at h
  · rename_i mem as
    unfold cStr at h
    split at h <;> cases h
  · cases h

theorem parse_more (ms : List VArg) (n : Nat) :
    (∀ fmt as, parseVal n fmt as ≠ .ub → parseVal n fmt (as ++ ms) = more3 ms (parseVal n fmt as)) ∧
    (∀ fmt as self, (parseVals n fmt as self).2 ≠ .ub →
      parseVals n fmt (as ++ ms) self = ((parseVals n fmt as self).1, more2 ms (parseVals n fmt as self).2)) ∧
    (∀ fmt as self, (parsePairs n fmt as self).2 ≠ .ub →
      parsePairs n fmt (as ++ ms) self = ((parsePairs n fmt as self).1, more2 ms (parsePairs n fmt as self).2)) := by
  induction n with
  | zero => exact ⟨fun _ _ h => absurd rfl h, fun _ _ _ h => absurd rfl h, fun _ _ _ h => absurd rfl h⟩
  | succ n ih =>
    obtain ⟨ihv, ihs, ihp⟩ := ih
    refine ⟨fun fmt as h => ?_, fun fmt as self h => ?_, fun fmt as self h => ?_⟩
    · unfold parseVal at h ⊢
      split
      · rename_i f q
        rw [q] at h; dsimp only at h
        have := ihp f as (.obj [])
        rcases hr : parsePairs n f as (.obj []) with ⟨v, ⟨f', as'⟩ | e | _⟩
        · rw [hr] at this; rw [this (by simp)]; simp [more2, more3, q, hr]
        · rw [hr] at this; rw [this (by simp)]; simp [more2, more3, q, hr]
        · rw [hr] at h; exact absurd rfl h
      · rename_i f q
        rw [q] at h; dsimp only at h
        have := ihs f as (.arr [])
        rcases hr : parseVals n f as (.arr []) with ⟨v, ⟨f', as'⟩ | e | _⟩
        · rw [hr] at this; rw [this (by simp)]; simp [more2, more3, q, hr]
        · rw [hr] at this; rw [this (by simp)]; simp [more2, more3, q, hr]
        · rw [hr] at h; exact absurd rfl h
      · rename_i f q
        rw [q] at h; dsimp only at h
        cases hr : argStr as with
        | ok r => rw [argStr_more hr]; simp [more3, q, hr, Res.bind]
        | throw e => exact absurd hr argStr_not_throw
        | ub => rw [hr] at h; exact absurd rfl h
      · rename_i f q
        rw [q] at h; dsimp only at h
        split at h
        · rename_i mem k as
          by_cases hk : k ≤ mem.length
          · simp [more3, q, hk]
          · rw [if_neg hk] at h; exact absurd rfl h
        · exact absurd rfl h
      all_goals (rename_i f q; rw [q] at h; dsimp only at h)
      all_goals first
        | (split at h <;> first | exact absurd rfl h | (simp only [List.cons_append, q]; rfl))
        | rfl
    · cases fmt with
      | nil => rfl
      | cons c f =>
        unfold parseVals at h ⊢
        split
        · rename_i hc; simp [hc, more2]
        · rename_i hc
          rw [if_neg hc] at h
          rcases hr : parseVal n (c :: f) as with ⟨v, f', as'⟩ | e | _
          · rw [ihv _ _ (by rw [hr]; simp), hr]
            rw [hr] at h
            dsimp only [more3] at h ⊢
            cases hs : self.pushBack v with
            | ok s => rw [hs] at h; exact ihs _ _ _ h
            | throw e => rfl
            | ub => rw [hs] at h; exact absurd rfl h
          · rw [ihv _ _ (by rw [hr]; simp), hr]; rfl
          · rw [hr] at h; exact absurd rfl h
    · cases fmt with
      | nil => rfl
      | cons c f =>
        unfold parsePairs at h ⊢
        split
        · rename_i hc; simp [hc, more2]
        · rename_i hc
          rw [if_neg hc] at h
          rcases hk : argStr as with ⟨k, as⟩ | e | _
          · rw [argStr_more hk]
            rw [hk] at h
            dsimp only at h ⊢
            rcases hr : parseVal n (c :: f) as with ⟨v, f', as'⟩ | e | _
            · rw [ihv _ _ (by rw [hr]; simp), hr]
              rw [hr] at h
              dsimp only [more3] at h ⊢
              cases hs : self.insert (.str k) v with
              | ok s => rw [hs] at h; exact ihp _ _ _ h
              | throw e => rfl
              | ub => rw [hs] at h; exact absurd rfl h
            · rw [ihv _ _ (by rw [hr]; simp), hr]; rfl
            · rw [hr] at h; exact absurd rfl h
          · exact absurd hk argStr_not_throw
          · rw [hk] at h; exact absurd rfl h

/-! ### The initialisers -/

theorem parseInto_ok {Key : Bytes → Prop} {k : Kind} {fmt : Bytes} {as : List VArg} (h : Asks Key [isObj k] fmt as)
    (hl : fmt.length < maxElems) :
    Ended Key 1 fmt [] (parseInto k fmt as).2 ∧ ((k = .obj ∧ ∃ fs, (parseInto k fmt as).1 = .obj fs) ∨
      (k = .arr ∧ ∃ es, (parseInto k fmt as).1 = .arr es)) := by
  cases k with
  | obj =>
    obtain ⟨h1, h2⟩ := (parse_ok Key (initFuel fmt)).2.2 [] fmt as [] h (Nat.le_refl _) hl
    exact ⟨h1, .inl ⟨rfl, h2⟩⟩
  | arr =>
    obtain ⟨h1, h2⟩ := (parse_ok Key (initFuel fmt)).2.1 [] fmt as [] h (Nat.le_refl _) (by simpa using hl)
    exact ⟨h1, .inr ⟨rfl, h2⟩⟩

theorem parseInto_more {k : Kind} {fmt : Bytes} {as : List VArg} (ms : List VArg) (h : (parseInto k fmt as).2 ≠ .ub) :
    parseInto k fmt (as ++ ms) = ((parseInto k fmt as).1, more2 ms (parseInto k fmt as).2) := by
  cases k with
  | obj => exact (parse_more ms _).2.2 _ _ _ h
  | arr => exact (parse_more ms _).2.1 _ _ _ h

/-! ### An item stands for one value -/

mutual
theorem builds_unique : ∀ {x : Item} {v w : Val}, Builds x v → Builds x w → v = w
  | _, _, _, .obj hp hs hl, .obj hp' hs' hl' => by
    obtain rfl := buildsPairs_unique hp hp'
    congr 1
    exact sorted_ext (sorted_iff.1 hs) (sorted_iff.1 hs') (funext fun k => (hl k).trans (hl' k).symm)
  | _, _, _, .arr h, .arr h' => congrArg _ (buildsElems_unique h h')
  | _, _, _, .str _, .str _ => rfl
  | _, _, _, .sized _, .sized _ => rfl
  | _, _, _, .int h, .int h' => congrArg _ (BitVec.eq_of_toInt_eq (h.trans h'.symm))
  | _, _, _, .uint h, .uint h' => congrArg _ (BitVec.eq_of_toInt_eq (h.trans h'.symm))
  | _, _, _, .long _, .long _ => rfl
  | _, _, _, .ulong h, .ulong h' => congrArg _ (BitVec.eq_of_toInt_eq (h.trans h'.symm))
  | _, _, _, .double _, .double _ => rfl
  | _, _, _, .bool h, .bool h' => congrArg _ (Bool.eq_iff_iff.2 (h.trans h'.symm))
  | _, _, _, .null, .null => rfl
  | _, _, _, .blank, .blank => rfl
theorem buildsElems_unique : ∀ {l : List Item} {v w : List Val}, BuildsElems l v → BuildsElems l w → v = w
  | _, _, _, .nil, .nil => rfl
  | _, _, _, .cons h hs, .cons h' hs' => by rw [builds_unique h h', buildsElems_unique hs hs']
theorem buildsPairs_unique : ∀ {l : List (Bytes × Item)} {v w : List (Bytes × Val)}, BuildsPairs l v → BuildsPairs l w → v = w
  | _, _, _, .nil, .nil => rfl
  | _, _, _, .cons h hs, .cons h' hs' => by rw [builds_unique h h', buildsPairs_unique hs hs']
end

end Dart.Abi
