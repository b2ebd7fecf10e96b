import Verif.Lemmas.Safe
import Verif.Lemmas.EqualBuf
import Verif.Model.Json
import Verif.Model.Native
import Verif.Model.Nested
import Verif.Model.Export

/-
Comparing, exporting and converting validated bytes.
-/
namespace Dart

theorem Safe.sized {m : Bytes} {f p : Nat} {t : RawType} (h : Safe m f t p) (hn : t ≠ .null) :
    ∃ n, findSizeof m t p = some n ∧ p + n ≤ m.length := by
  cases f with
  | zero => exact h.elim
  | succ f =>
    cases t <;> unfold Safe at h <;> simp only [findSizeof]
    case null => exact absurd rfl hn
    case object => obtain ⟨_, n, _, _, ⟨_, total, h1, _, h2, _⟩, _⟩ := h; exact ⟨total, h1, h2⟩
    case array => obtain ⟨_, n, _, _, ⟨_, total, h1, _, h2, _⟩, _⟩ := h; exact ⟨total, h1, h2⟩
    case string => obtain ⟨_, len, hl, hb⟩ := h; exact ⟨2 + len + 1, by rw [hl]; rfl, by omega⟩
    case smallString => obtain ⟨_, len, hl, hb⟩ := h; exact ⟨2 + len + 1, by rw [hl]; rfl, by omega⟩
    case bigString => obtain ⟨_, len, hl, hb⟩ := h; exact ⟨4 + len + 1, by rw [hl]; rfl, by omega⟩
    all_goals exact ⟨_, rfl, h.2⟩

/-- The size of a validated element, and its bytes. -/
theorem SafeBuf.sized {b : Buf} (h : SafeBuf b) : ∃ n bs, b.sizeof = some n ∧ b.elemBytes n = some bs ∧ bs.length = n ∧
    (b.type ≠ .null → ∃ p, b.addr = some p ∧ readBytes b.mem p n = some bs) := by
  by_cases hn : b.type = .null
  · refine ⟨0, [], ?_, rfl, rfl, fun h => absurd hn h⟩
    unfold Buf.sizeof; rw [hn]
  · obtain ⟨p, ha, hs⟩ := h.addr hn
    obtain ⟨n, h1, h2⟩ := hs.sized hn
    obtain ⟨bs, hb⟩ := readBytes_some h2
    have hl := readBytes_length hb
    refine ⟨n, bs, ?_, ?_, hl, fun _ => ⟨p, ha, hb⟩⟩
    · unfold Buf.sizeof
      rw [ha]
      cases ht : b.type <;> first | exact absurd ht hn | (rw [ht] at h1; exact h1)
    · unfold Buf.elemBytes
      split
      · rename_i h0
        rw [h0] at hl
        rw [List.length_eq_zero_iff.1 hl]
      · rw [ha]; exact hb

theorem SafeBuf.eq {b c : Buf} (hb : SafeBuf b) (hc : SafeBuf c) (so sp : Bool) : ∃ r, b.eq so sp c = .ok r := by
  unfold Buf.eq
  split
  · exact ⟨_, rfl⟩
  split
  · exact ⟨_, rfl⟩
  rename_i hnn
  split
  · exact ⟨_, rfl⟩
  rename_i hty
  split
  · exact ⟨_, rfl⟩
  have hbn : b.type ≠ .null := by
    intro h
    have h1 : b.getType = .null := by simp [Buf.getType, h, RawType.simplify]
    exact hnn ⟨h1, by rw [← Classical.not_not.1 hty]; exact h1⟩
  have hcn : c.type ≠ .null := by
    intro h
    have h1 : c.getType = .null := by simp [Buf.getType, h, RawType.simplify]
    exact hnn ⟨by rw [Classical.not_not.1 hty]; exact h1, h1⟩
  obtain ⟨n, x, b1, _, _, b2⟩ := hb.sized
  obtain ⟨k, y, c1, _, _, c2⟩ := hc.sized
  obtain ⟨p, b3, b4⟩ := b2 hbn
  obtain ⟨q, c3, c4⟩ := c2 hcn
  simp only [b1, c1, Res.ofRead, Res.bind_ok]
  split
  · rename_i e
    subst e
    simp only [b3, b4, c3, c4, Res.bind_ok]
    exact ⟨_, rfl⟩
  · exact ⟨_, rfl⟩

theorem ok_bind {α β : Type} {P : α → Prop} {r : Res α} {f : α → Res β} (h : ∃ a, r = .ok a ∧ P a)
    (hf : ∀ a, P a → ∃ b, f a = .ok b) : ∃ b, r.bind f = .ok b := by
  obtain ⟨a, rfl, hp⟩ := h
  exact hf a hp

theorem post_ok {α : Type} {P : α → Prop} {E : Exc → Prop} {r : Res α} (h : r.Post P E)
    (he : ∀ e, ¬ E e) : ∃ a, r = .ok a ∧ P a := by
  cases r with
  | ok a => exact ⟨a, rfl, h⟩
  | throw e => exact absurd h (he e)
  | ub => exact h.elim

theorem SafeBuf.eqFields {signed : Bool} (gs : List (Bytes × Val))
    (ih : ∀ g ∈ gs, ∀ b, SafeBuf b → ∃ r, b.eqVal signed g.2 = .ok r) {b : Buf} (hb : SafeBuf b) (ht : b.type = .object) :
    ∃ r, b.eqFields signed gs = .ok r := by
  induction gs with
  | nil => exact ⟨true, by rw [Buf.eqFields.eq_def]⟩
  | cons g gs iht =>
    obtain ⟨k, w⟩ := g
    rw [Buf.eqFields.eq_def]
    refine ok_bind (post_ok (hb.get signed k) fun e h => h.2 ht) fun x hx => ?_
    refine ok_bind (P := fun _ => True) (by obtain ⟨r, h⟩ := ih (k, w) (by simp) x hx; exact ⟨r, h, trivial⟩) fun r _ => ?_
    split
    · exact ⟨_, rfl⟩
    · exact iht fun g hg => ih g (by simp [hg])

theorem SafeBuf.eqElems {signed : Bool} (gs : List Val)
    (ih : ∀ g ∈ gs, ∀ b, SafeBuf b → ∃ r, b.eqVal signed g = .ok r) {b : Buf} (hb : SafeBuf b) (ht : b.type = .array) :
    ∀ i, ∃ r, b.eqElems signed i gs = .ok r := by
  induction gs with
  | nil => exact fun _ => ⟨true, by rw [Buf.eqElems.eq_def]⟩
  | cons w gs iht =>
    intro i
    rw [Buf.eqElems.eq_def]
    refine ok_bind (post_ok (hb.getIdx i) fun e h => h.2 ht) fun x hx => ?_
    refine ok_bind (P := fun _ => True) (by obtain ⟨r, h⟩ := ih w (by simp) x hx; exact ⟨r, h, trivial⟩) fun r _ => ?_
    split
    · exact ⟨_, rfl⟩
    · exact iht (fun g hg => ih g (by simp [hg])) (i + 1)

theorem type_of_getType {b : Buf} : (b.getType = .object → b.type = .object) ∧ (b.getType = .array → b.type = .array) ∧
    (b.getType = .null → b.type = .null) := by
  unfold Buf.getType
  cases b.type <;> simp [RawType.simplify]

theorem SafeBuf.eqVal {signed : Bool} (w : Val) : ∀ {b : Buf}, SafeBuf b → ∃ r, b.eqVal signed w = .ok r := by
  induction w using Val.ind with
  | hnull =>
    intro b hb
    rw [Buf.eqVal.eq_def]
    split <;> exact ⟨_, rfl⟩
  | hbool c =>
    intro b hb
    rw [Buf.eqVal.eq_def]
    split
    · exact ⟨_, rfl⟩
    · rename_i h
      exact ok_bind (post_ok hb.boolean fun e he => he.2 (Classical.not_not.1 h)) fun _ _ => ⟨_, rfl⟩
  | hint c =>
    intro b hb
    rw [Buf.eqVal.eq_def]
    split
    · exact ⟨_, rfl⟩
    · rename_i h
      exact ok_bind (post_ok hb.integer fun e he => he.2 (Classical.not_not.1 h)) fun _ _ => ⟨_, rfl⟩
  | hdec c =>
    intro b hb
    rw [Buf.eqVal.eq_def]
    split
    · exact ⟨_, rfl⟩
    · rename_i h
      exact ok_bind (post_ok hb.decimal fun e he => he.2 (Classical.not_not.1 h)) fun _ _ => ⟨_, rfl⟩
  | hstr c =>
    intro b hb
    rw [Buf.eqVal.eq_def]
    split
    · exact ⟨_, rfl⟩
    · rename_i h
      exact ok_bind (post_ok hb.strv fun e he => he.2 (Classical.not_not.1 h)) fun _ _ => ⟨_, rfl⟩
  | harr gs ih =>
    intro b hb
    rw [Buf.eqVal.eq_def]
    split
    · exact ⟨_, rfl⟩
    · rename_i h
      have ht := type_of_getType.2.1 (Classical.not_not.1 h)
      refine ok_bind (post_ok hb.size fun e he => he.2 (by rw [Classical.not_not.1 h]; trivial)) fun n _ => ?_
      split
      · exact ⟨_, rfl⟩
      · exact SafeBuf.eqElems gs (fun g hg b hb => ih g hg hb) hb ht 0
  | hobj gs ih =>
    intro b hb
    rw [Buf.eqVal.eq_def]
    split
    · exact ⟨_, rfl⟩
    · rename_i h
      have ht := type_of_getType.1 (Classical.not_not.1 h)
      refine ok_bind (post_ok hb.size fun e he => he.2 (by rw [Classical.not_not.1 h]; trivial)) fun n _ => ?_
      split
      · exact ⟨_, rfl⟩
      · exact SafeBuf.eqFields gs (fun g hg b hb => ih g hg hb) hb ht

theorem SafeBuf.toNative {b : Buf} (h : SafeBuf b) (t : NativeTy) : b.toNative t ≠ .ub := by
  have hp : (b.toNative t).Post (fun _ => True) (fun _ => True) := by
    cases t <;> simp only [Buf.toNative]
    case null => split <;> exact trivial
    case bool =>
      split
      · exact (h.boolean.mono (Q := fun _ => True) (F := fun _ => True) (fun _ _ => trivial) fun _ _ => trivial).bind
          fun _ _ => trivial
      · exact trivial
    case int =>
      split
      · exact (h.integer.mono (Q := fun _ => True) (F := fun _ => True) (fun _ _ => trivial) fun _ _ => trivial).bind
          fun _ _ => trivial
      · exact trivial
    case dbl =>
      split
      · exact (h.decimal.mono (Q := fun _ => True) (F := fun _ => True) (fun _ _ => trivial) fun _ _ => trivial).bind
          fun _ _ => trivial
      · exact trivial
    case str =>
      exact (h.strv.mono (Q := fun _ => True) (F := fun _ => True) (fun _ _ => trivial) fun _ _ => trivial).bind
        fun _ _ => trivial
  exact hp.not_ub

theorem SafeBuf.eqNative {b : Buf} (h : SafeBuf b) (x : Native) : ∃ r, b.eqNative x = .ok r := by
  have hi : b.getType = .integer → ∃ a, b.integer = .ok a ∧ True := fun ht => post_ok h.integer fun e he => he.2 ht
  have hd : b.getType = .decimal → ∃ a, b.decimal = .ok a ∧ True := fun ht => post_ok h.decimal fun e he => he.2 ht
  have hb : b.getType = .boolean → ∃ a, b.boolean = .ok a ∧ True := fun ht => post_ok h.boolean fun e he => he.2 ht
  have hs : b.getType = .string → ∃ a, b.strv = .ok a ∧ True := fun ht => post_ok h.strv fun e he => he.2 ht
  cases x <;> simp only [Buf.eqNative]
  case null => exact ⟨_, rfl⟩
  case bool c =>
    split
    · exact ok_bind (hb (by assumption)) fun _ _ => ⟨_, rfl⟩
    · exact ⟨_, rfl⟩
  case int t c =>
    split
    · exact ok_bind (hi (by assumption)) fun _ _ => ⟨_, rfl⟩
    · split
      · exact ok_bind (hd (by assumption)) fun _ _ => ⟨_, rfl⟩
      · exact ⟨_, rfl⟩
  case dbl c =>
    split
    · exact ok_bind (hi (by assumption)) fun _ _ => ⟨_, rfl⟩
    · split
      · exact ok_bind (hd (by assumption)) fun _ _ => ⟨_, rfl⟩
      · exact ⟨_, rfl⟩
  case str c =>
    split
    · exact ok_bind (hs (by assumption)) fun _ _ => ⟨_, rfl⟩
    · exact ⟨_, rfl⟩

theorem nestedLoop_safe (signed : Bool) (sep : UInt8) {null : Buf} (hn : SafeBuf null) : ∀ (n : Nat) (rest : Bytes) (b : Buf),
    rest.length ≤ n → SafeBuf b → ∃ c, nestedLoop (fun b : Buf => b.type == .object) (fun b => b.get signed) null sep b rest = .ok c ∧
      SafeBuf c := by
  intro n
  induction n with
  | zero =>
    intro rest b hl hb
    cases rest with
    | nil => exact ⟨b, by rw [nestedLoop.eq_def], hb⟩
    | cons => simp at hl
  | succ n ih =>
    intro rest b hl hb
    cases rest with
    | nil => exact ⟨b, by rw [nestedLoop.eq_def], hb⟩
    | cons c cs =>
      rw [nestedLoop.eq_def]
      dsimp only
      split
      · rename_i ht
        obtain ⟨x, h1, h2⟩ := post_ok (hb.get signed ((c :: cs).takeWhile (· != sep))) fun e h => h.2 (by simpa using ht)
        rw [h1, Res.bind_ok]
        exact ih _ _ (by simp at hl ⊢; omega) h2
      · exact ⟨null, rfl, hn⟩

theorem SafeBuf.getNested {b : Buf} (h : SafeBuf b) (signed : Bool) (path : Bytes) (sep : UInt8) :
    ∃ c, b.getNested signed path sep = .ok c ∧ SafeBuf c :=
  nestedLoop_safe signed sep (safe_null b none) _ path b (Nat.le_refl _) h

/-! ### JSON -/

theorem collect_safe {α : Type} {f : Nat → Res α} (n : Nat) (h : ∀ i, i < n → ∃ a, f i = .ok a) : ∃ l, Res.collect f n = .ok l := by
  obtain ⟨l, hl, _⟩ := post_ok (collect_post (P := fun _ => True) (E := fun _ => False) (f := f) n fun i hi => by
    obtain ⟨a, ha⟩ := h i hi; rw [ha]; trivial) (fun _ h => h)
  exact ⟨l, hl⟩

/-- Writing a validated element as JSON ends, the depth being bounded by the first argument. -/
theorem Safe.serialize : ∀ {f : Nat} {b : Buf} {p : Nat}, b.addr = some p → Safe b.mem f b.type p →
    ∃ l, b.serialize f = .ok l
  | 0, _, _, _, h => h.elim
  | f + 1, b, p, ha, h => by
    unfold Buf.serialize
    cases ht : b.type <;> rw [ht] at h <;> simp only [Buf.getType, ht, RawType.simplify]
    case object =>
      obtain ⟨_, n, hn, _, _, hc⟩ := h
      have hsz : b.size = .ok n := by simp only [Buf.size, ht, ha, Res.ofRead, Res.bind_ok, hn]
      rw [hsz, Res.bind_ok]
      refine ok_bind (P := fun _ => True) (by
        obtain ⟨l, hl⟩ := collect_safe (f := fun i => (b.keyAt i).bind fun k => k.strv.bind fun s => (b.valueAt i).bind fun v =>
          (Buf.serialize f v).bind fun l => .ok (Event.key (cut32 s) :: l)) n fun i hi => by
            obtain ⟨kp, vt, vp, h1, h2, h3, h4⟩ := hc i hi
            obtain ⟨s, hs⟩ := h2.string
            have hk : b.keyAt i = .ok (b.sub (.string, some kp)) := by
              simp only [Buf.keyAt, Buf.object, ht, ha, Res.ofRead, Res.bind_ok, h1]
            have hv : b.valueAt i = .ok (b.sub (vt, some vp)) := by
              simp only [Buf.valueAt, ht, ha, Res.ofRead, Res.bind_ok, h3]
            have hks : (b.sub (.string, some kp)).strv = .ok s := by
              simp only [Buf.strv, Buf.sub, Res.ofRead, Res.bind_ok, hs]
            obtain ⟨l, hl⟩ := Safe.serialize (b := b.sub (vt, some vp)) rfl h4
            exact ⟨_, by rw [hk, Res.bind_ok, hks, Res.bind_ok, hv, Res.bind_ok, hl, Res.bind_ok]⟩
        exact ⟨l, hl, trivial⟩) fun _ _ => ⟨_, rfl⟩
    case array =>
      obtain ⟨_, n, hn, _, _, hc⟩ := h
      have hsz : b.size = .ok n := by simp only [Buf.size, ht, ha, Res.ofRead, Res.bind_ok, hn]
      rw [hsz, Res.bind_ok]
      refine ok_bind (P := fun _ => True) (by
        obtain ⟨l, hl⟩ := collect_safe (f := fun i => (b.valueAt i).bind fun v => Buf.serialize f v) n fun i hi => by
            obtain ⟨vt, vp, h3, h4⟩ := hc i hi
            have hv : b.valueAt i = .ok (b.sub (vt, some vp)) := by
              simp only [Buf.valueAt, Buf.getIdx, Buf.array, ht, ha, Res.ofRead, Res.bind_ok, hn, if_pos hi, h3]
            obtain ⟨l, hl⟩ := Safe.serialize (b := b.sub (vt, some vp)) rfl h4
            exact ⟨_, by rw [hv, Res.bind_ok, hl]⟩
        exact ⟨l, hl, trivial⟩) fun _ _ => ⟨_, rfl⟩
    case null => exact ⟨_, rfl⟩
    case string =>
      obtain ⟨s, hs⟩ := h.string
      exact ok_bind (P := fun _ => True) ⟨s, by simp only [Buf.strv, ht, ha, Res.ofRead, Res.bind_ok, hs], trivial⟩
        fun _ _ => ⟨_, rfl⟩
    case smallString =>
      obtain ⟨_, len, hl, hb⟩ := h
      obtain ⟨s, hs⟩ := strv_some (t := .smallString) hl (by simp only [strWidth]; omega)
      exact ok_bind (P := fun _ => True) ⟨s, by simp only [Buf.strv, ht, ha, Res.ofRead, Res.bind_ok, hs], trivial⟩
        fun _ _ => ⟨_, rfl⟩
    case bigString =>
      obtain ⟨_, len, hl, hb⟩ := h
      obtain ⟨s, hs⟩ := strv_some (t := .bigString) hl (by simp only [strWidth]; omega)
      exact ok_bind (P := fun _ => True) ⟨s, by simp only [Buf.strv, ht, ha, Res.ofRead, Res.bind_ok, hs], trivial⟩
        fun _ _ => ⟨_, rfl⟩
    case shortInteger =>
      obtain ⟨x, hx⟩ := readInt_some h (by simp)
      exact ok_bind (P := fun _ => True) ⟨x, by simp only [Buf.integer, ht, ha, Res.ofRead, Res.bind_ok, hx], trivial⟩
        fun _ _ => ⟨_, rfl⟩
    case integer =>
      obtain ⟨x, hx⟩ := readInt_some h (by simp)
      exact ok_bind (P := fun _ => True) ⟨x, by simp only [Buf.integer, ht, ha, Res.ofRead, Res.bind_ok, hx], trivial⟩
        fun _ _ => ⟨_, rfl⟩
    case longInteger =>
      obtain ⟨x, hx⟩ := readInt_some h (by simp)
      exact ok_bind (P := fun _ => True) ⟨x, by simp only [Buf.integer, ht, ha, Res.ofRead, Res.bind_ok, hx], trivial⟩
        fun _ _ => ⟨_, rfl⟩
    case decimal =>
      obtain ⟨x, hx⟩ := readDec_some h (by simp)
      exact ok_bind (P := fun _ => True) ⟨x, by simp only [Buf.decimal, ht, ha, Res.ofRead, Res.bind_ok, hx], trivial⟩
        fun _ _ => ⟨_, rfl⟩
    case longDecimal =>
      obtain ⟨x, hx⟩ := readDec_some h (by simp)
      exact ok_bind (P := fun _ => True) ⟨x, by simp only [Buf.decimal, ht, ha, Res.ofRead, Res.bind_ok, hx], trivial⟩
        fun _ _ => ⟨_, rfl⟩
    case boolean =>
      obtain ⟨x, hx⟩ := readBool_some h.2
      exact ok_bind (P := fun _ => True) ⟨x, by simp only [Buf.boolean, ht, RawType.simplify, ha, Res.ofRead, Res.bind_ok, hx], trivial⟩
        fun _ _ => ⟨_, rfl⟩

theorem SafeBuf.serialize {b : Buf} (h : SafeBuf b) : ∃ l, b.serialize (b.mem.length + 1) = .ok l := by
  by_cases hn : b.type = .null
  · exact ⟨[.null], by simp only [Buf.serialize, Buf.getType, hn, RawType.simplify]⟩
  · obtain ⟨p, ha, hs⟩ := h.addr hn
    exact hs.serialize ha

end Dart
