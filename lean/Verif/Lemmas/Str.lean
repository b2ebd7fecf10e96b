import Verif.Model.Str
import Verif.Lemmas.Basic

namespace Dart.StrRep

/-- The string as C sees it: up to the first NUL. -/
abbrev cstr (s : Bytes) : Bytes := s.takeWhile (· ≠ 0)

theorem strcmpEq_cstr : ∀ (s t x y : Bytes), s.length = t.length →
    strcmpEq (s ++ 0 :: x) (t ++ 0 :: y) = some (decide (cstr s = cstr t))
  | [], [], x, y, _ => by simp [strcmpEq, cstr]
  | [], _ :: _, _, _, h => by simp at h
  | _ :: _, [], _, _, h => by simp at h
  | a :: s, b :: t, x, y, h => by
    have ih := strcmpEq_cstr s t x y (by simpa using h)
    simp only [List.cons_append, strcmpEq, cstr] at ih ⊢
    by_cases hab : a = b
    · subst hab
      by_cases ha : a = 0
      · simp [ha]
      · simp [ha, ih]
    · rw [if_pos hab]
      simp only [List.takeWhile_cons]
      by_cases ha : a = 0
      · have hb : b ≠ 0 := fun e => hab (ha.trans e.symm)
        simp [ha, hb]
      · by_cases hb : b = 0
        · simp [ha, hb]
        · simp [ha, hb, hab]

theorem writeBytes_at (A B C bs : Bytes) (p : Nat) (hp : p = A.length) (hl : bs.length = B.length) :
    writeBytes (A ++ (B ++ C)) p bs = some (A ++ (bs ++ C)) := by
  have := writeBytes_mid A B C bs p hp hl
  simpa [List.append_assoc] using this

/-- Writing the parts one after another. -/
theorem write_parts (m base app : Bytes) (h : base.length + app.length < m.length) :
    ((writeBytes m 0 base).bind fun m => (writeBytes m base.length app).bind fun m =>
      writeBytes m (base.length + app.length) [0]) =
      some (base ++ (app ++ (0 :: m.drop (base.length + app.length + 1)))) := by
  have e1 : m = [] ++ (m.take base.length ++ m.drop base.length) := by simp
  rw [show writeBytes m 0 base = some ([] ++ (base ++ m.drop base.length)) by
    conv => lhs; rw [e1]
    exact writeBytes_at [] _ _ base 0 rfl (by simp; omega)]
  simp only [List.nil_append, Option.bind_some]
  have e2 : m.drop base.length = (m.drop base.length).take app.length ++ m.drop (base.length + app.length) := by
    rw [← List.drop_drop]; exact (List.take_append_drop _ _).symm
  rw [show writeBytes (base ++ m.drop base.length) base.length app =
      some (base ++ (app ++ m.drop (base.length + app.length))) by
    rw [e2]
    exact writeBytes_at base _ _ app _ rfl (by simp; omega)]
  simp only [Option.bind_some]
  have e3 : m.drop (base.length + app.length) = [m[base.length + app.length]] ++ m.drop (base.length + app.length + 1) := by
    rw [List.drop_eq_getElem_cons h]; rfl
  rw [e3, ← List.append_assoc base app]
  rw [writeBytes_at (base ++ app) [m[base.length + app.length]] _ [0] _ (by simp) rfl]
  simp [List.append_assoc]

/-- What a string looks like in memory. -/
inductive Stores : StrRep → Bytes → Prop
  | short (s pad : Bytes) (h : s.length < 23) (hp : pad.length = 22 - s.length) :
      Stores (.inl (s ++ 0 :: (pad ++ [UInt8.ofNat (23 - s.length)]))) s
  | full (s : Bytes) (h : s.length = 23) : Stores (.inl (s ++ [0])) s
  | long (s : Bytes) (h : 23 < s.length) : Stores (.dyn (s ++ [0]) s.length) s

theorem make_stores (junk base app : Bytes) (hj : junk.length = 24) : ∃ r, make junk base app = some r ∧
    Stores r (base ++ app) := by
  by_cases hs : base.length + app.length ≤ 23
  · have hi : identifyString (base ++ app) = .smallString := by
      unfold identifyString ssoBytes
      rw [List.length_append, if_neg (by omega), if_neg (by omega)]
    have hw := write_parts junk base app (by omega)
    have hmake : make junk base app = ((writeBytes junk 0 base).bind fun m => (writeBytes m base.length app).bind fun m =>
        writeBytes m (base.length + app.length) [0]).bind fun m =>
        (writeBytes m ssoBytes [UInt8.ofNat ssoBytes - UInt8.ofNat (base.length + app.length)]).bind fun m => some (.inl m) := by
      simp only [make, hi, bind, Option.bind_assoc]
    rw [hmake, hw]
    simp only [Option.bind_some]
    have hl : UInt8.ofNat ssoBytes - UInt8.ofNat (base.length + app.length) = UInt8.ofNat (23 - (base.length + app.length)) := by
      rw [UInt8.ofNat_sub (by omega)]; rfl
    rw [hl]
    rcases Nat.lt_or_eq_of_le hs with h | h
    · obtain ⟨pad, z, hd⟩ : ∃ pad z, junk.drop (base.length + app.length + 1) = pad ++ [z] := by
        rcases List.eq_nil_or_concat (junk.drop (base.length + app.length + 1)) with e | ⟨pad, z, e⟩
        · have := congrArg List.length e; simp at this; omega
        · exact ⟨pad, z, by simpa using e⟩
      have hp : pad.length = 22 - (base ++ app).length := by
        have := congrArg List.length hd
        simp only [List.length_drop, List.length_append, List.length_singleton] at this ⊢; omega
      rw [hd]
      refine ⟨_, ?_, Stores.short (base ++ app) pad (by simpa using h) hp⟩
      have hq := writeBytes_at (base ++ (app ++ 0 :: pad)) [z] [] [UInt8.ofNat (23 - (base.length + app.length))] ssoBytes
        (by simp only [List.length_append, List.length_cons] at hp ⊢; unfold ssoBytes; omega) rfl
      simp only [List.append_assoc, List.cons_append, List.append_nil, List.length_append] at hq ⊢
      rw [hq]
      rfl
    · have hd : junk.drop (base.length + app.length + 1) = [] := List.drop_eq_nil_of_le (by omega)
      rw [hd]
      refine ⟨_, ?_, Stores.full (base ++ app) (by simpa using h)⟩
      have hq := writeBytes_at (base ++ app) [0] [] [UInt8.ofNat (23 - (base.length + app.length))] ssoBytes
        (by simp only [List.length_append]; unfold ssoBytes; omega) rfl
      simp only [List.append_assoc, List.append_nil] at hq ⊢
      rw [hq, h]
      rfl
  · have hi : identifyString (base ++ app) ≠ .smallString := by
      unfold identifyString ssoBytes
      rw [List.length_append]
      split
      · simp
      · rw [if_pos (by omega)]; simp
    have hw := write_parts (zeros (base.length + app.length + 1)) base app (by simp [zeros])
    have hmake : make junk base app = ((writeBytes (zeros (base.length + app.length + 1)) 0 base).bind fun m =>
        (writeBytes m base.length app).bind fun m =>
        writeBytes m (base.length + app.length) [0]).bind fun m => some (.dyn m (base.length + app.length)) := by
      unfold make
      cases h : identifyString (base ++ app) <;> simp only [bind, Option.bind_assoc]
      exact absurd h hi
    have hd : (zeros (base.length + app.length + 1)).drop (base.length + app.length + 1) = [] :=
      List.drop_eq_nil_of_le (by simp [zeros])
    rw [hmake, hw, hd]
    have := Stores.long (base ++ app) (by simp; omega)
    simp only [List.append_assoc, List.length_append] at this
    exact ⟨_, rfl, this⟩

theorem readU_last (A : Bytes) (b : UInt8) (p : Nat) (hp : p = A.length) : readU (A ++ [b]) 1 p = some b.toNat := by
  have := readBytes_mid A [b] [] p 1 hp rfl
  simp only [List.append_nil] at this
  simp [readU, this, leNat]

theorem left_short {s pad : Bytes} (h : s.length < 23) (hp : pad.length = 22 - s.length) :
    readU (s ++ 0 :: (pad ++ [UInt8.ofNat (23 - s.length)])) 1 ssoBytes = some (23 - s.length) := by
  have := readU_last (s ++ 0 :: pad) (UInt8.ofNat (23 - s.length)) ssoBytes
    (by simp only [List.length_append, List.length_cons]; unfold ssoBytes; omega)
  simp only [List.append_assoc, List.cons_append] at this
  rw [this, UInt8.toNat_ofNat']
  congr 1
  omega

theorem left_full {s : Bytes} (h : s.length = 23) : readU (s ++ [0]) 1 ssoBytes = some 0 :=
  readU_last s 0 ssoBytes (by unfold ssoBytes; omega)

theorem Stores.strv {r : StrRep} {s : Bytes} (h : Stores r s) : r.strv = some s := by
  cases h with
  | short _ pad h hp =>
    simp only [StrRep.strv, left_short h hp, bind, Option.bind_some]
    have : (ssoBytes + (2 ^ 64 - (23 - s.length))) % 2 ^ 64 = s.length := by unfold ssoBytes; omega
    rw [this]
    exact readBytes_mid [] s _ 0 _ rfl rfl
  | full _ h =>
    simp only [StrRep.strv, left_full h, bind, Option.bind_some]
    have : (ssoBytes + (2 ^ 64 - 0)) % 2 ^ 64 = s.length := by unfold ssoBytes; omega
    rw [this]
    exact readBytes_mid [] s _ 0 _ rfl rfl
  | long _ h => exact readBytes_mid [] s _ 0 _ rfl rfl

theorem Stores.chars {r : StrRep} {s : Bytes} (h : Stores r s) : ∃ x, r.chars = s ++ 0 :: x := by
  cases h with
  | short _ pad h hp => exact ⟨_, rfl⟩
  | full _ h => exact ⟨[], rfl⟩
  | long _ h => exact ⟨[], rfl⟩

theorem Stores.eq {r r' : StrRep} {s t : Bytes} (h : Stores r s) (h' : Stores r' t) :
    r.eq r' = some (decide (s.length = t.length ∧ cstr s = cstr t)) := by
  have key : ∀ (l : Bool) (x y : Bytes), (l = true ↔ s.length = t.length) →
      (if l = true then strcmpEq (s ++ 0 :: x) (t ++ 0 :: y) else some false) =
        some (decide (s.length = t.length ∧ cstr s = cstr t)) := by
    intro l x y hl
    by_cases hst : s.length = t.length
    · rw [if_pos (hl.2 hst), strcmpEq_cstr s t x y hst]; simp [hst]
    · rw [if_neg (fun h => hst (hl.1 h))]; simp [hst]
  cases h with
  | short _ pad h hp =>
    cases h' with
    | short _ pad' h' hp' =>
      have := key (decide (23 - s.length = 23 - t.length)) (pad ++ [UInt8.ofNat (23 - s.length)])
        (pad' ++ [UInt8.ofNat (23 - t.length)]) (by simp; omega)
      rw [← this]
      simp only [StrRep.eq, left_short h hp, left_short h' hp', bind, Option.bind_some]
      by_cases e : 23 - s.length = 23 - t.length <;> simp [e]
    | full _ h' =>
      have := key false (pad ++ [UInt8.ofNat (23 - s.length)]) [] (by simp; omega)
      rw [← this]
      simp only [StrRep.eq, left_short h hp, left_full h', bind, Option.bind_some]
      rw [if_pos (by omega)]; simp
    | long _ h' => simp only [StrRep.eq]; rw [decide_eq_false (by omega)]
  | full _ h =>
    cases h' with
    | short _ pad' h' hp' =>
      have := key false [] (pad' ++ [UInt8.ofNat (23 - t.length)]) (by simp; omega)
      rw [← this]
      simp only [StrRep.eq, left_full h, left_short h' hp', bind, Option.bind_some]
      rw [if_pos (by omega)]; simp
    | full _ h' =>
      have := key true [] [] (by simp; omega)
      rw [← this]
      simp only [StrRep.eq, left_full h, left_full h', bind, Option.bind_some]
      simp
    | long _ h' => simp only [StrRep.eq]; rw [decide_eq_false (by omega)]
  | long _ h =>
    cases h' with
    | short _ pad' h' hp' => simp only [StrRep.eq]; rw [decide_eq_false (by omega)]
    | full _ h' => simp only [StrRep.eq]; rw [decide_eq_false (by omega)]
    | long _ h' =>
      have := key (decide (s.length = t.length)) [] [] (by simp)
      rw [← this]
      simp only [StrRep.eq]
      by_cases e : s.length = t.length <;> simp [e]

end Dart.StrRep
