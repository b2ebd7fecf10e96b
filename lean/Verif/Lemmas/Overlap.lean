import Verif.Lemmas.ValidCost
import Verif.Spec.Weight

/-
Small buffers with children that overlap: the validator accepts them and takes a number of steps
exponential in their length, and so does reading them.
-/
namespace Dart

/-- An array of two arrays, the first right behind its table, the second 24 bytes further on. -/
def overBlock (total : Nat) : Bytes :=
  leBytes 4 total ++ (leBytes 4 2 ++ (arrEntry .array 24 ++ (zeros 3 ++ (arrEntry .array 48 ++ zeros 3))))

/-- An empty array, padded to 24 bytes. -/
def overEnd : Bytes := leBytes 4 8 ++ (leBytes 4 0 ++ zeros 16)

/-- Arrays each of which contains the next one and the one after it, without being longer for it. -/
def overChain : Nat → Bytes
  | 0 => overEnd
  | 1 => overEnd ++ overEnd
  | k + 2 => overBlock (24 * (k + 3)) ++ overChain (k + 1)

/-- The root object: one field, with the empty key, holding the chain. -/
def overRoot (total : Nat) : Bytes :=
  leBytes 4 total ++ (leBytes 4 1 ++ (objEntry .array 16 [] ++ (leBytes 2 0 ++ zeros 6)))

def overBuffer (k : Nat) : Bytes := overRoot (24 * (k + 2)) ++ overChain k

/-- What the chain shows when it is read. -/
def overTree : Nat → Val
  | 0 => .arr []
  | 1 => .arr []
  | k + 2 => .arr [overTree (k + 1), overTree k]

/-- Fibonacci. -/
def overCalls : Nat → Nat
  | 0 => 1
  | 1 => 1
  | k + 2 => overCalls (k + 1) + overCalls k

theorem overChain_succ (k : Nat) : overChain (k + 2) = overBlock (24 * (k + 3)) ++ overChain (k + 1) := rfl

theorem overEnd_length : overEnd.length = 24 := rfl

theorem overBlock_length (t : Nat) : (overBlock t).length = 24 := by
  simp [overBlock, arrEntry, zeros]

theorem overRoot_length (t : Nat) : (overRoot t).length = 24 := by
  simp [overRoot, objEntry, zeros]

theorem overChain_length : ∀ k, (overChain k).length = 24 * (k + 1)
  | 0 => rfl
  | 1 => rfl
  | k + 2 => by
    unfold overChain
    rw [List.length_append, overBlock_length, overChain_length (k + 1)]
    omega

theorem overCalls_ge : ∀ j, 2 ^ j ≤ overCalls (2 * j) ∧ 2 ^ j ≤ overCalls (2 * j + 1)
  | 0 => by decide
  | j + 1 => by
    obtain ⟨h1, h2⟩ := overCalls_ge j
    have e1 : overCalls (2 * (j + 1)) = overCalls (2 * j + 1) + overCalls (2 * j) := rfl
    have e2 : overCalls (2 * (j + 1) + 1) = overCalls (2 * j + 2) + overCalls (2 * j + 1) := rfl
    have e3 : overCalls (2 * j + 2) = overCalls (2 * j + 1) + overCalls (2 * j) := rfl
    rw [Nat.pow_succ]
    omega

theorem overTree_weight : ∀ k, overCalls k ≤ Spec.weight (overTree k)
  | 0 => by simp [overCalls, overTree, Spec.weight, Spec.weightElems]
  | 1 => by simp [overCalls, overTree, Spec.weight, Spec.weightElems]
  | k + 2 => by
    have h1 := overTree_weight (k + 1)
    have h2 := overTree_weight k
    simp only [overCalls, overTree, Spec.weight, Spec.weightElems]
    omega

/-! ### Reads -/

theorem overBlock_reads {m X Y : Bytes} {t : Nat} (hm : m = X ++ (overBlock t ++ Y)) (ht : t < 2 ^ 32) :
    readU m 4 X.length = some t ∧ numElems m X.length = some 2 ∧
    loadElem m X.length 0 = some (.array, X.length + 24) ∧
    loadElem m X.length 1 = some (.array, X.length + 48) ∧
    entType m X.length 0 = some .array ∧ entType m X.length 1 = some .array := by
  have h1 : readU m 4 X.length = some t := by
    rw [hm]; unfold overBlock; simp only [List.append_assoc]
    exact readU_mid X _ 4 t _ rfl (by omega)
  have h2 : numElems m X.length = some 2 := by
    rw [hm]; unfold overBlock numElems; simp only [List.append_assoc]
    rw [cut]
    exact readU_mid _ _ 4 2 _ (by simp) (by decide)
  have e1 : m = (X ++ (leBytes 4 t ++ leBytes 4 2)) ++
      (arrEntry .array 24 ++ (zeros 3 ++ (arrEntry .array 48 ++ zeros 3) ++ Y)) := by
    rw [hm]; unfold overBlock; simp only [List.append_assoc]
  have e2 : m = (X ++ (leBytes 4 t ++ leBytes 4 2) ++ (arrEntry .array 24 ++ zeros 3)) ++
      (arrEntry .array 48 ++ (zeros 3 ++ Y)) := by
    rw [hm]; unfold overBlock; simp only [List.append_assoc]
  obtain ⟨a1, a2⟩ := arrEntry_reads (base := X.length) (idx := 0) e1 (by simp) (by decide)
  obtain ⟨b1, b2⟩ := arrEntry_reads (base := X.length) (idx := 1) e2
    (by simp [arrEntry, zeros]) (by decide)
  have hft : RawType.array.forTable = .array := rfl
  rw [hft] at a2 b2
  exact ⟨h1, h2, by simp [loadElem, a1, a2], by simp [loadElem, b1, b2], a2, b2⟩

theorem overEnd_reads {m X Y : Bytes} (hm : m = X ++ (overEnd ++ Y)) :
    readU m 4 X.length = some 8 ∧ numElems m X.length = some 0 := by
  constructor
  · rw [hm]; unfold overEnd; simp only [List.append_assoc]
    exact readU_mid X _ 4 8 _ rfl (by decide)
  · rw [hm]; unfold overEnd numElems; simp only [List.append_assoc]
    rw [cut]
    exact readU_mid _ _ 4 0 _ (by simp) (by decide)

/-! ### The counting validator, when all goes well -/

theorem Counted.and_ge {a : Counted} {b : Unit → Counted} {x y : Nat} (ha : a.1 = .ok true)
    (hx : x ≤ a.2) (hb : (b ()).1 = .ok true) (hy : y ≤ (b ()).2) :
    (a.and b).1 = .ok true ∧ x + y ≤ (a.and b).2 := by
  unfold Counted.and
  rw [ha]
  exact ⟨hb, Nat.add_le_add hx hy⟩

theorem Counted.free_and_ge {v : Verdict} {b : Unit → Counted} {y : Nat} (ha : v = .ok true)
    (hb : (b ()).1 = .ok true ∧ y ≤ (b ()).2) :
    ((Counted.free v).and b).1 = .ok true ∧ y ≤ ((Counted.free v).and b).2 := by
  have := Counted.and_ge (a := Counted.free v) (b := b) (x := 0) ha (Nat.zero_le _) hb.1 hb.2
  rwa [Nat.zero_add] at this

theorem validTableN_ge {m : Bytes} {p bytes total n y : Nat} {loop : Nat → Nat → Counted}
    (ht : readU m 4 p = some total) (hn : numElems m p = some n) (h1 : total ≤ bytes)
    (h2 : 8 + 8 * n ≤ total) (hty : ∀ i, i < n → ∃ t, entType m p i = some t)
    (hl : (loop total n).1 = .ok true ∧ y ≤ (loop total n).2) :
    (validTableN m p bytes loop).1 = .ok true ∧ y ≤ (validTableN m p bytes loop).2 := by
  unfold validTableN
  refine Counted.free_and_ge (check_true.2 (by omega)) ?_
  rw [ht, rdThen_some]
  refine Counted.free_and_ge (check_true.2 h1) ?_
  rw [hn, rdThen_some]
  refine Counted.free_and_ge (check_true.2 h2) ?_
  have := Counted.and_ge (a := typesValidN m p n) (b := fun _ => loop total n) (x := 0) (y := y)
    (by rw [typesValidN_fst]; exact typesValid_of hty) (Nat.zero_le _) hl.1 hl.2
  rwa [Nat.zero_add] at this

theorem overChain_ok : ∀ (k : Nat) (X m : Bytes) (fuel bytes : Nat), m = X ++ overChain k →
    8 ∣ X.length → 24 * (k + 1) ≤ bytes → 24 * (k + 1) < 2 ^ 32 → k < fuel →
    (validBufferN m fuel .array X.length bytes).1 = .ok true ∧
    overCalls k ≤ (validBufferN m fuel .array X.length bytes).2 ∧
    decode fuel m .array X.length = some (overTree k)
  | 0, X, m, fuel, bytes, hm, h8, hb, hs, hf => by
    obtain ⟨r1, r2⟩ := overEnd_reads (m := m) (X := X) (Y := []) (by rw [hm]; rfl)
    obtain ⟨fuel, rfl⟩ : ∃ f, fuel = f + 1 := ⟨fuel - 1, by omega⟩
    have h := validTableN_ge (y := 0) (bytes := bytes) (loop := fun total n =>
      validElemsN (validBufferN m fuel) m X.length total n 0 X.length) r1 r2 (by omega) (by omega)
      (fun i hi => by omega) ⟨rfl, Nat.zero_le _⟩
    refine ⟨h.1, by show 1 ≤ _ + 1; omega, ?_⟩
    unfold decode
    simp only [r2, Option.bind_eq_bind, Option.bind_some]
    rfl
  | 1, X, m, fuel, bytes, hm, h8, hb, hs, hf => by
    obtain ⟨r1, r2⟩ := overEnd_reads (m := m) (X := X) (Y := overEnd) (by rw [hm]; rfl)
    obtain ⟨fuel, rfl⟩ : ∃ f, fuel = f + 1 := ⟨fuel - 1, by omega⟩
    have h := validTableN_ge (y := 0) (bytes := bytes) (loop := fun total n =>
      validElemsN (validBufferN m fuel) m X.length total n 0 X.length) r1 r2 (by omega) (by omega)
      (fun i hi => by omega) ⟨rfl, Nat.zero_le _⟩
    refine ⟨h.1, by show 1 ≤ _ + 1; omega, ?_⟩
    unfold decode
    simp only [r2, Option.bind_eq_bind, Option.bind_some]
    rfl
  | k + 2, X, m, fuel, bytes, hm, h8, hb, hs, hf => by
    obtain ⟨r1, r2, r3, r4, r5, r6⟩ := overBlock_reads (m := m) (X := X)
      (Y := overChain (k + 1)) (by rw [hm, overChain_succ]) (by omega)
    obtain ⟨fuel, rfl⟩ : ∃ f, fuel = f + 1 := ⟨fuel - 1, by omega⟩
    have hl1 := overBlock_length (24 * (k + 3))
    have c1 := overChain_ok (k + 1) (X ++ overBlock (24 * (k + 3))) m fuel (24 * (k + 2))
      (by rw [hm, List.append_assoc, overChain_succ]) (by rw [List.length_append, hl1]; omega)
      (by omega) (by omega) (by omega)
    obtain ⟨B, hB, hBl⟩ : ∃ B, overChain (k + 1) = B ++ overChain k ∧ B.length = 24 := by
      cases k with
      | zero => exact ⟨overEnd, rfl, rfl⟩
      | succ n => exact ⟨overBlock (24 * (n + 3)), overChain_succ n, overBlock_length _⟩
    have c2 := overChain_ok k (X ++ overBlock (24 * (k + 3)) ++ B) m fuel (24 * (k + 1))
      (by rw [hm, List.append_assoc, List.append_assoc, ← hB, overChain_succ])
      (by rw [List.length_append, List.length_append, hl1, hBl]; omega)
      (by omega) (by omega) (by omega)
    rw [List.length_append, hl1] at c1
    rw [List.length_append, List.length_append, hl1, hBl] at c2
    have e48 : X.length + 24 + 24 = X.length + 48 := by omega
    rw [e48] at c2
    have hchild : ∀ d, 0 < d → d ≤ 24 * (k + 3) → 8 ∣ d → ∀ prev, prev < X.length + d →
        childAddr X.length (24 * (k + 3)) prev (X.length + d) .array = .ok true := by
      intro d d1 d2 d3 prev hp
      rw [childAddr_true]
      exact ⟨by omega, hp, by show 8 ∣ _; omega⟩
    have hloop : (validElemsN (validBufferN m fuel) m X.length (24 * (k + 3)) 2 0 X.length).1 = .ok true ∧
        overCalls (k + 1) + overCalls k ≤
          (validElemsN (validBufferN m fuel) m X.length (24 * (k + 3)) 2 0 X.length).2 := by
      unfold validElemsN
      rw [r3, rdThen_some]
      refine Counted.free_and_ge (hchild 24 (by omega) (by omega) (by omega) _ (by omega)) ?_
      have e : 24 * (k + 3) - (X.length + 24 - X.length) = 24 * (k + 2) := by omega
      dsimp only
      rw [e]
      suffices hi : (validElemsN (validBufferN m fuel) m X.length (24 * (k + 3)) 1 1 (X.length + 24)).1 =
          .ok true ∧ overCalls k ≤
          (validElemsN (validBufferN m fuel) m X.length (24 * (k + 3)) 1 1 (X.length + 24)).2 from
        Counted.and_ge c1.1 c1.2.1 hi.1 hi.2
      unfold validElemsN
      rw [r4, rdThen_some]
      refine Counted.free_and_ge (hchild 48 (by omega) (by omega) (by omega) _ (by omega)) ?_
      have e : 24 * (k + 3) - (X.length + 48 - X.length) = 24 * (k + 1) := by omega
      dsimp only
      rw [e]
      have := Counted.and_ge (b := fun _ =>
        validElemsN (validBufferN m fuel) m X.length (24 * (k + 3)) 0 (1 + 1) (X.length + 48)) (y := 0)
        c2.1 c2.2.1 rfl (Nat.zero_le _)
      exact this
    have h := validTableN_ge (bytes := bytes) (loop := fun total n =>
      validElemsN (validBufferN m fuel) m X.length total n 0 X.length) r1 r2 (by omega) (by omega)
      (fun i hi => by
        rcases (by omega : i = 0 ∨ i = 1) with rfl | rfl
        · exact ⟨_, r5⟩
        · exact ⟨_, r6⟩) hloop
    refine ⟨h.1, Nat.le_succ_of_le h.2, ?_⟩
    unfold decode
    have hr : List.range 2 = [0, 1] := rfl
    simp only [r2, r3, r4, Option.bind_eq_bind, Option.bind_some, hr, List.foldlM_cons, List.foldlM_nil,
      c1.2.2, c2.2.2, List.nil_append, overTree]
    rfl

/-! ### The root -/

theorem overRoot_reads {m Y : Bytes} {t : Nat} (hm : m = overRoot t ++ Y) (ht : t < 2 ^ 32) :
    readU m 4 0 = some t ∧ numElems m 0 = some 1 ∧ loadKey m 0 0 = some 16 ∧
    loadValue m 0 0 = some (.array, 24) ∧ entType m 0 0 = some .array ∧
    strv m .string 16 = some [] ∧ ∀ b, 3 ≤ b → validString m .string 16 b = .ok true := by
  have h1 : readU m 4 0 = some t := by
    rw [hm]; unfold overRoot; simp only [List.append_assoc]
    exact readU_mid [] _ 4 t _ rfl (by omega)
  have h2 : numElems m 0 = some 1 := by
    rw [hm]; unfold overRoot numElems; simp only [List.append_assoc]
    exact readU_mid (leBytes 4 t) _ 4 1 _ (by simp) (by decide)
  have e1 : m = (leBytes 4 t ++ leBytes 4 1) ++
      (arrEntry .array 16 ++ ([entryP0 []].map (fun _ => (leBytes 1 (entryLen [])).head!) ++
        [entryP0 [], entryP1 []] ++ (leBytes 2 0 ++ zeros 6 ++ Y))) := by
    rw [hm]; unfold overRoot objEntry arrEntry; simp only [List.append_assoc]; rfl
  obtain ⟨a1, a2⟩ := arrEntry_reads (base := 0) (idx := 0) e1 (by simp) (by decide)
  have e2 : m = (leBytes 4 t ++ leBytes 4 1 ++ objEntry .array 16 []) ++
      (encStr [] ++ (zeros 5 ++ Y)) := by
    rw [hm]; unfold overRoot; simp only [List.append_assoc]; rfl
  have hX : (leBytes 4 t ++ leBytes 4 1 ++ objEntry .array 16 []).length = 16 := by
    simp [objEntry]
  have hlen : readU m 2 16 = some 0 := by
    rw [e2]; unfold encStr; simp only [List.append_assoc]
    rw [← List.append_assoc, ← List.append_assoc] 
    exact readU_mid _ _ 2 0 _ hX.symm (by decide)
  have h3 : loadKey m 0 0 = some 16 := by simp [loadKey, a1]
  have hsz : findSizeof m .string 16 = some 3 := by
    unfold findSizeof
    simp [strWidth, hlen]
  have h4 : loadValue m 0 0 = some (.array, 24) := by
    simp [loadValue, a1, a2, afterKey, hsz]
    decide
  refine ⟨h1, h2, h3, h4, a2, ?_, ?_⟩
  · unfold strv
    simp [strWidth, hlen, readBytes]
    rw [e2]; simp [hX]; omega
  · intro b hb
    exact encStr_valid (t := .string) e2 hX (by decide) rfl (by show 3 ≤ b; exact hb)

theorem overBuffer_length (k : Nat) : (overBuffer k).length = 24 * (k + 2) := by
  unfold overBuffer
  rw [List.length_append, overRoot_length, overChain_length]
  omega

theorem overBuffer_ok (k : Nat) (hk : 24 * (k + 2) < 2 ^ 32) :
    isValid (overBuffer k) = .ok true ∧ overCalls k ≤ validSteps (overBuffer k) ∧
    definalize (overBuffer k) = some (.obj [([], overTree k)]) := by
  have hl := overBuffer_length k
  obtain ⟨r1, r2, r3, r4, r5, r6, r7⟩ := overRoot_reads (m := overBuffer k) (Y := overChain k)
    (t := 24 * (k + 2)) rfl hk
  generalize hm : overBuffer k = m at *
  have c := overChain_ok k (overRoot (24 * (k + 2))) m m.length (24 * (k + 1)) (by rw [← hm]; rfl)
    (by rw [overRoot_length]; omega) (Nat.le_refl _) (by omega) (by omega)
  rw [overRoot_length] at c
  have hloop : (validFieldsN (validBufferN m m.length) m 0 (24 * (k + 2)) 1 0 0).1 = .ok true ∧
      overCalls k ≤ (validFieldsN (validBufferN m m.length) m 0 (24 * (k + 2)) 1 0 0).2 := by
    unfold validFieldsN
    rw [r3, rdThen_some]
    refine Counted.free_and_ge (childAddr_true.2 ⟨by omega, by omega, by decide⟩) ?_
    have hs : (validBufferN m m.length .string 16 (24 * (k + 2) - (16 - 0))).1 = .ok true := by
      rw [validBufferN_fst]
      obtain ⟨f, hf⟩ : ∃ f, m.length = f + 1 := ⟨m.length - 1, by omega⟩
      rw [hf]
      exact r7 _ (by omega)
    suffices hi : ∀ c : Counted, c = (rdThen (loadValue m 0 0) fun tv =>
          (Counted.free (childAddr 0 (24 * (k + 2)) 16 tv.2 tv.1)).and fun _ =>
            (validBufferN m m.length tv.1 tv.2 (24 * (k + 2) - (tv.2 - 0))).and fun _ =>
              validFieldsN (validBufferN m m.length) m 0 (24 * (k + 2)) 0 (0 + 1) tv.2) →
        c.1 = .ok true ∧ overCalls k ≤ c.2 from by
      have := Counted.and_ge (x := 0) (y := overCalls k) hs (Nat.zero_le _) (b := fun _ =>
        rdThen (loadValue m 0 0) fun tv =>
          (Counted.free (childAddr 0 (24 * (k + 2)) 16 tv.2 tv.1)).and fun _ =>
            (validBufferN m m.length tv.1 tv.2 (24 * (k + 2) - (tv.2 - 0))).and fun _ =>
              validFieldsN (validBufferN m m.length) m 0 (24 * (k + 2)) 0 (0 + 1) tv.2) (hi _ rfl).1 (hi _ rfl).2
      exact ⟨this.1, Nat.le_trans (by omega) this.2⟩
    intro c' hc'
    rw [hc', r4, rdThen_some]
    refine Counted.free_and_ge (childAddr_true.2 ⟨by omega, by omega, by decide⟩) ?_
    have e : 24 * (k + 2) - (24 - 0) = 24 * (k + 1) := by omega
    dsimp only
    rw [e]
    exact Counted.and_ge c.1 c.2.1 (y := 0) rfl (Nat.zero_le _)
  have h := validTableN_ge (bytes := m.length) (loop := fun total n =>
    validFieldsN (validBufferN m m.length) m 0 total n 0 0) r1 r2 (by omega) (by omega)
    (fun i hi => by
      rcases (by omega : i = 0) with rfl
      exact ⟨_, r5⟩) hloop
  refine ⟨?_, ?_, ?_⟩
  · rw [← isValidN_fst]; exact h.1
  · exact Nat.le_succ_of_le h.2
  · unfold definalize decode
    have hr : List.range 1 = [0] := rfl
    simp only [r2, r3, r4, r6, Option.bind_eq_bind, Option.bind_some, hr, List.foldlM_cons, List.foldlM_nil,
      c.2.2, mapInsert]
    rfl

end Dart
