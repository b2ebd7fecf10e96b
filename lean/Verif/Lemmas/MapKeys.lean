import Verif.Lemmas.KeyAccess
import Verif.Lemmas.ContainerSame
import Verif.Spec.MapKeys

/-
Maps with keys that are not strings, and comparisons that always have an answer, also with finalized packets.
-/
namespace Dart
open Spec

variable {z signed : Bool}

/-! ### Comparisons have answers -/

theorem Held.eqNative {p : Pkt} {f : Bool} {v : Val} (h : Held z p ⟨f, v⟩) (x : Native) : p.eqNative x = (Pkt.heap v).eqNative x := by
  cases p with
  | heap u => obtain ⟨e, _⟩ := h; cases e; rfl
  | buf b =>
    obtain ⟨_, hs⟩ := h
    have ht : b.getType = v.getType := by rw [hs.getType, getType_eq]
    show b.eqNative x = v.eqNative x
    cases x with
    | null => simp only [Buf.eqNative, Val.eqNative, ht]
    | bool c =>
      simp only [Buf.eqNative, Val.eqNative, ht]
      by_cases h : v.getType = .boolean
      · rw [if_pos h, if_pos h, hs.boolean (by rintro i rfl; cases h) (by rintro i rfl; cases h)]
      · rw [if_neg h, if_neg h]
    | int t x => simp only [Buf.eqNative, Val.eqNative, ht, hs.integer, hs.decimal]
    | dbl e => simp only [Buf.eqNative, Val.eqNative, ht, hs.integer, hs.decimal]
    | str s => simp only [Buf.eqNative, Val.eqNative, ht, hs.strv']

theorem eqNative_answers {p : Pkt} {f : Bool} {v : Val} (h : Held z p ⟨f, v⟩) (x : Native) : ∃ r, p.eqNative x = .ok r := by
  rw [h.eqNative]; exact eqNative_total v x

section
variable {α : Type} {c : Pkt → α → Res Bool}

theorem eqAll_answers : ∀ {ps : List Pkt} {xs : List α}, ps.length = xs.length → (∀ p ∈ ps, ∀ x ∈ xs, ∃ r, c p x = .ok r) →
    ∃ r, eqAll c ps xs = .ok r
  | [], _, _, _ => ⟨_, rfl⟩
  | _ :: _, [], hl, _ => nomatch hl
  | p :: ps, x :: xs, hl, h => by
    obtain ⟨r, h1⟩ := h p (by simp) x (by simp)
    obtain ⟨r', h2⟩ := eqAll_answers (ps := ps) (xs := xs) (by simpa using hl) fun p hp x hx => h p (by simp [hp]) x (by simp [hx])
    rw [eqAll, h1, Res.bind_ok, h2]
    cases r <;> exact ⟨_, rfl⟩

theorem takeEqual_answers {p : Pkt} : ∀ {xs : List α}, (∀ x ∈ xs, ∃ r, c p x = .ok r) →
    ∃ rs, takeEqual c p xs = .ok rs ∧ ∀ ys ∈ rs, ∀ y ∈ ys, y ∈ xs
  | [], _ => ⟨[], rfl, by simp⟩
  | x :: xs, h => by
    obtain ⟨r, h1⟩ := h x (by simp)
    obtain ⟨rs, h2, h3⟩ := takeEqual_answers (xs := xs) fun x hx => h x (by simp [hx])
    refine ⟨_, by rw [takeEqual, h1, Res.bind_ok, h2, Res.bind_ok], ?_⟩
    have hm : ∀ ys ∈ rs.map (x :: ·), ∀ y ∈ ys, y ∈ x :: xs := by
      intro ys hys y hy
      obtain ⟨zs, hz, rfl⟩ := List.mem_map.1 hys
      rcases List.mem_cons.1 hy with rfl | hy
      · simp
      · exact List.mem_cons_of_mem _ (h3 zs hz y hy)
    cases r with
    | false => exact hm
    | true =>
      intro ys hys
      rcases List.mem_cons.1 hys with rfl | hys
      · exact fun y hy => List.mem_cons_of_mem _ hy
      · exact hm ys hys

theorem anyRes_answers {β : Type} {g : β → Res Bool} : ∀ {xs : List β}, (∀ x ∈ xs, ∃ r, g x = .ok r) → ∃ r, anyRes g xs = .ok r
  | [], _ => ⟨_, rfl⟩
  | x :: xs, h => by
    obtain ⟨r, h1⟩ := h x (by simp)
    obtain ⟨r', h2⟩ := anyRes_answers (xs := xs) fun x hx => h x (by simp [hx])
    rw [anyRes, h1, Res.bind_ok, h2]
    cases r <;> exact ⟨_, rfl⟩

theorem permutes_answers : ∀ {ps : List Pkt} {xs : List α}, (∀ p ∈ ps, ∀ x ∈ xs, ∃ r, c p x = .ok r) → ∃ r, permutes c ps xs = .ok r
  | [], _, _ => ⟨_, rfl⟩
  | p :: ps, xs, h => by
    obtain ⟨rs, h1, h2⟩ := takeEqual_answers (c := c) (p := p) (xs := xs) (h p (by simp))
    rw [permutes, h1, Res.bind_ok]
    exact anyRes_answers fun ys hys => permutes_answers fun p hp x hx => h p (by simp [hp]) x (h2 ys hys x hx)

theorem callEach_answers {p : Pkt} : ∀ {xs : List α}, (∀ x ∈ xs, ∃ r, c p x = .ok r) → callEach c p xs = .ok ()
  | [], _ => rfl
  | x :: xs, h => by
    obtain ⟨r, h1⟩ := h x (by simp)
    rw [callEach, h1, Res.bind_ok, callEach_answers fun x hx => h x (by simp [hx])]

theorem callAll_answers : ∀ {ps : List Pkt} {xs : List α}, (∀ p ∈ ps, ∀ x ∈ xs, ∃ r, c p x = .ok r) → callAll c ps xs = .ok ()
  | [], _, _ => rfl
  | p :: ps, xs, h => by
    rw [callAll, callEach_answers (h p (by simp)), Res.bind_ok, callAll_answers fun p hp x hx => h p (by simp [hp]) x hx]

theorem isPermutation_answers {ps : List Pkt} {xs : List α} (h : ∀ p ∈ ps, ∀ x ∈ xs, ∃ r, c p x = .ok r) :
    ∃ r, isPermutation c ps xs = .ok r := by
  rw [isPermutation, callAll_answers h, Res.bind_ok]
  exact permutes_answers h

end

theorem each_left {α β : Type} {R : α → β → Prop} : ∀ {xs : List α} {ys : List β}, Each R xs ys → ∀ x ∈ xs, ∃ y ∈ ys, R x y
  | [], [], _, x, hx => nomatch hx
  | a :: xs, b :: ys, h, x, hx => by
    rcases List.mem_cons.1 hx with rfl | hx
    · exact ⟨b, by simp, h.1⟩
    · obtain ⟨y, hy, hr⟩ := each_left (xs := xs) (ys := ys) h.2 x hx
      exact ⟨y, by simp [hy], hr⟩
  | [], _ :: _, h, _, _ => h.elim
  | _ :: _, [], h, _, _ => h.elim

theorem sized_answers {p : Pkt} {f : Bool} {v : Val} {n : Nat} {c : List Pkt → Res Bool} (h : Held z p ⟨f, v⟩)
    (hc : ∀ ps es, ps.length = n → Each (fun q e => Held z q ⟨f, e⟩) ps es → ∃ r, c ps = .ok r) : ∃ r, sized p n c = .ok r := by
  have ht := h.getType
  cases v with
  | arr es =>
    obtain ⟨ps, h1, h2⟩ := h.elems
    have hs : p.size = .ok es.length := h.size
    rw [sized, if_neg (by rw [ht]; simp [Val.ty]), hs, Res.bind_ok]
    by_cases hl : es.length = n
    · rw [if_neg (by simp [hl]), h1, Res.bind_ok]
      exact hc ps es (by rw [h2.length]; exact hl) h2
    · rw [if_pos hl]; exact ⟨_, rfl⟩
  | _ => exact ⟨false, by rw [sized, if_pos (by rw [ht]; simp [Val.ty])]⟩

theorem eqFields_answers {α : Type} {c : Pkt → α → Res Bool} {p : Pkt} {f : Bool} {fs : List (Bytes × Val)} (h : Held z p ⟨f, .obj fs⟩) :
    ∀ {m : List (Bytes × α)}, (∀ q w, Held z q ⟨f, w⟩ → ∀ e ∈ m, ∃ r, c q e.2 = .ok r) → ∃ r, eqFields signed c p m = .ok r
  | [], _ => ⟨_, rfl⟩
  | (k, x) :: m, hc => by
    obtain ⟨r, q, h1, _, h3⟩ := h.getKey (signed := signed) k
    obtain ⟨b, h4⟩ := hc q _ h3 (k, x) (by simp)
    obtain ⟨b', h5⟩ := eqFields_answers h (m := m) fun q w hq e he => hc q w hq e (by simp [he])
    rw [eqFields, h1, Res.bind_ok, h4, Res.bind_ok, h5]
    cases b <;> exact ⟨_, rfl⟩

theorem eqGroups_answers {α : Type} {c : Pkt → α → Res Bool} {p : Pkt} {f : Bool} {fs : List (Bytes × Val)} (h : Held z p ⟨f, .obj fs⟩) :
    ∀ {gs : List (Bytes × List α)}, (∀ q w, Held z q ⟨f, w⟩ → ∀ g ∈ gs, ∀ x ∈ g.2, ∃ r, c q x = .ok r) →
      ∃ r, eqGroups signed c p gs = .ok r
  | [], _ => ⟨_, rfl⟩
  | (k, xs) :: gs, hc => by
    obtain ⟨r, q, h1, _, h3⟩ := h.getKey (signed := signed) k
    obtain ⟨b', h5⟩ := eqGroups_answers h (gs := gs) fun q w hq e he => hc q w hq e (by simp [he])
    rw [eqGroups, h1, Res.bind_ok]
    generalize r.getD .null = w at h3
    have ht := h3.getType
    cases w with
    | arr es =>
      obtain ⟨ps, g1, g2⟩ := h3.elems
      have hs : q.size = .ok es.length := h3.size
      rw [if_neg (by rw [ht]; simp [Val.ty]), hs, Res.bind_ok]
      by_cases hl : es.length = xs.length
      · obtain ⟨b, h6⟩ := isPermutation_answers (c := c) (ps := ps) (xs := xs) fun q hq x hx => by
          obtain ⟨e, _, he⟩ := each_left g2 q hq
          exact hc q e he (k, xs) (by simp) x hx
        rw [if_neg (by simp [hl]), g1, Res.bind_ok, h6, Res.bind_ok, h5]
        cases b <;> exact ⟨_, rfl⟩
      · rw [if_pos hl]; exact ⟨_, rfl⟩
    | _ => exact ⟨false, by rw [if_pos (by rw [ht]; simp [Val.ty])]⟩

mutual
/-- Without `forward_list`s, comparing always has an answer, also with finalized packets. -/
theorem compare_answers : ∀ (t : CTy) {p : Pkt} {f : Bool} {v : Val} (x : t.type), Held z p ⟨f, v⟩ → NoForward t → Fit t x →
    ∃ r, t.compare signed p x = .ok r
  | .scalar s, p, f, v, x, h, _, _ => eqNative_answers h _
  | .seq t, p, f, v, (xs : List t.type), h, hn, hf => by
    replace hf : xs.length ≤ 2 ^ 58 ∧ ∀ x ∈ xs, Fit t x := hf
    exact sized_answers h fun ps es hl he => eqAll_answers hl fun q hq x hx => by
      obtain ⟨e, _, hr⟩ := each_left he q hq
      exact compare_answers t x hr hn (hf.2 x hx)
  | .array t n, p, f, v, (xs : List t.type), h, hn, hf => by
    replace hf : xs.length = n ∧ n ≤ 2 ^ 58 ∧ ∀ x ∈ xs, Fit t x := hf
    exact sized_answers h fun ps es hl he => eqAll_answers (hl.trans hf.1.symm) fun q hq x hx => by
      obtain ⟨e, _, hr⟩ := each_left he q hq
      exact compare_answers t x hr hn (hf.2.2 x hx)
  | .set s _, p, f, v, (xs : List s.type), h, _, _ => sized_answers h fun ps es _ he => isPermutation_answers fun q hq x _ => by
      obtain ⟨e, _, hr⟩ := each_left he q hq
      exact eqNative_answers hr _
  | .mset s _, p, f, v, (xs : List s.type), h, _, _ => sized_answers h fun ps es _ he => isPermutation_answers fun q hq x _ => by
      obtain ⟨e, _, hr⟩ := each_left he q hq
      exact eqNative_answers hr _
  | .map less t, p, f, v, (m : List (Bytes × t.type)), h, hn, hf => by
    replace hf : m.Pairwise (fun a b => less a.1 b.1 = true) ∧ ∀ e ∈ m, e.1.length ≤ 65535 ∧ Fit t e.2 := hf
    show ∃ r, (if p.getType ≠ .object then Res.ok false
      else p.size.bind fun n => if n ≠ m.length then .ok false else eqFields signed (t.compare signed) p m) = .ok r
    have ht := h.getType
    cases v with
    | obj fs =>
      have hs : p.size = .ok fs.length := h.size
      rw [if_neg (by rw [ht]; simp [Val.ty]), hs, Res.bind_ok]
      by_cases hl : fs.length = m.length
      · rw [if_neg (by simp [hl])]
        exact eqFields_answers h fun q w hq e he => compare_answers t e.2 hq hn (hf.2 e he).2
      · rw [if_pos hl]; exact ⟨_, rfl⟩
    | _ => exact ⟨false, by rw [if_pos (by rw [ht]; simp [Val.ty])]⟩
  | .mmap less t, p, f, v, (m : List (Bytes × t.type)), h, hn, hf => by
    replace hf : m.length ≤ 2 ^ 58 ∧ m.Pairwise (fun a b => less b.1 a.1 = false) ∧ ∀ e ∈ m, e.1.length ≤ 65535 ∧ Fit t e.2 := hf
    show ∃ r, (if p.getType ≠ .object then Res.ok false else eqGroups signed (t.compare signed) p (runs less m)) = .ok r
    have ht := h.getType
    cases v with
    | obj fs =>
      rw [if_neg (by rw [ht]; simp [Val.ty])]
      exact eqGroups_answers h fun q w hq g hg x hx => by
        obtain ⟨e, he, rfl⟩ := runs_mem hg x hx
        exact compare_answers t e.2 hq hn (hf.2.2 e he).2
    | _ => exact ⟨false, by rw [if_pos (by rw [ht]; simp [Val.ty])]⟩
  | .opt t, p, f, v, none, _, _, _ => ⟨_, rfl⟩
  | .opt t, p, f, v, some x, h, hn, hf => compare_answers t x h hn hf
  | .pair a b, p, f, v, (x, y), h, hn, hf => by
    rw [CTy.compare]
    have ht := h.getType
    cases v with
    | arr es =>
      have hs : p.size = .ok es.length := h.size
      obtain ⟨q, h1, h2⟩ := h.getIdx (signed := signed) 0
      obtain ⟨q', h3, h4⟩ := h.getIdx (signed := signed) 1
      obtain ⟨r, h5⟩ := compare_answers a x h2 hn.1 hf.1
      obtain ⟨r', h6⟩ := compare_answers b y h4 hn.2 hf.2
      rw [if_neg (by rw [ht]; simp [Val.ty]), hs, Res.bind_ok, h1, Res.bind_ok, h5, Res.bind_ok, h3, Res.bind_ok, h6]
      by_cases hl : es.length = 2
      · rw [if_neg (by simp [hl])]
        cases r <;> exact ⟨_, rfl⟩
      · rw [if_pos hl]; exact ⟨_, rfl⟩
    | _ => exact ⟨false, by rw [if_pos (by rw [ht]; simp [Val.ty])]⟩
  | .tuple ts, p, f, v, (xs : ts.prod), h, hn, hf => sized_answers h fun ps es hl he => compares_answers ts xs he hn hf.2 hl
  | .variant ts, p, f, v, x, h, hn, hf => compareAlt_answers ts x h hn hf
theorem compares_answers : ∀ (ts : CTys) {ps : List Pkt} {f : Bool} {es : List Val} (xs : ts.prod),
    Each (fun q e => Held z q ⟨f, e⟩) ps es → NoForwardAll ts → FitAll ts xs → ps.length = ts.length →
    ∃ r, ts.compares signed ps xs = .ok r
  | .nil, _, _, _, _, _, _, _, _ => ⟨_, rfl⟩
  | .cons t ts, p :: ps, f, e :: es, (x, xs), h, hn, hf, hl => by
    obtain ⟨r, h1⟩ := compare_answers t x h.1 hn.1 hf.1
    obtain ⟨s, h2⟩ := compares_answers ts xs (ps := ps) (es := es) h.2 hn.2 hf.2 (by simpa [CTys.length] using hl)
    rw [CTys.compares, h1, Res.bind_ok, h2]
    cases r <;> exact ⟨_, rfl⟩
  | .cons _ _, _ :: _, _, [], _, h, _, _, _ => h.elim
  | .cons _ _, [], _, _, _, _, _, _, hl => by simp [CTys.length] at hl
theorem compareAlt_answers : ∀ (ts : CTys) {p : Pkt} {f : Bool} {v : Val} (x : ts.sum), Held z p ⟨f, v⟩ → NoForwardAll ts → FitAlt ts x →
    ∃ r, ts.compareAlt signed p x = .ok r
  | .nil, _, _, _, x, _, _, _ => nomatch x
  | .cons t _, _, _, _, .inl x, h, hn, hf => compare_answers t x h hn.1 hf
  | .cons _ ts, _, _, _, .inr x, h, hn, hf => compareAlt_answers ts x h hn.2 hf
end

/-! ### Keys that are strings -/

namespace KMap

theorem addAll_str {α : Type} (f : α → Res Val) : ∀ (obj : Val) (m : List (Bytes × α)), addAll .str f obj m = Dart.addAll f obj m
  | _, [] => rfl
  | obj, (k, x) :: m => by
    show (f x).bind (fun v => (obj.insert (.str k) v).bind fun o => addAll .str f o m) =
      (f x).bind fun v => (obj.insert (.str k) v).bind fun o => Dart.addAll f o m
    congr 1; funext v
    congr 1; funext o
    exact addAll_str f o m

theorem accumPush_str (less : Bytes → Bytes → Bool) (k : Bytes) (v : Val) : ∀ acc : List (Bytes × Val),
    accumPush .str less k v acc = Dart.accumPush less k v acc
  | [] => rfl
  | (k', a) :: r => by
    have ih : accumPush .str less k v r = Dart.accumPush less k v r := accumPush_str less k v r
    show (if less k' k then (accumPush .str less k v r).bind fun r => .ok ((k', a) :: r)
      else if less k k' then ((Val.arr []).pushBack v).bind fun b => .ok ((k, b) :: (k', a) :: r)
      else (a.pushBack v).bind fun a => .ok ((k', a) :: r)) = _
    rw [ih]
    rfl

theorem accumAll_str {α : Type} (less : Bytes → Bytes → Bool) (f : α → Res Val) : ∀ (acc : List (Bytes × Val)) (m : List (Bytes × α)),
    accumAll .str less f acc m = Dart.accumAll less f acc m
  | _, [] => rfl
  | acc, (k, x) :: m => by
    show (f x).bind (fun v => (accumPush .str less k v acc).bind fun o => accumAll .str less f o m) =
      (f x).bind fun v => (Dart.accumPush less k v acc).bind fun o => Dart.accumAll less f o m
    congr 1; funext v
    have e : accumPush .str less k v acc = Dart.accumPush less k v acc := accumPush_str less k v acc
    rw [e]
    congr 1; funext o
    exact accumAll_str less f o m

theorem castKey_str (k : Pkt) : castKey .str k = k.strv := by
  have h : ∀ r : Res Bytes, (r.bind fun s => Res.ok (Native.str s)).bind (NativeTy.str.extract) = r := by
    intro r; cases r <;> rfl
  cases k with
  | heap v => exact (h v.strv).trans (by cases v <;> rfl)
  | buf b => exact h b.strv

theorem emplaceFields_str {α : Type} (less : Bytes → Bytes → Bool) (f : Pkt → Res α) : ∀ (acc : List (Bytes × α)) (ks vs : List Pkt),
    emplaceFields .str less f acc ks vs = Dart.emplaceFields less f acc ks vs
  | _, [], _ => rfl
  | _, _ :: _, [] => rfl
  | acc, k :: ks, v :: vs => by
    show (castKey .str k).bind (fun k : Bytes => (f v).bind fun x =>
      emplaceFields .str less f (emplace less (·.1) (k, x) acc) ks vs) =
      k.strv.bind fun k => (f v).bind fun x => Dart.emplaceFields less f (emplace less (·.1) (k, x) acc) ks vs
    have e : (castKey .str k : Res Bytes) = k.strv := castKey_str k
    rw [e]
    congr 1; funext k
    congr 1; funext x
    exact emplaceFields_str less f _ ks vs

theorem emplaceGroups_str {α : Type} (less : Bytes → Bytes → Bool) (f : Pkt → Res α) : ∀ (acc : List (Bytes × α)) (ks vs : List Pkt),
    emplaceGroups .str less f acc ks vs = Dart.emplaceGroups less f acc ks vs
  | _, [], _ => rfl
  | _, _ :: _, [] => rfl
  | acc, k :: ks, v :: vs => by
    show (castKey .str k).bind (fun k : Bytes => (Dart.emplaceField less f acc k v).bind fun acc =>
      emplaceGroups .str less f acc ks vs) =
      k.strv.bind fun k => (Dart.emplaceField less f acc k v).bind fun acc => Dart.emplaceGroups less f acc ks vs
    have e : (castKey .str k : Res Bytes) = k.strv := castKey_str k
    rw [e]
    congr 1; funext k
    congr 1; funext x
    exact emplaceGroups_str less f _ ks vs

theorem eqFields_str {α : Type} (c : Pkt → α → Res Bool) (p : Pkt) : ∀ m : List (Bytes × α),
    eqFields .str signed c p m = Dart.eqFields signed c p m
  | [] => rfl
  | (k, x) :: m => by
    have ih : eqFields .str signed c p m = Dart.eqFields signed c p m := eqFields_str c p m
    show (PRead.run signed p (.get k)).bind (fun q => (c q x).bind fun r => if r then eqFields .str signed c p m else .ok false) = _
    rw [ih]
    rfl

theorem runs_str {α : Type} (less : Bytes → Bytes → Bool) : ∀ m : List (Bytes × α), runs less m = Dart.runs less m
  | [] => rfl
  | (k, x) :: m => by
    rw [runs, Dart.runs, runs_str less m]
    cases Dart.runs less m <;> rfl

theorem eqGroups_str {α : Type} (c : Pkt → α → Res Bool) (p : Pkt) : ∀ m : List (Bytes × List α),
    eqGroups .str signed c p m = Dart.eqGroups signed c p m
  | [] => rfl
  | (k, xs) :: gs => by
    have ih : eqGroups .str signed c p gs = Dart.eqGroups signed c p gs := eqGroups_str c p gs
    show (PRead.run signed p (.get k)).bind (fun q =>
      if q.getType ≠ .array then .ok false
      else q.size.bind fun n => if n ≠ xs.length then .ok false else
        q.values.bind fun vs => (isPermutation c vs xs).bind fun r => if r then eqGroups .str signed c p gs else .ok false) = _
    rw [ih]
    rfl

/-! ### Keys that are not -/

variable {s : NativeTy}

theorem insert_throws (hs : Plain s) (k : s.type) (fs : List (Bytes × Val)) (v : Val) :
    (Val.obj fs).insert (s.inject k).toDart v = .throw .typeError := by
  cases s with
  | str => exact absurd rfl hs.1
  | null => exact absurd rfl hs.2
  | bool => rfl
  | int t => rfl
  | dbl => rfl

theorem find_throws (hs : Plain s) {p : Pkt} {f : Bool} {fs : List (Bytes × Val)} (h : Held z p ⟨f, .obj fs⟩) (k : s.type) :
    find signed p s k = .throw .typeError := by
  have kw : ∀ {w : Val}, w.WF → Held z (.heap w) ⟨false, w⟩ := fun hw => ⟨rfl, hw⟩
  cases s with
  | str => exact absurd rfl hs.1
  | null => exact absurd rfl hs.2
  | bool => exact getBy_other (kw (w := .bool k) (by simp [Val.WF])) (by simp) (by simp)
  | dbl => exact getBy_other (kw (w := .dec k) (by simp [Val.WF])) (by simp) (by simp)
  | int t =>
    show p.getBy signed (.heap (.int (BitVec.ofInt 64 k))) = _
    rw [getBy_int (kw (w := .int (BitVec.ofInt 64 k)) (by simp [Val.WF])) rfl]
    exact read_throw h _ (.inr ⟨_, rfl, by simp⟩)

theorem Held_keyPkts {f : Bool} {p : Pkt} {fs : List (Bytes × Val)} (h : Held z p ⟨f, .obj fs⟩) :
    ∃ ks, p.keys = .ok ks ∧ Each (fun k g => Held z k ⟨f, .str g.1⟩) ks fs := by
  cases p with
  | heap v =>
    obtain ⟨e, hw⟩ := h
    cases e
    rw [wf_obj] at hw
    refine ⟨fs.map fun x => .heap (.str x.1), ?_, each_map_left (each_refl fun v hv => ⟨rfl, ?_⟩)⟩
    · simp [Pkt.keys, Pkt.size, Pkt.visit, Val.size, Val.keys, Res.bind, Function.comp_def]
    · have := (hw.2 v hv).1
      simp only [Val.WF]
      omega
  | buf b =>
    obtain ⟨rfl, h⟩ := h
    simp only at h
    obtain ⟨ks, g1, g2, g3⟩ := h.keys
    refine ⟨ks.map .buf, ?_, each_map_left (each_of_getElem g2 fun i a b => ⟨rfl, g3 i a b⟩)⟩
    simp [Pkt.keys, Pkt.size, Pkt.visit, h.size, g1, Val.size, Res.bind]

theorem castKey_throws (hs : Plain s) (hb : s ≠ .bool) {k : Pkt} {f : Bool} {key : Bytes} (h : Held z k ⟨f, .str key⟩) :
    castKey s k = .throw .typeError := by
  rw [castKey, h.toNative]
  cases s with
  | str => exact absurd rfl hs.1
  | null => exact absurd rfl hs.2
  | bool => exact absurd rfl hb
  | int t => rfl
  | dbl => rfl

theorem castKey_bool {k : Pkt} {f : Bool} {key : Bytes} (h : Held z k ⟨f, .str key⟩) : castKey .bool k = .ok true := by
  rw [castKey, h.toNative]
  rfl

theorem emplaceFields_step {α : Type} {less : s.type → s.type → Bool} {f : Pkt → Res α} {acc : List (s.type × α)} {k v : Pkt}
    {ks vs : List Pkt} {a : s.type} {x : α} (h1 : castKey s k = .ok a) (h2 : f v = .ok x) :
    emplaceFields s less f acc (k :: ks) (v :: vs) = emplaceFields s less f (emplace less (·.1) (a, x) acc) ks vs := by
  rw [emplaceFields, h1, Res.bind_ok, h2, Res.bind_ok]

theorem pushBack_arr (es : List Val) (v : Val) :
    (∃ e, (Val.arr es).pushBack v = .throw e) ∨ ∃ es', (Val.arr es).pushBack v = .ok (.arr es') := by
  show (∃ e, (Val.arr es).insert (.int (BitVec.ofNat 64 es.length)) v = .throw e) ∨
    ∃ es', (Val.arr es).insert (.int (BitVec.ofNat 64 es.length)) v = .ok (.arr es')
  have h : ¬ (BitVec.ofNat 64 es.length).toNat > es.length := by
    rw [BitVec.toNat_ofNat]; exact Nat.not_lt.2 (Nat.mod_le ..)
  simp only [Val.insert, if_neg h]
  split
  · exact .inl ⟨_, rfl⟩
  · exact .inr ⟨_, rfl⟩

theorem accumPush_ne (less : s.type → s.type → Bool) (k : s.type) (v : Val) :
    ∀ {acc : List (s.type × Val)}, (∀ e ∈ acc, ∃ es, e.2 = .arr es) →
      (∃ e, accumPush s less k v acc = .throw e) ∨
      ∃ acc', accumPush s less k v acc = .ok acc' ∧ acc' ≠ [] ∧ ∀ e ∈ acc', ∃ es, e.2 = .arr es
  | [], _ => .inr ⟨[(k, .arr [v])], rfl, by simp, by simp⟩
  | (k', a) :: r, h => by
    obtain ⟨es, rfl⟩ : ∃ es, a = .arr es := h (k', a) (by simp)
    rw [accumPush]
    split
    · rcases accumPush_ne less k v (acc := r) fun e he => h e (by simp [he]) with ⟨e, h1⟩ | ⟨acc', h1, h2, h3⟩
      · exact .inl ⟨e, by rw [h1]; rfl⟩
      refine .inr ⟨(k', .arr es) :: acc', by rw [h1]; rfl, by simp, ?_⟩
      intro e he
      rcases List.mem_cons.1 he with rfl | he
      · exact ⟨es, rfl⟩
      · exact h3 e he
    · split
      · refine .inr ⟨(k, .arr [v]) :: (k', .arr es) :: r, rfl, by simp, ?_⟩
        intro e he
        rcases List.mem_cons.1 he with rfl | he
        · exact ⟨_, rfl⟩
        · exact h e he
      · rcases pushBack_arr es v with ⟨e, h1⟩ | ⟨es', he'⟩
        · exact .inl ⟨e, by rw [h1]; rfl⟩
        refine .inr ⟨(k', .arr es') :: r, by rw [he']; rfl, by simp, ?_⟩
        intro e he
        rcases List.mem_cons.1 he with rfl | he
        · exact ⟨_, rfl⟩
        · exact h e (by simp [he])

theorem accumAll_ne (less : s.type → s.type → Bool) {t : CTy} (ho : OrdersIn t) : ∀ {m : Elems s t}, (∀ e ∈ m, Fit t e.2) →
    ∀ {acc : List (s.type × Val)}, (∀ e ∈ acc, ∃ es, e.2 = .arr es) →
      (∃ e, accumAll s less t.toDart acc m = .throw e) ∨
      ∃ acc', accumAll s less t.toDart acc m = .ok acc' ∧ (acc ≠ [] ∨ m ≠ [] → acc' ≠ [])
  | [], _, acc, _ => .inr ⟨acc, rfl, by simp⟩
  | (k, x) :: m, hf, acc, ha => by
    obtain ⟨v, h1, _⟩ := toDart_ok t x (hf (k, x) (by simp)) ho
    rw [accumAll, h1, Res.bind_ok]
    rcases accumPush_ne less k v ha with ⟨e, h2⟩ | ⟨acc1, h2, h3, h4⟩
    · exact .inl ⟨e, by rw [h2]; rfl⟩
    rw [h2, Res.bind_ok]
    rcases accumAll_ne less ho (m := m) (fun e he => hf e (by simp [he])) h4 with h5 | ⟨acc2, h5, h6⟩
    · exact .inl h5
    exact .inr ⟨acc2, h5, fun _ => h6 (.inl h3)⟩

theorem runs_ne {κ α : Type} (less : κ → κ → Bool) (e : κ × α) (m : List (κ × α)) : ∃ g gs, runs less (e :: m) = g :: gs := by
  obtain ⟨k, x⟩ := e
  rw [runs]
  split
  · exact ⟨_, _, rfl⟩
  · split <;> exact ⟨_, _, rfl⟩

end KMap
end Dart
