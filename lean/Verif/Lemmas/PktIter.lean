import Verif.Lemmas.AbiCalls
import Verif.Lemmas.Iter
import Verif.Spec.PktIter

namespace Dart
open Spec

variable {z : Bool}

/-! ### Lists related item by item -/

theorem Spec.Each.get {α β : Type} {R : α → β → Prop} : ∀ {xs : List α} {ys : List β}, Each R xs ys → ∀ {i : Nat} {y : β},
    ys[i]? = some y → ∃ x, xs[i]? = some x ∧ R x y
  | [], [], _, i, y, h => by simp at h
  | x :: xs, y :: ys, h, 0, w, hw => by simp at hw; subst hw; exact ⟨x, by simp, h.1⟩
  | x :: xs, y :: ys, h, i + 1, w, hw => by
    obtain ⟨a, h1, h2⟩ := Each.get h.2 (i := i) (by simpa using hw)
    exact ⟨a, by simpa using h1, h2⟩
  | [], _ :: _, h, _, _, _ => h.elim
  | _ :: _, [], h, _, _, _ => h.elim

theorem Spec.Each.set {α β : Type} {R : α → β → Prop} : ∀ {xs : List α} {ys : List β}, Each R xs ys → ∀ (i : Nat) {x : α} {y : β},
    R x y → Each R (xs.set i x) (ys.set i y)
  | [], [], _, _, _, _, _ => trivial
  | _ :: _, _ :: _, h, 0, _, _, hr => ⟨hr, h.2⟩
  | _ :: _, _ :: _, h, i + 1, _, _, hr => ⟨h.1, Each.set h.2 i hr⟩
  | [], _ :: _, h, _, _, _, _ => h.elim
  | _ :: _, [], h, _, _, _, _ => h.elim

theorem Spec.Each.snoc {α β : Type} {R : α → β → Prop} {xs : List α} {ys : List β} {x : α} {y : β} (h : Each R xs ys) (hr : R x y) :
    Each R (xs ++ [x]) (ys ++ [y]) := h.append ⟨hr, trivial⟩

/-! ### Iterators and positions -/

/-- How an iterator of a value loads its items. -/
def loaderOf : Val → Bool → Loader
  | _, true => .key
  | .arr _, false => .elem
  | _, false => .value

/-- A finalized packet and what an iterator over it sees. -/
structure Walks (z : Bool) (b : Buf) (v : Val) (keys : Bool) (l : List Val) (p : Nat) : Prop where
  shows : Shows z b v
  items : itemsOf v keys = some l
  addr : b.addr = some p
  sees : Sees z b p (loaderOf v keys) l
  small : l.length < 2 ^ 29

/-- An iterator is at the position. -/
def ItOk (z : Bool) (ps : List Pkt) (ss : List PState) : PIter → APos → Prop
  | .heap none, .blank f => f = false
  | .buf none, .blank f => f = true
  | .heap (some it), .at x keys pos => ∃ v l, ss[x]? = some ⟨false, v⟩ ∧ it = ⟨v, pos, loaderOf v keys⟩ ∧
      itemsOf v keys = some l ∧ pos ≤ l.length
  | .buf (some it), .at x keys pos => ∃ b v l p, ps[x]? = some (.buf b) ∧ ss[x]? = some ⟨true, v⟩ ∧ Walks z b v keys l p ∧
      it = ⟨b, pos, p, loaderOf v keys⟩ ∧ pos ≤ l.length
  | _, _ => False

variable {ps : List Pkt} {ss : List PState}

theorem ItOk.fin {it : PIter} {a : APos} (h : ItOk z ps ss it a) : ∃ f, a.fin ss = some f ∧ ItOk z ps ss it.moved (.blank f) := by
  cases it with
  | heap o => cases o with
    | none => cases a with
      | blank f => exact ⟨f, rfl, h⟩
      | «at» x k p => exact h.elim
    | some it => cases a with
      | blank f => exact h.elim
      | «at» x k p =>
        obtain ⟨v, l, h1, _⟩ := h
        exact ⟨false, by simp [APos.fin, h1], rfl⟩
  | buf o => cases o with
    | none => cases a with
      | blank f => exact ⟨f, rfl, h⟩
      | «at» x k p => exact h.elim
    | some it => cases a with
      | blank f => exact h.elim
      | «at» x k p =>
        obtain ⟨b, v, l, q, h0, h1, _⟩ := h
        exact ⟨true, by simp [APos.fin, h1], rfl⟩

theorem heapIter_last {v : Val} {keys : Bool} {l : List Val} (h : itemsOf v keys = some l) (pos : Nat) (ld : Loader) :
    (HeapIter.mk v pos ld).last = l.length := by
  cases v <;> cases keys <;> simp [itemsOf] at h <;> subst h <;> simp [HeapIter.last]

theorem heapIter_deref {v : Val} {keys : Bool} {l : List Val} (h : itemsOf v keys = some l) {pos : Nat} {w : Val} (hw : l[pos]? = some w) :
    (HeapIter.mk v pos (loaderOf v keys)).deref = .ok w := by
  cases v <;> cases keys <;> simp [itemsOf] at h <;> subst h
  · simp [HeapIter.deref, hw, Res.ofRead]
  · simp only [List.getElem?_map] at hw
    simp [HeapIter.deref, hw, Res.ofRead, loaderOf]
  · simp only [List.getElem?_map] at hw
    simp [HeapIter.deref, hw, Res.ofRead, loaderOf]

theorem ItOk.next {it : PIter} {a a' : APos} (h : ItOk z ps ss it a) (ha : a.next ss = some a') :
    ∃ it', it.incr = .ok it' ∧ ItOk z ps ss it' a' := by
  cases a with
  | blank f => cases ha
  | «at» x k p =>
    cases it with
    | heap o => cases o with
      | none => exact h.elim
      | some it =>
        obtain ⟨v, l, h1, rfl, h2, h3⟩ := h
        simp only [APos.next, itemsAt, h1, Option.bind_some, h2] at ha
        split at ha
        · rename_i hlt
          cases ha
          refine ⟨.heap (some ⟨v, p + 1, loaderOf v k⟩), ?_, v, l, h1, rfl, h2, hlt⟩
          simp only [PIter.incr, HeapIter.incr, heapIter_last h2, if_pos hlt, Res.bind_ok]
        · cases ha
    | buf o => cases o with
      | none => exact h.elim
      | some it =>
        obtain ⟨b, v, l, q, h0, h1, hw, rfl, h3⟩ := h
        simp only [APos.next, itemsAt, h1, Option.bind_some, hw.items] at ha
        split at ha
        · rename_i hlt
          cases ha
          have := hw.small
          have hm : (p + 1) % 2 ^ 64 = p + 1 := Nat.mod_eq_of_lt (by omega)
          exact ⟨_, rfl, b, v, l, q, h0, h1, hw, by simp [BufIter.incr, LLIter.incr, hm], hlt⟩
        · cases ha

theorem ItOk.prev {it : PIter} {a a' : APos} (h : ItOk z ps ss it a) (ha : a.prev = some a') :
    ∃ it', it.decr = .ok it' ∧ ItOk z ps ss it' a' := by
  cases a with
  | blank f => cases ha
  | «at» x k p =>
    simp only [APos.prev] at ha
    split at ha
    · rename_i hlt
      cases ha
      cases it with
      | heap o => cases o with
        | none => exact h.elim
        | some it =>
          obtain ⟨v, l, h1, rfl, h2, h3⟩ := h
          refine ⟨.heap (some ⟨v, p - 1, loaderOf v k⟩), ?_, v, l, h1, rfl, h2, by omega⟩
          simp only [PIter.decr, HeapIter.decr, if_pos hlt, Res.bind_ok]
      | buf o => cases o with
        | none => exact h.elim
        | some it =>
          obtain ⟨b, v, l, q, h0, h1, hw, rfl, h3⟩ := h
          have := hw.small
          have hm : (p + (2 ^ 64 - 1)) % 2 ^ 64 = p - 1 := by
            rw [show p + (2 ^ 64 - 1) = (p - 1) + 2 ^ 64 by omega, Nat.add_mod_right]
            exact Nat.mod_eq_of_lt (by omega)
          exact ⟨_, rfl, b, v, l, q, h0, h1, hw, by simp only [BufIter.decr, LLIter.decr, hm], by omega⟩
    · cases ha

theorem ItOk.item {it : PIter} {a : APos} {s : PState} (h : ItOk z ps ss it a) (ha : a.item ss = some s) :
    ∃ p, it.deref = .ok p ∧ InState p s := by
  cases a with
  | blank f => cases ha
  | «at» x k p =>
    cases it with
    | heap o => cases o with
      | none => exact h.elim
      | some it =>
        obtain ⟨v, l, h1, rfl, h2, h3⟩ := h
        simp only [APos.item, h1, Option.bind_some, h2, Option.map_eq_some_iff] at ha
        obtain ⟨w, hw, rfl⟩ := ha
        exact ⟨.heap w, by simp only [PIter.deref, heapIter_deref h2 hw, Res.bind_ok], rfl, rfl⟩
    | buf o => cases o with
      | none => exact h.elim
      | some it =>
        obtain ⟨b, v, l, q, h0, h1, hw, rfl, h3⟩ := h
        simp only [APos.item, h1, Option.bind_some, hw.items, Option.map_eq_some_iff] at ha
        obtain ⟨w, hl, rfl⟩ := ha
        obtain ⟨hlt, rfl⟩ := List.getElem?_eq_some_iff.1 hl
        obtain ⟨y, h4, h5⟩ := hw.sees p hlt
        exact ⟨.buf y, by simp only [PIter.deref, h4, Res.bind_ok], rfl, by simp [Pkt.toHeap, h5.value, Res.ofRead]⟩

theorem ItOk.same {it jt : PIter} {a b : APos} {r : Bool} (h : ItOk z ps ss it a) (g : ItOk z ps ss jt b)
    (hr : a.same ss b = some r) : it.eq jt = r := by
  cases a with
  | blank f => cases b with
    | blank g' =>
      cases it with
      | heap o => cases o with
        | none => cases jt with
          | heap o => cases o with
            | none => cases h; cases g; cases hr; rfl
            | some _ => exact g.elim
          | buf o => cases o with
            | none => cases h; cases g; cases hr; rfl
            | some _ => exact g.elim
        | some _ => exact h.elim
      | buf o => cases o with
        | none => cases jt with
          | heap o => cases o with
            | none => cases h; cases g; cases hr; rfl
            | some _ => exact g.elim
          | buf o => cases o with
            | none => cases h; cases g; cases hr; rfl
            | some _ => exact g.elim
        | some _ => exact h.elim
    | «at» x k p =>
      cases hr
      rcases it with (_ | _) | (_ | _) <;> rcases jt with (_ | _) | (_ | _) <;> first | rfl | exact h.elim | exact g.elim
  | «at» x k p => cases b with
    | blank g' =>
      cases hr
      rcases it with (_ | _) | (_ | _) <;> rcases jt with (_ | _) | (_ | _) <;> first | rfl | exact h.elim | exact g.elim
    | «at» y k' q =>
      simp only [APos.same] at hr
      rcases it with (_ | it) | (_ | it)
      · exact h.elim
      · obtain ⟨v, l, h1, rfl, h2, h3⟩ := h
        rcases jt with (_ | jt) | (_ | jt)
        · exact g.elim
        · obtain ⟨v', l', g1, rfl, g2, g3⟩ := g
          split at hr
          · subst_vars
            cases hr
            rfl
          · simp [h1, g1] at hr
        · exact g.elim
        · obtain ⟨b, v', l', w, g0, g1, _⟩ := g
          split at hr
          · subst_vars
            simp [h1] at g1
          · simp [h1, g1] at hr
            subst hr
            rfl
      · exact h.elim
      · obtain ⟨b, v, l, w, h0, h1, hw, rfl, h3⟩ := h
        rcases jt with (_ | jt) | (_ | jt)
        · exact g.elim
        · obtain ⟨v', l', g1, rfl, g2, g3⟩ := g
          split at hr
          · subst_vars
            simp [h1] at g1
          · simp [h1, g1] at hr
            subst hr
            rfl
        · exact g.elim
        · obtain ⟨b', v', l', w', g0, g1, gw, rfl, g3⟩ := g
          split at hr
          · subst_vars
            cases hr
            rw [h0] at g0
            cases g0
            have := hw.addr.symm.trans gw.addr
            cases this
            simp [PIter.eq, BufIter.eq, LLIter.eq]
          · simp [h1, g1] at hr

theorem ItOk.ask {it : PIter} {a : APos} (h : ItOk z ps ss it a) : it.ask = (match a with | .blank _ => false | .at _ _ _ => true : Bool) := by
  rcases it with (_ | _) | (_ | _) <;> cases a <;> first | rfl | exact h.elim

/-! ### Where iterators come from -/

theorem not_object {b : Buf} (h : b.type ≠ .object) : b.object = .throw .typeError := by
  unfold Buf.object
  split <;> first | rfl | contradiction

theorem start_ok {p : Pkt} {s : PState} {x : Nat} (hp : ps[x]? = some p) (hs : ss[x]? = some s) (h : Held z p s) (keys : Bool) :
    match itemsOf s.value keys with
    | some l => ∃ i j, (if keys then p.keyBegin else p.begin) = .ok i ∧ (if keys then p.keyEnd else p.end) = .ok j ∧
        ItOk z ps ss i (.at x keys 0) ∧ ItOk z ps ss j (.at x keys l.length)
    | none => (if keys then p.keyBegin else p.begin) = .throw .typeError ∧ (if keys then p.keyEnd else p.end) = .throw .typeError := by
  cases p with
  | heap v =>
    obtain ⟨rfl, _⟩ := h
    cases v <;> cases keys <;> first
      | exact ⟨rfl, rfl⟩
      | exact ⟨_, _, rfl, rfl, ⟨_, _, hs, rfl, rfl, by omega⟩, ⟨_, _, hs, by simp [loaderOf], rfl, by simp⟩⟩
  | buf b =>
    obtain ⟨f, v⟩ := s
    obtain ⟨rfl, h⟩ := h
    simp only at h
    cases v with
    | obj fs =>
      obtain ⟨q, h1, h2, h3, h4, h5, h6, h7, h8, h9⟩ := h.begin_obj
      have ha : b.addr = some q := by
        obtain ⟨q', e1, e2, _⟩ := h.obj
        simp [Buf.object, e1, e2, Res.ofRead] at h5
        rw [e2, h5]
      cases keys with
      | false =>
        have hw : Walks z b (.obj fs) false (fs.map fun f => f.2) q := ⟨h, rfl, ha, h7, by simpa using h9⟩
        refine ⟨.buf (some ⟨b, 0, q, .value⟩), .buf (some ⟨b, fs.length, q, .value⟩), ?_, ?_,
          ⟨b, _, _, q, hp, hs, hw, rfl, by omega⟩, ⟨b, _, _, q, hp, hs, hw, by simp [loaderOf], by simp⟩⟩
        · simp [Pkt.begin, Pkt.visit, h1, Res.bind]
        · simp [Pkt.end, Pkt.visit, h2, Res.bind]
      | true =>
        have hw : Walks z b (.obj fs) true (fs.map fun f => .str f.1) q := ⟨h, rfl, ha, h8, by simpa using h9⟩
        refine ⟨.buf (some ⟨b, 0, q, .key⟩), .buf (some ⟨b, fs.length, q, .key⟩), ?_, ?_,
          ⟨b, _, _, q, hp, hs, hw, rfl, by omega⟩, ⟨b, _, _, q, hp, hs, hw, by simp [loaderOf], by simp⟩⟩
        · simp [Pkt.keyBegin, Pkt.visit, h3, Res.bind]
        · simp [Pkt.keyEnd, Pkt.visit, h4, Res.bind]
    | arr es =>
      obtain ⟨q, h1, h2, h6, h7, h9⟩ := h.begin_arr
      cases keys with
      | false =>
        have ha : b.addr = some q := by
          obtain ⟨q', e1, e2, _⟩ := h.arr
          simp [Buf.begin, e1, e2, Res.ofRead, Res.bind] at h1
          rw [e2, h1]
        have hw : Walks z b (.arr es) false es q := ⟨h, rfl, ha, h7, by simpa using h9⟩
        refine ⟨.buf (some ⟨b, 0, q, .elem⟩), .buf (some ⟨b, es.length, q, .elem⟩), ?_, ?_,
          ⟨b, _, _, q, hp, hs, hw, rfl, by omega⟩, ⟨b, _, _, q, hp, hs, hw, by simp [loaderOf], by simp⟩⟩
        · simp [Pkt.begin, Pkt.visit, h1, Res.bind]
        · simp [Pkt.end, Pkt.visit, h2, Res.bind]
      | true =>
        rcases h.object_call with ⟨_, _, e, _⟩ | ⟨_, e⟩
        · cases e
        · exact ⟨by simp [Pkt.keyBegin, Pkt.visit, Buf.keyBegin, e, Res.bind], by simp [Pkt.keyEnd, Pkt.visit, Buf.keyEnd, e, Res.bind]⟩
    | _ =>
      have ht := h.getType
      have h1 : b.type ≠ .object := fun e => by simp [Buf.getType, e, RawType.simplify, Val.ty] at ht
      have h2 : b.type ≠ .array := fun e => by simp [Buf.getType, e, RawType.simplify, Val.ty] at ht
      have e := not_object h1
      have e1 : b.begin = .throw .typeError := by unfold Buf.begin; split <;> first | rfl | contradiction
      have e2 : b.end = .throw .typeError := by unfold Buf.end; split <;> first | rfl | contradiction
      cases keys <;>
        simp [itemsOf, Pkt.begin, Pkt.end, Pkt.keyBegin, Pkt.keyEnd, Pkt.visit, Buf.keyBegin, Buf.keyEnd, e, e1, e2, Res.bind]

/-! ### Programs -/

theorem walkStep_ok {its : List PIter} {as as' : List APos} {o : WOut PState} (hp : Each (Held z) ps ss)
    (h : Each (ItOk z ps ss) its as) (op : WOp) (hs : walkStep ss as op = some (as', o)) :
    ∃ its' o', op.run ps its = some (its', o') ∧ Each (ItOk z ps ss) its' as' ∧ ShowsOut o' o := by
  have ask {i : Nat} {f : APos → Option (List APos × WOut PState)} (e : as[i]?.bind f = some (as', o)) :
      ∃ it a, its[i]? = some it ∧ ItOk z ps ss it a ∧ as[i]? = some a ∧ f a = some (as', o) := by
    cases ha : as[i]? with
    | none => simp [ha] at e
    | some a =>
      obtain ⟨it, h1, h2⟩ := h.get ha
      exact ⟨it, a, h1, h2, rfl, by simpa [ha] using e⟩
  cases op with
  | first x keys =>
    simp only [walkStep] at hs
    cases hx : ss[x]? with
    | none => simp [hx] at hs
    | some s =>
      obtain ⟨p, h1, h2⟩ := hp.get hx
      have := start_ok h1 hx h2 keys
      simp only [hx, Option.bind_some] at hs
      simp only [WOp.run, h1, Option.bind_some]
      split at hs
      · rename_i l hl
        rw [hl] at this
        obtain ⟨i, j, h3, h4, h5, h6⟩ := this
        cases hs
        rw [h3]
        exact ⟨_, _, rfl, h.snoc h5, trivial⟩
      · rename_i hl
        rw [hl] at this
        cases hs
        rw [this.1]
        exact ⟨_, _, rfl, h, rfl⟩
  | last x keys =>
    simp only [walkStep] at hs
    cases hx : ss[x]? with
    | none => simp [hx] at hs
    | some s =>
      obtain ⟨p, h1, h2⟩ := hp.get hx
      have := start_ok h1 hx h2 keys
      simp only [hx, Option.bind_some] at hs
      simp only [WOp.run, h1, Option.bind_some]
      split at hs
      · rename_i l hl
        rw [hl] at this
        obtain ⟨i, j, h3, h4, h5, h6⟩ := this
        cases hs
        rw [h4]
        exact ⟨_, _, rfl, h.snoc h6, trivial⟩
      · rename_i hl
        rw [hl] at this
        cases hs
        rw [this.2]
        exact ⟨_, _, rfl, h, rfl⟩
  | blank =>
    cases hs
    exact ⟨_, _, rfl, h.snoc rfl, trivial⟩
  | copy i =>
    obtain ⟨it, a, h1, h2, _, h3⟩ := ask hs
    cases h3
    simp only [WOp.run, h1, Option.bind_some]
    exact ⟨_, _, rfl, h.snoc h2, trivial⟩
  | move i =>
    obtain ⟨it, a, h1, h2, _, h3⟩ := ask hs
    obtain ⟨f, h4, h5⟩ := h2.fin
    simp only [h4, Option.bind_some] at h3
    cases h3
    simp only [WOp.run, h1, Option.bind_some]
    exact ⟨_, _, rfl, (h.set i h5).snoc h2, trivial⟩
  | assign i j =>
    obtain ⟨it, a, h1, h2, _, h3⟩ := ask hs
    obtain ⟨jt, b, h4, h5, _, h6⟩ := ask h3
    cases h6
    simp only [WOp.run, h1, h4, Option.bind_some]
    exact ⟨_, _, rfl, h.set i h5, trivial⟩
  | moveAssign i j =>
    obtain ⟨it, a, h1, h2, _, h3⟩ := ask hs
    obtain ⟨jt, b, h4, h5, _, h6⟩ := ask h3
    obtain ⟨f, h7, h8⟩ := h5.fin
    simp only [h7, Option.bind_some] at h6
    split at h6
    · rename_i e
      cases h6
      simp only [WOp.run, h1, h4, Option.bind_some, if_pos e]
      exact ⟨_, _, rfl, h, trivial⟩
    · rename_i e
      cases h6
      simp only [WOp.run, h1, h4, Option.bind_some, if_neg e]
      exact ⟨_, _, rfl, (h.set j h8).set i h5, trivial⟩
  | next i =>
    obtain ⟨it, a, h1, h2, _, h3⟩ := ask hs
    cases ha : a.next ss with
    | none => simp [ha] at h3
    | some a' =>
      simp only [ha, Option.bind_some] at h3
      cases h3
      obtain ⟨it', h4, h5⟩ := h2.next ha
      simp only [WOp.run, h1, Option.bind_some, h4, setIter]
      exact ⟨_, _, rfl, h.set i h5, trivial⟩
  | prev i =>
    obtain ⟨it, a, h1, h2, _, h3⟩ := ask hs
    cases ha : a.prev with
    | none => simp [ha] at h3
    | some a' =>
      simp only [ha, Option.bind_some] at h3
      cases h3
      obtain ⟨it', h4, h5⟩ := h2.prev ha
      simp only [WOp.run, h1, Option.bind_some, h4, setIter]
      exact ⟨_, _, rfl, h.set i h5, trivial⟩
  | postNext i =>
    obtain ⟨it, a, h1, h2, _, h3⟩ := ask hs
    cases ha : a.next ss with
    | none => simp [ha] at h3
    | some a' =>
      simp only [ha, Option.bind_some] at h3
      cases h3
      obtain ⟨it', h4, h5⟩ := h2.next ha
      simp only [WOp.run, h1, Option.bind_some, h4, setIter]
      exact ⟨_, _, rfl, (h.set i h5).snoc h2, trivial⟩
  | postPrev i =>
    obtain ⟨it, a, h1, h2, _, h3⟩ := ask hs
    cases ha : a.prev with
    | none => simp [ha] at h3
    | some a' =>
      simp only [ha, Option.bind_some] at h3
      cases h3
      obtain ⟨it', h4, h5⟩ := h2.prev ha
      simp only [WOp.run, h1, Option.bind_some, h4, setIter]
      exact ⟨_, _, rfl, (h.set i h5).snoc h2, trivial⟩
  | same i j =>
    obtain ⟨it, a, h1, h2, _, h3⟩ := ask hs
    obtain ⟨jt, b, h4, h5, _, h6⟩ := ask h3
    split at h6
    · rename_i e
      cases h6
      simp only [WOp.run, h1, h4, Option.bind_some, if_pos e]
      exact ⟨_, _, rfl, h, rfl⟩
    · rename_i e
      cases hr : a.same ss b with
      | none => simp [hr] at h6
      | some r =>
        simp only [hr, Option.bind_some] at h6
        cases h6
        simp only [WOp.run, h1, h4, Option.bind_some, if_neg e]
        exact ⟨_, _, rfl, h, h2.same h5 hr⟩
  | ask i =>
    obtain ⟨it, a, h1, h2, _, h3⟩ := ask hs
    cases h3
    simp only [WOp.run, h1, Option.bind_some]
    exact ⟨_, _, rfl, h, by cases a <;> exact h2.ask⟩
  | read i =>
    obtain ⟨it, a, h1, h2, _, h3⟩ := ask hs
    cases ha : a.item ss with
    | none => simp [ha] at h3
    | some s =>
      simp only [ha, Option.bind_some] at h3
      cases h3
      obtain ⟨p, h4, h5⟩ := h2.item ha
      simp only [WOp.run, h1, Option.bind_some, h4, readIter]
      exact ⟨_, _, rfl, h, h5⟩
  | rread i =>
    obtain ⟨it, a, h1, h2, _, h3⟩ := ask hs
    cases hb : a.prev with
    | none => simp [hb] at h3
    | some b =>
      simp only [hb, Option.bind_some] at h3
      obtain ⟨it', h6, h7⟩ := h2.prev hb
      cases ha : b.item ss with
      | none => simp [ha] at h3
      | some s =>
        simp only [ha, Option.bind_some] at h3
        cases h3
        obtain ⟨p, h4, h5⟩ := h7.item ha
        simp only [WOp.run, h1, Option.bind_some, PIter.rderef, h6, Res.bind_ok, h4, readIter]
        exact ⟨_, _, rfl, h, h5⟩

theorem walk_ok (hp : Each (Held z) ps ss) : ∀ (ops : List WOp) {its : List PIter} {as as' : List APos} {os : List (WOut PState)},
    Each (ItOk z ps ss) its as → walk ss as ops = some (as', os) →
    ∃ its' os', runWalk ps its ops = some (its', os') ∧ Each (ItOk z ps ss) its' as' ∧ Each ShowsOut os' os
  | [], its, as, as', os, h, hs => by cases hs; exact ⟨_, _, rfl, h, trivial⟩
  | op :: ops, its, as, as', os, h, hs => by
    simp only [walk] at hs
    cases h1 : walkStep ss as op with
    | none => simp [h1] at hs
    | some r =>
      simp only [h1, Option.bind_some] at hs
      cases h2 : walk ss r.1 ops with
      | none => simp [h2] at hs
      | some t =>
        simp only [h2, Option.bind_some] at hs
        cases hs
        obtain ⟨i1, o1, e1, e2, e3⟩ := walkStep_ok hp h op h1
        obtain ⟨i2, o2, f1, f2, f3⟩ := walk_ok hp ops e2 h2
        exact ⟨i2, o1 :: o2, by simp only [runWalk, e1, f1, Option.bind_some], f2, e3, f3⟩

/-! ### Loops -/

theorem loop_from {x : Nat} {s : PState} {keys : Bool} {l : List Val} (hs : ss[x]? = some s) (hl : itemsOf s.value keys = some l)
    {last : PIter} (hlast : ItOk z ps ss last (.at x keys l.length)) : ∀ (k pos : Nat) {it : PIter}, pos + k = l.length →
    ItOk z ps ss it (.at x keys pos) → ∀ fuel, k ≤ fuel →
    ∃ qs, it.loop fuel last = some (.ok qs) ∧ Each InState qs ((l.drop pos).map (PState.mk s.finalized))
  | 0, pos, it, hk, hi, fuel, _ => by
    have e : it.eq last = true := by
      refine hi.same hlast ?_
      simp only [APos.same, if_true, Option.some.injEq, beq_iff_eq]
      omega
    refine ⟨[], ?_, ?_⟩
    · cases fuel <;> simp [PIter.loop, e]
    · rw [List.drop_eq_nil_of_le (by omega)]; trivial
  | k + 1, pos, it, hk, hi, fuel, hf => by
    have e : it.eq last = false := by
      refine hi.same hlast ?_
      simp only [APos.same, if_true, Option.some.injEq, beq_eq_false_iff_ne]
      omega
    have hlt : pos < l.length := by omega
    obtain ⟨q, h1, h2⟩ := hi.item (s := ⟨s.finalized, l[pos]⟩) (by simp [APos.item, hs, hl, hlt])
    obtain ⟨it', h3, h4⟩ := hi.next (a' := .at x keys (pos + 1)) (by simp [APos.next, itemsAt, hs, hl, hlt])
    obtain ⟨fuel, rfl⟩ : ∃ f, fuel = f + 1 := ⟨fuel - 1, by omega⟩
    obtain ⟨qs, h5, h6⟩ := loop_from hs hl hlast k (pos + 1) (by omega) h4 fuel (by omega)
    refine ⟨q :: qs, ?_, ?_⟩
    · simp [PIter.loop, e, h1, h3, h5, Res.bind]
    · rw [List.drop_eq_getElem_cons hlt]
      exact ⟨h2, h6⟩

/-- Iterators of different states never meet. -/
theorem loop_states (fuel : Nat) : ∀ (a : HeapIter) (b : Option BufIter) {qs : List Pkt},
    (PIter.heap (some a)).loop fuel (.buf b) ≠ some (.ok qs) := by
  induction fuel with
  | zero => intro a b qs; cases b <;> simp [PIter.loop, PIter.eq]
  | succ n ih =>
    intro a b qs
    have e : (PIter.heap (some a)).eq (.buf b) = false := by cases b <;> rfl
    simp only [PIter.loop, e, Bool.false_eq_true, if_false]
    split
    · rename_i x it' _ hi
      simp only [PIter.incr, HeapIter.incr] at hi
      split at hi
      · simp only [Res.bind_ok] at hi
        cases hi
        rename_i hlt
        intro h
        simp only [Option.map_eq_some_iff] at h
        obtain ⟨r, h1, h2⟩ := h
        cases r with
        | ok l => exact ih _ b h1
        | throw e => simp [Res.bind] at h2
        | ub => simp [Res.bind] at h2
      · simp [Res.bind] at hi
    · simp

/-! ### Changes at a position -/

theorem mapInsert_mid {k : Bytes} {v w : Val} {b : List (Bytes × Val)} : ∀ {a : List (Bytes × Val)},
    (a ++ (k, v) :: b).Pairwise (fun x y => KeyBefore x.1 y.1) → mapInsert k w (a ++ (k, v) :: b) = a ++ (k, w) :: b
  | [], _ => by simp [mapInsert, keyLt_irrefl]
  | (k', v') :: a, h => by
    obtain ⟨hg, h'⟩ := List.pairwise_cons.1 h
    have h1 : keyLt k' k = true := keyLt_iff_spec.2 (hg (k, v) (by simp))
    simp [mapInsert, h1, keyLt_asymm h1, mapInsert_mid h']

theorem mapErase_here {k : Bytes} {v : Val} {b : List (Bytes × Val)} : ∀ {a : List (Bytes × Val)},
    (a ++ (k, v) :: b).Pairwise (fun x y => KeyBefore x.1 y.1) → mapErase k (a ++ (k, v) :: b) = a ++ b
  | [], _ => by simp [mapErase, keyLt_irrefl]
  | (k', v') :: a, h => by
    obtain ⟨hg, h'⟩ := List.pairwise_cons.1 h
    have h1 : keyLt k' k = true := keyLt_iff_spec.2 (hg (k, v) (by simp))
    simp [mapErase, h1, mapErase_here h']

theorem mapFind_here {k : Bytes} {v : Val} {b : List (Bytes × Val)} : ∀ {a : List (Bytes × Val)},
    (mapFind k (a ++ (k, v) :: b)).isSome = true
  | [] => by simp [mapFind, keyLt_irrefl]
  | (k', v') :: a => by
    simp only [List.cons_append, mapFind]
    split
    · rfl
    · exact mapFind_here

/-- The three calls at the field at `pos` of an object. -/
theorem change_field {before after : List (Bytes × Val)} {k : Bytes} {w : Val} (hw : (Val.obj (before ++ (k, w) :: after)).WF)
    (ld : Loader) (x : Val) :
    let v := Val.obj (before ++ (k, w) :: after)
    v.insertAt ⟨v, before.length, ld⟩ x = .ok (.obj (before ++ (k, x) :: after)) ∧
    v.setAt ⟨v, before.length, ld⟩ x = .ok (.obj (before ++ (k, x) :: after)) ∧
    v.eraseAt ⟨v, before.length, ld⟩ = .ok (.obj (before ++ after)) := by
  simp only [Val.WF] at hw
  have hk : ¬ k.length > 65535 := by
    have : ∀ (a : List (Bytes × Val)), WFFields (a ++ (k, w) :: after) → k.length ≤ 65535 := by
      intro a
      induction a with
      | nil => intro h; exact h.1
      | cons f a ih => intro h; exact ih h.2.2
    have := this _ hw.2
    omega
  have hkey : (Val.obj (before ++ (k, w) :: after)).iterKey ⟨.obj (before ++ (k, w) :: after), before.length, ld⟩ = .ok (.str k) := by
    simp [Val.iterKey, Res.ofRead]
  refine ⟨?_, ?_, ?_⟩
  · simp only [Val.insertAt, hkey, Res.bind_ok, Val.insert, if_neg hk, mapInsert_mid hw.1]
  · simp only [Val.setAt, hkey, Res.bind_ok, Val.set, if_neg hk, mapFind_here, if_true, mapInsert_mid hw.1]
  · simp only [Val.eraseAt, hkey, Res.bind_ok, Val.erase, Val.eraseKey, mapErase_here hw.1]

/-- The three calls at a position of an array. -/
theorem change_elem {es : List Val} {pos : Nat} (hp : pos ≤ es.length) (hl : es.length < 2 ^ 58) (ld : Loader) (x : Val) :
    let v := Val.arr es
    v.insertAt ⟨v, pos, ld⟩ x = .ok (.arr (es.take pos ++ x :: es.drop pos)) ∧
    v.setAt ⟨v, pos, ld⟩ x = (if pos < es.length then .ok (.arr (es.set pos x)) else .throw .outOfRange) ∧
    v.eraseAt ⟨v, pos, ld⟩ = .ok (.arr (es.eraseIdx pos)) := by
  have hn : (BitVec.ofNat 64 pos).toNat = pos := by simp only [BitVec.toNat_ofNat]; exact Nat.mod_eq_of_lt (by omega)
  refine ⟨?_, ?_, ?_⟩
  · simp only [Val.insertAt, Val.iterKey, Res.bind_ok, Val.insert, hn, if_neg (show ¬ pos > es.length by omega),
      if_neg (show ¬ es.length ≥ maxElems by unfold maxElems; omega)]
  · simp only [Val.setAt, Val.iterKey, Res.bind_ok, Val.set, hn]
    by_cases h : pos < es.length
    · rw [if_neg (by omega), if_pos h]
    · rw [if_pos (by omega), if_neg h]
  · simp only [Val.eraseAt, Val.iterKey, Res.bind_ok, Val.erase, Val.eraseIdx, hn]
    by_cases h : pos < es.length
    · rw [if_neg (by omega)]
    · rw [if_pos (by omega), List.eraseIdx_of_length_le (by omega)]

theorem split_at {fs : List (Bytes × Val)} {pos : Nat} {f : Bytes × Val} (h : fs[pos]? = some f) :
    ∃ before after, fs = before ++ f :: after ∧ before.length = pos := by
  obtain ⟨hlt, rfl⟩ := List.getElem?_eq_some_iff.1 h
  exact ⟨fs.take pos, fs.drop (pos + 1), by rw [List.getElem_cons_drop]; simp, by simp; omega⟩

theorem ItOk.changes {it : PIter} {a : APos} (hw : ∀ s ∈ ss, s.value.WF) (h : ItOk z ps ss it a) : ChangesAt ss it a := by
  cases a with
  | blank f =>
    rcases it with (_ | it) | (_ | it)
    · exact fun _ _ => rfl
    · exact h.elim
    · exact fun _ _ => rfl
    · exact h.elim
  | «at» x keys pos =>
    intro s hs
    rcases it with (_ | it) | (_ | it)
    · exact h.elim
    · obtain ⟨v, l, h1, rfl, h2, h3⟩ := h
      rw [hs] at h1
      cases h1
      simp only [Bool.false_eq_true, if_false]
      refine ⟨fun _ _ => rfl, fun hr y r => ?_⟩
      have hwf : v.WF := hw _ (List.mem_of_getElem? hs)
      cases v with
      | obj fs =>
        have key : ∀ f, fs[pos]? = some f →
            (Val.obj fs).insertAt ⟨.obj fs, pos, loaderOf (.obj fs) keys⟩ y = .ok (.obj (fs.set pos (f.1, y))) ∧
            (Val.obj fs).setAt ⟨.obj fs, pos, loaderOf (.obj fs) keys⟩ y = .ok (.obj (fs.set pos (f.1, y))) ∧
            (Val.obj fs).eraseAt ⟨.obj fs, pos, loaderOf (.obj fs) keys⟩ = .ok (.obj (fs.eraseIdx pos)) := by
          intro f hf
          obtain ⟨before, after, rfl, rfl⟩ := split_at hf
          obtain ⟨k, w⟩ := f
          have := change_field hwf (loaderOf (.obj (before ++ (k, w) :: after)) keys) y
          simpa [List.eraseIdx_append_of_length_le] using this
        simp only [insertedAt, replacedAt, erasedAt, Option.map_eq_some_iff]
        refine ⟨?_, ?_, ?_⟩
        · rintro ⟨f, hf, rfl⟩
          simp only [Becomes, Pkt.changeAt, PIter.ask, Option.isSome_some, Bool.not_true, Bool.false_eq_true, if_false, Pkt.getHeap,
            Res.bind_ok, (key f hf).1]
        · rintro ⟨f, hf, rfl⟩
          simp only [Becomes, Pkt.changeAt, PIter.ask, Option.isSome_some, Bool.not_true, Bool.false_eq_true, if_false, Pkt.getHeap,
            Res.bind_ok, (key f hf).2.1]
        · rintro ⟨f, hf, rfl⟩
          simp only [Becomes, Pkt.changeAt, PIter.ask, Option.isSome_some, Bool.not_true, Bool.false_eq_true, if_false, Pkt.getHeap,
            Res.bind_ok, (key f hf).2.2]
      | arr es =>
        have hp : pos ≤ es.length := by
          cases keys with
          | true => cases h2
          | false => simp only [itemsOf, Option.some.injEq] at h2; rw [h2]; exact h3
        obtain ⟨e1, e2, e3⟩ := change_elem hp hr (loaderOf (.arr es) keys) y
        simp only [insertedAt, replacedAt, erasedAt, Option.some.injEq]
        refine ⟨?_, ?_, ?_⟩
        · rintro rfl
          simp only [Becomes, Pkt.changeAt, PIter.ask, Option.isSome_some, Bool.not_true, Bool.false_eq_true, if_false, Pkt.getHeap,
            Res.bind_ok, e1]
        · rintro rfl
          simp only [Pkt.changeAt, PIter.ask, Option.isSome_some, Bool.not_true, Bool.false_eq_true, if_false, Pkt.getHeap,
            Res.bind_ok, e2]
          split <;> simp [Becomes, Res.bind]
        · rintro rfl
          simp only [Becomes, Pkt.changeAt, PIter.ask, Option.isSome_some, Bool.not_true, Bool.false_eq_true, if_false, Pkt.getHeap,
            Res.bind_ok, e3]
      | _ => exact ⟨(fun e => nomatch e), (fun e => nomatch e), (fun e => nomatch e)⟩
    · exact h.elim
    · obtain ⟨b, v, l, p, h0, h1, _⟩ := h
      rw [hs] at h1
      cases h1
      exact fun _ _ => rfl

end Dart
