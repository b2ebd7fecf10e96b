import Verif.Lemmas.AbiMove

/-
Sending objects as raw bytes.
-/
namespace Dart

open Spec Abi

/-- What a program that keeps the rules leaves behind. -/
theorem careful_held {signed : Bool} {P : XProg} (h : XCareful signed P ZState.empty) {s : XState} {os : List XOut}
    (hr : P.run signed XState.empty = some (s, os)) : ∃ a, XHeld s a := by
  obtain ⟨s', a, os', h1, _, h3, _⟩ := xprog_ok P xHeld_empty h
  rw [hr] at h1
  cases h1
  exact ⟨a, h3⟩

theorem XHeld.obj {s : XState} {a : ZState} (h : XHeld s a) {y : Nat} {o : Obj} (ho : s.core.objs y = some o) :
    ∃ b, a.core.objs y = some b ∧ HeldObj true o b ∧ ClassOk b := by
  have := h.core.1 y
  rw [ho] at this
  cases hb : a.core.objs y with
  | none => rw [hb] at this; exact this.elim
  | some b => rw [hb] at this; exact ⟨b, rfl, this, h.classes y b hb⟩

theorem runBytes_enc {o : Obj} {b : AObj} (h : HeldObj true o b) (hc : ClassOk b) {fs : List (Bytes × Val)}
    (hf : o.pkt.isFinalized = true) (hv : o.pkt.toHeap = .ok (.obj fs)) :
    runBytes o = some (some (enc (.obj fs))) ∧ HeldBlk (.owned (enc (.obj fs))) (.object (.obj fs)) := by
  obtain ⟨r, h1, h2, h3⟩ := bytes_ok h hc
  have hst : b.st = ⟨true, .obj fs⟩ := by
    obtain ⟨_, _, hh⟩ := h
    have e1 := hh.inState.1
    have e2 := hh.inState.2
    rw [hf] at e1
    rw [hv] at e2
    cases hb : b.st with
    | mk f v => rw [hb] at e1 e2; cases e2; simp only at e1; rw [← e1]
  simp only [BytesOf, hst, if_true] at h2
  obtain ⟨bs, _, _, rfl⟩ := h2
  simp only [hst] at h3
  have he : bs = enc (.obj fs) := h3.2.2.2.2.2 rfl
  subst he
  exact ⟨h1, h3⟩

theorem takeBytes_owned {signed : Bool} {s : XState} {x rc p : Nat} {bs : Bytes} (hb : s.blocks p = .owned bs) (hrc : rc = 1 ∨ rc = 2) :
    (XCall.takeBytes false x rc p).run signed s =
      some ({ s.release p with core := s.core.put x ⟨.packet, rc, .buf (Buf.ofBytes bs)⟩ }, .plain (.code .noError)) := by
  simp only [XCall.run, hb, Blk.packet, CState.construct, if_pos hrc, XState.with, Option.map_some]
  rfl

theorem adopted_bytes {fs : List (Bytes × Val)} (h : HeldBlk (.owned (enc (.obj fs))) (.object (.obj fs))) :
    (Buf.ofBytes (enc (.obj fs))).getBytes = .ok (enc (.obj fs)) := by
  obtain ⟨bs, h1, h2⟩ := (adopt_held h).2.getBytes
  rw [h1, h2.2.2 rfl]

end Dart
