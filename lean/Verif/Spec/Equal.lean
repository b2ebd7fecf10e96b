import Verif.Model.Value
import Verif.Spec.Float
import Verif.Spec.Packet

/-
When two values are taken to be equal.
-/
namespace Dart.Spec

/-- Same length, and no difference before the first NUL. -/
def UpToNul (s t : List UInt8) : Prop :=
  s.length = t.length ∧ ∃ n, s.take n = t.take n ∧ (n = s.length ∨ (s[n]? = some 0 ∧ t[n]? = some 0))

/-- Both are numbers, and the same number. -/
def NumEq (a b : BitVec 64) : Prop := doubleVal a.toNat ≠ .nan ∧ doubleVal a.toNat = doubleVal b.toNat

/-- The same structure, with strings and keys related by `S`, and decimals that are equal as numbers. -/
inductive Alike (S : List UInt8 → List UInt8 → Prop) : Val → Val → Prop
  | null : Alike S .null .null
  | bool (b : Bool) : Alike S (.bool b) (.bool b)
  | int (i : BitVec 64) : Alike S (.int i) (.int i)
  | dec {a b : BitVec 64} : NumEq a b → Alike S (.dec a) (.dec b)
  | str {s t : List UInt8} : S s t → Alike S (.str s) (.str t)
  | arr {es gs : List Val} (hl : es.length = gs.length) :
      (∀ i (h : i < es.length), Alike S es[i] (gs[i]'(hl ▸ h))) → Alike S (.arr es) (.arr gs)
  | obj {fs gs : List (List UInt8 × Val)} (hl : fs.length = gs.length) :
      (∀ i (h : i < fs.length), S fs[i].1 (gs[i]'(hl ▸ h)).1) →
      (∀ i (h : i < fs.length), Alike S fs[i].2 (gs[i]'(hl ▸ h)).2) →
      Alike S (.obj fs) (.obj gs)

/-- Every string, key and decimal in the value satisfies the conditions. -/
inductive Every (S : List UInt8 → Prop) (D : BitVec 64 → Prop) : Val → Prop
  | null : Every S D .null
  | bool (b : Bool) : Every S D (.bool b)
  | int (i : BitVec 64) : Every S D (.int i)
  | dec {d : BitVec 64} : D d → Every S D (.dec d)
  | str {s : List UInt8} : S s → Every S D (.str s)
  | arr {es : List Val} : (∀ e ∈ es, Every S D e) → Every S D (.arr es)
  | obj {fs : List (List UInt8 × Val)} : (∀ f ∈ fs, S f.1) → (∀ f ∈ fs, Every S D f.2) →
      Every S D (.obj fs)

/-- Not NaN and not the negative zero. -/
def PlainNum (d : BitVec 64) : Prop := doubleVal d.toNat ≠ .nan ∧ d ≠ 0x8000000000000000#64

/-- No decimal is NaN or the negative zero. -/
def PlainNums (v : Val) : Prop := Every (fun _ => True) PlainNum v

/-- No string or key has a NUL in it, no decimal is NaN or the negative zero. -/
def Ordinary (v : Val) : Prop := Every (fun s => 0 ∉ s) PlainNum v

/-- No decimal is NaN. -/
def NoNaN (v : Val) : Prop := Every (fun _ => True) (fun d => doubleVal d.toNat ≠ .nan) v

/-- No field of an object is null, at any depth. -/
inductive NoNullField : Val → Prop
  | scalar {v : Val} : (∀ es, v ≠ .arr es) → (∀ fs, v ≠ .obj fs) → NoNullField v
  | arr {es : List Val} : (∀ e ∈ es, NoNullField e) → NoNullField (.arr es)
  | obj {fs : List (List UInt8 × Val)} : (∀ f ∈ fs, f.2 ≠ .null) → (∀ f ∈ fs, NoNullField f.2) → NoNullField (.obj fs)

/-- The same structure, except that an object may have, instead of a key of the other, some key it does
not share, provided what the other has there is null. `F fs k r` says that searching `fs` for `k` can
give `r`. -/
inductive AlikeOrNull (F : List (List UInt8 × Val) → List UInt8 → Option Val → Prop) : Val → Val → Prop
  | null : AlikeOrNull F .null .null
  | bool (b : Bool) : AlikeOrNull F (.bool b) (.bool b)
  | int (i : BitVec 64) : AlikeOrNull F (.int i) (.int i)
  | dec {a b : BitVec 64} : NumEq a b → AlikeOrNull F (.dec a) (.dec b)
  | str (s : List UInt8) : AlikeOrNull F (.str s) (.str s)
  | arr {es gs : List Val} (hl : es.length = gs.length) :
      (∀ i (h : i < gs.length), AlikeOrNull F (es[i]'(hl ▸ h)) gs[i]) → AlikeOrNull F (.arr es) (.arr gs)
  | obj {fs gs : List (List UInt8 × Val)} (hl : fs.length = gs.length) (r : List UInt8 → Option Val) :
      (∀ f ∈ gs, F fs f.1 (r f.1)) → (∀ f ∈ gs, AlikeOrNull F ((r f.1).getD .null) f.2) →
      AlikeOrNull F (.obj fs) (.obj gs)

/-- Searching gives what is there. -/
def Faithful (fs : List (List UInt8 × Val)) (k : List UInt8) (r : Option Val) : Prop := r = lookup fs k

end Dart.Spec
