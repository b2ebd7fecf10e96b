import Verif.Model.Compare
import Verif.Spec.Equal

/-
What comparing by looking up keys amounts to.
-/
namespace Dart

/-- The same sharing, seen from the other side. -/
def Sharing.swap (sh : Sharing) : Sharing := ⟨sh.ptr, fun p a b => sh.inside p b a⟩

end Dart

namespace Dart.Spec

/-- `l` is searched for everything that is in `r`. `fl` and `fr` say whether they are finalized: the search goes into the finalized
side, and if both are or neither is, the sides change places on the way down (for both finalized with every object, for
neither with every array). `F fin fs k r`: searching `fs` for `k` can give `r`. -/
inductive Looks (F : Bool → List (List UInt8 × Val) → List UInt8 → Option Val → Prop) : Bool → Bool → Val → Val → Prop
  | null {fl fr : Bool} : Looks F fl fr .null .null
  | bool {fl fr : Bool} (b : Bool) : Looks F fl fr (.bool b) (.bool b)
  | int {fl fr : Bool} (i : BitVec 64) : Looks F fl fr (.int i) (.int i)
  | dec {fl fr : Bool} {a b : BitVec 64} : NumEq a b → Looks F fl fr (.dec a) (.dec b)
  | str {fl fr : Bool} (s : List UInt8) : Looks F fl fr (.str s) (.str s)
  | arr {fl fr : Bool} {es gs : List Val} (hl : es.length = gs.length) :
      (fl = true → ∀ i (h : i < es.length), Looks F fl fr es[i] (gs[i]'(hl ▸ h))) →
      (fl = false → ∀ i (h : i < es.length), Looks F fr fl (gs[i]'(hl ▸ h)) es[i]) → Looks F fl fr (.arr es) (.arr gs)
  | obj {fl fr : Bool} {fs gs : List (List UInt8 × Val)} (hl : fs.length = gs.length) (r : List UInt8 → Option Val) :
      (∀ f ∈ gs, F fl fs f.1 (r f.1)) →
      (fr = true → ∀ f ∈ gs, Looks F fr fl f.2 ((r f.1).getD .null)) →
      (fr = false → ∀ f ∈ gs, Looks F fl fr ((r f.1).getD .null) f.2) → Looks F fl fr (.obj fs) (.obj gs)

/-- The side that is searched is the first if it is finalized, otherwise the second. -/
def Cross (F : Bool → List (List UInt8 × Val) → List UInt8 → Option Val → Prop) (a b : PState) : Prop :=
  if a.finalized then Looks F true b.finalized a.value b.value else Looks F b.finalized false b.value a.value

/-- Plain keys (see C02), where the search needs them. -/
def Findable (signed : Bool) (s : PState) : Prop := s.finalized = true → s.value.PlainKeys signed

/-- What is assumed about shared memory: an element in memory has one value, and two finalized values at the same address of the same
memory are the same. -/
structure Consistent (sh : Sharing) (p q : Pkt) : Prop where
  inside : ∀ i v w, sh.inside i v w = true → v = w
  ptr : sh.ptr = true → ∀ b c, p = .buf b → q = .buf c → b.getType = c.getType → b.mem = c.mem ∧ b.addr = c.addr ∧ b.type = c.type

/-- The comparison knows how to compare the two: they are of different classes, or have the same kind of counter, or one of
them is finalized, or they are neither arrays nor objects. -/
def ClassesCompare (a b : Abi.Obj) (v : Val) : Prop :=
  a.rep ≠ b.rep ∨ a.rc = b.rc ∨ a.pkt.isFinalized = true ∨ b.pkt.isFinalized = true ∨ ((∀ es, v ≠ .arr es) ∧ ∀ fs, v ≠ .obj fs)

/-- The keys are plain (see C02) if the object is finalized. -/
def PlainIfFinalized (signed : Bool) (a : Abi.Obj) (v : Val) : Prop := a.pkt.isFinalized = true → v.PlainKeys signed

end Dart.Spec
