import Verif.Spec.JsonText
import Verif.Spec.Json
import Verif.Spec.Equal
import Verif.Spec.Value

/-
What is expected of the text of a value.
-/
namespace Dart.Spec

/-- A number, neither NaN nor an infinity. -/
def FiniteDouble (d : BitVec 64) : Prop := ∃ n, doubleVal d.toNat = .finite n

/-- All decimals in the value are numbers. -/
def AllFinite (v : Val) : Prop := Every (fun _ => True) FiniteDouble v

/-- A way to print numbers as JSON wants them: an integer with a fraction or an exponent behind it. -/
def PrintsNumbers (dbl : BitVec 64 → Bytes) : Prop :=
  ∀ d, FiniteDouble d → ∃ i f e n, IntText i n ∧ FracText f ∧ ExpText e ∧ f ++ e ≠ [] ∧ dbl d = i ++ (f ++ e)

/-- JSON, with words for NaN and the infinities if `nan`. -/
def writes (nan : Bool) : Extensions := ⟨false, nan, false⟩

/-- The same document, but for the values of numbers with fraction or exponent, or out of range (the grammar leaves them open). -/
inductive SameButDecimals : Json → Json → Prop
  | null : SameButDecimals .null .null
  | bool (b : Bool) : SameButDecimals (.bool b) (.bool b)
  | num (n : Int) : SameButDecimals (.num n) (.num n)
  | dbl (d d' : BitVec 64) : SameButDecimals (.dbl d) (.dbl d')
  | str (s : Bytes) : SameButDecimals (.str s) (.str s)
  | arr {es gs : List Json} (hl : es.length = gs.length) :
      (∀ i (h : i < es.length), SameButDecimals es[i] (gs[i]'(hl ▸ h))) → SameButDecimals (.arr es) (.arr gs)
  | obj {fs gs : List (Bytes × Json)} (hl : fs.length = gs.length) :
      (∀ i (h : i < fs.length), fs[i].1 = (gs[i]'(hl ▸ h)).1) →
      (∀ i (h : i < fs.length), SameButDecimals fs[i].2 (gs[i]'(hl ▸ h)).2) → SameButDecimals (.obj fs) (.obj gs)

end Dart.Spec
