import Verif.Model.Buffer
import Verif.Model.Read

/-
What a lookup may read.
-/
namespace Dart.Spec

/-- What the table knows about a name (its characters up to the first NUL: the length up to 255, the first two characters) does not
exclude that it is the key: the key has the length noted and begins with the characters noted; or it is longer than can be
noted, as is the name, in which case the characters are not looked at. -/
def MayMatch (key name : Bytes) : Prop :=
  let c := name.takeWhile (· ≠ 0)
  (255 < key.length ∧ 255 ≤ c.length) ∨ (key.length = min 255 c.length ∧ c.take 2 = key.take 2)

/-- Positions of the memory: within the header and the table of the object at `p` with `n` fields. -/
def InTable (p n i : Nat) : Prop := p ≤ i ∧ i < p + 8 + 8 * n

/-- Within a name that may match (length and characters). -/
def InCandidate (m : Bytes) (p : Nat) (fs : List (Bytes × Val)) (key : Bytes) (i : Nat) : Prop :=
  ∃ k kp, ∃ hk : k < fs.length, loadKey m p k = some kp ∧ MayMatch key fs[k].1 ∧ kp ≤ i ∧ i < kp + 2 + fs[k].1.length

end Dart.Spec
