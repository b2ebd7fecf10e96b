import Verif.Spec.Hostile
import Verif.Spec.Heap
import Verif.Model.Validate
import Verif.Model.Packet

/-
Projecting and merging one after the other, beginning with untrusted bytes.
-/
namespace Dart.Spec

/-- Untrusted bytes which `is_valid` accepts and which hold these fields: the size is a multiple of eight, the keys are in order
and no value is null. (What the library writes is like that but for nulls; what an attacker writes need not be.) -/
structure Tame (m : Bytes) (fs : List (Bytes × Val)) : Prop where
  accepted : accepts m
  shows : IterShows (Buf.ofBytes m) fs
  ordered : fs.Pairwise fun x y => KeyBefore x.1 y.1
  full : ∀ f ∈ fs, f.2 ≠ .null
  size : ∃ bs, (Buf.ofBytes m).getBytes = .ok bs ∧ 8 ∣ bs.length

/-- A program: bytes from outside (with their fields), projecting what a program gives, merging what two programs give. -/
inductive Chain
  | given (m : Bytes) (fs : List (Bytes × Val))
  | pick (c : Chain) (ks : List Bytes)
  | join (c d : Chain)

namespace Chain

/-- Running it. -/
def run : Chain → Res Buf
  | given m _ => .ok (Buf.ofBytes m)
  | pick c ks => c.run.bind fun b => b.project ks
  | join c d => c.run.bind fun b => d.run.bind fun b' => b.merge b'

/-- What its result should hold: of the fields of what is projected those asked for, and the fields of both that are merged, those of
the second where they share a key. -/
def holds : Chain → Bytes → Option Val
  | given _ fs, k => lookup fs k
  | pick c ks, k => if k ∈ ks then c.holds k else none
  | join c d, k => (d.holds k).or (c.holds k)

/-- All that comes from outside is in order. -/
def Good : Chain → Prop
  | given m fs => Tame m fs
  | pick c _ => c.Good
  | join c d => c.Good ∧ d.Good

/-- How many bytes come from outside, counted as often as they are used. -/
def weight : Chain → Nat
  | given m _ => m.length
  | pick c _ => c.weight
  | join c d => c.weight + d.weight

/-- The last step is projecting or merging. -/
def isMade : Chain → Bool
  | given _ _ => false
  | pick _ _ => true
  | join _ _ => true

end Chain
end Dart.Spec
