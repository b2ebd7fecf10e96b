import Verif.Model.AbiCalls

/-
What a loop over an aggregate returns to its caller, call by call.
-/
namespace Dart.Spec

open Dart.Abi

/-- The program makes no calls but those that only read. -/
def OnlyReads : Prog → Prop
  | .stop => True
  | .call c next => (∃ y q, c = .query y q) ∧ ∀ o, OnlyReads (next o)

/-- Fetching the next element into the loop variable: there is one, or the iterator is exhausted. -/
def fetched : List Pkt → Out
  | [] => .code .runtimeError
  | _ :: _ => .code .noError

/-- The answers of all calls of a loop over `ps`, where the body gets the answers `ans p` with the element `p`: the question
whether the iterator is done, the body, then advancing, destroying the loop variable, fetching. -/
def rounds (ans : Pkt → List Out) : List Pkt → List Out
  | [] => [.flag true]
  | p :: ps => .flag false :: ans p ++ [.code .noError, .code .noError, fetched ps] ++ rounds ans ps

/-- The same for the first `n` rounds. -/
def firstRounds (ans : Pkt → List Out) : Nat → List Pkt → List Out
  | n + 1, p :: ps => .flag false :: ans p ++ [.code .noError, .code .noError, fetched ps] ++ firstRounds ans n ps
  | _, _ => []

end Dart.Spec
