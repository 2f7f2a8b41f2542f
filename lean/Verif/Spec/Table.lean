import Verif.Spec.Log
import Verif.Spec.MeldLog
/-!
What lies on the table, from the log alone.
-/
namespace MJ.Spec

/-- the codes of the calls of player `p`, in order -/
def Act.callOf (p : Nat) : Act → List Nat
  | .call q c => if q = p then [c] else []
  | _ => []

namespace LogMeld

/-- a pon of kind `k` -/
def IsPonOf (k : Nat) : LogMeld → Bool
  | pon _ k' _ _ => k' == k
  | _ => false

/-- an added kan of kind `k` -/
def IsAddedOf (k : Nat) : LogMeld → Bool
  | kakan _ k' _ _ => k' == k
  | _ => false

/-- the melds in front of a player who made the calls `ms`: a pon that is later extended is gone -/
def onTable : List LogMeld → List LogMeld
  | [] => []
  | pon src k u w :: ms => if ms.any (IsAddedOf k) then onTable ms else pon src k u w :: onTable ms
  | m :: ms => m :: onTable ms

/-- no kind is called twice with a pon: there are only four tiles of it -/
def PonOnce (ms : List LogMeld) : Prop := ∀ k, ms.countP (IsPonOf k) ≤ 1

end LogMeld
end MJ.Spec
