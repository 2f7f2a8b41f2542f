import Verif.Spec.Log
import Verif.Spec.MeldObs
/-!
What the tokens of a round tell: the public events, with kinds instead of tiles.
-/
namespace MJ.Spec
open Code

/-- a public event, as far as the tokens tell it -/
inductive TaleEvent where
  /-- player `p` discards a tile of the kind; `drawn`: the tile just got -/
  | discard (p kind : Nat) (drawn : Bool)
  /-- player `p` makes a meld with tiles of the kinds `hand` from the hand, calling a tile of the kind `called` -/
  | meld (p : Nat) (type : MeldType) (hand : List Nat) (called : Option Nat) (red : Bool)
  | riichi (p : Nat)
  | dora (kind : Nat)
  deriving DecidableEq, Repr

/-- What is told about the red five of a meld: for a chi, whether it comes from the hand; for a pon, whether it comes
from the hand and the called tile is the last of the four copies; nothing for kans. -/
def redTold (c : Nat) (v : MeldView) : Bool :=
  match v.type with
  | .chi => v.handRed
  | .pon => v.handRed && (calledTile c).any (· % 4 == 3)
  | _ => false

/-- what is told of an event, given the last move before it -/
def taleOf (last : Option Act) : Act → List TaleEvent
  | .dora t => [.dora (t / 4)]
  | .accept p => [.riichi p]
  | .call p c => (view c).toList.map (fun v => .meld p v.type v.handKinds v.calledKind (redTold c v))
  | .discard p t => [.discard p (t / 4) (acquiredOf last == some t)]
  | _ => []

/-- what is told of a list of events -/
def tale (last : Option Act) : List Act → List TaleEvent
  | [] => []
  | a :: as => taleOf last a ++ tale (if a.isMove then some a else last) as

/-- Calls as the rules want them, as far as kinds are concerned: a called tile is of the kind that was discarded last. -/
def KindsCalled (acts : List Act) : Prop :=
  ∀ pre p c post v k, acts = pre ++ .call p c :: post → view c = some v → v.calledKind = some k →
    ∃ q t, lastMove pre = some (.discard q t) ∧ t / 4 = k

end MJ.Spec
