import Verif.Spec.Log
import Verif.Spec.Shown
import Verif.Model.Round
import Verif.Model.Tokens
/-!
The same round with everybody moved on by some seats.
-/
namespace MJ.Spec

/-- the seat `r` places after seat `p` -/
def seatOn (r p : Nat) : Nat := (p + r) % 4

/-- the event with everybody moved on; a call says relative to the caller whose tile is taken, so its code stays -/
def Act.moved (r : Nat) : Act → Act
  | .dora t => .dora t
  | .declare p => .declare (seatOn r p)
  | .accept p => .accept (seatOn r p)
  | .call p c => .call (seatOn r p) c
  | .draw p t => .draw (seatOn r p) t
  | .discard p t => .discard (seatOn r p) t

/-- tables with one entry per seat, moved on -/
def Moved {α : Type} (r : Nat) (f f' : Nat → α) : Prop := ∀ p < 4, f' (seatOn r p) = f p

/-- the tokens of the same event with everybody moved on -/
inductive TokenMoved (r : Nat) : Nat → Nat → Prop
  | dora {k t : Nat} : new_dora2idx k = .ok t → TokenMoved r t t
  | reach {p t t' : Nat} : p < 4 → reach2idx p = .ok t → reach2idx (seatOn r p) = .ok t' → TokenMoved r t t'
  | discard {p k t t' : Nat} {drawn : Bool} : p < 4 → discard2idx p k drawn = .ok t →
      discard2idx (seatOn r p) k drawn = .ok t' → TokenMoved r t t'
  | call {p c t t' : Nat} : p < 4 → naki2idx p c = .ok t → naki2idx (seatOn r p) c = .ok t' → TokenMoved r t t'

/-- no closed kan -/
def NoClosedKan (acts : List Act) : Prop := ∀ p c, Act.call p c ∈ acts → Code.from_who c ≠ 0

/-- the sample of the same decision with everybody moved on: hand, unseen tiles, discards, mask and label are the same, the
tokens and the table of the players are moved; the remaining dealerships (row 2) depend on the round number only -/
structure RowMoved (r : Nat) (row row' : Row) : Prop where
  player : row'.player = seatOn r row.player
  tokens : AllPairs (fun t t' => (t = 0 ∧ t' = 0) ∨ TokenMoved r t t') row.tokens row'.tokens
  x1 : row'.x1 = row.x1
  x2 : ∀ i < 7, i ≠ 2 → ∀ p < 4, cell row'.x2 i (seatOn r p) = cell row.x2 i p
  dealerships : ∀ p < 4, cell row'.x2 2 p = cell row.x2 2 p
  x3 : row'.x3 = row.x3
  mask : row'.mask = row.mask
  y : row'.y = row.y

end MJ.Spec
