import Verif.Spec.Log
import Verif.Spec.MeldLog
/-!
What may happen in a round of mahjong, as far as tiles and turns are concerned.  The rules ask for more (the order of the
seats, which discard is called, when riichi may be declared): every round played by the rules is legal in this sense.
-/
namespace MJ.Spec

/-- the tile has not been dealt, drawn or turned over before -/
def Unseen (hai : Nat → List Nat) (first : Nat) (acts : List Act) (t : Nat) : Prop :=
  t < 136 ∧ (∀ p < 4, t ∉ hai p) ∧ t ≠ first ∧ t ∉ collect Act.drawnByAny acts ∧ t ∉ collect Act.doras acts

/-- a call that is made in the caller's own turn -/
def LogMeld.own : LogMeld → Bool
  | kakan .. | ankan .. => true
  | _ => false

/-- what may happen next -/
def MayFollow (hai : Nat → List Nat) (first : Nat) (acts : List Act) : Act → Prop
  /- an indicator is turned over -/
  | .dora t => Unseen hai first acts t
  /- riichi is announced after a draw -/
  | .declare p => p < 4 ∧ ∃ q t, lastMove acts = some (.draw q t)
  /- the stick is paid after a discard -/
  | .accept p => p < 4 ∧ ∃ q t, lastMove acts = some (.discard q t)
  /- a tile from the wall is drawn when nobody has to discard -/
  | .draw p t => p < 4 ∧ holderOf (lastMove acts) = none ∧ Unseen hai first acts t
  /- whoever has to discard throws a tile from the hand -/
  | .discard p t => p < 4 ∧ holderOf (lastMove acts) = some p ∧ Holds hai acts p t
  /- closed and added kans after the own draw, the other calls after a discard, with tiles from the hand -/
  | .call p c => p < 4 ∧ ∃ m : LogMeld, m.Valid ∧ c = m.encode ∧ (∀ t ∈ m.tiles.1, Holds hai acts p t) ∧
      if m.own then ∃ t, lastMove acts = some (.draw p t) else ∃ q t, lastMove acts = some (.discard q t)

/-- what the program can tell from the acting player's hand alone: like `MayFollow`, but a tile from the wall need only
not be in the drawer's own hand -/
def Consistent (hai : Nat → List Nat) (acts : List Act) : Act → Prop
  | .dora t => t < 136
  | .declare p => p < 4 ∧ ∃ q t, lastMove acts = some (.draw q t)
  | .accept p => p < 4 ∧ ∃ q t, lastMove acts = some (.discard q t)
  | .draw p t => p < 4 ∧ holderOf (lastMove acts) = none ∧ t < 136 ∧ ¬ Holds hai acts p t
  | .discard p t => p < 4 ∧ holderOf (lastMove acts) = some p ∧ Holds hai acts p t
  | .call p c => p < 4 ∧ ∃ m : LogMeld, m.Valid ∧ c = m.encode ∧ (∀ t ∈ m.tiles.1, Holds hai acts p t) ∧
      if m.own then ∃ t, lastMove acts = some (.draw p t) else ∃ q t, lastMove acts = some (.discard q t)

/-- every event is consistent with what came before -/
def ConsistentRound (hai : Nat → List Nat) (acts : List Act) : Prop :=
  ∀ pre x post, acts = pre ++ x :: post → Consistent hai pre x

/-- a round in which everything that happens may happen -/
def LegalRound (hai : Nat → List Nat) (first : Nat) (acts : List Act) : Prop :=
  ∀ pre x post, acts = pre ++ x :: post → MayFollow hai first pre x

/-- four hands of thirteen tiles and the first indicator, all different -/
structure FairDeal (hai : Nat → List Nat) (first : Nat) : Prop where
  size : ∀ p < 4, (hai p).length = 13
  tiles : ∀ t ∈ hai 0 ++ hai 1 ++ hai 2 ++ hai 3 ++ [first], t < 136
  distinct : (hai 0 ++ hai 1 ++ hai 2 ++ hai 3 ++ [first]).Nodup

/-- tiles that have come from the deal and the wall, and the indicators -/
def outOfWall (hai : Nat → List Nat) (first : Nat) (acts : List Act) : List Nat :=
  hai 0 ++ hai 1 ++ hai 2 ++ hai 3 ++ [first] ++ collect Act.drawnByAny acts ++ collect Act.doras acts

/-- tiles player `p` has seen -/
def seenBy (hai : Nat → List Nat) (first : Nat) (acts : List Act) (p : Nat) : List Nat :=
  hai p ++ [first] ++ collect (Act.drawn p) acts ++ collect (Act.shownTo p) acts ++ collect Act.doras acts

/-- At most four tiles of each kind and one red five of each suit, as the program counts them: an indicator turned
later is not counted as a red five. -/
structure WithinSupply (hai : Nat → List Nat) (first : Nat) (acts : List Act) : Prop where
  wall : ∀ k < 34, kindCount (outOfWall hai first acts) k ≤ 4
  wall_red : ∀ k, 34 ≤ k → k < 37 → slotCount (hai 0 ++ hai 1 ++ hai 2 ++ hai 3 ++ [first] ++ collect Act.drawnByAny acts) k ≤ 1
  seen : ∀ p < 4, ∀ k < 34, kindCount (seenBy hai first acts p) k ≤ 4
  seen_red : ∀ p < 4, ∀ k, 34 ≤ k → k < 37 → slotCount (hai p ++ [first] ++ collect (Act.drawn p) acts ++
    collect (Act.shownTo p) acts) k ≤ 1

end MJ.Spec
