import Verif.Spec.OwnTurn
/-!
The first go-around, from the log alone.
-/
namespace MJ.Spec

/-- a chi, pon or kan of any player -/
def Act.isCall : Act → Bool
  | .call .. => true
  | _ => false

/-- who draws -/
def Act.drawer : Act → List Nat
  | .draw p _ => [p]
  | _ => []

/-- the draws go round the table, beginning with the dealer: the order as long as nobody calls -/
def InTurn (dealer : Nat) (acts : List Act) : Prop :=
  ∀ i p, (acts.flatMap Act.drawer)[i]? = some p → p = (dealer + i) % 4

/-- Nobody has called and player `p` has drawn at most once. -/
def FirstTurn (acts : List Act) (p : Nat) : Prop :=
  (∀ a ∈ acts, a.isCall = false) ∧ (acts.flatMap Act.drawer).count p ≤ 1

/-- What an event adds to the program's count of turns as long as nobody calls from another player: one for a draw, but
`p + 1` for a closed kan of player `p`. -/
def Act.turnsCounted : Act → Nat
  | .draw .. => 1
  | .call p c => p + if Code.is_minkan c || Code.is_ankan c || Code.is_kakan c then 1 else 0
  | _ => 0

/-- Player `q` is marked as having declared a double riichi: when they did, nobody had called from another player and at
most four turns were counted. -/
def DoubleMarked (acts : List Act) (q : Nat) : Prop :=
  ∃ pre post, acts = pre ++ .accept q :: post ∧ (∀ r < 4, ¬ HasOpened pre r) ∧ (pre.map Act.turnsCounted).sum ≤ 4

end MJ.Spec
