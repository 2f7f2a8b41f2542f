import Verif.Spec.Wins
import Verif.Spec.FirstRound
import Verif.Model.Round
/-!
What a snapshot of the table has to say, from the log alone.
-/
namespace MJ.Spec

/-- player `q` has discarded a tile counted in row `k` (kinds 0..33, red fives 34..36) -/
def Act.threwInto (q k : Nat) (acts : List Act) : Prop := ∃ t ∈ collect (Act.discarded q) acts, InSlot t k

/-- The snapshot `o` shows the table as player `p` finds it after the events `acts` of round number `round` of `length`,
dealt by `dealer`, which began with the scores `ten`, `honba` counters, `sticks` riichi sticks and the indicator `first`. -/
structure Recorded (ten : List Int) (length round honba sticks first dealer : Nat) (acts : List Act) (p : Nat)
    (o : StateObj) : Prop where
  player : o.player = p
  scores : ∀ q, o.scores[q]? = ten[q]?.map (fun v => v - 10 * (acts.count (Act.accept q) : Int))
  sticks : o.kyotaku = sticks + acts.countP Act.isStick
  honba : o.honba = honba
  indicators : o.dora = first :: collect Act.doras acts
  dealer : o.parent = dealer
  wall : o.remaining_tsumo = 70 - wallCount acts
  riichi : ∀ q, o.reaches q = if Act.accept q ∈ acts then 1 else 0
  double : ∀ q, (o.double_reaches q = 0 ∨ o.double_reaches q = 1) ∧ (o.double_reaches q = 1 ↔ DoubleMarked acts q)
  discards : ∀ q k, (o.sutehai_tensors q k = 0 ∨ o.sutehai_tensors q k = 1) ∧
    (o.sutehai_tensors q k = 1 ↔ Act.threwInto q k acts)
  rounds : o.rounds_remaining = (length : Int) - round
  dealerships : o.parent_rounds_remaining = (List.range 4).map (fun (i : Nat) => ((length : Int) - round + i) / 4)

/-- whose event it is (0 for a new indicator) -/
def Act.who : Act → Nat
  | .dora _ => 0
  | .declare p | .accept p | .call p _ | .draw p _ | .discard p _ => p

/-- a draw or a call: the events after which the program takes a snapshot -/
def Act.isTake : Act → Bool
  | .draw .. | .call .. => true
  | _ => false

/-- player `q` has declared riichi, or paid for it, and nobody has drawn or called since -/
def JustDeclared (acts : List Act) (q : Nat) : Prop :=
  ∃ pre b post, acts = pre ++ b :: post ∧ (b = .declare q ∨ b = .accept q) ∧ ∀ b ∈ post, b.isTake = false

end MJ.Spec
