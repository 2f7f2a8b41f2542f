import Verif.Spec.Moment
import Verif.Spec.OwnTurn
import Verif.Spec.Rows
/-!
What the state tensors of a training sample show, from the log alone.
-/
namespace MJ.Spec

/-- own turn (before the discard), discard, reactions of the others -/
inductive TurnKind where
  | during | discard | post
  deriving DecidableEq, Repr

/-- a decision point: its kind, who has moved, the events that the snapshot takes into account, the events whose tokens
are shown, and the tile discarded (if there is one) -/
structure DecisionPoint where
  kind : TurnKind
  who : Nat
  seen : List Act
  known : List Act
  tile : Nat

/-- the events up to the last draw or call -/
def upToTake (acts : List Act) : List Act := (acts.reverse.dropWhile (fun b => !b.isTake)).reverse

/-- the decision points that event `b` brings about -/
def pointsOf (pre : List Act) (b : Act) : List DecisionPoint :=
  match b with
  | .draw p _ => [⟨.during, p, pre ++ [b], pre, 0⟩]
  | .discard p t => [⟨.discard, p, upToTake pre, pre, t⟩, ⟨.post, p, upToTake pre, pre, t⟩]
  | .call p c => if Code.is_kakan c then [⟨.post, p, pre ++ [b], pre ++ [b], 0⟩] else []
  | _ => []

/-- the decision points of the events `acts` after `pre` -/
def pointsFrom (pre : List Act) : List Act → List DecisionPoint
  | [] => []
  | b :: bs => pointsOf pre b ++ pointsFrom (pre ++ [b]) bs

/-- 37 slots that show the counts `f`: the count itself in the basic model, else four thresholds -/
def ShowsCounts (v : Variant) (slots : List (List Int)) (f : Nat → Int) : Prop :=
  slots.length = 37 ∧ ∀ k < 37, ∃ row, slots[k]? = some row ∧ (v = .basic → row = [f k]) ∧
    (v ≠ .basic → row.length = 4 ∧ ∀ j : Nat, j < 4 → row[j]? = some (if (j : Int) < f k then 1 else 0))

/-- entry `q` of row `i` -/
def cell (m : List (List Int)) (i q : Nat) : Option Int := m[i]?.bind (fun r => r[q]?)

/-- The tensors of a sample for the moment `seen` of a round with the events `all`, when player `p` has moved.  Scores,
sticks, riichi, discards are those of the moment; the hand, the unseen tiles and the closed hands are those at the end of
the round. -/
structure Shown (v : Variant) (hai : Nat → List Nat) (ten : List Int) (length round honba sticks first dealer : Nat)
    (seen all : List Act) (p : Nat) (row : Row) : Prop where
  x3 : row.x3 = [70 - (wallCount seen : Int), sticks + seen.countP Act.isStick, honba, (length : Int) - round]
  shape : row.x2.length = 7 ∧ ∀ l ∈ row.x2, l.length = 4
  scores : ∀ q < 4, ∀ n, ten[q]? = some n → cell row.x2 0 q = some (n - 10 * (seen.count (Act.accept q) : Int))
  dealer : ∀ q < 4, cell row.x2 1 q = some (if q = dealer then 1 else 0)
  dealerships : ∀ q < 4, cell row.x2 2 q = some (((length : Int) - round + q) / 4)
  double : ∀ q < 4, (cell row.x2 3 q = some 1 ∧ DoubleMarked seen q) ∨ (cell row.x2 3 q = some 0 ∧ ¬ DoubleMarked seen q)
  riichi : ∀ q < 4, (cell row.x2 4 q = some 1 ∧ Act.accept q ∈ seen) ∨ (cell row.x2 4 q = some 0 ∧ Act.accept q ∉ seen)
  ippatsu : ∃ pre b, seen = pre ++ [b] ∧ ∀ q < 4, (cell row.x2 5 q = some 0 ∨ cell row.x2 5 q = some 1) ∧
    (cell row.x2 5 q = some 1 ↔ JustDeclared pre q ∧ (b.isDraw = true → b.who ≠ q))
  closed : ∀ q < 4, (cell row.x2 6 q = some 1 ∧ ¬ HasOpened all q) ∨ (cell row.x2 6 q = some 0 ∧ HasOpened all q)
  channels : row.x1.length = if v = .ordered then 6 else 3
  hand : ∃ slots held, row.x1[0]? = some slots ∧ Concealed hai all p held ∧ ShowsCounts v slots (fun k => (slotCount held k : Nat))
  unseen : ∃ slots, row.x1[1]? = some slots ∧ ShowsCounts v slots (fun k =>
    if k < 34 then 4 - (kindCount (hai p ++ [first] ++ collect (Act.drawn p) all ++ collect (Act.shownTo p) all ++
      collect Act.doras all) k : Nat)
    else 1 - (slotCount (hai p ++ [first] ++ collect (Act.drawn p) all ++ collect (Act.shownTo p) all) k : Nat))
  discards : ∀ i < (if v = .ordered then 4 else 1), ∃ slots f, row.x1[2 + i]? = some slots ∧ ShowsCounts v slots f ∧
    ∀ k < 37, (f k = 0 ∨ f k = 1) ∧ (f k = 1 ↔ Act.threwInto ((p + i) % 4) k seen)

end MJ.Spec
