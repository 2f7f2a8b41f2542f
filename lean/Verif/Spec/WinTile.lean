import Verif.Spec.Wins
/-!
The tiles a question about a win stands for.  `evaluate_ron` and `evaluate_tsumo` do not hand over the player's tiles but
digit strings, which a converter turns back into tiles; the winning tile is handed over as it is.
-/
namespace MJ.Spec

/-- how often kind `k` occurs in the four strings -/
def digitsOf (man pin sou honors : List Nat) (k : Nat) : Nat :=
  if k < 9 then man.count (k + 1) else if k < 18 then pin.count (k - 9 + 1)
  else if k < 27 then sou.count (k - 18 + 1) else honors.count (k - 27 + 1)

/-- a way to turn the four strings into tiles: as many tiles of each kind as there are digits -/
def Converts (conv : List Nat → List Nat → List Nat → List Nat → List Nat) : Prop :=
  ∀ man pin sou honors, ∀ k < 34, kindCount (conv man pin sou honors) k = digitsOf man pin sou honors k

/-- the tiles the question stands for -/
def Query.tilesBy (conv : List Nat → List Nat → List Nat → List Nat → List Nat) (q : Query) : List Nat :=
  conv q.man q.pin q.sou q.honors

/-- the winning tile is one of the tiles the question stands for -/
def Query.Complete (conv : List Nat → List Nat → List Nat → List Nat → List Nat) (q : Query) : Prop :=
  q.win_tile ∈ Query.tilesBy conv q

/-- the evaluator declares a win only if the winning tile is one of the tiles it was given -/
def Insists (conv : List Nat → List Nat → List Nat → List Nat → List Nat) (est : Estimate) : Prop :=
  ∀ q, est q = .ok true → Query.Complete conv q

/-- the first copies of each kind (and the last one again and again, should there be more than four digits) -/
def firstCopies (man pin sou honors : List Nat) : List Nat :=
  (List.range 34).flatMap fun k => (List.range (digitsOf man pin sou honors k)).map fun i => 4 * k + min i 3

end MJ.Spec
