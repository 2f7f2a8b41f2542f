import Verif.Spec.Log
/-!
What a player sees of a round.
-/
namespace MJ.Spec

/-- what a player sees of an event: who draws, and the tile only if it is the own draw; discards, and whether the
tile is the one just drawn; everything else is open -/
inductive Seen where
  | drew (player : Nat) (tile : Option Nat)
  | discarded (player tile : Nat) (drawn : Bool)
  | opened (act : Act)
  deriving DecidableEq, Repr

/-- what player `p` sees of the events; `last` is the tile drawn last, if it is still apart from the hand -/
def sightOf (p : Nat) : Option Nat → List Act → List Seen
  | _, [] => []
  | _, .draw q t :: l => .drew q (if q = p then some t else none) :: sightOf p (some t) l
  | last, .discard q t :: l => .discarded q t (last == some t) :: sightOf p none l
  | _, .call q c :: l => .opened (.call q c) :: sightOf p none l
  | last, .dora t :: l => .opened (.dora t) :: sightOf p last l
  | last, .declare q :: l => .opened (.declare q) :: sightOf p last l
  | last, .accept q :: l => .opened (.accept q) :: sightOf p last l

end MJ.Spec
