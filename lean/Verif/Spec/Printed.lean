import Verif.Model.Xml
/-!
What the printed form of a meld, a decision and a half-turn is meant to show.
-/
namespace MJ.Spec.Printed

/-- a meld: its type and its number among the actions -/
inductive Meld where
  | chi (n : Int) | pon (n : Int) | kakan (n : Nat) | minkan (n : Int) | ankan (n : Nat) | invalid
  deriving DecidableEq

/-- a decision -/
inductive Decision where
  | agari (player : Nat) (executed : Bool)
  | reach (player : Nat) (executed : Bool)
  | call (player : Nat) (meld : Meld) (executed : Bool)
  deriving DecidableEq

/-- a half-turn -/
inductive Turn where
  | during (player : Nat) (decisions : List (List Decision))
  | discard (player tile : Nat)
  | post (player : Nat) (decisions : List (List (List Decision)))
  deriving DecidableEq

open Code in
/-- what is to be seen of a meld -/
def meld (n : Naki) : Meld :=
  let c := n.naki_code
  match get_post_turn_filter_idx c, get_during_turn_filter_idx c with
  | .ok i, _ => if is_chi c then .chi i else if is_pon c then .pon i else .minkan i
  | _, .ok i => if is_kakan c then .kakan i else .ankan i
  | _, _ => .invalid

/-- what is to be seen of the decisions of a player -/
def decisions (agari : List AgariDecision) (reach : List ReachDecision) (calls : List NakiDecision) : List (List Decision) :=
  [agari.map (fun d => .agari d.player d.executed), reach.map (fun d => .reach d.player d.executed),
    calls.map (fun d => .call d.player (meld d.naki) d.executed)]

/-- what is to be seen of a half-turn -/
def turn : HalfTurn → Turn
  | .during player _ _ agari reach calls => .during player (decisions agari reach calls)
  | .discard player _ _ tile => .discard player tile
  | .post player _ _ agari calls =>
    .post player ((List.range 4).map (fun p => decisions (agari.getD p []) [] (calls.getD p [])))

end MJ.Spec.Printed
