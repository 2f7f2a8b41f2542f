import Verif.Spec.Rows
import Verif.Spec.Log
/-!
The tiles everybody can see, and what a sample says about a kind of tile.
-/
namespace MJ.Spec

/-- tiles laid face up on the table by somebody: discards and the tiles exposed in calls -/
def Act.played : Act → List Nat
  | .discard _ t => [t]
  | .call _ c => exposedTiles c
  | _ => []

/-- how many tiles count in slot `k`: four of each kind, one red five of each suit -/
def supply (k : Nat) : Int := if k < 34 then 4 else 1

/-- the number a sample shows for slot `k` in channel `i`: the entry itself, or the number of thresholds reached -/
def shownIn (x1 : List (List (List Int))) (i k : Nat) : Int := ((x1.getD i []).getD k []).sum

/-- In every slot the channels show at least 0 tiles each, and all together at most as many as there are. -/
def PlanesFit (x1 : List (List (List Int))) : Prop :=
  ∀ k < 37, (∀ i < x1.length, 0 ≤ shownIn x1 i k) ∧ ((List.range x1.length).map (fun i => shownIn x1 i k)).sum ≤ supply k

instance (x1 : List (List (List Int))) : Decidable (PlanesFit x1) := by unfold PlanesFit; infer_instance

end MJ.Spec
