import Verif.Spec.Meld
import Verif.Spec.Log
/-!
Tiles seen in the mirror: ones become nines, twos eights and so on; fives and honours stay.
-/
namespace MJ.Spec

/-- the mirror image of a kind -/
def mirrorKind (k : Nat) : Nat := if k < 27 then 9 * (k / 9) + (8 - k % 9) else k

/-- the mirror image of a tile; red fives stay what they are -/
def mirrorTile (t : Nat) : Nat := 4 * mirrorKind (t / 4) + t % 4

/-- the mirror image of a meld -/
def MeldView.mirror (v : MeldView) : MeldView :=
  { v with handKinds := (v.handKinds.map mirrorKind).reverse, calledKind := v.calledKind.map mirrorKind }

/-- `q` holds the mirror image of what they hold after `pre` in the other round -/
def MirrorHeld (hai hai' : Nat → List Nat) (pre pre' : List Act) (q : Nat) : Prop :=
  ∀ u < 136, Holds hai' pre' q (mirrorTile u) ↔ Holds hai pre q u

end MJ.Spec
