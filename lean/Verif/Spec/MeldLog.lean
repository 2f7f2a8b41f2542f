import Verif.Spec.Meld
/-!
Melds as they are played, with the individual tiles, and the documented encoding of the `m` attribute of a
Tenhou log.  Tile `t` is copy `t % 4` of kind `t / 4`.
-/
namespace MJ.Spec

/-- a meld with its tiles; `src` is the distance to the seat it was called from, `called` says which of the tiles
in increasing order was called -/
inductive LogMeld where
  /-- copies `x`, `y`, `z` of the kinds `k`, `k + 1`, `k + 2` -/
  | chi (src k x y z called : Nat)
  /-- all copies of kind `k` but `unused` -/
  | pon (src k unused called : Nat)
  /-- copy `added` of kind `k` is added to a pon of the other three copies -/
  | kakan (src k added called : Nat)
  /-- all copies of a kind, with the tile that was called -/
  | minkan (src tile : Nat)
  /-- all copies of a kind, with any one of them -/
  | ankan (tile : Nat)
  deriving DecidableEq, Repr

namespace LogMeld

/-- the parameters are in range -/
def Valid : LogMeld → Prop
  | chi src k x y z w => src < 4 ∧ k < 27 ∧ k % 9 ≤ 6 ∧ x < 4 ∧ y < 4 ∧ z < 4 ∧ w < 3
  | pon src k u w => src < 4 ∧ k < 34 ∧ u < 4 ∧ w < 3
  | kakan src k u w => src < 4 ∧ k < 34 ∧ u < 4 ∧ w < 3
  | minkan src t => 0 < src ∧ src < 4 ∧ t < 136
  | ankan t => t < 136

/-- the documented bit layout -/
def encode : LogMeld → Nat
  | chi src k x y z w => src + 4 + 8 * x + 32 * y + 128 * z + 1024 * ((k / 9 * 7 + k % 9) * 3 + w)
  | pon src k u w => src + 8 + 32 * u + 512 * (k * 3 + w)
  | kakan src k u w => src + 16 + 32 * u + 512 * (k * 3 + w)
  | minkan src t => src + 256 * t
  | ankan t => 256 * t

def type : LogMeld → MeldType
  | chi .. => .chi
  | pon .. => .pon
  | kakan .. => .kakan
  | minkan .. => .minkan
  | ankan .. => .ankan

/-- where it was called from -/
def source : LogMeld → Nat
  | chi src .. | pon src .. | kakan src .. | minkan src .. => src
  | ankan _ => 0

/-- the four copies of a kind -/
def copies (k : Nat) : List Nat := [4 * k, 4 * k + 1, 4 * k + 2, 4 * k + 3]

/-- the tiles that leave or left the player's hand with this event, and the tile that was called with it -/
def tiles : LogMeld → List Nat × Option Nat
  | chi _ k x y z w =>
    let l := [4 * k + x, 4 * (k + 1) + y, 4 * (k + 2) + z]
    (l.eraseIdx w, l[w]?)
  | pon _ k u w =>
    let l := (copies k).eraseIdx u
    (l.eraseIdx w, l[w]?)
  | kakan _ k u _ => ([4 * k + u], none)
  | minkan _ t => ((copies (t / 4)).filter (· != t), some t)
  | ankan t => (copies (t / 4), none)

end LogMeld
end MJ.Spec
