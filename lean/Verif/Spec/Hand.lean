/-!
Specification of hand decompositions, independent of the solver.  Tile kinds are 0-26 (suited) and 27-33 (honours).
-/
namespace MJ.Spec

/-- a group of tiles -/
inductive Block where
  /-- three tiles of one kind -/
  | koutsu (i : Nat)
  /-- a run starting at `i` -/
  | shuntsu (i : Nat)
  /-- two tiles of one kind -/
  | toitsu (i : Nat)
  /-- two tiles of a run starting at `i`, the one at distance `which` (1 or 2) missing -/
  | taatsu (i which : Nat)
  /-- a single tile; marked when it is the fourth of its kind -/
  | single (i : Nat) (marked : Bool)
  deriving DecidableEq, Repr

/-- how many tiles of kind `j` the block uses -/
def Block.uses : Block → Nat → Nat
  | .koutsu i, j => if j = i then 3 else 0
  | .shuntsu i, j => if j = i ∨ j = i + 1 ∨ j = i + 2 then 1 else 0
  | .toitsu i, j => if j = i then 2 else 0
  | .taatsu i which, j => if (j = i ∨ j = i + 1 ∨ j = i + 2) ∧ j ≠ i + which then 1 else 0
  | .single i _, j => if j = i then 1 else 0

/-- the block exists: kinds are in range, runs stay inside a suit -/
def Block.valid : Block → Bool
  | .koutsu i => decide (i < 34)
  | .shuntsu i => decide (i < 27 ∧ i % 9 < 7)
  | .toitsu i => decide (i < 34)
  | .taatsu i which => decide (i < 27 ∧ ((which = 1 ∧ i % 9 < 7) ∨ (which = 2 ∧ i % 9 < 8)))
  | .single i _ => decide (i < 34)

def Block.isSet : Block → Bool
  | .koutsu _ => true
  | .shuntsu _ => true
  | _ => false

def Block.isToitsu : Block → Bool
  | .toitsu _ => true
  | _ => false

def Block.isTaatsu : Block → Bool
  | .taatsu _ _ => true
  | _ => false

def Block.isMarked : Block → Bool
  | .single _ true => true
  | _ => false

/-- how many tiles of kind `j` the blocks use -/
def used (B : List Block) (j : Nat) : Nat := (B.map (fun b => b.uses j)).sum

/-- the number of sets, partial runs, pairs, marked singles in a list of blocks -/
def sets (B : List Block) : Nat := B.countP Block.isSet
@[inherit_doc sets]
def taatsus (B : List Block) : Nat := B.countP Block.isTaatsu
@[inherit_doc sets]
def toitsus (B : List Block) : Nat := B.countP Block.isToitsu
@[inherit_doc sets]
def markeds (B : List Block) : Nat := B.countP Block.isMarked

/-- the distance from a complete hand with `m` sets, `t` partial runs and `p` pairs: 8 minus 2 per set and 1 per
partial run or pair, where at most four sets and partial sets and one extra pair count; one more if there is a
marked single and no pair -/
def distance (m t p : Int) (marked : Bool) : Int :=
  8 - 2 * m - t - p + max 0 (m + t + max 0 (p - 1) - 4) + (if marked = true ∧ p = 0 then 1 else 0)

/-- the tiles of the hand (a number for each kind) are exactly `k` sets and a pair -/
def Complete (k : Nat) (h : Nat → Int) : Prop :=
  ∃ B : List Block, ∃ q, (∀ b ∈ B, b.valid = true ∧ b.isSet = true) ∧ B.length = k ∧ q < 34 ∧
    ∀ j < 34, h j = used (.toitsu q :: B) j

end MJ.Spec
