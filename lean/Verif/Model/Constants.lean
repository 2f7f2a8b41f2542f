/-!
`MahjongAI/utils/constants.py`.
-/
namespace MJ

/-- `TILE2IDX[t]` for `0 ≤ t < 136` (MahjongAI/utils/constants.py:8-12): the kind
`t // 4`, plus the red slot 34/35/36 for the tiles 16/52/88. -/
def tile2idx (t : Nat) : List Nat :=
  if t = 16 then [4, 34]
  else if t = 52 then [13, 35]
  else if t = 88 then [22, 36]
  else [t / 4]

/-- `REMAINING_TILES[k]` for `0 ≤ k < 37` (MahjongAI/utils/constants.py:4-5).
float32 in the code, an exact integer here. -/
def remainingTiles (k : Nat) : Int := if k < 34 then 4 else 1

/-- `REMAINING_TSUMO` (MahjongAI/utils/constants.py:15) -/
def remainingTsumo : Int := 70

/-- `MAX_SEQUENCE_LENGTH` (MahjongAI/utils/constants.py:16) -/
def maxSequenceLength : Nat := 150

/-- The index list of `YAOCHU_TENSOR` (MahjongAI/utils/constants.py:19-20),
including the index 34. -/
def yaochuIdx : List Nat := [0, 8, 9, 17, 18, 26, 27, 28, 29, 30, 31, 32, 33, 34]

/-- `PAD_ID` (MahjongAI/utils/constants.py:27) -/
def padId : Nat := 0

/-- `EventTypes` (MahjongAI/utils/constants.py:30-35) -/
def EventTypes.EMPTY : Nat := 0
@[inherit_doc EventTypes.EMPTY] def EventTypes.DISCARD : Nat := 1
@[inherit_doc EventTypes.EMPTY] def EventTypes.NAKI : Nat := 2
@[inherit_doc EventTypes.EMPTY] def EventTypes.RIICHI : Nat := 3
@[inherit_doc EventTypes.EMPTY] def EventTypes.NEW_DORA : Nat := 4

/-- `EventStateTypes` (MahjongAI/utils/constants.py:38-43) -/
def EventStateTypes.EMPTY : Nat := 0
@[inherit_doc EventStateTypes.EMPTY] def EventStateTypes.DISCARD : Nat := 1
@[inherit_doc EventStateTypes.EMPTY] def EventStateTypes.DURING : Nat := 2
@[inherit_doc EventStateTypes.EMPTY] def EventStateTypes.POST : Nat := 3
@[inherit_doc EventStateTypes.EMPTY] def EventStateTypes.NEW_DORA : Nat := 4

end MJ
