/-!
`MahjongAI/gameinfo.py`.
-/
namespace MJ

/-- `GameInfo` (MahjongAI/gameinfo.py:1-3).  `go` is a natural number. -/
structure GameInfo where
  go : Nat
  deriving DecidableEq, Repr

namespace GameInfo
/-- MahjongAI/gameinfo.py:5-6 -/
def against_human (g : GameInfo) : Nat := g.go &&& 0x1
/-- MahjongAI/gameinfo.py:8-9 -/
def no_red (g : GameInfo) : Nat := (g.go &&& 0x2) >>> 1
/-- MahjongAI/gameinfo.py:11-12 -/
def kansaki (g : GameInfo) : Nat := (g.go &&& 0x4) >>> 2
/-- MahjongAI/gameinfo.py:14-15 -/
def tonnan (g : GameInfo) : Nat := (g.go &&& 0x8) >>> 3
/-- MahjongAI/gameinfo.py:17-18 -/
def three_players (g : GameInfo) : Nat := (g.go &&& 0x10) >>> 4
/-- MahjongAI/gameinfo.py:20-21 -/
def fast (g : GameInfo) : Nat := (g.go &&& 0x40) >>> 6
/-- MahjongAI/gameinfo.py:23-24 -/
def level (g : GameInfo) : Nat := (g.go &&& 0xA0) >>> 5
/-- MahjongAI/gameinfo.py:26-27 -/
def n_rounds (g : GameInfo) : Nat := 4 * (g.tonnan + 1)
end GameInfo

/-- `RoundInfo` (MahjongAI/gameinfo.py:33-42) -/
structure RoundInfo where
  remaining_rounds : Int
  parent_rounds_remaining : List Int
  player_wind : Nat
  round_wind : Nat
  deriving DecidableEq, Repr

/-- `RoundInfo.__init__` (MahjongAI/gameinfo.py:34-42); `curr_round` is a natural
number, Python's floor division on `int` is `Int./` for the positive divisor 4. -/
def RoundInfo.init (g : GameInfo) (curr_round : Nat) : RoundInfo :=
  let n : Int := 4 * (g.tonnan + 1)
  let rem : Int := n - curr_round
  { remaining_rounds := rem
    parent_rounds_remaining := (List.range 4).map (fun (i : Nat) => (rem + (i : Int)) / 4)
    player_wind := curr_round % 4
    round_wind := curr_round / 4 }

end MJ
