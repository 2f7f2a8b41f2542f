import Verif.Model.Printing
import Verif.Model.Shanten
/-!
`evaluate_ron` and `evaluate_tsumo` with `verbose=True`, and what `utils/agari.py` and `utils/shanten.py` print when they
are run as scripts.

The library answers a query with an exception, or with the text of the `HandResponse` and whether `error is None`.
-/
namespace MJ.Printing

/-- the library with the text of its answers -/
abbrev Library := Query → Except PyErr (Text × Bool)

/-- the library as in `Model/Agari` -/
def Library.estimate (lib : Library) : Estimate := fun q => (lib q).map (·.2)

/-- the hands and decisions of the loop of `evaluate_ron` -/
abbrev RonSt := (Nat → Nat → Int) × List (Option AgariDecision)

/-- one round of the loop of `evaluate_ron` with `verbose=True` (MahjongAI/utils/agari.py:62-151): what is printed, and
the outcome -/
def ronStepSaid (lib : Library) (player : Nat) (a : WinArgs) (sutehai : Nat → Nat → Int) (tile idx : Nat)
    (is_chankan : Bool) (is_renhou : Nat → Bool) (p : Nat) (st : RonSt) : List Text × Except PyErr RonSt :=
  if p = player then ([], .ok st)
  else if sutehai p idx ≠ 0 then ([lit "Player " ++ decimal p ++ lit " is furiten"], .ok st)
  else
    let hands := setAt st.1 p (setAt (st.1 p) idx (st.1 p idx + 1))
    let strs := hand_tensor2strs (hands p)
    let hands := setAt hands p (setAt (hands p) idx (hands p idx - 1))
    match nakisToMelds (a.naki_list p) with
    | .error e => ([], .error e)
    | .ok melds =>
      let config : Config :=
        { is_tsumo := false, is_riichi := a.reaches p != 0, is_ippatsu := a.ippatsu p != 0, is_rinshan := false,
          is_chankan := is_chankan, is_haitei := a.is_haitei, is_houtei := false,
          is_daburu_riichi := a.double_reaches p != 0, is_tenhou := false, is_chiihou := false,
          is_renhou := is_renhou p, player_wind := a.player_wind, round_wind := a.round_wind,
          kyoutaku_number := a.kyotaku, tsumi_number := a.honba }
      match lib ⟨strs.1, strs.2.1, strs.2.2.1, strs.2.2.2, tile, melds, a.doras, config⟩ with
      | .error e => ([], .error e)
      | .ok (text, true) => ([text], .ok (hands, st.2.set p (some ⟨p, false⟩)))
      | .ok (text, false) => ([text], .ok (hands, st.2))

/-- the loop over the players -/
def ronLoopSaid (lib : Library) (player : Nat) (a : WinArgs) (sutehai : Nat → Nat → Int) (tile idx : Nat)
    (is_chankan : Bool) (is_renhou : Nat → Bool) : List Nat → RonSt → List Text × Except PyErr RonSt
  | [], st => ([], .ok st)
  | p :: ps, st =>
    match ronStepSaid lib player a sutehai tile idx is_chankan is_renhou p st with
    | (said, .error e) => (said, .error e)
    | (said, .ok st) =>
      let (more, r) := ronLoopSaid lib player a sutehai tile idx is_chankan is_renhou ps st
      (said ++ more, r)

/-- `evaluate_ron(..., verbose=True)` (MahjongAI/utils/agari.py:40-153) -/
def ronSaid (lib : Library) (player : Nat) (hands : Nat → Nat → Int) (a : WinArgs) (sutehai : Nat → Nat → Int)
    (tile : Nat) (is_chankan : Bool) (is_renhou : Nat → Bool) : List Text × Except PyErr RonSt :=
  if tile < 136 then
    ronLoopSaid lib player a sutehai tile ((tile2idx tile).headD 0) is_chankan is_renhou [0, 1, 2, 3]
      (hands, [none, none, none, none])
  else ([], .error .index)

/-- `evaluate_tsumo(..., verbose=True)` (MahjongAI/utils/agari.py:156-259) -/
def tsumoSaid (lib : Library) (player : Nat) (hands : Nat → Nat → Int) (a : WinArgs) (tile : Nat)
    (is_rinshan is_tenhou is_chiihou : Bool) : List Text × Except PyErr (List AgariDecision) :=
  let strs := hand_tensor2strs (hands player)
  match nakisToMelds (a.naki_list player) with
  | .error e => ([], .error e)
  | .ok melds =>
    let config : Config :=
      { is_tsumo := true, is_riichi := a.reaches player != 0, is_ippatsu := a.ippatsu player != 0,
        is_rinshan := is_rinshan, is_chankan := false, is_haitei := a.is_haitei, is_houtei := false,
        is_daburu_riichi := a.double_reaches player != 0, is_tenhou := is_tenhou, is_chiihou := is_chiihou,
        is_renhou := false, player_wind := a.player_wind, round_wind := a.round_wind,
        kyoutaku_number := a.kyotaku, tsumi_number := a.honba }
    match lib ⟨strs.1, strs.2.1, strs.2.2.1, strs.2.2.2, tile, melds, a.doras, config⟩ with
    | .error e => ([], .error e)
    | .ok (text, true) => ([text], .ok [⟨player, false⟩])
    | .ok (text, false) => ([text], .ok [])

/-! ### The scripts -/

/-- the first and third hand of the example (MahjongAI/utils/agari.py:282-322, 364-404) -/
def exampleEven : List Int := [1, 2, 2, 1, 1, 1, 1, 1, 0, 1, 1, 1] ++ List.replicate 25 0

/-- the second and fourth hand of the example (MahjongAI/utils/agari.py:323-363, 405-445) -/
def exampleOdd : List Int := [0, 2, 2, 0, 2, 2, 2, 1, 2] ++ List.replicate 28 0

/-- `hand_tensors_full` -/
def exampleHands (p i : Nat) : Int := (if p % 2 = 0 then exampleEven else exampleOdd).getD i 0

/-- `sutehai_tensor` (MahjongAI/utils/agari.py:448-449) -/
def exampleSutehai (p i : Nat) : Int := if p = 3 ∧ i = 7 then 1 else 0

/-- the other arguments (MahjongAI/utils/agari.py:447-461) -/
def exampleArgs : WinArgs :=
  { naki_list := fun _ => []
    doras := [50]
    reaches := fun p => if p < 2 then 0 else 1
    ippatsu := fun _ => 0
    double_reaches := fun _ => 0
    is_haitei := false
    player_wind := 2
    round_wind := 0
    kyotaku := 1
    honba := 0 }

/-- a decision or `None` in a list -/
def optDecision : Option AgariDecision → Text
  | none => lit "None"
  | some d => agariDecision d

/-- `python agari.py` (MahjongAI/utils/agari.py:280-483) -/
def agariScript (lib : Library) : List Text × Except PyErr Unit :=
  match ronSaid lib 2 exampleHands exampleArgs exampleSutehai 28 false (fun _ => false) with
  | (said, .error e) => (said, .error e)
  | (said, .ok st) => (said ++ [list (st.2.map optDecision)], .ok ())

/-- the hand of the example (MahjongAI/utils/shanten.py:152-192) -/
def shantenExample : List Int := [0, 2, 2, 0, 2, 2, 2, 2, 2] ++ List.replicate 28 0

/-- `python shanten.py` (MahjongAI/utils/shanten.py:151-199); `none` if the recursion goes deeper than `fuel` -/
def shantenScript (fuel : Nat) (array : List Int → Text) : Option (List Text) := do
  let (shanten, solver) ← (Solver.init shantenExample).solve fuel
  some [lit "Shanten: " ++ int shanten, array solver.hand]

end MJ.Printing
