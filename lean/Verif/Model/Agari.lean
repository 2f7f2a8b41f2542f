import Verif.Model.Naki
import Verif.Model.Constants
/-!
`MahjongAI/utils/agari.py`.

The `mahjong` library (`TilesConverter.string_to_136_array`, `Meld`, `HandConfig`,
`HandCalculator.estimate_hand_value`) is not part of the repository.  It enters as a
parameter `Estimate`: a function from everything the code passes to it to either an exception
or the answer to `result.error is None`.  `OPTIONS` (lines 20-35) is a constant and is not
modelled.  Prints under `verbose` are in `Model/Examples`.
-/
namespace MJ

/-- point update of a table: `f[i] = v` -/
def setAt {α : Type} (f : Nat → α) (i : Nat) (v : α) : Nat → α := fun j => if j = i then v else f j

/-- `AgariDecision` (MahjongAI/decision.py:32-37) -/
structure AgariDecision where
  player : Nat
  executed : Bool
  deriving DecidableEq, Repr

/-- first argument of `Meld(...)` (MahjongAI/utils/agari.py:88, 97, 103, 109, 115) -/
inductive MeldKind where
  | chi | pon | shouminkan | kan
  deriving DecidableEq, Repr

/-- the arguments of `Meld(kind, tiles=…, opened=…)`; `opened` defaults to `True` -/
structure MeldArg where
  kind : MeldKind
  tiles : List Nat
  opened : Bool
  deriving DecidableEq, Repr

/-- the arguments of `HandConfig` that vary (MahjongAI/utils/agari.py:121-136, 226-243);
0/1 entries of Python lists are passed by truth value -/
structure Config where
  is_tsumo : Bool
  is_riichi : Bool
  is_ippatsu : Bool
  is_rinshan : Bool
  is_chankan : Bool
  is_haitei : Bool
  is_houtei : Bool
  is_daburu_riichi : Bool
  is_tenhou : Bool
  is_chiihou : Bool
  is_renhou : Bool
  player_wind : Nat
  round_wind : Nat
  kyoutaku_number : Int
  tsumi_number : Int
  deriving DecidableEq, Repr

/-- everything handed to the library: the four digit strings, the winning tile, melds, dora
indicators, configuration -/
structure Query where
  man : List Nat
  pin : List Nat
  sou : List Nat
  honors : List Nat
  win_tile : Nat
  melds : List MeldArg
  dora_indicators : List Nat
  config : Config
  deriving DecidableEq, Repr

/-- the library: does `estimate_hand_value` report no error -/
abbrev Estimate := Query → Except PyErr Bool

/-- one suit of `hand_tensor2strs` (MahjongAI/utils/agari.py:265-274): digits `1..n` of the
slots `base..base+n-1`; `[d] * int(x)` is empty for `x ≤ 0` -/
def digits (h : Nat → Int) (base n : Nat) : List Nat :=
  ((List.range n).map (fun j => List.replicate (h (base + j)).toNat (j + 1))).flatten

/-- `hand_tensor2strs` (MahjongAI/utils/agari.py:262-277); strings as lists of digits -/
def hand_tensor2strs (h : Nat → Int) : List Nat × List Nat × List Nat × List Nat :=
  (digits h 0 9, digits h 9 9, digits h 18 9, digits h 27 7)

/-- the body of the loop over melds (MahjongAI/utils/agari.py:82-119, same text in 187-224) -/
def nakiToMeld (c : Nat) : Except PyErr MeldArg :=
  if Code.is_chi c then
    let p := Code.pattern_chi c
    if p.has_red then .ok ⟨.chi, (List.range 3).map (fun i => (p.color * 9 + p.number + i) * 4), true⟩
    else .ok ⟨.chi, (List.range 3).map (fun i => (p.color * 9 + p.number + i) * 4 + 1), true⟩
  else if Code.is_pon c then
    let p := Code.pattern_pon c
    if p.has_red then .ok ⟨.pon, (List.range 3).map (fun i => (p.color * 9 + p.number) * 4 + i), true⟩
    else .ok ⟨.pon, (List.range 3).map (fun i => (p.color * 9 + p.number) * 4 + i + 1), true⟩
  else if Code.is_kakan c then
    let p := Code.pattern_kakan c
    .ok ⟨.shouminkan, (List.range 4).map (fun i => (p.color * 9 + p.number) * 4 + i), true⟩
  else if Code.is_minkan c then
    let p := Code.pattern_minkan c
    .ok ⟨.kan, (List.range 4).map (fun i => (p.color * 9 + p.number) * 4 + i), true⟩
  else if Code.is_ankan c then
    let p := Code.pattern_ankan c
    .ok ⟨.kan, (List.range 4).map (fun i => (p.color * 9 + p.number) * 4 + i), false⟩
  else .error .value

/-- the loop over melds (MahjongAI/utils/agari.py:80-119, 185-224) -/
def nakisToMelds : List Nat → Except PyErr (List MeldArg)
  | [] => .ok []
  | c :: cs =>
    match nakiToMeld c with
    | .error e => .error e
    | .ok m =>
      match nakisToMelds cs with
      | .error e => .error e
      | .ok ms => .ok (m :: ms)

/-- the parameters shared by both evaluators (MahjongAI/utils/agari.py:40-58, 156-174);
lists of four are functions of the player, entries 0/1 are natural numbers -/
structure WinArgs where
  naki_list : Nat → List Nat
  doras : List Nat
  reaches : Nat → Nat
  ippatsu : Nat → Nat
  double_reaches : Nat → Nat
  is_haitei : Bool
  player_wind : Nat
  round_wind : Nat
  kyotaku : Int
  honba : Int

/-- One round of the loop of `evaluate_ron` (MahjongAI/utils/agari.py:62-151) for player `p`.
State: the hand tensors (mutated in place at lines 72 and 74) and the result list. -/
def ronStep (est : Estimate) (player : Nat) (a : WinArgs) (sutehai : Nat → Nat → Int) (tile idx : Nat)
    (is_chankan : Bool) (is_renhou : Nat → Bool) (p : Nat)
    (st : (Nat → Nat → Int) × List (Option AgariDecision)) :
    Except PyErr ((Nat → Nat → Int) × List (Option AgariDecision)) :=
  if p = player then .ok st
  else if sutehai p idx ≠ 0 then .ok st
  else
    let hands := setAt st.1 p (setAt (st.1 p) idx (st.1 p idx + 1))
    let strs := hand_tensor2strs (hands p)
    let hands := setAt hands p (setAt (hands p) idx (hands p idx - 1))
    match nakisToMelds (a.naki_list p) with
    | .error e => .error e
    | .ok melds =>
      let config : Config :=
        { is_tsumo := false, is_riichi := a.reaches p != 0, is_ippatsu := a.ippatsu p != 0, is_rinshan := false,
          is_chankan := is_chankan, is_haitei := a.is_haitei, is_houtei := false,
          is_daburu_riichi := a.double_reaches p != 0, is_tenhou := false, is_chiihou := false,
          is_renhou := is_renhou p, player_wind := a.player_wind, round_wind := a.round_wind,
          kyoutaku_number := a.kyotaku, tsumi_number := a.honba }
      match est ⟨strs.1, strs.2.1, strs.2.2.1, strs.2.2.2, tile, melds, a.doras, config⟩ with
      | .error e => .error e
      | .ok true => .ok (hands, st.2.set p (some ⟨p, false⟩))
      | .ok false => .ok (hands, st.2)

/-- the loop over the players -/
def ronLoop (est : Estimate) (player : Nat) (a : WinArgs) (sutehai : Nat → Nat → Int) (tile idx : Nat)
    (is_chankan : Bool) (is_renhou : Nat → Bool) :
    List Nat → (Nat → Nat → Int) × List (Option AgariDecision) →
    Except PyErr ((Nat → Nat → Int) × List (Option AgariDecision))
  | [], st => .ok st
  | p :: ps, st =>
    match ronStep est player a sutehai tile idx is_chankan is_renhou p st with
    | .error e => .error e
    | .ok st => ronLoop est player a sutehai tile idx is_chankan is_renhou ps st

/-- `evaluate_ron` (MahjongAI/utils/agari.py:40-153).  Returns the hand tensors as left behind
and the list of decisions. -/
def evaluate_ron (est : Estimate) (player : Nat) (hands : Nat → Nat → Int) (a : WinArgs)
    (sutehai : Nat → Nat → Int) (tile : Nat) (is_chankan : Bool) (is_renhou : Nat → Bool) :
    Except PyErr ((Nat → Nat → Int) × List (Option AgariDecision)) :=
  if tile < 136 then
    ronLoop est player a sutehai tile ((tile2idx tile).headD 0) is_chankan is_renhou [0, 1, 2, 3]
      (hands, [none, none, none, none])
  else .error .index

/-- `evaluate_tsumo` (MahjongAI/utils/agari.py:156-259).  The hand tensors are only read. -/
def evaluate_tsumo (est : Estimate) (player : Nat) (hands : Nat → Nat → Int) (a : WinArgs) (tile : Nat)
    (is_rinshan is_tenhou is_chiihou : Bool) : Except PyErr (List AgariDecision) :=
  let strs := hand_tensor2strs (hands player)
  match nakisToMelds (a.naki_list player) with
  | .error e => .error e
  | .ok melds =>
    let config : Config :=
      { is_tsumo := true, is_riichi := a.reaches player != 0, is_ippatsu := a.ippatsu player != 0,
        is_rinshan := is_rinshan, is_chankan := false, is_haitei := a.is_haitei, is_houtei := false,
        is_daburu_riichi := a.double_reaches player != 0, is_tenhou := is_tenhou, is_chiihou := is_chiihou,
        is_renhou := false, player_wind := a.player_wind, round_wind := a.round_wind,
        kyoutaku_number := a.kyotaku, tsumi_number := a.honba }
    match est ⟨strs.1, strs.2.1, strs.2.2.1, strs.2.2.2, tile, melds, a.doras, config⟩ with
    | .error e => .error e
    | .ok true => .ok [⟨player, false⟩]
    | .ok false => .ok []

end MJ
