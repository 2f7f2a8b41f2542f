import Verif.Model.Xml
import Verif.Model.Train
/-!
What is printed: the `__repr__` methods of melds, decisions, half-turns, results and game information, and the output of
`process` with `verbose=True`.

A text is a list of characters.  What numpy prints for an array is a parameter.  No class of the code has `__str__`,
so an f-string, `str.format` and `print` use `__repr__`.
-/
namespace MJ.Printing

/-- a text -/
abbrev Text := List Char

/-- a literal -/
def lit (s : String) : Text := s.toList

/-- a `bool` -/
def bool : Bool → Text
  | true => lit "True"
  | false => lit "False"

/-- an `int` -/
def int : Int → Text
  | .ofNat n => decimal n
  | .negSucc n => '-' :: decimal (n + 1)

/-- the rest of a list after its first element -/
def listRest : List Text → Text
  | [] => lit "]"
  | x :: xs => lit ", " ++ x ++ listRest xs

/-- a `list` of objects that are printed as given -/
def list : List Text → Text
  | [] => lit "[]"
  | x :: xs => lit "[" ++ x ++ listRest xs

/-- `Naki.__repr__` (MahjongAI/draw.py:268-280) -/
def naki (n : Naki) : Except PyErr Text :=
  let c := n.naki_code
  if Code.is_chi c then do return lit "Chi: " ++ int (← Code.get_post_turn_filter_idx c)
  else if Code.is_pon c then do return lit "Pon: " ++ int (← Code.get_post_turn_filter_idx c)
  else if Code.is_kakan c then do return lit "Kakan: " ++ decimal (← Code.get_during_turn_filter_idx c)
  else if Code.is_minkan c then do return lit "Minkan: " ++ int (← Code.get_post_turn_filter_idx c)
  else if Code.is_ankan c then do return lit "Ankan: " ++ decimal (← Code.get_during_turn_filter_idx c)
  else return lit "Invalid naki code"

/-- `NakiDecision.__repr__` (MahjongAI/decision.py:23-24) -/
def nakiDecision (d : NakiDecision) : Except PyErr Text := do
  return lit "NakiDecision: player=" ++ decimal d.player ++ lit ", naki=" ++ (← naki d.naki) ++ lit ", executed=" ++ bool d.executed

/-- `ReachDecision.__repr__` (MahjongAI/decision.py:31-32) -/
def reachDecision (d : ReachDecision) : Text :=
  lit "ReachDecision: player=" ++ decimal d.player ++ lit ", executed=" ++ bool d.executed

/-- `AgariDecision.__repr__` (MahjongAI/decision.py:39-40) -/
def agariDecision (d : AgariDecision) : Text :=
  lit "AgariDecision: player=" ++ decimal d.player ++ lit ", executed=" ++ bool d.executed

/-- the three lists `[agari, reach, naki]` -/
def triple (agari : List AgariDecision) (reach : List ReachDecision) (calls : List NakiDecision) : Except PyErr Text := do
  return list [list (agari.map agariDecision), list (reach.map reachDecision), list (← calls.mapM nakiDecision)]

/-- `DuringTurn.__repr__`, `DiscardTurn.__repr__`, `PostTurn.__repr__` (MahjongAI/turn.py:37-40, 54-57, 71-74) -/
def halfTurn : HalfTurn → Except PyErr Text
  | .during player _ _ agari reach calls => do
    return lit "DuringTurn Object | Player: " ++ decimal player ++ lit " | Decisions: " ++ (← triple agari reach calls)
  | .discard player _ _ tile => do
    return lit "DiscardTurn Object | Player: " ++ decimal player ++ lit " | Discarded Tile: " ++ decimal tile
  | .post player _ _ agari calls => do
    return lit "PostTurn Object | Player: " ++ decimal player ++ lit " | Decisions: " ++
      list (← (List.range 4).mapM (fun p => triple (agari.getD p []) [] (calls.getD p [])))

/-- `GameInfo.__repr__` (MahjongAI/gameinfo.py:29-30) -/
def gameInfo (g : GameInfo) : Text :=
  lit "GameInfo: against_human=" ++ decimal g.against_human ++ lit ", no_red=" ++ decimal g.no_red ++
    lit ", kansaki=" ++ decimal g.kansaki ++ lit ", tonnan=" ++ decimal g.tonnan ++
    lit ", three_players=" ++ decimal g.three_players ++ lit ", fast=" ++ decimal g.fast ++ lit ", level=" ++ decimal g.level

/-- `RoundInfo.__repr__` (MahjongAI/gameinfo.py:44-45) of `RoundInfo(gameinfo, curr_round)` -/
def roundInfo (g : GameInfo) (curr_round : Nat) : Text :=
  let r := RoundInfo.init g curr_round
  lit "RoundInfo: gameinfo=" ++ gameInfo g ++ lit ", remaining_rounds=" ++ int r.remaining_rounds ++
    lit ", parent_rounds_remaining=" ++ list (r.parent_rounds_remaining.map int)

/-- `AgariResult.__repr__`, `RyukyokuResult.__repr__` (MahjongAI/result.py:14-15, 22-23) -/
def result (agari : Bool) (sc : List Int) : Text :=
  lit (if agari then "AgariResult: sc=" else "RyukyokuResult: sc=") ++ list (sc.map int)

/-! ### `process` with `verbose=True` -/

/-- what numpy prints for the arrays that are printed -/
structure Arrays where
  tiles : (Nat → Int) → Text
  hands : (Nat → Nat → Int) → Text

/-- the prints before the events of a round (MahjongAI/process_xml.py:112-120); the values are those read and computed
at lines 51-65, except that the parent is printed as it stands in the log -/
def header (g : GameInfo) (scores : List Int) (parent : Text) (curr_round honba kyotaku : Nat) : List Text :=
  [lit "Scores: " ++ list (scores.map int), lit "Parent: " ++ parent, lit "Current round: " ++ decimal curr_round,
    lit "Honba: " ++ decimal honba, lit "Kyotaku: " ++ decimal kyotaku,
    lit "Remaining rounds: " ++ int ((g.n_rounds : Int) - curr_round),
    lit "Parent rounds remaining: " ++ list ((List.range 4).map (fun (i : Nat) => int (((g.n_rounds : Int) - curr_round + i) / 4))),
    lit "\n" ++ List.replicate 20 '=' ++ lit "\n"]

/-- the values of INIT that are printed; `oya` is the text of the attribute -/
def headerOf (g : GameInfo) (a : InitAttr) (oya : Text) : List Text :=
  match a.ten, a.seed with
  | .ok scores, .ok [curr_round, honba, kyotaku, _, _, _] => header g scores oya curr_round honba kyotaku
  | _, _ => []

/-- the list `result` (MahjongAI/process_xml.py:516-530) -/
def results : List Ev → List Text
  | .result agari (.ok sc) :: es => result agari sc :: results es
  | _ => []

/-- the prints after the events of a round (MahjongAI/process_xml.py:532-536); nothing is ever appended to the list
`turns` made at line 105 -/
def footer (arr : Arrays) (rest : List Ev) (s : RoundSt) : List Text :=
  let turns : List HalfTurn := []
  [lit "len(turns): " ++ decimal turns.length, list (results rest), lit "remaining_tiles: " ++ arr.tiles s.remaining_tiles,
    lit "player hands: " ++ arr.hands s.hand_tensors]

/-- one round with `verbose=True`: what is printed, and the outcome -/
def verboseRound (arr : Arrays) (est : Estimate) (shanten : List Int → Except PyErr Int) (g : GameInfo) (a : InitAttr)
    (oya : Text) (evs : List Ev) : List Text × Except PyErr RoundSt :=
  match initRound est shanten g a with
  | .error e => ([], .error e)
  | .ok (c, s) =>
    match runEvents c evs s with
    | .error e => (headerOf g a oya, .error e)
    | .ok (_, none) => (headerOf g a oya, .error .assertion)
    | .ok (s, some rest) =>
      match checkResults rest with
      | .error e => (headerOf g a oya, .error e)
      | .ok _ => (headerOf g a oya ++ footer arr rest s, do pyAssert (finalOk s); return s)

/-- the text of the attribute `oya` -/
def oyaText (i : Item) : Text :=
  match i.get "oya" with
  | .ok v => v.toList
  | .error _ => []

/-- the loop over the rounds -/
def verboseRounds (arr : Arrays) (pi : PyInt) (est : Estimate) (shanten : List Int → Except PyErr Int) (g : GameInfo) :
    List (List Item) → List Text × Except PyErr (List RoundSt)
  | [] => ([], .ok [])
  | [] :: _ => ([], .error .index)
  | (i :: rest) :: rounds =>
    if i.tag = "INIT" then
      match verboseRound arr est shanten g (toInit pi i) (oyaText i) (rest.map (toEv pi)) with
      | (said, .error e) => (said, .error e)
      | (said, .ok s) =>
        match verboseRounds arr pi est shanten g rounds with
        | (more, .error e) => (said ++ more, .error e)
        | (more, .ok l) => (said ++ more, .ok (s :: l))
    else ([], .error .assertion)

/-- `process(file_path, verbose=True)` (MahjongAI/process_xml.py:31-544) -/
def verboseProcess (arr : Arrays) (pi : PyInt) (est : Estimate) (shanten : List Int → Except PyErr Int) (root : Elem) :
    List Text × Except PyErr (List RoundSt) :=
  match getRounds pi root with
  | .error e => ([], .error e)
  | .ok (g, rounds) =>
    if g.against_human ≠ 1 then ([], .error .invalidGame)
    else if g.no_red = 1 then ([], .error .invalidGame)
    else if g.kansaki = 1 then ([], .error .invalidGame)
    else if g.three_players = 1 then ([], .error .invalidGame)
    else verboseRounds arr pi est shanten g rounds

end MJ.Printing
