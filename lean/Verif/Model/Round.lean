import Verif.Model.Agari
import Verif.Model.Decision
import Verif.Model.Tokens
import Verif.Model.GameInfo
/-!
`MahjongAI/process_xml.py`, lines 46-539: one round of `process`.

* Arrays of floats are functions to `Int` (all values are whole numbers of small size).
* `array[list] += d` is `addAt`; the index lists of `TILE2IDX` have no repetitions.
* Attribute values are parsed lazily in the code; an event therefore carries the outcome of
  each lookup-and-parse (`Except PyErr _`), and the step functions bind them in the order in
  which the code evaluates them.
* Seats, tiles, meld codes and seed entries are natural numbers (negative numbers, which
  Python would use as indices from the end, are not modelled).
* `curr_halfturn` is a reference to an element of `halfturns`; here it is its position.
* `StateObject` keeps references to `hand_tensors[player]`, `remaining_tiles`,
  `remaining_tiles_pov[player][:]` (a numpy view), `is_menzen` and `melds`, all of which are
  changed in place later.  These five fields are therefore not stored in `StateObj`: reading
  them after the round reads the final state (`StateObj.hand_tensor` etc. below).  All other
  fields are copied values.
* `verbose` printing is in `Model/Printing`.
-/
namespace MJ

/-- `a[idx] += d` for an array `a` and a list of distinct indices -/
def addAt (f : Nat → Int) (idx : List Nat) (d : Int) : Nat → Int := fun k => if k ∈ idx then f k + d else f k

/-- `a[p][idx] += d` -/
def addRow (f : Nat → Nat → Int) (p : Nat) (idx : List Nat) (d : Int) : Nat → Nat → Int :=
  setAt f p (addAt (f p) idx d)

/-- `ReachDecision` (MahjongAI/decision.py:25-29) -/
structure ReachDecision where
  player : Nat
  executed : Bool
  deriving DecidableEq, Repr

/-- the copied fields of `StateObject` (MahjongAI/state.py); `remaining_turns` and
`remaining_tsumo` get the same value -/
structure StateObj where
  player : Nat
  remaining_tsumo : Int
  sutehai_tensors : Nat → Nat → Int
  double_reaches : Nat → Nat
  reaches : Nat → Nat
  ippatsu : Nat → Nat
  scores : List Int
  kyotaku : Int
  honba : Int
  dora : List Nat
  parent : Nat
  rounds_remaining : Int
  parent_rounds_remaining : List Int

/-- `DuringTurn`, `DiscardTurn`, `PostTurn` (MahjongAI/turn.py).  The decisions of a post-turn
are four triples `[agari, reach, naki]`; the reach lists are always empty and left out. -/
inductive HalfTurn where
  | during (player : Nat) (stateObj : StateObj) (encoding_idx : Nat)
      (agari : List AgariDecision) (reach : List ReachDecision) (naki : List NakiDecision)
  | discard (player : Nat) (stateObj : StateObj) (encoding_idx : Nat) (discarded_tile : Nat)
  | post (player : Nat) (stateObj : StateObj) (encoding_idx : Nat)
      (agari : List (List AgariDecision)) (naki : List (List NakiDecision))

/-- `turn.type_ == HalfTurn.DURING`, `DISCARD`, `POST` (MahjongAI/turn.py) -/
def HalfTurn.isDuring : HalfTurn → Bool
  | .during .. => true
  | _ => false
@[inherit_doc HalfTurn.isDuring]
def HalfTurn.isDiscard : HalfTurn → Bool
  | .discard .. => true
  | _ => false
@[inherit_doc HalfTurn.isDuring]
def HalfTurn.isPost : HalfTurn → Bool
  | .post .. => true
  | _ => false

/-- the events of a round after the INIT event, by the tests of the loop
(MahjongAI/process_xml.py:122-513); `other` is every tag that reaches line 513 -/
inductive Ev where
  | dora (hai : Except PyErr Nat)
  | reach (who : Except PyErr Nat) (step1 : Except PyErr Bool)
  | naki (m who : Except PyErr Nat)
  | draw (player : Fin 4) (tile : Except PyErr Nat)
  | discard (player : Fin 4) (tile : Except PyErr Nat)
  | result (agari : Bool) (sc : Except PyErr (List Int))
  | other
  deriving DecidableEq

/-- what stays constant during a round, and the two external libraries: the hand evaluator and
`Shanten().calculate_shanten` (applied to the first 34 slots) -/
structure RoundCfg where
  estimate : Estimate
  shanten : List Int → Except PyErr Int
  honba : Int
  parent : Nat
  rounds_remaining : Int
  parent_rounds_remaining : List Int
  player_wind : Nat
  round_wind : Nat

/-- the variables of the loop -/
structure RoundSt where
  hands : Nat → Nat → Int
  hand_tensors : Nat → Nat → Int
  hand_tensors_full : Nat → Nat → Int
  remaining_tiles : Nat → Int
  remaining_tiles_pov : Nat → Nat → Int
  remaining_tsumo : Int
  sutehai_tensors : Nat → Nat → Int
  doras : List Nat
  scores : List Int
  kyotaku : Int
  double_reaches : Nat → Nat
  reaches : Nat → Nat
  ippatsu : Nat → Nat
  melds : Nat → List Naki
  is_menzen : Nat → Nat
  curr_halfturn : Option Nat
  cycles : Nat
  acquired : Option Nat
  stateObj : Option StateObj
  halfturns : List HalfTurn
  encoding_tokens : List Nat

/-- the object `curr_halfturn` refers to -/
def RoundSt.curr (s : RoundSt) : Option HalfTurn := s.curr_halfturn.bind (fun i => s.halfturns[i]?)

/-- write through the reference `curr_halfturn` -/
def RoundSt.setCurr (s : RoundSt) (h : HalfTurn) : RoundSt :=
  { s with halfturns := match s.curr_halfturn with
      | some i => s.halfturns.set i h
      | none => s.halfturns }

/-- the reference fields of a state object, read in the state `s`
(MahjongAI/process_xml.py:223-243, 387-407) -/
def StateObj.hand_tensor (o : StateObj) (s : RoundSt) : Nat → Int := s.hand_tensors o.player
@[inherit_doc StateObj.hand_tensor]
def StateObj.remaining_tiles (_ : StateObj) (s : RoundSt) : Nat → Int := s.remaining_tiles
@[inherit_doc StateObj.hand_tensor]
def StateObj.remaining_tiles_pov (o : StateObj) (s : RoundSt) : Nat → Int := s.remaining_tiles_pov o.player
@[inherit_doc StateObj.hand_tensor]
def StateObj.is_menzen (_ : StateObj) (s : RoundSt) : Nat → Nat := s.is_menzen
@[inherit_doc StateObj.hand_tensor]
def StateObj.melds (_ : StateObj) (s : RoundSt) : Nat → List Naki := s.melds

/-- `StateObject(...)` for `player` in the current state (MahjongAI/process_xml.py:223-243, 387-407) -/
def mkStateObj (c : RoundCfg) (s : RoundSt) (player : Nat) : StateObj :=
  { player, remaining_tsumo := s.remaining_tsumo, sutehai_tensors := s.sutehai_tensors
    double_reaches := s.double_reaches, reaches := s.reaches, ippatsu := s.ippatsu
    scores := s.scores, kyotaku := s.kyotaku, honba := c.honba, dora := s.doras
    parent := c.parent, rounds_remaining := c.rounds_remaining
    parent_rounds_remaining := c.parent_rounds_remaining }

/-- `TILE2IDX[t]` raises IndexError outside 0..135 -/
def checkTile (t : Nat) : Except PyErr Unit := if t < 136 then .ok () else .error .index

/-- `TILE2IDX[t]` for several tiles -/
def checkTiles (l : List Nat) : Except PyErr Unit := if l.all (fun t => decide (t < 136)) then .ok () else .error .index

/-- indexing a Python list of length four -/
def checkSeat (p : Nat) : Except PyErr Unit := if p < 4 then .ok () else .error .index

/-- `tensor[:34].sum()` -/
def sum34 (f : Nat → Int) : Int := ((List.range 34).map f).sum

/-- `min(is_menzen)` as a truth value -/
def allMenzen (f : Nat → Nat) : Bool := f 0 != 0 && f 1 != 0 && f 2 != 0 && f 3 != 0

/-- `if sum(ippatsu): ippatsu = [0] * 4` -/
def clearIppatsu (f : Nat → Nat) : Nat → Nat := if f 0 + f 1 + f 2 + f 3 ≠ 0 then fun _ => 0 else f

/-- the arguments of the evaluators taken from the loop variables -/
def winArgs (c : RoundCfg) (s : RoundSt) (is_haitei : Bool) : WinArgs :=
  { naki_list := fun p => (s.melds p).map (·.naki_code), doras := s.doras, reaches := s.reaches
    ippatsu := s.ippatsu, double_reaches := s.double_reaches, is_haitei
    player_wind := c.player_wind, round_wind := c.round_wind, kyotaku := s.kyotaku, honba := c.honba }

/-- the DORA branch (MahjongAI/process_xml.py:125-133) -/
def stepDora (s : RoundSt) (hai : Except PyErr Nat) : Except PyErr RoundSt := do
  let tile ← hai
  checkTile tile
  let tile_idx := (tile2idx tile).headD 0
  let token ← new_dora2idx tile_idx
  return { s with
    doras := s.doras ++ [tile]
    remaining_tiles := addAt s.remaining_tiles [tile_idx] (-1)
    remaining_tiles_pov := fun p => addAt (s.remaining_tiles_pov p) [tile_idx] (-1)
    remaining_tsumo := s.remaining_tsumo - 1
    encoding_tokens := s.encoding_tokens ++ [token] }

/-- `for decision in …: decision.executed = True; break` (MahjongAI/process_xml.py:143-146) -/
def markReach : List ReachDecision → List ReachDecision
  | [] => []
  | d :: ds => { d with executed := true } :: ds

/-- step 1 of a REACH event (MahjongAI/process_xml.py:139-146) -/
def reachDeclare (s : RoundSt) : Except PyErr RoundSt :=
  match s.curr with
  | some (.during p o e a r n) =>
    if s.acquired.isSome then .ok (s.setCurr (.during p o e a (markReach r) n)) else .error .assertion
  | _ => .error .assertion

/-- `scores[player] -= 10` -/
def payStick (scores : List Int) (player : Nat) : Except PyErr (List Int) :=
  match scores[player]? with
  | some v => .ok (scores.set player (v - 10))
  | none => .error .index

/-- step 2 of a REACH event (MahjongAI/process_xml.py:148-158) -/
def reachAccept (s : RoundSt) (player : Nat) : Except PyErr RoundSt :=
  match s.curr with
  | some (.post ..) => do
    checkSeat player
    let scores ← payStick s.scores player
    let token ← reach2idx player
    return { s with
      reaches := setAt s.reaches player 1
      kyotaku := s.kyotaku + 1
      scores := scores
      double_reaches := if decide (s.cycles ≤ 4) && allMenzen s.is_menzen then setAt s.double_reaches player 1
        else s.double_reaches
      encoding_tokens := s.encoding_tokens ++ [token] }
  | _ => .error .assertion

/-- the REACH branch (MahjongAI/process_xml.py:135-161) -/
def stepReach (s : RoundSt) (who : Except PyErr Nat) (step1 : Except PyErr Bool) : Except PyErr RoundSt := do
  pyAssert s.curr_halfturn.isSome
  let player ← who
  let one ← step1
  let s ← if one then reachDeclare s else reachAccept s player
  checkSeat player
  return { s with ippatsu := setAt s.ippatsu player 1 }

/-- mark the first decision with the canonical code `k` (MahjongAI/process_xml.py:179-186, 192-200) -/
def markNaki (k : Nat) : List NakiDecision → List NakiDecision
  | [] => []
  | d :: ds => if d.naki.convenient_naki_code = k then { d with executed := true } :: ds else d :: markNaki k ds

/-- marking the executed decision (MahjongAI/process_xml.py:176-200) -/
def nakiMark (s : RoundSt) (n : Naki) : Except PyErr RoundSt :=
  if Code.is_ankan n.naki_code || Code.is_kakan n.naki_code then
    match s.curr with
    | some (.during p o e a r ns) => .ok (s.setCurr (.during p o e a r (markNaki n.convenient_naki_code ns)))
    | _ => .error .assertion
  else
    match s.curr with
    | some (.post p o e a ns) => .ok (s.setCurr (.post p o e a (ns.map (markNaki n.convenient_naki_code))))
    | _ => .error .assertion

/-- the loop over exposed tiles (MahjongAI/process_xml.py:215-218); state: `hands` and `hand_tensors` -/
def expose (player : Nat) : List Nat → (Nat → Nat → Int) × (Nat → Nat → Int) →
    Except PyErr ((Nat → Nat → Int) × (Nat → Nat → Int))
  | [], st => .ok st
  | e :: es, (hands, ht) =>
    if hands player e = 1 then
      expose player es (addRow hands player [e] (-1), addRow ht player (tile2idx e) (-1))
    else .error .assertion

/-- the loop over exposed tiles for the other players' views (MahjongAI/process_xml.py:208-213) -/
def seeExposed (exposed : List Nat) (f : Nat → Int) : Nat → Int :=
  exposed.foldl (fun f e => (tile2idx e).foldl (fun f ee => addAt f [ee] (-1)) f) f

/-- the meld is a pon of the kind `k` (MahjongAI/process_xml.py:254-256) -/
def isPonOf (k : Nat) (m : Naki) : Bool :=
  Code.is_pon m.naki_code && (Code.pattern_pon m.naki_code).color * 9 + (Code.pattern_pon m.naki_code).number == k

/-- removal of the pon that was extended (MahjongAI/process_xml.py:253-258) -/
def removePon (k : Nat) : List Naki → List Naki
  | [] => []
  | m :: ms => if isPonOf k m then ms else m :: removePon k ms

/-- `for decision in decisions: if decision is not None: lists[decision.player][0].append(decision)`
(MahjongAI/process_xml.py:282-286, 480-482) -/
def spread (rons : List (Option AgariDecision)) : List (List AgariDecision) :=
  (List.range 4).map (fun p => (rons.filterMap id).filter (fun d => d.player == p))

/-- the chankan post-turn after an added kan (MahjongAI/process_xml.py:251-295) -/
def chankan (c : RoundCfg) (s : RoundSt) (player : Nat) (exposed : List Nat) (o : StateObj) : Except PyErr RoundSt := do
  let tile := exposed.headD 0
  let s := { s with melds := setAt s.melds player (removePon (tile / 4) (s.melds player)) }
  let (full, rons) ← evaluate_ron c.estimate player s.hand_tensors_full (winArgs c s false) s.sutehai_tensors
    tile true (fun _ => false)
  return { s with
    hand_tensors_full := full
    halfturns := s.halfturns ++
      [.post player o s.encoding_tokens.length (spread rons) ((List.range 4).map (fun _ => []))] }

/-- the tile bookkeeping of a call (MahjongAI/process_xml.py:206-221), after `remaining_tsumo`
was adjusted -/
def nakiTiles (s : RoundSt) (player : Nat) (exposed : List Nat) (acquired : Option Nat) : Except PyErr RoundSt := do
  checkTiles exposed
  let pov := fun i => if i = player then s.remaining_tiles_pov i else seeExposed exposed (s.remaining_tiles_pov i)
  let (hands, ht) ← expose player exposed (s.hands, s.hand_tensors)
  match acquired with
  | some a => do
    checkTile a
    return { s with hands := hands, hand_tensors := ht, remaining_tiles_pov := pov
                    hand_tensors_full := addRow s.hand_tensors_full player (tile2idx a) 1 }
  | none => return { s with hands := hands, hand_tensors := ht, remaining_tiles_pov := pov }

/-- the N branch (MahjongAI/process_xml.py:163-305) -/
def stepNaki (c : RoundCfg) (s : RoundSt) (m who : Except PyErr Nat) : Except PyErr RoundSt := do
  pyAssert s.curr_halfturn.isSome
  let code ← m
  let naki ← Naki.mk' code
  let player ← who
  checkSeat player
  let s := { s with
    acquired := none
    cycles := s.cycles + (((player : Int) - Code.from_who code) % 4).toNat
    melds := setAt s.melds player (s.melds player ++ [naki]) }
  let token ← naki2idx player code
  let s := { s with encoding_tokens := s.encoding_tokens ++ [token] }
  let s ← nakiMark s naki
  let s := if !Code.is_chi code && !Code.is_pon code then { s with remaining_tsumo := s.remaining_tsumo - 1 } else s
  let (exposed, acquired) ← Code.get_exposed code
  let s ← nakiTiles s player exposed acquired
  let o := mkStateObj c s player
  let s := { s with
    stateObj := some o
    is_menzen := if Code.from_who code ≠ 0 then setAt s.is_menzen player 0 else s.is_menzen
    ippatsu := clearIppatsu s.ippatsu }
  let s ← if Code.is_kakan code then chankan c s player exposed o else .ok s
  if Code.is_minkan code || Code.is_ankan code || Code.is_kakan code then
    return { s with curr_halfturn := none, cycles := s.cycles + 1, acquired := none }
  else
    return { s with curr_halfturn := none, acquired := acquired }

/-- reach decisions (MahjongAI/process_xml.py:350-356) -/
def reachOffers (c : RoundCfg) (s : RoundSt) (player : Nat) : Except PyErr (List ReachDecision) :=
  if s.reaches player = 0 ∧ s.is_menzen player ≠ 0 then
    match c.shanten ((List.range 34).map (s.hand_tensors player)) with
    | .error e => .error e
    | .ok n => .ok (if n ≤ 0 then [⟨player, false⟩] else [])
  else .ok []

/-- closed kan offers (MahjongAI/process_xml.py:361-364) -/
def ankanOffers (s : RoundSt) (player : Nat) : List NakiDecision :=
  ((List.range 37).filter (fun k => s.hand_tensors player k == 4)).map
    (fun k => ⟨player, Naki.from_ankan_info k, false⟩)

/-- added kan offers (MahjongAI/process_xml.py:367-379): looks up the *kind* in the per-tile table -/
def kakanOffers (hands : Nat → Nat → Int) (player : Nat) : List Naki → Except PyErr (List NakiDecision)
  | [] => .ok []
  | m :: ms => do
    let k := 9 * (Code.pattern_pon m.naki_code).color + (Code.pattern_pon m.naki_code).number
    let here ← if Code.is_pon m.naki_code && hands player k == 1 then
        (match Naki.from_kakan_info k 0 with
        | .ok n => .ok [⟨player, n, false⟩]
        | .error e => .error e)
      else .ok []
    let rest ← kakanOffers hands player ms
    return here ++ rest

/-- the tile bookkeeping of a draw (MahjongAI/process_xml.py:311-328) -/
def drawTile (s : RoundSt) (player t : Nat) : RoundSt :=
  { s with
    cycles := s.cycles + 1
    acquired := some t
    remaining_tiles := addAt s.remaining_tiles (tile2idx t) (-1)
    remaining_tiles_pov := addRow s.remaining_tiles_pov player (tile2idx t) (-1)
    remaining_tsumo := s.remaining_tsumo - 1
    hands := setAt s.hands player (setAt (s.hands player) t 1)
    hand_tensors := addRow s.hand_tensors player (tile2idx t) 1
    hand_tensors_full := addRow s.hand_tensors_full player (tile2idx t) 1
    ippatsu := setAt s.ippatsu player 0 }

/-- the draw branch (MahjongAI/process_xml.py:307-419).  `if ippatsu[player]: ippatsu[player] = 0`
sets the entry to 0 in either case. -/
def stepDraw (c : RoundCfg) (s : RoundSt) (player : Nat) (tile : Except PyErr Nat) : Except PyErr RoundSt := do
  pyAssert s.acquired.isNone
  let t ← tile
  checkTile t
  pyAssert (s.hands player t == 0)
  let s := drawTile s player t
  pyAssert (sum34 (s.hand_tensors player) % 3 == 2)
  let agari ← evaluate_tsumo c.estimate player s.hand_tensors_full (winArgs c s (s.remaining_tsumo == 0)) t
    false (s.cycles == 1) (decide (2 ≤ s.cycles ∧ s.cycles ≤ 4) && allMenzen s.is_menzen)
  let reach ← reachOffers c s player
  let kakan ← kakanOffers s.hands player (s.melds player)
  let o := mkStateObj c s player
  return { s with
    stateObj := some o
    halfturns := s.halfturns ++
      [.during player o s.encoding_tokens.length agari reach (ankanOffers s player ++ kakan)]
    curr_halfturn := some s.halfturns.length
    ippatsu := clearIppatsu s.ippatsu }

/-- the tile bookkeeping of a discard (MahjongAI/process_xml.py:443-453) -/
def discardTile (s : RoundSt) (player t : Nat) : RoundSt :=
  { s with
    hands := setAt s.hands player (setAt (s.hands player) t 0)
    hand_tensors := addRow s.hand_tensors player (tile2idx t) (-1)
    hand_tensors_full := addRow s.hand_tensors_full player (tile2idx t) (-1)
    sutehai_tensors := setAt s.sutehai_tensors player
      (fun k => if k ∈ tile2idx t then 1 else s.sutehai_tensors player k)
    remaining_tiles_pov := addRow (fun p => addAt (s.remaining_tiles_pov p) (tile2idx t) (-1)) player (tile2idx t) 1 }

/-- `if curr_halfturn is not None: assert isinstance(curr_halfturn, DuringTurn)` -/
def currDuringOrNone (s : RoundSt) : Bool :=
  match s.curr_halfturn, s.curr with
  | none, _ => true
  | some _, some (.during ..) => true
  | _, _ => false

/-- the discard branch (MahjongAI/process_xml.py:421-506).  `stateObj` is unbound only before
the first draw or call of the first round. -/
def stepDiscard (c : RoundCfg) (s : RoundSt) (player : Nat) (tile : Except PyErr Nat) : Except PyErr RoundSt := do
  pyAssert s.acquired.isSome
  pyAssert (currDuringOrNone s)
  let t ← tile
  checkTile t
  pyAssert (s.hands player t == 1)
  let o ← (match s.stateObj with
    | some o => .ok o
    | none => .error .unboundLocal : Except PyErr StateObj)
  let s := { s with halfturns := s.halfturns ++ [.discard player o s.encoding_tokens.length t] }
  let s := discardTile s player t
  pyAssert (sum34 (s.hand_tensors player) % 3 == 1)
  let (full, rons) ← evaluate_ron c.estimate player s.hand_tensors_full (winArgs c s (s.remaining_tsumo == 0))
    s.sutehai_tensors t false
    (fun _ => decide (s.cycles ≤ 3) && decide (s.cycles ≤ player) && allMenzen s.is_menzen)
  let idx := (tile2idx t).headD 0
  let offers ← decisionMask player s.hand_tensors idx ((tile2idx t).length == 2)
  pyAssert (offers.getD player []).isEmpty
  let token ← discard2idx player idx (s.acquired == some t)
  return { s with
    hand_tensors_full := full
    halfturns := s.halfturns ++ [.post player o s.encoding_tokens.length (spread rons) offers]
    curr_halfturn := some s.halfturns.length
    encoding_tokens := s.encoding_tokens ++ [token]
    acquired := none }

/-- one pass of the event loop for an event that does not end the round -/
def step (c : RoundCfg) (s : RoundSt) : Ev → Except PyErr RoundSt
  | .dora hai => stepDora s hai
  | .reach who one => stepReach s who one
  | .naki m who => stepNaki c s m who
  | .draw p t => stepDraw c s p t
  | .discard p t => stepDiscard c s p t
  | .result .. => .ok s
  | .other => .error .value

/-- The event loop (MahjongAI/process_xml.py:122-513).  Returns the final state and
`kyoku_events[result_idx:]`, or `none` for it if the loop ended without a result event. -/
def runEvents (c : RoundCfg) : List Ev → RoundSt → Except PyErr (RoundSt × Option (List Ev))
  | [], s => .ok (s, none)
  | .result a sc :: es, s => .ok (s, some (.result a sc :: es))
  | e :: es, s =>
    match step c s e with
    | .error x => .error x
    | .ok s => runEvents c es s

/-- the loop over result events (MahjongAI/process_xml.py:518-530) -/
def checkResults : List Ev → Except PyErr Unit
  | [] => .ok ()
  | .result _ sc :: es =>
    match sc with
    | .ok _ => checkResults es
    | .error e => .error e
  | _ :: _ => .error .assertion

/-- the attributes of the INIT event, each with the outcome of lookup and parsing -/
structure InitAttr where
  ten : Except PyErr (List Int)
  oya : Except PyErr Nat
  seed : Except PyErr (List Nat)
  hai : Nat → Except PyErr (List Nat)

/-- `curr_round, honba, kyotaku, _, _, dora = …` -/
def unpackSeed : List Nat → Except PyErr (Nat × Nat × Nat × Nat)
  | [curr_round, honba, kyotaku, _, _, dora] => .ok (curr_round, honba, kyotaku, dora)
  | _ => .error .value

/-- the loop over the dealt tiles (MahjongAI/process_xml.py:73-78) for one tensor -/
def countTiles (tiles : List Nat) (f : Nat → Int) (d : Int) : Nat → Int :=
  tiles.foldl (fun f t => addAt f (tile2idx t) d) f

/-- state before the first event (MahjongAI/process_xml.py:51-110), and the round's constants -/
def initRound (est : Estimate) (shanten : List Int → Except PyErr Int) (g : GameInfo) (a : InitAttr) :
    Except PyErr (RoundCfg × RoundSt) := do
  let scores ← a.ten
  let parent ← a.oya
  checkSeat parent
  let seed ← a.seed
  let (curr_round, honba, kyotaku, dora) ← unpackSeed seed
  let h0 ← a.hai 0
  let h1 ← a.hai 1
  let h2 ← a.hai 2
  let h3 ← a.hai 3
  let hai := fun p : Nat => if p = 0 then h0 else if p = 1 then h1 else if p = 2 then h2 else if p = 3 then h3 else []
  checkTiles (h0 ++ h1 ++ h2 ++ h3)
  checkTile dora
  if h0.length = h1.length ∧ h1.length = h2.length ∧ h2.length = h3.length then pure () else throw .value
  let hands := fun p t => if t ∈ hai p then (1 : Int) else 0
  let hand_tensors := fun p => countTiles (hai p) (fun _ => 0) 1
  let remaining_tiles := addAt (countTiles (h0 ++ h1 ++ h2 ++ h3) remainingTiles (-1)) (tile2idx dora) (-1)
  pyAssert ((List.range 4).all (fun p => ((List.range 136).map (hands p)).sum == 13))
  pyAssert (sum34 remaining_tiles == 83)
  let ri := RoundInfo.init g curr_round
  let cfg : RoundCfg :=
    { estimate := est, shanten := shanten, honba := honba, parent := parent
      rounds_remaining := (g.n_rounds : Int) - curr_round
      parent_rounds_remaining := (List.range 4).map (fun (i : Nat) => ((g.n_rounds : Int) - curr_round + i) / 4)
      player_wind := ri.player_wind, round_wind := ri.round_wind }
  return (cfg,
    { hands := hands
      hand_tensors := hand_tensors
      hand_tensors_full := hand_tensors
      remaining_tiles := remaining_tiles
      remaining_tiles_pov := fun p => addAt (countTiles (hai p) remainingTiles (-1)) (tile2idx dora) (-1)
      remaining_tsumo := remainingTsumo
      sutehai_tensors := fun _ _ => 0
      doras := [dora]
      scores := scores
      kyotaku := kyotaku
      double_reaches := fun _ => 0
      reaches := fun _ => 0
      ippatsu := fun _ => 0
      melds := fun _ => []
      is_menzen := fun _ => 1
      curr_halfturn := none
      cycles := 0
      acquired := none
      stateObj := none
      halfturns := []
      encoding_tokens := [] })

/-- the final assertions (MahjongAI/process_xml.py:538-539) -/
def finalOk (s : RoundSt) : Bool :=
  (List.range 37).all (fun k => decide (0 ≤ s.remaining_tiles k)) &&
  (List.range 4).all (fun p => (List.range 37).all (fun k => decide (0 ≤ s.remaining_tiles_pov p k)))

/-- One round (MahjongAI/process_xml.py:46-542).  Without a result event `result_idx` is `None`
and `kyoku_events[None:]` starts with INIT, so the first assertion of the loop over the result
events fails. -/
def processRound (est : Estimate) (shanten : List Int → Except PyErr Int) (g : GameInfo) (a : InitAttr)
    (evs : List Ev) : Except PyErr RoundSt := do
  let (c, s) ← initRound est shanten g a
  let (s, res) ← runEvents c evs s
  match res with
  | none => .error .assertion
  | some rest =>
    checkResults rest
    pyAssert (finalOk s)
    return s

end MJ
