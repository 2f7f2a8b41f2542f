import Verif.Model.Round
/-!
The round processing once more, with the rounding of floating-point numbers.

Model/Round.lean counts with whole numbers.  The code keeps the counts in `float32` arrays
(MahjongAI/process_xml.py:67-71, 89, MahjongAI/utils/constants.py:4-5), where every sum, difference and product is rounded.
Here each such result goes through `rnd`, and sums over an array are taken in an order that is left open (`total`; numpy adds
pairwise, Python's `sum` from left to right).  Everything that involves no arithmetic on counts is taken from
Model/Round.lean, Model/Decision.lean and Model/Agari.lean.
-/
namespace MJ

/-- rounding to a multiple of `2 ^ e`, to the nearest one, and to an even multiple if there are two -/
def roundAt (e : Nat) (n : Int) : Int :=
  let q := n / 2 ^ e
  let r := n % 2 ^ e
  if 2 * r < 2 ^ e then q * 2 ^ e
  else if 2 ^ e < 2 * r then (q + 1) * 2 ^ e
  else if q % 2 = 0 then q * 2 ^ e else (q + 1) * 2 ^ e

/-- the whole number that `float32` stores for a whole number: 24 significant binary digits.  (Numbers from 2^128 on
overflow; they are far away here.) -/
def float32 (n : Int) : Int := roundAt (n.natAbs.log2 + 1 - 24) n

/-- how the counts are computed: rounding after each operation, and the sum of an array -/
structure Arith where
  rnd : Int → Int
  total : List Int → Int

/-- the exact numbers -/
def Arith.exact : Arith := ⟨id, List.sum⟩

/-- `f[idx] += d`, compare `addAt` -/
def addAtF (A : Arith) (f : Nat → Int) (idx : List Nat) (d : Int) : Nat → Int :=
  fun k => if k ∈ idx then A.rnd (f k + d) else f k

/-- compare `addRow` -/
def addRowF (A : Arith) (f : Nat → Nat → Int) (p : Nat) (idx : List Nat) (d : Int) : Nat → Nat → Int :=
  setAt f p (addAtF A (f p) idx d)

/-- `tensor[:34].sum()` -/
def sum34F (A : Arith) (f : Nat → Int) : Int := A.total ((List.range 34).map f)

/-! ### decision.py -/

/-- `hand_tensor[i] * hand_tensor[j]` as a truth value -/
def bothF (A : Arith) (h : Hand) (i j : Int) : Bool := A.rnd (slot h i * slot h j) != 0

/-- MahjongAI/decision.py:74-93 -/
def oneAndNineF (A : Arith) (player p : Nat) (h : Hand) (t : Nat) (is_one : Bool) : Except PyErr (List NakiDecision) := do
  let coef : Int := if is_one then 1 else -1
  let chi ← offer p (isNext player p && bothF A h (t + coef) (t + coef * 2))
    (Naki.from_chi_info (t / 9) (if is_one then 0 else 6) (if is_one then 0 else 2) false) Code.is_chi
  let rest ← ponKan player p h t
  return chi ++ rest

/-- MahjongAI/decision.py:104-128 -/
def twoAndEightF (A : Arith) (player p : Nat) (h : Hand) (t : Nat) (is_two : Bool) : Except PyErr (List NakiDecision) := do
  let coef : Int := if is_two then 1 else -1
  let chi ←
    whenE (isNext player p) (do
      let a ← offer p (bothF A h (t - 1) (t + 1))
        (Naki.from_chi_info (t / 9) (if is_two then 0 else 6) 1 false) Code.is_chi
      let b ← offer p (bothF A h (t + coef) (t + coef * 2))
        (Naki.from_chi_info (t / 9) (if is_two then 1 else 5) (if is_two then 0 else 2) false) Code.is_chi
      return a ++ b)
  let rest ← ponKan player p h t
  return chi ++ rest

/-- `black_fives` (MahjongAI/decision.py:147, 209, 286) -/
def blackFivesF (A : Arith) (h : Hand) (t : Nat) : Int := A.rnd (h t - (hasRed h t).toNat)

/-- MahjongAI/decision.py:162-186, 236-259 -/
def fiveRunF (A : Arith) (p : Nat) (h : Hand) (t : Nat) (number which whichBlack : Nat) :
    Except PyErr (List NakiDecision) := do
  if hasRed h t then
    let a ← offer p true (Naki.from_chi_info (t / 9) number which true) Code.is_chi
    let b ← offer p (decide (0 < blackFivesF A h t)) (Naki.from_chi_info (t / 9) number which false) Code.is_chi
    return a ++ b
  else offer p true (Naki.from_chi_info (t / 9) number whichBlack false) Code.is_chi

/-- MahjongAI/decision.py:142-190 -/
def threeAndSevenF (A : Arith) (player p : Nat) (h : Hand) (t : Nat) (is_three : Bool) :
    Except PyErr (List NakiDecision) := do
  let coef : Int := if is_three then 1 else -1
  let chi ←
    whenE (isNext player p) (do
      let a ← offer p (bothF A h (t - 2 * coef) (t - coef))
        (Naki.from_chi_info (t / 9) (if is_three then 0 else 6) (if is_three then 2 else 0) false) Code.is_chi
      let b ← offer p (bothF A h (t - 1) (t + 1))
        (Naki.from_chi_info (t / 9) (if is_three then 1 else 5) 1 false) (fun _ => true)
      let c ← whenE (bothF A h (t + coef) (t + 2 * coef))
          (fiveRunF A p h t (if is_three then 2 else 4) (if is_three then 0 else 2) (if is_three then 0 else 2))
      return a ++ b ++ c)
  let rest ← ponKan player p h t
  return chi ++ rest

/-- MahjongAI/decision.py:204-268 -/
def fourAndSixF (A : Arith) (player p : Nat) (h : Hand) (t : Nat) (is_four : Bool) : Except PyErr (List NakiDecision) := do
  let coef : Int := if is_four then 1 else -1
  let chi ←
    whenE (isNext player p) (do
      let a ← offer p (bothF A h (t - 2 * coef) (t - coef))
        (Naki.from_chi_info (t / 9) (if is_four then 1 else 5) (if is_four then 2 else 0) false) Code.is_chi
      let b ← whenE (bothF A h (t - 1) (t + 1))
          (fiveRunF A p h t (if is_four then 2 else 4) (if is_four then 0 else 2) 1)
      let c ← whenE (bothF A h (t + coef) (t + 2 * coef))
          (fiveRunF A p h t 3 (if is_four then 0 else 2) (if is_four then 0 else 2))
      return a ++ b ++ c)
  let rest ← ponKan player p h t
  return chi ++ rest

/-- MahjongAI/decision.py:302-317 -/
def fivePonF (A : Arith) (p : Nat) (h : Hand) (t : Nat) (is_red : Bool) (src : Nat) : Except PyErr (List NakiDecision) :=
  if hasRed h t then do
    let a ← offer p (h t == 2) (Naki.from_pon_info t 1 true src) Code.is_pon
    let b ← offer p (blackFivesF A h t == 2) (Naki.from_pon_info t 0 false src) Code.is_pon
    return a ++ b
  else offer p (h t == 2) (Naki.from_pon_info t (if is_red then 1 else 0) is_red src) Code.is_pon

/-- MahjongAI/decision.py:281-322 -/
def fiveF (A : Arith) (player p : Nat) (h : Hand) (t : Nat) (is_red : Bool) : Except PyErr (List NakiDecision) := do
  let src := source player p
  let chi ←
    whenE (isNext player p) (do
      let a ← offer p (bothF A h (t - 2) (t - 1)) (Naki.from_chi_info (t / 9) 2 2 is_red) Code.is_chi
      let b ← offer p (bothF A h (t - 1) (t + 1)) (Naki.from_chi_info (t / 9) 3 1 is_red) Code.is_chi
      let c ← offer p (bothF A h (t + 1) (t + 2)) (Naki.from_chi_info (t / 9) 4 0 is_red) Code.is_chi
      return a ++ b ++ c)
  let pon ← fivePonF A p h t is_red src
  let kan ← offer p (h t == 3) (Naki.from_minkan_info t src (if is_red then 1 else 0)) Code.is_minkan
  return chi ++ pon ++ kan

/-- compare `maskFor` -/
def maskForF (A : Arith) (player p : Nat) (h : Hand) (t : Nat) (is_red : Bool) : Except PyErr (List NakiDecision) :=
  if p = player then .ok []
  else if t > 26 then ponKan player p h t
  else if t % 9 = 0 ∨ t % 9 = 8 then oneAndNineF A player p h t (t % 9 == 0)
  else if t % 9 = 1 ∨ t % 9 = 7 then twoAndEightF A player p h t (t % 9 == 1)
  else if t % 9 = 2 ∨ t % 9 = 6 then threeAndSevenF A player p h t (t % 9 == 2)
  else if t % 9 = 3 ∨ t % 9 = 5 then fourAndSixF A player p h t (t % 9 == 3)
  else fiveF A player p h t is_red

/-- compare `decisionMask` -/
def decisionMaskF (A : Arith) (player : Nat) (hands : Nat → Hand) (t : Nat) (is_red : Bool) :
    Except PyErr (List (List NakiDecision)) := do
  let d0 ← maskForF A player 0 (hands 0) t is_red
  let d1 ← maskForF A player 1 (hands 1) t is_red
  let d2 ← maskForF A player 2 (hands 2) t is_red
  let d3 ← maskForF A player 3 (hands 3) t is_red
  return [d0, d1, d2, d3]

/-! ### agari.py -/

/-- compare `ronStep`; MahjongAI/utils/agari.py:72 and 74 round -/
def ronStepF (A : Arith) (est : Estimate) (player : Nat) (a : WinArgs) (sutehai : Nat → Nat → Int) (tile idx : Nat)
    (is_chankan : Bool) (is_renhou : Nat → Bool) (p : Nat)
    (st : (Nat → Nat → Int) × List (Option AgariDecision)) :
    Except PyErr ((Nat → Nat → Int) × List (Option AgariDecision)) :=
  if p = player then .ok st
  else if sutehai p idx ≠ 0 then .ok st
  else
    let hands := setAt st.1 p (setAt (st.1 p) idx (A.rnd (st.1 p idx + 1)))
    let strs := hand_tensor2strs (hands p)
    let hands := setAt hands p (setAt (hands p) idx (A.rnd (hands p idx - 1)))
    match nakisToMelds (a.naki_list p) with
    | .error e => .error e
    | .ok melds =>
      let config : Config :=
        { is_tsumo := false, is_riichi := a.reaches p != 0, is_ippatsu := a.ippatsu p != 0, is_rinshan := false,
          is_chankan := is_chankan, is_haitei := a.is_haitei, is_houtei := false,
          is_daburu_riichi := a.double_reaches p != 0, is_tenhou := false, is_chiihou := false,
          is_renhou := is_renhou p, player_wind := a.player_wind, round_wind := a.round_wind,
          kyoutaku_number := a.kyotaku, tsumi_number := a.honba }
      match est ⟨strs.1, strs.2.1, strs.2.2.1, strs.2.2.2, tile, melds, a.doras, config⟩ with
      | .error e => .error e
      | .ok true => .ok (hands, st.2.set p (some ⟨p, false⟩))
      | .ok false => .ok (hands, st.2)

/-- compare `ronLoop` -/
def ronLoopF (A : Arith) (est : Estimate) (player : Nat) (a : WinArgs) (sutehai : Nat → Nat → Int) (tile idx : Nat)
    (is_chankan : Bool) (is_renhou : Nat → Bool) :
    List Nat → (Nat → Nat → Int) × List (Option AgariDecision) →
    Except PyErr ((Nat → Nat → Int) × List (Option AgariDecision))
  | [], st => .ok st
  | p :: ps, st =>
    match ronStepF A est player a sutehai tile idx is_chankan is_renhou p st with
    | .error e => .error e
    | .ok st => ronLoopF A est player a sutehai tile idx is_chankan is_renhou ps st

/-- compare `evaluate_ron` -/
def evaluate_ronF (A : Arith) (est : Estimate) (player : Nat) (hands : Nat → Nat → Int) (a : WinArgs)
    (sutehai : Nat → Nat → Int) (tile : Nat) (is_chankan : Bool) (is_renhou : Nat → Bool) :
    Except PyErr ((Nat → Nat → Int) × List (Option AgariDecision)) :=
  if tile < 136 then
    ronLoopF A est player a sutehai tile ((tile2idx tile).headD 0) is_chankan is_renhou [0, 1, 2, 3]
      (hands, [none, none, none, none])
  else .error .index

/-! ### process_xml.py -/

/-- compare `stepDora`; MahjongAI/process_xml.py:129-131 -/
def stepDoraF (A : Arith) (s : RoundSt) (hai : Except PyErr Nat) : Except PyErr RoundSt := do
  let tile ← hai
  checkTile tile
  let tile_idx := (tile2idx tile).headD 0
  let token ← new_dora2idx tile_idx
  return { s with
    doras := s.doras ++ [tile]
    remaining_tiles := addAtF A s.remaining_tiles [tile_idx] (-1)
    remaining_tiles_pov := fun p => addAtF A (s.remaining_tiles_pov p) [tile_idx] (-1)
    remaining_tsumo := s.remaining_tsumo - 1
    encoding_tokens := s.encoding_tokens ++ [token] }

/-- compare `expose`; MahjongAI/process_xml.py:215-218 -/
def exposeF (A : Arith) (player : Nat) : List Nat → (Nat → Nat → Int) × (Nat → Nat → Int) →
    Except PyErr ((Nat → Nat → Int) × (Nat → Nat → Int))
  | [], st => .ok st
  | e :: es, (hands, ht) =>
    if hands player e = 1 then
      exposeF A player es (addRowF A hands player [e] (-1), addRowF A ht player (tile2idx e) (-1))
    else .error .assertion

/-- compare `seeExposed`; MahjongAI/process_xml.py:208-213 -/
def seeExposedF (A : Arith) (exposed : List Nat) (f : Nat → Int) : Nat → Int :=
  exposed.foldl (fun f e => (tile2idx e).foldl (fun f ee => addAtF A f [ee] (-1)) f) f

/-- compare `chankan` -/
def chankanF (A : Arith) (c : RoundCfg) (s : RoundSt) (player : Nat) (exposed : List Nat) (o : StateObj) :
    Except PyErr RoundSt := do
  let tile := exposed.headD 0
  let s := { s with melds := setAt s.melds player (removePon (tile / 4) (s.melds player)) }
  let (full, rons) ← evaluate_ronF A c.estimate player s.hand_tensors_full (winArgs c s false) s.sutehai_tensors
    tile true (fun _ => false)
  return { s with
    hand_tensors_full := full
    halfturns := s.halfturns ++
      [.post player o s.encoding_tokens.length (spread rons) ((List.range 4).map (fun _ => []))] }

/-- compare `nakiTiles`; MahjongAI/process_xml.py:206-221 -/
def nakiTilesF (A : Arith) (s : RoundSt) (player : Nat) (exposed : List Nat) (acquired : Option Nat) :
    Except PyErr RoundSt := do
  checkTiles exposed
  let pov := fun i => if i = player then s.remaining_tiles_pov i else seeExposedF A exposed (s.remaining_tiles_pov i)
  let (hands, ht) ← exposeF A player exposed (s.hands, s.hand_tensors)
  match acquired with
  | some a => do
    checkTile a
    return { s with hands := hands, hand_tensors := ht, remaining_tiles_pov := pov
                    hand_tensors_full := addRowF A s.hand_tensors_full player (tile2idx a) 1 }
  | none => return { s with hands := hands, hand_tensors := ht, remaining_tiles_pov := pov }

/-- compare `stepNaki` -/
def stepNakiF (A : Arith) (c : RoundCfg) (s : RoundSt) (m who : Except PyErr Nat) : Except PyErr RoundSt := do
  pyAssert s.curr_halfturn.isSome
  let code ← m
  let naki ← Naki.mk' code
  let player ← who
  checkSeat player
  let s := { s with
    acquired := none
    cycles := s.cycles + (((player : Int) - Code.from_who code) % 4).toNat
    melds := setAt s.melds player (s.melds player ++ [naki]) }
  let token ← naki2idx player code
  let s := { s with encoding_tokens := s.encoding_tokens ++ [token] }
  let s ← nakiMark s naki
  let s := if !Code.is_chi code && !Code.is_pon code then { s with remaining_tsumo := s.remaining_tsumo - 1 } else s
  let (exposed, acquired) ← Code.get_exposed code
  let s ← nakiTilesF A s player exposed acquired
  let o := mkStateObj c s player
  let s := { s with
    stateObj := some o
    is_menzen := if Code.from_who code ≠ 0 then setAt s.is_menzen player 0 else s.is_menzen
    ippatsu := clearIppatsu s.ippatsu }
  let s ← if Code.is_kakan code then chankanF A c s player exposed o else .ok s
  if Code.is_minkan code || Code.is_ankan code || Code.is_kakan code then
    return { s with curr_halfturn := none, cycles := s.cycles + 1, acquired := none }
  else
    return { s with curr_halfturn := none, acquired := acquired }

/-- compare `drawTile`; MahjongAI/process_xml.py:316-326 -/
def drawTileF (A : Arith) (s : RoundSt) (player t : Nat) : RoundSt :=
  { s with
    cycles := s.cycles + 1
    acquired := some t
    remaining_tiles := addAtF A s.remaining_tiles (tile2idx t) (-1)
    remaining_tiles_pov := addRowF A s.remaining_tiles_pov player (tile2idx t) (-1)
    remaining_tsumo := s.remaining_tsumo - 1
    hands := setAt s.hands player (setAt (s.hands player) t 1)
    hand_tensors := addRowF A s.hand_tensors player (tile2idx t) 1
    hand_tensors_full := addRowF A s.hand_tensors_full player (tile2idx t) 1
    ippatsu := setAt s.ippatsu player 0 }

/-- compare `stepDraw` -/
def stepDrawF (A : Arith) (c : RoundCfg) (s : RoundSt) (player : Nat) (tile : Except PyErr Nat) : Except PyErr RoundSt := do
  pyAssert s.acquired.isNone
  let t ← tile
  checkTile t
  pyAssert (s.hands player t == 0)
  let s := drawTileF A s player t
  pyAssert (sum34F A (s.hand_tensors player) % 3 == 2)
  let agari ← evaluate_tsumo c.estimate player s.hand_tensors_full (winArgs c s (s.remaining_tsumo == 0)) t
    false (s.cycles == 1) (decide (2 ≤ s.cycles ∧ s.cycles ≤ 4) && allMenzen s.is_menzen)
  let reach ← reachOffers c s player
  let kakan ← kakanOffers s.hands player (s.melds player)
  let o := mkStateObj c s player
  return { s with
    stateObj := some o
    halfturns := s.halfturns ++
      [.during player o s.encoding_tokens.length agari reach (ankanOffers s player ++ kakan)]
    curr_halfturn := some s.halfturns.length
    ippatsu := clearIppatsu s.ippatsu }

/-- compare `discardTile`; MahjongAI/process_xml.py:441-453 -/
def discardTileF (A : Arith) (s : RoundSt) (player t : Nat) : RoundSt :=
  { s with
    hands := setAt s.hands player (setAt (s.hands player) t 0)
    hand_tensors := addRowF A s.hand_tensors player (tile2idx t) (-1)
    hand_tensors_full := addRowF A s.hand_tensors_full player (tile2idx t) (-1)
    sutehai_tensors := setAt s.sutehai_tensors player
      (fun k => if k ∈ tile2idx t then 1 else s.sutehai_tensors player k)
    remaining_tiles_pov :=
      addRowF A (fun p => addAtF A (s.remaining_tiles_pov p) (tile2idx t) (-1)) player (tile2idx t) 1 }

/-- compare `stepDiscard` -/
def stepDiscardF (A : Arith) (c : RoundCfg) (s : RoundSt) (player : Nat) (tile : Except PyErr Nat) :
    Except PyErr RoundSt := do
  pyAssert s.acquired.isSome
  pyAssert (currDuringOrNone s)
  let t ← tile
  checkTile t
  pyAssert (s.hands player t == 1)
  let o ← (match s.stateObj with
    | some o => .ok o
    | none => .error .unboundLocal : Except PyErr StateObj)
  let s := { s with halfturns := s.halfturns ++ [.discard player o s.encoding_tokens.length t] }
  let s := discardTileF A s player t
  pyAssert (sum34F A (s.hand_tensors player) % 3 == 1)
  let (full, rons) ← evaluate_ronF A c.estimate player s.hand_tensors_full (winArgs c s (s.remaining_tsumo == 0))
    s.sutehai_tensors t false
    (fun _ => decide (s.cycles ≤ 3) && decide (s.cycles ≤ player) && allMenzen s.is_menzen)
  let idx := (tile2idx t).headD 0
  let offers ← decisionMaskF A player s.hand_tensors idx ((tile2idx t).length == 2)
  pyAssert (offers.getD player []).isEmpty
  let token ← discard2idx player idx (s.acquired == some t)
  return { s with
    hand_tensors_full := full
    halfturns := s.halfturns ++ [.post player o s.encoding_tokens.length (spread rons) offers]
    curr_halfturn := some s.halfturns.length
    encoding_tokens := s.encoding_tokens ++ [token]
    acquired := none }

/-- compare `step` -/
def stepF (A : Arith) (c : RoundCfg) (s : RoundSt) : Ev → Except PyErr RoundSt
  | .dora hai => stepDoraF A s hai
  | .reach who one => stepReach s who one
  | .naki m who => stepNakiF A c s m who
  | .draw p t => stepDrawF A c s p t
  | .discard p t => stepDiscardF A c s p t
  | .result .. => .ok s
  | .other => .error .value

/-- compare `runEvents` -/
def runEventsF (A : Arith) (c : RoundCfg) : List Ev → RoundSt → Except PyErr (RoundSt × Option (List Ev))
  | [], s => .ok (s, none)
  | .result a sc :: es, s => .ok (s, some (.result a sc :: es))
  | e :: es, s =>
    match stepF A c s e with
    | .error x => .error x
    | .ok s => runEventsF A c es s

/-- compare `countTiles`; MahjongAI/process_xml.py:73-78 -/
def countTilesF (A : Arith) (tiles : List Nat) (f : Nat → Int) (d : Int) : Nat → Int :=
  tiles.foldl (fun f t => addAtF A f (tile2idx t) d) f

/-- compare `initRound` -/
def initRoundF (A : Arith) (est : Estimate) (shanten : List Int → Except PyErr Int) (g : GameInfo) (a : InitAttr) :
    Except PyErr (RoundCfg × RoundSt) := do
  let scores ← a.ten
  let parent ← a.oya
  checkSeat parent
  let seed ← a.seed
  let (curr_round, honba, kyotaku, dora) ← unpackSeed seed
  let h0 ← a.hai 0
  let h1 ← a.hai 1
  let h2 ← a.hai 2
  let h3 ← a.hai 3
  let hai := fun p : Nat => if p = 0 then h0 else if p = 1 then h1 else if p = 2 then h2 else if p = 3 then h3 else []
  checkTiles (h0 ++ h1 ++ h2 ++ h3)
  checkTile dora
  if h0.length = h1.length ∧ h1.length = h2.length ∧ h2.length = h3.length then pure () else throw .value
  let hands := fun p t => if t ∈ hai p then (1 : Int) else 0
  let hand_tensors := fun p => countTilesF A (hai p) (fun _ => 0) 1
  let remaining_tiles := addAtF A (countTilesF A (h0 ++ h1 ++ h2 ++ h3) remainingTiles (-1)) (tile2idx dora) (-1)
  pyAssert ((List.range 4).all (fun p => A.total ((List.range 136).map (hands p)) == 13))
  pyAssert (sum34F A remaining_tiles == 83)
  let ri := RoundInfo.init g curr_round
  let cfg : RoundCfg :=
    { estimate := est, shanten := shanten, honba := honba, parent := parent
      rounds_remaining := (g.n_rounds : Int) - curr_round
      parent_rounds_remaining := (List.range 4).map (fun (i : Nat) => ((g.n_rounds : Int) - curr_round + i) / 4)
      player_wind := ri.player_wind, round_wind := ri.round_wind }
  return (cfg,
    { hands := hands
      hand_tensors := hand_tensors
      hand_tensors_full := hand_tensors
      remaining_tiles := remaining_tiles
      remaining_tiles_pov := fun p => addAtF A (countTilesF A (hai p) remainingTiles (-1)) (tile2idx dora) (-1)
      remaining_tsumo := remainingTsumo
      sutehai_tensors := fun _ _ => 0
      doras := [dora]
      scores := scores
      kyotaku := kyotaku
      double_reaches := fun _ => 0
      reaches := fun _ => 0
      ippatsu := fun _ => 0
      melds := fun _ => []
      is_menzen := fun _ => 1
      curr_halfturn := none
      cycles := 0
      acquired := none
      stateObj := none
      halfturns := []
      encoding_tokens := [] })

/-- compare `processRound` -/
def processRoundF (A : Arith) (est : Estimate) (shanten : List Int → Except PyErr Int) (g : GameInfo) (a : InitAttr)
    (evs : List Ev) : Except PyErr RoundSt := do
  let (c, s) ← initRoundF A est shanten g a
  let (s, res) ← runEventsF A c evs s
  match res with
  | none => .error .assertion
  | some rest =>
    checkResults rest
    pyAssert (finalOk s)
    return s

end MJ
