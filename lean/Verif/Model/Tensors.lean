import Verif.Model.Round
import Verif.Model.Constants
/-!
`TransformerTensorProcessor` of the four models: MahjongAI/agents/transformer.py:525-1149,
transformer_conv.py, transformer_conv_large.py (same as transformer_conv.py) and
transformer_conv_ordered.py:529-1268.

* A tensor is the (nested) list of its rows; whole-number floats are `Int`.
* `dtype` and `device` are not modelled.
* The state objects refer to arrays that the round processing changes in place; every function
  that reads them gets the state `s` whose arrays they refer to (see Model/Round.lean).
* The builders keep the parallel lists of the code (`X_embeddings`, `state_obj_tensors`,
  `filter_tensors`, `y`, and `player_tensor`, which only the ordered model returns).
-/
namespace MJ
open Code

/-- which file; `conv` stands for transformer_conv.py and transformer_conv_large.py -/
inductive Variant where
  | basic | conv | ordered
  deriving DecidableEq, Repr

/-- `range_tensor < count` (MahjongAI/agents/transformer_conv.py:1047-1048): four 0/1 entries -/
def thermo (n : Int) : List Int := (List.range 4).map (fun (j : Nat) => if (j : Int) < n then 1 else 0)

/-- `np.roll(l, shift, axis=0)`: the last `shift mod n` rows come first -/
def npRoll {α : Type} (l : List α) (shift : Int) : List α :=
  let n := l.length
  let k := (shift % n).toNat
  l.drop (n - k) ++ l.take (n - k)

/-- a count array as 37 entries: the count itself (transformer.py), or its thresholds -/
def plane (v : Variant) (f : Nat → Int) : List (List Int) :=
  (List.range 37).map (fun k => match v with | .basic => [f k] | _ => thermo (f k))

/-- `x1` (MahjongAI/agents/transformer.py:1063-1082, transformer_conv.py:1043-1064,
transformer_conv_ordered.py:1178-1212); channels, then slots, then values -/
def stateX1 (v : Variant) (o : StateObj) (s : RoundSt) : List (List (List Int)) :=
  match v with
  | .ordered =>
    [plane v (o.hand_tensor s), plane v (o.remaining_tiles_pov s)] ++
      (npRoll ((List.range 4).map o.sutehai_tensors) (-(o.player : Int))).map (plane v)
  | _ => [plane v (o.hand_tensor s), plane v (o.remaining_tiles_pov s), plane v (o.sutehai_tensors o.player)]

/-- a list of four entries -/
def four (f : Nat → Int) : List Int := (List.range 4).map f

/-- `x2` (MahjongAI/agents/transformer.py:1084-1133): `torch.stack` raises RuntimeError unless all
rows have the same length -/
def stateX2 (o : StateObj) (s : RoundSt) : Except PyErr (List (List Int)) :=
  if o.scores.length = 4 ∧ o.parent_rounds_remaining.length = 4 then
    .ok [o.scores, four (fun p => if p = o.parent then 1 else 0), o.parent_rounds_remaining,
      four (fun p => o.double_reaches p), four (fun p => o.reaches p), four (fun p => o.ippatsu p),
      four (fun p => o.is_menzen s p)]
  else .error .runtime

/-- `x3` (MahjongAI/agents/transformer.py:1135-1147) -/
def stateX3 (o : StateObj) : List Int := [o.remaining_tsumo, o.kyotaku, o.honba, o.rounds_remaining]

/-- what a builder returns, as parallel lists -/
structure Batch where
  encodings : List (List Nat)
  x1 : List (List (List (List Int)))
  x2 : List (List (List Int))
  x3 : List (List Int)
  mask : List (List Int)
  y : List Int
  player : List Nat
  deriving DecidableEq, Repr

def Batch.empty : Batch := ⟨[], [], [], [], [], [], []⟩

/-- `torch.nn.functional.pad(t, (0, 150 - len))`; a negative amount cuts off the end
(MahjongAI/agents/transformer.py:626-631) -/
def padTokens (tokens : List Nat) : List Nat :=
  if tokens.length ≤ 150 then tokens ++ List.replicate (150 - tokens.length) 0 else tokens.take 150

/-- `torch.cat([t[:encoding_idx], torch.zeros(150 - encoding_idx)])`
(MahjongAI/agents/transformer.py:682-689) -/
def maskTokens (enc : List Nat) (e : Nat) : List Nat := enc.take e ++ List.replicate (150 - e) 0

/-- an entry of a decision list (MahjongAI/decision.py:15-37) -/
inductive Decision where
  | agari (d : AgariDecision)
  | reach (d : ReachDecision)
  | naki (d : NakiDecision)
  deriving DecidableEq, Repr

def Decision.executed : Decision → Bool
  | .agari d => d.executed
  | .reach d => d.executed
  | .naki d => d.executed

/-- `turn.decisions` of a during-turn (MahjongAI/process_xml.py:381-385) -/
def duringDecisions (a : List AgariDecision) (r : List ReachDecision) (n : List NakiDecision) : List (List Decision) :=
  [a.map .agari, r.map .reach, n.map .naki]

/-- `turn.decisions` of a post-turn (MahjongAI/process_xml.py:260, 456, 482, 492): the reach lists are empty -/
def postDecisions (a : List (List AgariDecision)) (n : List (List NakiDecision)) : List (List (List Decision)) :=
  List.zipWith (fun a n => [a.map .agari, [], n.map .naki]) a n

/-- `mask[i] = 1.0`: negative indices count from the end, others outside raise IndexError.  The
ordered model asserts that the index is in range first (transformer_conv_ordered.py:937-939, 1091-1093). -/
def markIdx (v : Variant) (m : List Int) (i : Int) : Except PyErr (List Int) :=
  let n : Int := m.length
  if v = .ordered ∧ ¬ (0 ≤ i ∧ i < n) then .error .assertion
  else if 0 ≤ i ∧ i < n then .ok (m.set i.toNat 1)
  else if -n ≤ i ∧ i < 0 then .ok (m.set (i + n).toNat 1)
  else .error .index

/-- `decision_type[0].executed` -/
def headExecuted : List Decision → Bool
  | [] => false
  | d :: _ => d.executed

/-- the inner loop over kan decisions (MahjongAI/agents/transformer.py:841-847): mask and `decision_idx` -/
def duringNaki (v : Variant) : List Decision → List Int → Int → Except PyErr (List Int × Int)
  | [], m, idx => .ok (m, idx)
  | .naki d :: ds, m, idx => do
    let i ← get_during_turn_filter_idx d.naki.naki_code
    let m ← markIdx v m i
    duringNaki v ds m (if d.executed then i else idx)
  | _ :: _, _, _ => .error .assertion

/-- one pass of the loop over `enumerate(turn.decisions)` (MahjongAI/agents/transformer.py:824-850).
The loop assigns `decision_idx` itself, so the value at the end of the pass is returned. -/
def duringPass (v : Variant) (i : Nat) (l : List Decision) (m : List Int) : Except PyErr (List Int × Int) :=
  if l = [] then .ok (m, i)
  else
    let m := m.set 0 1
    if i = 0 then .ok (m.set 1 1, if headExecuted l then 1 else i)
    else if i = 1 then .ok (m.set 2 1, if headExecuted l then 2 else i)
    else if i = 2 then duringNaki v l m i
    else .error .value

/-- the loop over `enumerate(turn.decisions)`, from number `i` on; `idx` is the current `decision_idx` -/
def duringLoop (v : Variant) : Nat → List (List Decision) → List Int → Int → Except PyErr (List Int × Int)
  | _, [], m, idx => .ok (m, idx)
  | i, l :: ls, m, _ => do
    let (m, idx) ← duringPass v i l m
    duringLoop v (i + 1) ls m idx

/-- `n` zeros -/
def zeros (n : Nat) : List Int := List.replicate n 0

/-- one during-turn (MahjongAI/agents/transformer.py:794-853): what is appended, if anything -/
def duringTurn (v : Variant) (s : RoundSt) (enc : List Nat) (b : Batch) (player : Nat) (o : StateObj) (e : Nat)
    (decisions : List (List Decision)) : Except PyErr Batch := do
  if (decisions.map List.length).sum = 0 then return b
  pyAssert (decide (e < 150))
  let x2 ← stateX2 o s
  let (m, idx) ← duringLoop v 0 decisions ((zeros 71).set 0 1) 0
  return { encodings := b.encodings ++ [maskTokens enc e], x1 := b.x1 ++ [stateX1 v o s], x2 := b.x2 ++ [x2]
           x3 := b.x3 ++ [stateX3 o], mask := b.mask ++ [m], y := b.y ++ [idx], player := b.player ++ [player] }

/-- `torch.sum(mask, dim=1).min() >= 2` (MahjongAI/agents/transformer.py:891-894, 1034-1037) -/
def twoAllowed (masks : List (List Int)) : Bool := masks.all (fun m => decide (2 ≤ m.sum))

/-- `torch.any(mask, dim=1).all()` (MahjongAI/agents/transformer.py:745-748) -/
def oneAllowed (masks : List (List Int)) : Bool := masks.all (fun m => m.any (fun x => x != 0))

/-- `_build_during_tensor` (MahjongAI/agents/transformer.py:759-903); half-turns of other kinds do
not occur in the list -/
def buildDuring (v : Variant) (s : RoundSt) (turns : List HalfTurn) (enc : List Nat) : Except PyErr Batch := do
  let b ← turns.foldlM (fun b t => match t with
    | .during p o e a r n => duringTurn v s enc b p o e (duringDecisions a r n)
    | _ => .error .attribute) Batch.empty
  pyAssert (twoAllowed b.mask)
  return b

/-- one discard-turn (MahjongAI/agents/transformer.py:677-707) -/
def discardTurn (v : Variant) (s : RoundSt) (enc : List Nat) (b : Batch) (player : Nat) (o : StateObj) (e tile : Nat) :
    Except PyErr Batch := do
  pyAssert (decide (e < 150))
  let x2 ← stateX2 o s
  checkTile tile
  let idx := (tile2idx tile).headD 0
  pyAssert (v != .ordered || decide (idx < 37))
  return { encodings := b.encodings ++ [maskTokens enc e], x1 := b.x1 ++ [stateX1 v o s], x2 := b.x2 ++ [x2]
           x3 := b.x3 ++ [stateX3 o], mask := b.mask ++ [(List.range 37).map (fun k => min (o.hand_tensor s k) 1)]
           y := b.y ++ [(idx : Int)], player := b.player ++ [player] }

/-- `_build_discard_tensor` (MahjongAI/agents/transformer.py:642-757) -/
def buildDiscard (v : Variant) (s : RoundSt) (turns : List HalfTurn) (enc : List Nat) : Except PyErr Batch := do
  let b ← turns.foldlM (fun b t => match t with
    | .discard p o e tile => discardTurn v s enc b p o e tile
    | _ => .error .attribute) Batch.empty
  pyAssert (oneAllowed b.mask)
  return b

/-- what the loop over one player's decisions computes -/
structure PostAcc where
  mask : List Int
  result : Int
  contains_executed : Bool
  deriving DecidableEq, Repr

/-- the inner loop over call decisions (MahjongAI/agents/transformer.py:979-985).  Only the ordered
model checks the class; the others raise AttributeError on `.naki`. -/
def postNaki (v : Variant) : List Decision → PostAcc → Except PyErr PostAcc
  | [], acc => .ok acc
  | .naki d :: ds, acc => do
    let i ← get_post_turn_filter_idx d.naki.naki_code
    let m ← markIdx v acc.mask i
    postNaki v ds (if d.executed then ⟨m, i, true⟩ else { acc with mask := m })
  | _ :: _, _ => .error (if v = .ordered then .assertion else .attribute)

/-- one pass of the loop over `enumerate(decisions[player_idx])` (MahjongAI/agents/transformer.py:960-988) -/
def postPass (v : Variant) (i : Nat) (l : List Decision) (acc : PostAcc) : Except PyErr PostAcc :=
  if l = [] then .ok acc
  else
    let acc := { acc with mask := acc.mask.set 0 1 }
    if i = 0 then
      .ok (if headExecuted l then ⟨acc.mask.set 1 1, 1, true⟩ else { acc with mask := acc.mask.set 1 1 })
    else if i = 1 then
      .ok (if headExecuted l then ⟨acc.mask.set 2 1, 2, true⟩ else { acc with mask := acc.mask.set 2 1 })
    else if i = 2 then postNaki v l acc
    else .error .value

/-- the loop over `enumerate(decisions[player_idx])`, from number `i` on -/
def postLoop (v : Variant) : Nat → List (List Decision) → PostAcc → Except PyErr PostAcc
  | _, [], acc => .ok acc
  | i, l :: ls, acc => do
    let acc ← postPass v i l acc
    postLoop v (i + 1) ls acc

/-- `players[p + 1:] + players[:p]` (MahjongAI/agents/transformer.py:952) -/
def seatsAfter (p : Nat) : List Nat := [0, 1, 2, 3].drop (p + 1) ++ [0, 1, 2, 3].take p

/-- the loop over the seats with `continue` and `break` (MahjongAI/agents/transformer.py:952-996) -/
def postSeats (v : Variant) (s : RoundSt) (enc : List Nat) (o : StateObj) (e : Nat) (x2 : List (List Int))
    (decisions : List (List (List Decision))) : List Nat → Batch → Except PyErr Batch
  | [], b => .ok b
  | p :: ps, b =>
    match decisions[p]? with
    | none => .error .index
    | some ds =>
      if (ds.map List.length).sum = 0 then postSeats v s enc o e x2 decisions ps b
      else do
        let acc ← postLoop v 0 ds ⟨zeros 154, 0, false⟩
        let b := { encodings := b.encodings ++ [maskTokens enc e], x1 := b.x1 ++ [stateX1 v o s], x2 := b.x2 ++ [x2]
                   x3 := b.x3 ++ [stateX3 o], mask := b.mask ++ [acc.mask], y := b.y ++ [acc.result]
                   player := b.player ++ [p] }
        if acc.contains_executed then return b
        postSeats v s enc o e x2 decisions ps b

/-- one post-turn (MahjongAI/agents/transformer.py:928-996) -/
def postTurn (v : Variant) (s : RoundSt) (enc : List Nat) (b : Batch) (player : Nat) (o : StateObj) (e : Nat)
    (decisions : List (List (List Decision))) : Except PyErr Batch := do
  if (decisions.map (fun ds => (ds.map List.length).sum)).sum = 0 then return b
  pyAssert (decide (e < 150))
  let x2 ← stateX2 o s
  postSeats v s enc o e x2 decisions (seatsAfter player) b

/-- `_build_post_tensor` (MahjongAI/agents/transformer.py:905-1046) -/
def buildPost (v : Variant) (s : RoundSt) (turns : List HalfTurn) (enc : List Nat) : Except PyErr Batch := do
  let b ← turns.foldlM (fun b t => match t with
    | .post p o e a n => postTurn v s enc b p o e (postDecisions a n)
    | _ => .error .attribute) Batch.empty
  pyAssert (twoAllowed b.mask)
  return b

/-- `build_tensors` (MahjongAI/agents/transformer.py:606-640); there are only three kinds of
half-turns, so the ValueError of line 624 does not occur -/
def buildTensors (v : Variant) (s : RoundSt) (turns : List HalfTurn) (tokens : List Nat) :
    Except PyErr (Batch × Batch × Batch) := do
  let enc := padTokens tokens
  let during ← buildDuring v s (turns.filter HalfTurn.isDuring) enc
  let discard ← buildDiscard v s (turns.filter HalfTurn.isDiscard) enc
  let post ← buildPost v s (turns.filter HalfTurn.isPost) enc
  return (during, discard, post)

/-- `torch.cat` of every component -/
def Batch.cat (l : List Batch) : Batch :=
  { encodings := (l.map (·.encodings)).flatten, x1 := (l.map (·.x1)).flatten, x2 := (l.map (·.x2)).flatten
    x3 := (l.map (·.x3)).flatten, mask := (l.map (·.mask)).flatten, y := (l.map (·.y)).flatten
    player := (l.map (·.player)).flatten }

/-- `stack_batches` (MahjongAI/agents/transformer.py:556-604, transformer_conv_ordered.py:581-686).
Unpacking `zip(*[])` raises ValueError except in the ordered model, which tests for it. -/
def stackBatches (v : Variant) (during discard post : List Batch) : Except PyErr (Batch × Batch × Batch) :=
  if v ≠ .ordered ∧ (during = [] ∨ discard = [] ∨ post = []) then .error .value
  else .ok (Batch.cat during, Batch.cat discard, Batch.cat post)

/-- the two nested loops of `prepare_batches` (MahjongAI/agents/transformer.py:541-551) as one list
of rounds; `zip` stops at the shorter list.  A round's half-turns come with the state their state
objects refer to. -/
def zipRounds (turns : List (List (RoundSt × List HalfTurn))) (tokens : List (List (List Nat))) :
    List ((RoundSt × List HalfTurn) × List Nat) :=
  (turns.zip tokens).flatMap (fun g => g.1.zip g.2)

/-- `prepare_batches` (MahjongAI/agents/transformer.py:529-555) -/
def prepareBatches (v : Variant) (turns : List (List (RoundSt × List HalfTurn))) (tokens : List (List (List Nat))) :
    Except PyErr (Batch × Batch × Batch) := do
  let l ← (zipRounds turns tokens).mapM (fun r => buildTensors v r.1.1 r.1.2 r.2)
  stackBatches v (l.map (·.1)) (l.map (·.2.1)) (l.map (·.2.2))

end MJ
