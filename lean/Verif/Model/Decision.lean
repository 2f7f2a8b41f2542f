import Verif.Model.Naki
/-!
`MahjongAI/decision.py`.

Hand tensors are functions `player → slot → Int` (the code uses float counts that are
always whole numbers).  Slots used here are computed inside one suit, so indices are never
negative for tile indices below 34; `slot` turns the Python index into a natural number.
-/
namespace MJ

/-- `NakiDecision` (MahjongAI/decision.py:19-22) -/
structure NakiDecision where
  player : Nat
  naki : Naki
  executed : Bool
  deriving DecidableEq, Repr

/-- hand counts of one player -/
abbrev Hand := Nat → Int

/-- `hand_tensor[i]` -/
def slot (h : Hand) (i : Int) : Int := h i.toNat

/-- `if cond: naki = …; assert naki.is_…(); decisions[p].append(NakiDecision(p, naki, False))`,
a pattern repeated throughout MahjongAI/decision.py:68-343 -/
def offer (p : Nat) (cond : Bool) (mk : Except PyErr Naki) (chk : Nat → Bool) :
    Except PyErr (List NakiDecision) :=
  if cond then
    match mk with
    | .ok n => if chk n.naki_code then .ok [⟨p, n, false⟩] else .error .assertion
    | .error e => .error e
  else .ok []

/-- `(p - player) % 4 == 1` -/
def isNext (player p : Nat) : Bool := ((p : Int) - player) % 4 == 1

/-- `(player - p) % 4` -/
def source (player p : Nat) : Nat := (((player : Int) - p) % 4).toNat

/-- `if cond: …` around several appends -/
def whenE (b : Bool) (r : Except PyErr (List NakiDecision)) : Except PyErr (List NakiDecision) :=
  if b then r else .ok []

/-- the pon and open kan offers of an ordinary kind, e.g. MahjongAI/decision.py:86-93;
`pon_which`, `kan_which` are 0 -/
def ponKan (player p : Nat) (h : Hand) (t : Nat) : Except PyErr (List NakiDecision) := do
  let pon ← offer p (h t == 2) (Naki.from_pon_info t 0 false (source player p)) Code.is_pon
  let kan ← offer p (h t == 3) (Naki.from_minkan_info t (source player p) 0) Code.is_minkan
  return pon ++ kan

/-- `_one_and_nine_mask`, body for `p ≠ player` (MahjongAI/decision.py:74-93) -/
def oneAndNine (player p : Nat) (h : Hand) (t : Nat) (is_one : Bool) : Except PyErr (List NakiDecision) := do
  let coef : Int := if is_one then 1 else -1
  let chi ← offer p (isNext player p && slot h (t + coef) * slot h (t + coef * 2) != 0)
    (Naki.from_chi_info (t / 9) (if is_one then 0 else 6) (if is_one then 0 else 2) false) Code.is_chi
  let rest ← ponKan player p h t
  return chi ++ rest

/-- `_two_and_eight_mask`, body for `p ≠ player` (MahjongAI/decision.py:104-128) -/
def twoAndEight (player p : Nat) (h : Hand) (t : Nat) (is_two : Bool) : Except PyErr (List NakiDecision) := do
  let coef : Int := if is_two then 1 else -1
  let chi ←
    whenE (isNext player p) (do
      let a ← offer p (slot h (t - 1) * slot h (t + 1) != 0)
        (Naki.from_chi_info (t / 9) (if is_two then 0 else 6) 1 false) Code.is_chi
      let b ← offer p (slot h (t + coef) * slot h (t + coef * 2) != 0)
        (Naki.from_chi_info (t / 9) (if is_two then 1 else 5) (if is_two then 0 else 2) false) Code.is_chi
      return a ++ b)
  let rest ← ponKan player p h t
  return chi ++ rest

/-- `player_has_red` (MahjongAI/decision.py:146, 208, 285): slot 34 + suit -/
def hasRed (h : Hand) (t : Nat) : Bool := decide (0 < h (34 + t / 9))

/-- `black_fives` (MahjongAI/decision.py:147, 209, 286): the count of the *discarded* kind
minus one if the red five is held -/
def blackFives (h : Hand) (t : Nat) : Int := h t - (hasRed h t).toNat

/-- the three-way offer of a run with a five from the hand, MahjongAI/decision.py:162-186
and 236-259: red version, then black version if `black_fives > 0`; black version alone if
no red five is held -/
def fiveRun (p : Nat) (h : Hand) (t : Nat) (number which whichBlack : Nat) : Except PyErr (List NakiDecision) := do
  if hasRed h t then
    let a ← offer p true (Naki.from_chi_info (t / 9) number which true) Code.is_chi
    let b ← offer p (decide (0 < blackFives h t)) (Naki.from_chi_info (t / 9) number which false) Code.is_chi
    return a ++ b
  else offer p true (Naki.from_chi_info (t / 9) number whichBlack false) Code.is_chi

/-- `_three_and_seven_mask`, body for `p ≠ player` (MahjongAI/decision.py:142-190).  The
second chi has no `assert naki.is_chi()`. -/
def threeAndSeven (player p : Nat) (h : Hand) (t : Nat) (is_three : Bool) : Except PyErr (List NakiDecision) := do
  let coef : Int := if is_three then 1 else -1
  let chi ←
    whenE (isNext player p) (do
      let a ← offer p (slot h (t - 2 * coef) * slot h (t - coef) != 0)
        (Naki.from_chi_info (t / 9) (if is_three then 0 else 6) (if is_three then 2 else 0) false) Code.is_chi
      let b ← offer p (slot h (t - 1) * slot h (t + 1) != 0)
        (Naki.from_chi_info (t / 9) (if is_three then 1 else 5) 1 false) (fun _ => true)
      let c ← whenE (slot h (t + coef) * slot h (t + 2 * coef) != 0)
          (fiveRun p h t (if is_three then 2 else 4) (if is_three then 0 else 2) (if is_three then 0 else 2))
      return a ++ b ++ c)
  let rest ← ponKan player p h t
  return chi ++ rest

/-- `_four_and_six_mask`, body for `p ≠ player` (MahjongAI/decision.py:204-268).  In the
middle-wait branch the versions offered when the red five is held use `which` 0/2
(lines 219-233), the other one uses 1 (lines 235-237). -/
def fourAndSix (player p : Nat) (h : Hand) (t : Nat) (is_four : Bool) : Except PyErr (List NakiDecision) := do
  let coef : Int := if is_four then 1 else -1
  let chi ←
    whenE (isNext player p) (do
      let a ← offer p (slot h (t - 2 * coef) * slot h (t - coef) != 0)
        (Naki.from_chi_info (t / 9) (if is_four then 1 else 5) (if is_four then 2 else 0) false) Code.is_chi
      let b ← whenE (slot h (t - 1) * slot h (t + 1) != 0)
          (fiveRun p h t (if is_four then 2 else 4) (if is_four then 0 else 2) 1)
      let c ← whenE (slot h (t + coef) * slot h (t + 2 * coef) != 0)
          (fiveRun p h t 3 (if is_four then 0 else 2) (if is_four then 0 else 2))
      return a ++ b ++ c)
  let rest ← ponKan player p h t
  return chi ++ rest

/-- the pon branch of `_five_mask` (MahjongAI/decision.py:302-317) -/
def fivePon (p : Nat) (h : Hand) (t : Nat) (is_red : Bool) (src : Nat) : Except PyErr (List NakiDecision) :=
  if hasRed h t then do
    let a ← offer p (h t == 2) (Naki.from_pon_info t 1 true src) Code.is_pon
    let b ← offer p (blackFives h t == 2) (Naki.from_pon_info t 0 false src) Code.is_pon
    return a ++ b
  else offer p (h t == 2) (Naki.from_pon_info t (if is_red then 1 else 0) is_red src) Code.is_pon

/-- `_five_mask`, body for `p ≠ player` (MahjongAI/decision.py:281-322) -/
def five (player p : Nat) (h : Hand) (t : Nat) (is_red : Bool) : Except PyErr (List NakiDecision) := do
  let src := source player p
  let chi ←
    whenE (isNext player p) (do
      let a ← offer p (slot h (t - 2) * slot h (t - 1) != 0) (Naki.from_chi_info (t / 9) 2 2 is_red) Code.is_chi
      let b ← offer p (slot h (t - 1) * slot h (t + 1) != 0) (Naki.from_chi_info (t / 9) 3 1 is_red) Code.is_chi
      let c ← offer p (slot h (t + 1) * slot h (t + 2) != 0) (Naki.from_chi_info (t / 9) 4 0 is_red) Code.is_chi
      return a ++ b ++ c)
  let pon ← fivePon p h t is_red src
  let kan ← offer p (h t == 3) (Naki.from_minkan_info t src (if is_red then 1 else 0)) Code.is_minkan
  return chi ++ pon ++ kan

/-- The decisions of player `p`: the dispatch of `decision_mask`
(MahjongAI/decision.py:51-65) and `if p == player: continue`.  The loop bodies read and
write only row `p`, so the loop over players is a map. -/
def maskFor (player p : Nat) (h : Hand) (t : Nat) (is_red : Bool) : Except PyErr (List NakiDecision) :=
  if p = player then .ok []
  else if t > 26 then ponKan player p h t
  else if t % 9 = 0 ∨ t % 9 = 8 then oneAndNine player p h t (t % 9 == 0)
  else if t % 9 = 1 ∨ t % 9 = 7 then twoAndEight player p h t (t % 9 == 1)
  else if t % 9 = 2 ∨ t % 9 = 6 then threeAndSeven player p h t (t % 9 == 2)
  else if t % 9 = 3 ∨ t % 9 = 5 then fourAndSix player p h t (t % 9 == 3)
  else five player p h t is_red

/-- `decision_mask` (MahjongAI/decision.py:51-343) -/
def decisionMask (player : Nat) (hands : Nat → Hand) (t : Nat) (is_red : Bool) :
    Except PyErr (List (List NakiDecision)) := do
  let d0 ← maskFor player 0 (hands 0) t is_red
  let d1 ← maskFor player 1 (hands 1) t is_red
  let d2 ← maskFor player 2 (hands 2) t is_red
  let d3 ← maskFor player 3 (hands 3) t is_red
  return [d0, d1, d2, d3]

end MJ
