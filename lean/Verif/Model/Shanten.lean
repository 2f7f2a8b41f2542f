import Verif.Model.Constants
/-!
The shanten solver (MahjongAI/utils/shanten.py).

The hand tensor is a list of 37 integers.  Attributes of the solver object are fields; methods return the new object.
`solve_normal` takes a fuel argument, the maximal recursion depth; `none` means it was not enough.
-/
namespace MJ

/-- `self` (MahjongAI/utils/shanten.py:10-18) -/
structure Solver where
  hand : List Int
  n_melds : Int
  n_mentsu : Int
  n_taatsu : Int
  n_toitsu : Int
  n_kuttsuki : Int
  best : Int
  tune : Int
  deriving DecidableEq, Repr

/-- how many entries satisfy the test: `sum(a >= 3.0)` and the like -/
def countIf (p : Int → Bool) (l : List Int) : Int := (l.filter p).length

/-- `_init` (MahjongAI/utils/shanten.py:10-18) -/
def Solver.init (hand : List Int) : Solver :=
  let n_melds := (14 - hand.sum) / 3
  { hand := hand
    n_melds := n_melds
    n_mentsu := n_melds + countIf (fun x => decide (3 ≤ x)) (hand.drop 27)
    n_taatsu := 0
    n_toitsu := countIf (fun x => x == 2) (hand.drop 27)
    n_kuttsuki := 0
    best := 14
    tune := 0 }

/-- `hand_tensor[i] += k` -/
def bump (h : List Int) (i : Nat) (k : Int) : List Int := h.modify i (· + k)

/-- `hand_tensor[i : i + 3] += k` -/
def bump3 (h : List Int) (i : Nat) (k : Int) : List Int := bump (bump (bump h i k) (i + 1) k) (i + 2) k

/-- MahjongAI/utils/shanten.py:20-22 -/
def Solver.addShuntsu (s : Solver) (i : Nat) : Solver := { s with hand := bump3 s.hand i (-1), n_mentsu := s.n_mentsu + 1 }
/-- MahjongAI/utils/shanten.py:24-26 -/
def Solver.removeShuntsu (s : Solver) (i : Nat) : Solver := { s with hand := bump3 s.hand i 1, n_mentsu := s.n_mentsu - 1 }
/-- MahjongAI/utils/shanten.py:28-30 -/
def Solver.addKoutsu (s : Solver) (i : Nat) : Solver := { s with hand := bump s.hand i (-3), n_mentsu := s.n_mentsu + 1 }
/-- MahjongAI/utils/shanten.py:32-34 -/
def Solver.removeKoutsu (s : Solver) (i : Nat) : Solver := { s with hand := bump s.hand i 3, n_mentsu := s.n_mentsu - 1 }
/-- MahjongAI/utils/shanten.py:36-38 -/
def Solver.addToitsu (s : Solver) (i : Nat) : Solver := { s with hand := bump s.hand i (-2), n_toitsu := s.n_toitsu + 1 }
/-- MahjongAI/utils/shanten.py:40-42 -/
def Solver.removeToitsu (s : Solver) (i : Nat) : Solver := { s with hand := bump s.hand i 2, n_toitsu := s.n_toitsu - 1 }
/-- MahjongAI/utils/shanten.py:44-47 -/
def Solver.addTaatsu (s : Solver) (i which : Nat) : Solver :=
  { s with hand := bump (bump3 s.hand i (-1)) (i + which) 1, n_taatsu := s.n_taatsu + 1 }
/-- MahjongAI/utils/shanten.py:49-52 -/
def Solver.removeTaatsu (s : Solver) (i which : Nat) : Solver :=
  { s with hand := bump (bump3 s.hand i 1) (i + which) (-1), n_taatsu := s.n_taatsu - 1 }
/-- MahjongAI/utils/shanten.py:54-58 -/
def Solver.addKuttsuki (s : Solver) (i : Nat) (tune : Bool) : Solver :=
  { s with hand := bump s.hand i (-1), n_kuttsuki := s.n_kuttsuki + 1, tune := if tune then s.tune + 1 else s.tune }
/-- MahjongAI/utils/shanten.py:60-64 -/
def Solver.removeKuttsuki (s : Solver) (i : Nat) (tune : Bool) : Solver :=
  { s with hand := bump s.hand i 1, n_kuttsuki := s.n_kuttsuki - 1, tune := if tune then s.tune - 1 else s.tune }

/-- `hand_tensor[i]` -/
def at37 (h : List Int) (i : Nat) : Int := h.getD i 0

/-- the `while` loop (MahjongAI/utils/shanten.py:67-70), `n = 27 - idx` -/
def skipEmpty (h : List Int) : Nat → Nat → Nat
  | 0, idx => idx
  | n + 1, idx => if at37 h idx ≠ 0 then idx else skipEmpty h n (idx + 1)

/-- the end of a branch (MahjongAI/utils/shanten.py:72-82) -/
def Solver.leaf (s : Solver) : Solver :=
  let shanten := min s.best (8 - s.n_mentsu * 2 - s.n_taatsu - s.n_toitsu)
  let potential_mentsu := max 0 (s.n_toitsu - 1) + s.n_taatsu
  let shanten := if potential_mentsu + s.n_mentsu > 4 then shanten + (potential_mentsu + s.n_mentsu - 4) else shanten
  let shanten := if s.tune ≠ 0 ∧ s.n_toitsu = 0 then shanten + 1 else shanten
  { s with best := min s.best shanten }

/-- the inner function `process_shuntsu` (MahjongAI/utils/shanten.py:86-103); `rec` is `solve_normal` -/
def processShuntsu (rec : Nat → Solver → Option Solver) (idx : Nat) (tune : Bool) (s : Solver) : Option Solver := do
  let num := idx % 9
  let s ← (if num < 7 ∧ at37 s.hand (idx + 2) ≠ 0 then do
      let s ← (if at37 s.hand (idx + 1) ≠ 0 then do
          let s ← rec idx (s.addShuntsu idx)
          some (s.removeShuntsu idx)
        else some s)
      let s ← rec idx (s.addTaatsu idx 1)
      some (s.removeTaatsu idx 1)
    else some s)
  let s ← (if num < 8 ∧ at37 s.hand (idx + 1) ≠ 0 then do
      let s ← rec idx (s.addTaatsu idx 2)
      some (s.removeTaatsu idx 2)
    else some s)
  let s ← rec idx (s.addKuttsuki idx tune)
  some (s.removeKuttsuki idx tune)

/-- `solve_normal` (MahjongAI/utils/shanten.py:66-132) -/
def solveNormal : Nat → Nat → Solver → Option Solver
  | 0, _, _ => none
  | fuel + 1, idx, s =>
    let idx := skipEmpty s.hand (27 - idx) idx
    if idx = 27 then some s.leaf
    else if at37 s.hand idx = 4 then do
      let s ← processShuntsu (solveNormal fuel) idx true (s.addKoutsu idx)
      let s ← solveNormal fuel (idx + 1) s
      let s ← processShuntsu (solveNormal fuel) idx false ((s.removeKoutsu idx).addToitsu idx)
      some (s.removeToitsu idx)
    else if at37 s.hand idx = 3 then do
      let s ← solveNormal fuel (idx + 1) (s.addKoutsu idx)
      let s ← solveNormal fuel idx ((s.removeKoutsu idx).addToitsu idx)
      some (s.removeToitsu idx)
    else if at37 s.hand idx = 2 then do
      let s ← solveNormal fuel (idx + 1) (s.addToitsu idx)
      processShuntsu (solveNormal fuel) idx false (s.removeToitsu idx)
    else if at37 s.hand idx = 1 then processShuntsu (solveNormal fuel) idx false s
    else some s

/-- `solve_chitoitsu` (MahjongAI/utils/shanten.py:134-135) -/
def Solver.chitoitsu (s : Solver) : Solver :=
  { s with best := min s.best (6 - countIf (fun x => decide (2 ≤ x)) s.hand) }

/-- `max(a)` of a non-empty array -/
def maxOf (l : List Int) : Int := l.tail.foldl max (l.headD 0)

/-- `YAOCHU_TENSOR` (MahjongAI/utils/constants.py:19-20) -/
def yaochuTensor : List Int := (List.range 37).map (fun i => if i ∈ yaochuIdx then 1 else 0)

/-- `solve_kokushi` (MahjongAI/utils/shanten.py:137-141) -/
def Solver.kokushi (s : Solver) : Solver :=
  let yaochu_arr := List.zipWith (· * ·) s.hand yaochuTensor
  { s with best := min s.best (13 - countIf (fun x => decide (1 ≤ x)) yaochu_arr - (maxOf yaochu_arr - 1)) }

/-- `solve` (MahjongAI/utils/shanten.py:143-148) with enough fuel for the recursion; the result is `best_shanten` -/
def Solver.solve (fuel : Nat) (s : Solver) : Option (Int × Solver) := do
  let s ← solveNormal fuel 0 s
  let s := s.chitoitsu.kokushi
  some (s.best, s)

end MJ
