import Verif.Model.Naki
import Verif.Model.Tokens
import Verif.Model.GameInfo
import Verif.Model.Shanten
import Verif.Model.Tensors
import Verif.Data.SampleGame
import Verif.Props.ShantenBounds
/-!
The project's own tests (MahjongAI/tests/test_naki.py, MahjongAI/tests/test_tensor.py) and the outputs recorded in its
notebooks (notebooks/shanten.ipynb, notebooks/agari_decision.ipynb, notebooks/process_xml.ipynb) hold of the model.
-/
namespace MJ

/-- the assertions of a test in test_naki.py -/
def nakiTest (n : Except PyErr Naki) (code : Nat) (is : Nat → Bool) (pattern : Nat → Pattern) (p : Pattern) : Bool :=
  match n with
  | .ok n => n.naki_code == code && Code.clean n.naki_code == .ok n.naki_code && is n.naki_code && pattern n.naki_code == p
  | .error _ => false

/-- test_naki_from_chi_info1 -/
example : nakiTest (Naki.from_chi_info 1 0 0 false) 21679 Code.is_chi Code.pattern_chi
    ⟨1, 0, 0, false, [41, 45], some 37⟩ = true := by decide

/-- test_naki_from_chi_info2 -/
example : nakiTest (Naki.from_chi_info 2 3 1 true) 53391 Code.is_chi Code.pattern_chi
    ⟨2, 3, 1, true, [85, 93], some 88⟩ = true := by decide

/-- test_naki_from_chi_info3 -/
example : nakiTest (Naki.from_chi_info 0 4 2 true) 14503 Code.is_chi Code.pattern_chi
    ⟨0, 4, 2, true, [16, 21], some 25⟩ = true := by decide

/-- test_naki_from_pon_info1 -/
example : nakiTest (Naki.from_pon_info 1 0 false 2) 1546 Code.is_pon Code.pattern_pon
    ⟨0, 1, 0, false, [6, 7], some 5⟩ = true := by decide

/-- test_naki_from_pon_info2 -/
example : nakiTest (Naki.from_pon_info 13 0 true 3) 20075 Code.is_pon Code.pattern_pon
    ⟨1, 4, 0, true, [53, 54], some 52⟩ = true := by decide

/-- test_naki_from_pon_info3 -/
example : nakiTest (Naki.from_pon_info 22 1 true 1) 34409 Code.is_pon Code.pattern_pon
    ⟨2, 4, 1, true, [88, 90], some 89⟩ = true := by decide

/-- test_naki_from_pon_info4 -/
example : nakiTest (Naki.from_pon_info 32 0 false 1) 49161 Code.is_pon Code.pattern_pon
    ⟨3, 5, 0, false, [130, 131], some 129⟩ = true := by decide

/-- test_naki_from_kakan_info1 -/
example : nakiTest (Naki.from_kakan_info 3 0) 4656 Code.is_kakan Code.pattern_kakan
    ⟨0, 3, 0, false, [13], none⟩ = true := by decide

/-- test_naki_from_kakan_info2 -/
example : nakiTest (Naki.from_kakan_info 13 0) 19984 Code.is_kakan Code.pattern_kakan
    ⟨1, 4, 0, true, [52], none⟩ = true := by decide

/-- test_naki_from_kakan_info3 -/
example : nakiTest (Naki.from_kakan_info 22 1) 34352 Code.is_kakan Code.pattern_kakan
    ⟨2, 4, 1, true, [89], none⟩ = true := by decide

/-- test_naki_from_kakan_info4 -/
example : nakiTest (Naki.from_kakan_info 30 0) 46128 Code.is_kakan Code.pattern_kakan
    ⟨3, 3, 0, false, [121], none⟩ = true := by decide

/-- test_naki_from_minkan_info1 -/
example : nakiTest (Naki.from_minkan_info 6 3 1) 6403 Code.is_minkan Code.pattern_minkan
    ⟨0, 6, 1, false, [24, 26, 27], some 25⟩ = true := by decide

/-- test_naki_from_minkan_info2 -/
example : nakiTest (Naki.from_minkan_info 13 3 0) 13315 Code.is_minkan Code.pattern_minkan
    ⟨1, 4, 0, true, [53, 54, 55], some 52⟩ = true := by decide

/-- test_naki_from_minkan_info3 -/
example : nakiTest (Naki.from_minkan_info 22 1 1) 22785 Code.is_minkan Code.pattern_minkan
    ⟨2, 4, 1, true, [88, 90, 91], some 89⟩ = true := by decide

/-- test_naki_from_minkan_info4 -/
example : nakiTest (Naki.from_minkan_info 28 3 1) 28931 Code.is_minkan Code.pattern_minkan
    ⟨3, 1, 1, false, [112, 114, 115], some 113⟩ = true := by decide

/-- test_naki_from_ankan_info1 -/
example : nakiTest (.ok (Naki.from_ankan_info 8)) 8192 Code.is_ankan Code.pattern_ankan
    ⟨0, 8, 0, false, [32, 33, 34, 35], none⟩ = true := by decide

/-- test_naki_from_ankan_info2 -/
example : nakiTest (.ok (Naki.from_ankan_info 13)) 13312 Code.is_ankan Code.pattern_ankan
    ⟨1, 4, 0, true, [52, 53, 54, 55], none⟩ = true := by decide

/-! test_tensor.py -/

/-- the arrays of `test_discard` -/
def testSt : RoundSt where
  hands := fun _ _ => 0
  hand_tensors := fun _ k => if k < 14 then 1 else 0
  hand_tensors_full := fun _ _ => 0
  remaining_tiles := fun _ => 3
  remaining_tiles_pov := fun _ _ => 3
  remaining_tsumo := 70
  sutehai_tensors := fun _ _ => 0
  doras := [0]
  scores := [25000, 25000, 25000, 25000]
  kyotaku := 0
  double_reaches := fun _ => 0
  reaches := fun _ => 0
  ippatsu := fun _ => 0
  melds := fun _ => []
  is_menzen := fun _ => 1
  curr_halfturn := none
  cycles := 0
  acquired := none
  stateObj := none
  halfturns := []
  encoding_tokens := []

/-- `default_state_obj` of `test_discard` -/
def testObj (player : Nat) : StateObj where
  player := player
  remaining_tsumo := 70
  sutehai_tensors := fun _ _ => 0
  double_reaches := fun _ => 0
  reaches := fun _ => 0
  ippatsu := fun _ => 0
  scores := [25000, 25000, 25000, 25000]
  kyotaku := 0
  honba := 0
  dora := [0]
  parent := 0
  rounds_remaining := 4
  parent_rounds_remaining := [1, 1, 1, 1]

/-- `halfturns` of `test_discard` -/
def testTurns : List HalfTurn :=
  [(0, 0, 0), (1, 4, 1), (2, 8, 2), (3, 12, 3), (0, 16, 4), (1, 20, 5), (2, 24, 6)].map
    (fun (player, tile, i) => .discard player (testObj player) i tile)

/-- `encodings` of `test_discard` -/
def testEncodings : Except PyErr (List Nat) :=
  [(0, 0, false), (1, 1, true), (2, 2, false), (3, 3, true), (0, 4, false), (1, 5, true), (2, 6, false), (3, 7, true)].mapM
    (fun (who, tile, t) => discard2idx who tile t)

/-- what `test_discard` states about the result -/
def discardAssertions (b : Batch) : Bool :=
  let col (n i : Nat) : List Nat := (b.encodings.drop n).map (fun e => e.getD i 0)
  b.encodings.map List.length == List.replicate 7 150 &&
  (b.encodings.getD 0 []).all (· == 0) &&
  ((b.encodings.getD 1 []).drop 1).all (· == 0) &&
  (col 1 0).all (fun x => .ok x == discard2idx 0 0 false) &&
  (col 2 1).all (fun x => .ok x == discard2idx 1 1 true) &&
  b.x1.map (fun x => x.map List.length) == List.replicate 7 (List.replicate 3 37) &&
  b.x2.map (fun x => x.map List.length) == List.replicate 7 (List.replicate 7 4) &&
  b.x3.map List.length == List.replicate 7 4 &&
  b.mask.map List.length == List.replicate 7 37 &&
  b.mask.all (fun m => (m.take 14).all (· == 1) && (m.drop 14).all (· == 0)) &&
  b.y == [0, 1, 2, 3, 4, 5, 6]

/-- test_discard -/
example : (do let e ← testEncodings; let b ← buildDiscard .basic testSt testTurns e; return discardAssertions b) =
    (.ok true : Except PyErr Bool) := by decide +kernel

/-! shanten.ipynb -/

/-- the hand of the notebook, filled with zeros -/
def notebookHand (l : List Int) : List Int := l ++ List.replicate (37 - l.length) 0

def notebookHand0 : List Int := notebookHand [0, 2, 2, 1, 2, 2, 2, 1, 2]

/-- "chitoi hand: 0" -/
example : (Solver.init notebookHand0).chitoitsu.best = 0 := by decide +kernel
/-- "kokushi hand: 11" -/
example : ({ Solver.init notebookHand0 with best := 100 } : Solver).kokushi.best = 11 := by decide +kernel

/-! agari_decision.ipynb: "Shanten: -1", twice; the first hand is complete, the second one has seven pairs -/

example : normalValue (notebookHand [1, 2, 2, 1, 1, 1, 1, 2, 0, 1, 1, 1]) = -1 :=
  (C79_complete (k := 4) (legalHand_of (by decide)) (by decide) (by decide)).1.2
    ⟨[.shuntsu 0, .shuntsu 1, .shuntsu 4, .shuntsu 9], 7, by decide, rfl, by decide, by decide⟩
example : (Solver.init (notebookHand [0, 2, 2, 0, 2, 2, 2, 2, 2])).chitoitsu.best = -1 := by decide +kernel

/-! process_xml.ipynb, for MahjongAI/data/sample/sample_haifu.xml -/

/-- "GameInfo: against_human=1, no_red=0, kansaki=0, tonnan=1, three_players=0, fast=0, level=5" -/
example : let g : GameInfo := ⟨169⟩; [g.against_human, g.no_red, g.kansaki, g.tonnan, g.three_players, g.fast, g.level] =
    [1, 0, 0, 1, 0, 0, 5] := by decide

/-- "(16, 144)": the number of rounds, and of the elements of the first round -/
example : (Data.sampleItems.length, (Data.sampleItems.headD []).length) = (16, 144) := by decide +kernel

/-- "TILE2IDX": in the notebook a red five has only the last of its two indices -/
example : (List.range 136).map (fun t => (tile2idx t).getLastD 0) =
    [0, 0, 0, 0, 1, 1, 1, 1, 2, 2, 2, 2, 3, 3, 3, 3, 34, 4, 4, 4, 5, 5, 5, 5,
     6, 6, 6, 6, 7, 7, 7, 7, 8, 8, 8, 8, 9, 9, 9, 9, 10, 10, 10, 10, 11, 11, 11, 11,
     12, 12, 12, 12, 35, 13, 13, 13, 14, 14, 14, 14, 15, 15, 15, 15, 16, 16, 16, 16, 17, 17, 17, 17,
     18, 18, 18, 18, 19, 19, 19, 19, 20, 20, 20, 20, 21, 21, 21, 21, 36, 22, 22, 22, 23, 23, 23, 23,
     24, 24, 24, 24, 25, 25, 25, 25, 26, 26, 26, 26, 27, 27, 27, 27, 28, 28, 28, 28, 29, 29, 29, 29,
     30, 30, 30, 30, 31, 31, 31, 31, 32, 32, 32, 32, 33, 33, 33, 33] := by decide +kernel

end MJ
