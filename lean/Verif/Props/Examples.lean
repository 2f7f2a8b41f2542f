import Verif.Model.Examples
import Verif.Props.ShantenBounds
import Verif.Props.ShantenForms
/-!
What the evaluation of wins prints with `verbose=True`, and what the two scripts print.
-/
namespace MJ.Printing
open Spec

/-- the hand with one more tile of a kind -/
def withTile (h : Nat → Int) (k : Nat) (i : Nat) : Int := if i = k then h i + 1 else h i

/-- what the library is asked about a win of player `p` on a discard -/
def ronQuestion (hands : Nat → Nat → Int) (a : WinArgs) (tile : Nat) (is_chankan : Bool) (is_renhou : Nat → Bool) (p : Nat)
    (melds : List MeldArg) : Query :=
  { man := digits (withTile (hands p) (tile / 4)) 0 9
    pin := digits (withTile (hands p) (tile / 4)) 9 9
    sou := digits (withTile (hands p) (tile / 4)) 18 9
    honors := digits (withTile (hands p) (tile / 4)) 27 7
    win_tile := tile
    melds := melds
    dora_indicators := a.doras
    config :=
      { is_tsumo := false, is_riichi := a.reaches p != 0, is_ippatsu := a.ippatsu p != 0, is_rinshan := false,
        is_chankan := is_chankan, is_haitei := a.is_haitei, is_houtei := false,
        is_daburu_riichi := a.double_reaches p != 0, is_tenhou := false, is_chiihou := false,
        is_renhou := is_renhou p, player_wind := a.player_wind, round_wind := a.round_wind,
        kyoutaku_number := a.kyotaku, tsumi_number := a.honba } }

/-- the line about player `p`, if the evaluation for this player ends without exception -/
def ronLine (lib : Library) (player : Nat) (hands : Nat → Nat → Int) (a : WinArgs) (sutehai : Nat → Nat → Int) (tile : Nat)
    (is_chankan : Bool) (is_renhou : Nat → Bool) (p : Nat) : Option (List Text) :=
  if p = player then some []
  else if sutehai p (tile / 4) ≠ 0 then some [lit "Player " ++ decimal p ++ lit " is furiten"]
  else match nakisToMelds (a.naki_list p) with
    | .error _ => none
    | .ok melds => match lib (ronQuestion hands a tile is_chankan is_renhou p melds) with
      | .error _ => none
      | .ok (text, _) => some [text]

/-- the lines up to the first missing one -/
def upToMissing : List (Option (List Text)) → List Text
  | [] => []
  | none :: _ => []
  | some l :: rest => l ++ upToMissing rest

theorem set_back (hands : Nat → Nat → Int) (p i : Nat) :
    setAt (setAt hands p (setAt (hands p) i (hands p i + 1))) p
      (setAt (setAt hands p (setAt (hands p) i (hands p i + 1)) p) i
        (setAt hands p (setAt (hands p) i (hands p i + 1)) p i - 1)) = hands := by
  funext q j
  by_cases hq : q = p
  · subst hq
    by_cases hj : j = i
    · subst hj; simp [setAt]
    · simp [setAt, hj]
  · simp [setAt, hq]

theorem step_same (lib : Library) (player : Nat) (a : WinArgs) (sutehai : Nat → Nat → Int) (tile idx : Nat)
    (ck : Bool) (rn : Nat → Bool) (p : Nat) (st : RonSt) :
    (ronStepSaid lib player a sutehai tile idx ck rn p st).2 =
      ronStep lib.estimate player a sutehai tile idx ck rn p st := by
  unfold ronStepSaid ronStep
  split
  · rfl
  · split
    · rfl
    · dsimp only
      split
      · next e h => rw [h]
      · next m h =>
        rw [h]
        dsimp only [Library.estimate]
        split <;> next hl => rw [hl]; rfl

theorem step_line (lib : Library) (player : Nat) (hands : Nat → Nat → Int) (a : WinArgs) (sutehai : Nat → Nat → Int)
    (tile : Nat) (ck : Bool) (rn : Nat → Bool) (p : Nat) (ds : List (Option AgariDecision)) :
    let r := ronStepSaid lib player a sutehai tile (tile / 4) ck rn p (hands, ds)
    match ronLine lib player hands a sutehai tile ck rn p with
    | none => r.1 = [] ∧ ∃ e, r.2 = .error e
    | some l => r.1 = l ∧ ∃ ds', r.2 = .ok (hands, ds') := by
  unfold ronStepSaid ronLine
  by_cases h1 : p = player
  · rw [if_pos h1, if_pos h1]; exact ⟨rfl, ds, rfl⟩
  rw [if_neg h1, if_neg h1]
  by_cases h2 : sutehai p (tile / 4) ≠ 0
  · rw [if_pos h2, if_pos h2]; exact ⟨rfl, ds, rfl⟩
  rw [if_neg h2, if_neg h2]
  dsimp only
  have hw : setAt hands p (setAt (hands p) (tile / 4) (hands p (tile / 4) + 1)) p = withTile (hands p) (tile / 4) := by
    funext i
    by_cases hi : i = tile / 4
    · subst hi; simp [setAt, withTile]
    · simp [setAt, withTile, hi]
  rw [set_back]
  cases hm : nakisToMelds (a.naki_list p) with
  | error e => exact ⟨rfl, e, rfl⟩
  | ok melds =>
    dsimp only
    rw [hw]
    show match (match lib (ronQuestion hands a tile ck rn p melds) with
      | .error _ => none | .ok (text, _) => some [text] : Option (List Text)) with | none => _ | some l => _
    cases hl : lib (ronQuestion hands a tile ck rn p melds) with
    | error e =>
      unfold ronQuestion at hl
      dsimp only [hand_tensor2strs]
      rw [hl]; exact ⟨rfl, e, rfl⟩
    | ok tb =>
      obtain ⟨t, b⟩ := tb
      unfold ronQuestion at hl
      dsimp only [hand_tensor2strs]
      rw [hl]
      cases b <;> exact ⟨rfl, _, rfl⟩

theorem loop_same (lib : Library) (player : Nat) (a : WinArgs) (sutehai : Nat → Nat → Int) (tile idx : Nat)
    (ck : Bool) (rn : Nat → Bool) : ∀ (ps : List Nat) (st : RonSt),
    (ronLoopSaid lib player a sutehai tile idx ck rn ps st).2 = ronLoop lib.estimate player a sutehai tile idx ck rn ps st
  | [], _ => rfl
  | p :: ps, st => by
    unfold ronLoopSaid ronLoop
    rw [← step_same]
    cases h : ronStepSaid lib player a sutehai tile idx ck rn p st with
    | mk said r =>
      cases r with
      | error e => rfl
      | ok st' => exact loop_same lib player a sutehai tile idx ck rn ps st'

theorem loop_lines (lib : Library) (player : Nat) (hands : Nat → Nat → Int) (a : WinArgs) (sutehai : Nat → Nat → Int)
    (tile : Nat) (ck : Bool) (rn : Nat → Bool) : ∀ (ps : List Nat) (ds : List (Option AgariDecision)),
    (ronLoopSaid lib player a sutehai tile (tile / 4) ck rn ps (hands, ds)).1 =
      upToMissing (ps.map (ronLine lib player hands a sutehai tile ck rn))
  | [], _ => rfl
  | p :: ps, ds => by
    have h := step_line lib player hands a sutehai tile ck rn p ds
    unfold ronLoopSaid
    rw [List.map_cons]
    cases hr : ronStepSaid lib player a sutehai tile (tile / 4) ck rn p (hands, ds) with
    | mk said r =>
      rw [hr] at h
      cases hl : ronLine lib player hands a sutehai tile ck rn p with
      | none =>
        rw [hl] at h
        obtain ⟨h1, e, h2⟩ := h
        dsimp only at h1 h2
        rw [h1, h2]; rfl
      | some l =>
        rw [hl] at h
        obtain ⟨h1, ds', h2⟩ := h
        dsimp only at h1 h2
        rw [h1, h2]
        show l ++ (ronLoopSaid lib player a sutehai tile (tile / 4) ck rn ps (hands, ds')).1 = _
        rw [loop_lines lib player hands a sutehai tile ck rn ps ds']
        rfl

/-- C169: `verbose` changes neither the decisions nor the hands nor the exceptions. -/
theorem C169_same (lib : Library) (player : Nat) (hands : Nat → Nat → Int) (a : WinArgs) (sutehai : Nat → Nat → Int)
    (tile : Nat) (ck : Bool) (rn : Nat → Bool) (rinshan tenhou chiihou : Bool) :
    (ronSaid lib player hands a sutehai tile ck rn).2 = evaluate_ron lib.estimate player hands a sutehai tile ck rn ∧
      (tsumoSaid lib player hands a tile rinshan tenhou chiihou).2 =
        evaluate_tsumo lib.estimate player hands a tile rinshan tenhou chiihou := by
  constructor
  · unfold ronSaid evaluate_ron
    split
    · exact loop_same ..
    · rfl
  · unfold tsumoSaid evaluate_tsumo
    dsimp only
    split
    · next h => rw [h]
    · next m h =>
      rw [h]
      dsimp only [Library.estimate]
      split <;> next hl => rw [hl]; rfl

/-- C169: with `verbose` there is one line for each other player, in the order of the seats: that the player is furiten
if they have discarded the kind of the tile, and what the library answers otherwise; an exception ends the output. -/
theorem C169_lines (lib : Library) (player : Nat) (hands : Nat → Nat → Int) (a : WinArgs) (sutehai : Nat → Nat → Int)
    {tile : Nat} (ht : tile < 136) (ck : Bool) (rn : Nat → Bool) :
    (ronSaid lib player hands a sutehai tile ck rn).1 =
      upToMissing ([0, 1, 2, 3].map (ronLine lib player hands a sutehai tile ck rn)) := by
  have hk : (tile2idx tile).headD 0 = tile / 4 := by
    unfold tile2idx
    split <;> (try split) <;> (try split) <;> simp_all
  unfold ronSaid
  rw [if_pos ht, hk]
  exact loop_lines ..

/-- what the script asks about the first player: 1 22 33 4 5 6 7 88 of characters, 123 of circles -/
def firstQuestion : Query :=
  { man := [1, 2, 2, 3, 3, 4, 5, 6, 7, 8, 8], pin := [1, 2, 3], sou := [], honors := [], win_tile := 28, melds := [],
    dora_indicators := [50],
    config :=
      { is_tsumo := false, is_riichi := false, is_ippatsu := false, is_rinshan := false, is_chankan := false,
        is_haitei := false, is_houtei := false, is_daburu_riichi := false, is_tenhou := false, is_chiihou := false,
        is_renhou := false, player_wind := 2, round_wind := 0, kyoutaku_number := 1, tsumi_number := 0 } }

/-- what it asks about the second player: seven pairs of characters -/
def secondQuestion : Query := { firstQuestion with man := [2, 2, 3, 3, 5, 5, 6, 6, 7, 7, 8, 8, 9, 9], pin := [] }

theorem first_step (lib : Library) {t : Text} {b : Bool} (h : lib firstQuestion = .ok (t, b)) (ds : List (Option AgariDecision)) :
    ronStepSaid lib 2 exampleArgs exampleSutehai 28 7 false (fun _ => false) 0 (exampleHands, ds) =
      ([t], .ok (exampleHands, if b then ds.set 0 (some ⟨0, false⟩) else ds)) := by
  unfold ronStepSaid
  rw [if_neg (by decide), if_neg (by decide)]
  dsimp only
  rw [set_back]
  have hq : ronQuestion exampleHands exampleArgs 28 false (fun _ => false) 0 [] = firstQuestion := by decide +kernel
  have hw : setAt exampleHands 0 (setAt (exampleHands 0) 7 (exampleHands 0 7 + 1)) 0 = withTile (exampleHands 0) 7 := by
    funext i
    by_cases hi : i = 7
    · subst hi; simp [setAt, withTile]
    · simp [setAt, withTile, hi]
  rw [hw]
  rw [← hq] at h
  unfold ronQuestion at h
  show (match lib _ with | .error e => _ | .ok (text, true) => _ | .ok (text, false) => _) = _
  dsimp only [hand_tensor2strs]
  erw [h]
  cases b <;> rfl

theorem second_step (lib : Library) {t : Text} {b : Bool} (h : lib secondQuestion = .ok (t, b)) (ds : List (Option AgariDecision)) :
    ronStepSaid lib 2 exampleArgs exampleSutehai 28 7 false (fun _ => false) 1 (exampleHands, ds) =
      ([t], .ok (exampleHands, if b then ds.set 1 (some ⟨1, false⟩) else ds)) := by
  unfold ronStepSaid
  rw [if_neg (by decide), if_neg (by decide)]
  dsimp only
  rw [set_back]
  have hq : ronQuestion exampleHands exampleArgs 28 false (fun _ => false) 1 [] = secondQuestion := by decide +kernel
  have hw : setAt exampleHands 1 (setAt (exampleHands 1) 7 (exampleHands 1 7 + 1)) 1 = withTile (exampleHands 1) 7 := by
    funext i
    by_cases hi : i = 7
    · subst hi; simp [setAt, withTile]
    · simp [setAt, withTile, hi]
  rw [hw]
  rw [← hq] at h
  unfold ronQuestion at h
  show (match lib _ with | .error e => _ | .ok (text, true) => _ | .ok (text, false) => _) = _
  dsimp only [hand_tensor2strs]
  erw [h]
  cases b <;> rfl

/-- C169: the script of `agari.py` prints the answers of the library for the first two players, that the last one is
furiten, and the list of decisions, in which a player has an entry exactly if the library reports no error. -/
theorem C169_agari (lib : Library) {t0 t1 : Text} {b0 b1 : Bool} (h0 : lib firstQuestion = .ok (t0, b0))
    (h1 : lib secondQuestion = .ok (t1, b1)) :
    agariScript lib = ([t0, t1, lit "Player 3 is furiten",
      lit "[" ++ (if b0 then lit "AgariDecision: player=0, executed=False" else lit "None") ++ lit ", " ++
        (if b1 then lit "AgariDecision: player=1, executed=False" else lit "None") ++ lit ", None, None]"], .ok ()) := by
  have e : ronSaid lib 2 exampleHands exampleArgs exampleSutehai 28 false (fun _ => false) =
      ([t0, t1, lit "Player 3 is furiten"], .ok (exampleHands,
        [if b0 then some ⟨0, false⟩ else none, if b1 then some ⟨1, false⟩ else none, none, none])) := by
    unfold ronSaid
    rw [if_pos (by decide)]
    show ronLoopSaid lib 2 exampleArgs exampleSutehai 28 7 false (fun _ => false) [0, 1, 2, 3] _ = _
    unfold ronLoopSaid
    rw [first_step lib h0]
    dsimp only
    unfold ronLoopSaid
    rw [second_step lib h1]
    have h2 : ∀ ds, ronStepSaid lib 2 exampleArgs exampleSutehai 28 7 false (fun _ => false) 2 (exampleHands, ds) =
        ([], .ok (exampleHands, ds)) := fun _ => rfl
    have h3 : ∀ ds, ronStepSaid lib 2 exampleArgs exampleSutehai 28 7 false (fun _ => false) 3 (exampleHands, ds) =
        ([lit "Player 3 is furiten"], .ok (exampleHands, ds)) := by
      intro ds
      unfold ronStepSaid
      rw [if_neg (by decide), if_pos (by decide), show lit "Player " ++ decimal 3 ++ lit " is furiten" =
        lit "Player 3 is furiten" by decide +kernel]
    dsimp only
    unfold ronLoopSaid
    rw [h2]
    dsimp only
    unfold ronLoopSaid
    rw [h3]
    cases b0 <;> cases b1 <;> rfl
  unfold agariScript
  rw [e]
  dsimp only
  have hx : ∀ c0 c1 : Bool, list ([if c0 then some ⟨0, false⟩ else none, if c1 then some ⟨1, false⟩ else none, none, none].map
      optDecision) = lit "[" ++ (if c0 then lit "AgariDecision: player=0, executed=False" else lit "None") ++ lit ", " ++
        (if c1 then lit "AgariDecision: player=1, executed=False" else lit "None") ++ lit ", None, None]" := by decide +kernel
  rw [hx b0 b1]
  rfl

/-- C169: the script of `shanten.py` prints that the hand of seven pairs is complete, and the hand as it was; the
recursion does not go deeper than 41 levels. -/
theorem C169_shanten (array : List Int → Text) {fuel : Nat} (hf : 41 < fuel) :
    shantenScript fuel array = some [lit "Shanten: -1", array shantenExample] := by
  have hl : LegalHand shantenExample := legalHand_of (h := shantenExample) (by decide)
  have hd : depth shantenExample 0 < fuel := by
    have : depth shantenExample 0 = 41 := by decide
    omega
  have hv := C92_solve_value (h := shantenExample) hl.toRedHand (by decide) (by decide) (by decide) hd
  have hlow := (C79_complete (h := shantenExample) hl (k := 4) (by decide) (by decide)).2
  unfold shantenScript
  cases hs : (Solver.init shantenExample).solve fuel with
  | none => rw [hs] at hv; cases hv
  | some r =>
    obtain ⟨v, s'⟩ := r
    rw [hs] at hv
    have h1 := (C76_restores hs).1
    have hk : kindsHeld (List.range 34) 2 shantenExample = 7 := by decide
    have ho : kindsHeld orphans 1 shantenExample = 1 := by decide
    have ho2 : kindsHeld orphans 2 shantenExample = 1 := by decide
    rw [hk, ho, ho2, if_neg (by decide)] at hv
    have : v = -1 := by
      have := Option.some.inj hv
      dsimp only at this
      omega
    subst this
    subst h1
    show some [lit "Shanten: " ++ int (-1), array shantenExample] = _
    rw [show lit "Shanten: " ++ int (-1) = lit "Shanten: -1" by decide +kernel]

-- a library that knows the two hands: the first has no yaku, the second is seven pairs of one suit
example : agariScript (fun q => .ok (if q.man.length = 14 then (lit "8 han", true) else (lit "no yaku", false))) =
    ([lit "no yaku", lit "8 han", lit "Player 3 is furiten",
      lit "[None, AgariDecision: player=1, executed=False, None, None]"], .ok ()) := by
  rw [C169_agari _ (t0 := lit "no yaku") (b0 := false) (t1 := lit "8 han") (b1 := true) rfl rfl]
  decide +kernel

end MJ.Printing
