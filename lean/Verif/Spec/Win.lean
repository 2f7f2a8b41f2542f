import Verif.Model.Agari
import Verif.Spec.MeldObs
/-!
What the hand evaluator must be asked.
-/
namespace MJ.Spec

/-- the digit string of one suit: digit `d` (1..n) as often as slot `base + d - 1` counts, no
other digits, in order -/
def SuitDigits (ds : List Nat) (h : Nat → Int) (base n : Nat) : Prop :=
  ds.Pairwise (· ≤ ·) ∧
  ∀ d, ds.count d = if 1 ≤ d ∧ d ≤ n then (h (base + (d - 1))).toNat else 0

/-- the four strings of the hand `h` -/
def HandStrings (man pin sou honors : List Nat) (h : Nat → Int) : Prop :=
  SuitDigits man h 0 9 ∧ SuitDigits pin h 9 9 ∧ SuitDigits sou h 18 9 ∧ SuitDigits honors h 27 7

/-- The meld argument describes the meld with code `c`: same kinds as the tiles of the meld in
increasing order, all different tiles, red five iff the meld has it, kind of meld and openness. -/
def Describes (c : Nat) (m : MeldArg) : Prop :=
  m.tiles.Pairwise (· < ·) ∧ (∀ t ∈ m.tiles, t < 136) ∧
  ∃ ex acq ty, Code.get_exposed c = .ok (ex, acq) ∧ meldType c = some ty ∧
    m.opened = (ty != .ankan) ∧
    match ty with
    | .chi => m.kind = .chi ∧ (m.tiles.map (· / 4)).Perm ((ex ++ acq.toList).map (· / 4)) ∧
        m.tiles.any isRedB = (ex ++ acq.toList).any isRedB
    | .pon => m.kind = .pon ∧ (m.tiles.map (· / 4)).Perm ((ex ++ acq.toList).map (· / 4)) ∧
        m.tiles.any isRedB = (ex ++ acq.toList).any isRedB
    | .kakan => m.kind = .shouminkan ∧ m.tiles.map (· / 4) = List.replicate 4 ((ex.headD 0) / 4)
    | .minkan => m.kind = .kan ∧ m.tiles.Perm (ex ++ acq.toList)
    | .ankan => m.kind = .kan ∧ m.tiles.Perm ex

/-- the question asked about a ron by `p` on `tile` (kind `idx`) -/
def RonQuery (q : Query) (h : Nat → Int) (a : WinArgs) (p tile idx : Nat) (chankan renhou : Bool) : Prop :=
  HandStrings q.man q.pin q.sou q.honors (fun k => if k = idx then h k + 1 else h k) ∧
  q.win_tile = tile ∧ q.dora_indicators = a.doras ∧
  q.melds.map Except.ok = (a.naki_list p).map nakiToMeld ∧
  q.config =
    { is_tsumo := false, is_riichi := a.reaches p != 0, is_ippatsu := a.ippatsu p != 0, is_rinshan := false,
      is_chankan := chankan, is_haitei := a.is_haitei, is_houtei := false,
      is_daburu_riichi := a.double_reaches p != 0, is_tenhou := false, is_chiihou := false, is_renhou := renhou,
      player_wind := a.player_wind, round_wind := a.round_wind, kyoutaku_number := a.kyotaku, tsumi_number := a.honba }

/-- the question asked about a self-drawn win -/
def TsumoQuery (q : Query) (h : Nat → Int) (a : WinArgs) (p tile : Nat) (rinshan tenhou chiihou : Bool) : Prop :=
  HandStrings q.man q.pin q.sou q.honors h ∧
  q.win_tile = tile ∧ q.dora_indicators = a.doras ∧
  q.melds.map Except.ok = (a.naki_list p).map nakiToMeld ∧
  q.config =
    { is_tsumo := true, is_riichi := a.reaches p != 0, is_ippatsu := a.ippatsu p != 0, is_rinshan := rinshan,
      is_chankan := false, is_haitei := a.is_haitei, is_houtei := false,
      is_daburu_riichi := a.double_reaches p != 0, is_tenhou := tenhou, is_chiihou := chiihou, is_renhou := false,
      player_wind := a.player_wind, round_wind := a.round_wind, kyoutaku_number := a.kyotaku, tsumi_number := a.honba }

end MJ.Spec
