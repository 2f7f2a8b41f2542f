import Verif.Model.Naki
import Verif.Model.Constants
/-!
Token functions of `MahjongAI/process_xml.py` and the bit fields that the
encoders read back.
-/
namespace MJ

/-- `discard2idx` (MahjongAI/process_xml.py:594-602).  No assertion on `who`. -/
def discard2idx (who tile_idx : Nat) (is_tsumogiri : Bool) : Except PyErr Nat :=
  if tile_idx < 37 then
    .ok (EventStateTypes.DISCARD <<< 13 ||| EventTypes.NAKI <<< 10 ||| who <<< 8
      ||| is_tsumogiri.toNat <<< 7 ||| tile_idx)
  else .error .assertion

/-- `a | idx` followed by the final assertion of `naki2idx`
(MahjongAI/process_xml.py:652).  `idx` comes from `get_post_turn_filter_idx`,
which is never negative (proved in `Verif/Proofs/Naki.lean`), so `toNat` loses
nothing. -/
def nakiToken (state who : Nat) (idx : Int) : Except PyErr Nat :=
  let t := state <<< 13 ||| EventTypes.NAKI <<< 10 ||| who <<< 8 ||| idx.toNat
  if t ≤ 1 <<< 17 then .ok t else .error .assertion

/-- `naki2idx` (MahjongAI/process_xml.py:605-653) -/
def naki2idx (who : Nat) (c : Nat) : Except PyErr Nat :=
  if who < 4 then
    if Code.is_chi c then
      match Code.get_post_turn_filter_idx c with
      | .ok i => nakiToken EventStateTypes.POST who i
      | .error e => .error e
    else if Code.is_pon c then
      match Code.get_post_turn_filter_idx c with
      | .ok i => nakiToken EventStateTypes.POST who i
      | .error e => .error e
    else if Code.is_kakan c then
      match Code.get_during_turn_filter_idx c with
      | .ok i => nakiToken EventStateTypes.DURING who i
      | .error e => .error e
    else if Code.is_minkan c then
      match Code.get_post_turn_filter_idx c with
      | .ok i => nakiToken EventStateTypes.POST who i
      | .error e => .error e
    else if Code.is_ankan c then
      match Code.get_during_turn_filter_idx c with
      | .ok i => nakiToken EventStateTypes.DURING who i
      | .error e => .error e
    else .error .value
  else .error .assertion

/-- `reach2idx` (MahjongAI/process_xml.py:656-660) -/
def reach2idx (who : Nat) : Except PyErr Nat :=
  if who < 4 then
    let t := EventStateTypes.DURING <<< 13 ||| EventTypes.RIICHI <<< 10 ||| who <<< 8 ||| 2
    if t ≤ 1 <<< 17 then .ok t else .error .assertion
  else .error .assertion

/-- `new_dora2idx` (MahjongAI/process_xml.py:663-667) -/
def new_dora2idx (tile_idx : Nat) : Except PyErr Nat :=
  if tile_idx < 37 then
    let t := EventStateTypes.NEW_DORA <<< 13 ||| EventTypes.NEW_DORA <<< 10 ||| tile_idx
    if t ≤ 1 <<< 17 then .ok t else .error .assertion
  else .error .assertion

end MJ
