import Verif.Model.Constants
import Verif.Model.Py
/-!
The event embedding at the start of `Encoder.forward`:
`MahjongAI/agents/transformer.py:177-264` (identical text in
`transformer_conv.py` and `transformer_conv_large.py`) and
`MahjongAI/agents/transformer_conv_ordered.py:183-270`.

One position of one batch row is modelled.  Simplifications: vectors are values of an
arbitrary type with a zero and an addition; multiplying by a 0/1 mask is a choice
between the vector and zero (exact for finite floats); the trainable tables are
arbitrary functions; transformer blocks are not modelled.
-/
namespace MJ

/-- The six bit fields read from a token, `MahjongAI/agents/transformer.py:188-193` and
`transformer_conv_ordered.py:193-198`. -/
structure TokenFields where
  event_type : Nat
  embedding_type : Nat
  player_idx : Nat
  tile_encoding : Nat
  tsumogiri : Nat
  naki_idx : Nat
  deriving DecidableEq, Repr

/-- `MahjongAI/agents/transformer.py:186-193`: the tokens are cast to `int64`, `>>` is the
arithmetic shift. -/
def tokenFields (t : BitVec 64) : TokenFields :=
  { event_type := ((t.sshiftRight 13) &&& 7#64).toNat
    embedding_type := ((t.sshiftRight 10) &&& 7#64).toNat
    player_idx := ((t.sshiftRight 8) &&& 3#64).toNat
    tile_encoding := (t &&& 0x7F#64).toNat
    tsumogiri := ((t.sshiftRight 7) &&& 1#64).toNat
    naki_idx := (t &&& 0xFF#64).toNat }

/-- Action space sizes, `MahjongAI/agents/transformer.py` and
`transformer_conv_ordered.py:22-25`. -/
def duringTurnActionDim : Nat := 71
@[inherit_doc duringTurnActionDim] def postTurnActionDim : Nat := 154
@[inherit_doc duringTurnActionDim] def maxActionLen : Nat := 150

/-- The embedding tables (`MahjongAI/agents/transformer.py:108-125`,
`transformer_conv_ordered.py:142-162`). -/
structure Tables (V : Type) where
  empty : V
  type : Nat → V
  tile : Nat → V
  tsumogiri : Nat → V
  during_naki : Nat → V
  post_naki : Nat → V
  position : Nat → V
  player : Nat → V

/-- Table access with a bound check. -/
def lookup {V : Type} (size : Nat) (tbl : Nat → V) (i : Nat) : Except PyErr V :=
  if i < size then .ok (tbl i) else .error .index

/-- `emb * mask.unsqueeze(-1).float()` -/
def masked {V : Type} [Zero V] (m : Bool) (v : V) : V := if m then v else 0

section
variable {V : Type} [Zero V] [Add V]

/-- `Encoder.forward` before the blocks, `MahjongAI/agents/transformer.py:195-264`.  The
masks are as written there (most of them are inverted with respect to the comments). -/
def embedBasic (T : Tables V) (pos : Nat) (t : BitVec 64) : Except PyErr V := do
  let f := tokenFields t
  -- torch.clamp(embedding_type - 1, min=0)
  let type_emb ← lookup 4 T.type (f.embedding_type - 1)
  let type_emb := masked (f.event_type == EventStateTypes.EMPTY) type_emb
  let tile_emb ← lookup 37 T.tile (min f.tile_encoding 36)
  let tile_emb := masked (f.event_type != EventStateTypes.DISCARD && f.event_type != EventStateTypes.NEW_DORA) tile_emb
  let player_emb ← lookup 4 T.player f.player_idx
  let player_emb := masked (f.event_type != EventStateTypes.DISCARD && f.event_type != EventStateTypes.DURING
    && f.event_type != EventStateTypes.POST) player_emb
  let tsumogiri_emb ← lookup 1 T.tsumogiri 0
  let tsumogiri_emb := masked (f.event_type != EventStateTypes.DISCARD || f.tsumogiri == 0) tsumogiri_emb
  let pos_emb ← lookup maxActionLen T.position pos
  let pos_emb := masked (f.event_type != EventStateTypes.EMPTY) pos_emb
  let during_naki_emb ← lookup duringTurnActionDim T.during_naki (min f.naki_idx (duringTurnActionDim - 1))
  let during_naki_emb := masked (f.event_type != EventStateTypes.DURING || decide (f.naki_idx < 3)) during_naki_emb
  let post_naki_emb ← lookup postTurnActionDim T.post_naki (min f.naki_idx (postTurnActionDim - 1))
  let post_naki_emb := masked (f.event_type != EventStateTypes.POST || decide (f.naki_idx < 2)) post_naki_emb
  return T.empty + type_emb + tile_emb + player_emb + tsumogiri_emb + pos_emb + during_naki_emb + post_naki_emb

/-- `Encoder.forward` before the blocks, `MahjongAI/agents/transformer_conv_ordered.py:200-270`.
`player` is the viewing player; `%` on torch integers is floor modulo. -/
def embedOrdered (T : Tables V) (player : Int) (pos : Nat) (t : BitVec 64) : Except PyErr V := do
  let f := tokenFields t
  let type_emb ← lookup 4 T.type (f.embedding_type - 1)
  let type_emb := masked (f.event_type != EventStateTypes.EMPTY) type_emb
  let tile_emb ← lookup 37 T.tile (min f.tile_encoding 36)
  let tile_emb := masked (f.event_type == EventStateTypes.DISCARD || f.event_type == EventStateTypes.NEW_DORA) tile_emb
  let player_idx := (((f.player_idx : Int) - player) % 4).toNat
  let player_emb ← lookup 4 T.player player_idx
  let player_emb := masked (f.event_type == EventStateTypes.DISCARD || f.event_type == EventStateTypes.DURING
    || f.event_type == EventStateTypes.POST) player_emb
  let tsumogiri_emb ← lookup 2 T.tsumogiri f.tsumogiri
  let tsumogiri_emb := masked (f.event_type == EventStateTypes.DISCARD && f.tsumogiri != 0) tsumogiri_emb
  let pos_emb ← lookup maxActionLen T.position pos
  let pos_emb := masked (f.event_type != EventStateTypes.EMPTY) pos_emb
  let during_naki_emb ← lookup duringTurnActionDim T.during_naki (min f.naki_idx (duringTurnActionDim - 1))
  let during_naki_emb := masked (f.event_type == EventStateTypes.DURING && decide (3 ≤ f.naki_idx)) during_naki_emb
  let post_naki_emb ← lookup postTurnActionDim T.post_naki (min f.naki_idx (postTurnActionDim - 1))
  let post_naki_emb := masked (f.event_type == EventStateTypes.POST && decide (2 ≤ f.naki_idx)) post_naki_emb
  return T.empty + type_emb + tile_emb + player_emb + tsumogiri_emb + pos_emb + during_naki_emb + post_naki_emb

end
end MJ
