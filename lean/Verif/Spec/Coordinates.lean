import Verif.Model.Network
import Verif.Props.TableRows
/-!
The single numbers that make up the parameters of a model, and how one of them is changed.
-/
namespace MJ
open Spec Net

namespace Spec

/-- a number of an `nn.Linear` -/
inductive LinCoord (m n : ℕ) where
  | weight (o : Fin n) (i : Fin m)
  | bias (o : Fin n)

/-- a number of an `nn.LayerNorm` -/
inductive NormCoord (n : ℕ) where
  | weight (i : Fin n)
  | bias (i : Fin n)

/-- a number of an attention head -/
inductive HeadCoord where
  | key (c : LinCoord embdSize headSize)
  | query (c : LinCoord embdSize headSize)
  | value (c : LinCoord embdSize headSize)

/-- a number of an attention layer -/
inductive AttnCoord where
  | head (n : Fin nHeads) (c : HeadCoord)
  | proj (c : LinCoord (nHeads * headSize) embdSize)

/-- a number of a feed-forward layer -/
inductive FeedCoord where
  | l1 (c : LinCoord embdSize (4 * embdSize))
  | l2 (c : LinCoord (4 * embdSize) embdSize)

/-- a number of an encoder block -/
inductive EncCoord where
  | attn (c : AttnCoord)
  | feed (c : FeedCoord)
  | ln1 (c : NormCoord embdSize)
  | ln2 (c : NormCoord embdSize)

/-- a number of a decoder block -/
inductive DecCoord where
  | self (c : AttnCoord)
  | cross (c : AttnCoord)
  | feed (c : FeedCoord)
  | ln1 (c : NormCoord embdSize)
  | ln2 (c : NormCoord embdSize)
  | ln3 (c : NormCoord embdSize)

/-- a number of a convolution -/
inductive Conv1Coord (c o : ℕ) where
  | weight (m : Fin o) (i : Fin c) (k : Fin 3)
  | bias (m : Fin o)
@[inherit_doc Conv1Coord] inductive Conv2Coord (c o : ℕ) where
  | weight (m : Fin o) (i : Fin c) (k l : Fin 3)
  | bias (m : Fin o)

/-- a number of the layers of `StateNet` after the convolutions -/
inductive TailCoord (n : ℕ) where
  | fc_x1 (c : LinCoord n 64)
  | main1 (c : LinCoord (64 + 7 * 4 + 4) embdSize)
  | main2 (c : LinCoord embdSize embdSize)

/-- a number of `StateNet` -/
inductive State1Coord where
  | conv1 (c : Conv1Coord 3 8)
  | conv2 (c : Conv1Coord 8 16)
  | tail (c : TailCoord (16 * 37 + 3 * 37))
@[inherit_doc State1Coord] inductive State2Coord (c o : ℕ) where
  | conv1 (d : Conv2Coord c 8)
  | conv2 (d : Conv2Coord 8 o)
  | tail (d : TailCoord (o * (37 * 4) + c * (37 * 4)))
@[inherit_doc State1Coord] abbrev StateCoord : Variant → Type
  | .basic => State1Coord
  | .conv => State2Coord 3 8
  | .ordered => State2Coord 6 16

/-- a number of a model: an entry of a table, of the encoder block `k`, … -/
inductive Coord (v : Variant) where
  | table (name : TableName) (i : ℕ) (j : Fin embdSize)
  | enc (k : ℕ) (c : EncCoord)
  | state (c : StateCoord v)
  | dec (k : ℕ) (c : DecCoord)
  | ln_f (c : NormCoord embdSize)
  | head (h : HeadName) (c : LinCoord embdSize (actionDim h))

end Spec

namespace Net

def Linear.set {m n : ℕ} (l : Linear m n) (r : ℝ) : LinCoord m n → Linear m n
  | .weight o i => { l with weight := fun o' i' => if o' = o ∧ i' = i then r else l.weight o' i' }
  | .bias o => { l with bias := fun o' => if o' = o then r else l.bias o' }

def LayerNorm.set {n : ℕ} (l : LayerNorm n) (r : ℝ) : NormCoord n → LayerNorm n
  | .weight i => { l with weight := fun i' => if i' = i then r else l.weight i' }
  | .bias i => { l with bias := fun i' => if i' = i then r else l.bias i' }

def Head.set (h : Head) (r : ℝ) : HeadCoord → Head
  | .key c => { h with key := h.key.set r c }
  | .query c => { h with query := h.query.set r c }
  | .value c => { h with value := h.value.set r c }

def MultiHeadAttention.set (a : MultiHeadAttention) (r : ℝ) : AttnCoord → MultiHeadAttention
  | .head n c => { a with heads := fun n' => if n' = n then (a.heads n).set r c else a.heads n' }
  | .proj c => { a with proj := a.proj.set r c }

def FeedForward.set (f : FeedForward) (r : ℝ) : FeedCoord → FeedForward
  | .l1 c => { f with l1 := f.l1.set r c }
  | .l2 c => { f with l2 := f.l2.set r c }

def EncoderBlock.set (e : EncoderBlock) (r : ℝ) : EncCoord → EncoderBlock
  | .attn c => { e with self_attention := e.self_attention.set r c }
  | .feed c => { e with ffwd := e.ffwd.set r c }
  | .ln1 c => { e with ln1 := e.ln1.set r c }
  | .ln2 c => { e with ln2 := e.ln2.set r c }

def DecoderBlock.set (d : DecoderBlock) (r : ℝ) : DecCoord → DecoderBlock
  | .self c => { d with self_attention := d.self_attention.set r c }
  | .cross c => { d with cross_attention := d.cross_attention.set r c }
  | .feed c => { d with ffwd := d.ffwd.set r c }
  | .ln1 c => { d with ln1 := d.ln1.set r c }
  | .ln2 c => { d with ln2 := d.ln2.set r c }
  | .ln3 c => { d with ln3 := d.ln3.set r c }

def Conv1d.set {c o : ℕ} (f : Conv1d c o) (r : ℝ) : Conv1Coord c o → Conv1d c o
  | .weight m i k => { f with weight := fun m' i' k' => if m' = m ∧ i' = i ∧ k' = k then r else f.weight m' i' k' }
  | .bias m => { f with bias := fun m' => if m' = m then r else f.bias m' }

def Conv2d.set {c o : ℕ} (f : Conv2d c o) (r : ℝ) : Conv2Coord c o → Conv2d c o
  | .weight m i k l =>
    { f with weight := fun m' i' k' l' => if m' = m ∧ i' = i ∧ k' = k ∧ l' = l then r else f.weight m' i' k' l' }
  | .bias m => { f with bias := fun m' => if m' = m then r else f.bias m' }

def StateTail.set {n : ℕ} (s : StateTail n) (r : ℝ) : TailCoord n → StateTail n
  | .fc_x1 c => { s with fc_x1 := s.fc_x1.set r c }
  | .main1 c => { s with fc_main_1 := s.fc_main_1.set r c }
  | .main2 c => { s with fc_main_2 := s.fc_main_2.set r c }

def StateNet1.set (s : StateNet1) (r : ℝ) : State1Coord → StateNet1
  | .conv1 c => { s with conv1 := s.conv1.set r c }
  | .conv2 c => { s with conv2 := s.conv2.set r c }
  | .tail c => { s with tail := s.tail.set r c }

def StateNet2.set {c o : ℕ} (s : StateNet2 c o) (r : ℝ) : State2Coord c o → StateNet2 c o
  | .conv1 d => { s with conv1 := s.conv1.set r d }
  | .conv2 d => { s with conv2 := s.conv2.set r d }
  | .tail d => { s with tail := s.tail.set r d }

def setState : (v : Variant) → StateNet v → ℝ → StateCoord v → StateNet v
  | .basic, s, r, c => StateNet1.set s r c
  | .conv, s, r, c => StateNet2.set s r c
  | .ordered, s, r, c => StateNet2.set s r c

end Net

/-- change of one entry of a row -/
def setRow (f : ℕ → Fin embdSize → ℝ) (i : ℕ) (j : Fin embdSize) (r : ℝ) : ℕ → Fin embdSize → ℝ :=
  fun i' j' => if i' = i ∧ j' = j then r else f i' j'

def Tables.set (T : Tables (Fin embdSize → ℝ)) (r : ℝ) (i : ℕ) (j : Fin embdSize) : TableName → Tables (Fin embdSize → ℝ)
  | .type => { T with type := setRow T.type i j r }
  | .tile => { T with tile := setRow T.tile i j r }
  | .tsumogiri => { T with tsumogiri := setRow T.tsumogiri i j r }
  | .during => { T with during_naki := setRow T.during_naki i j r }
  | .post => { T with post_naki := setRow T.post_naki i j r }
  | .position => { T with position := setRow T.position i j r }
  | .player => { T with player := setRow T.player i j r }

/-- the model with the number `c` changed to `r` -/
def Net.Params.set {v : Variant} (p : Params v) (r : ℝ) : Coord v → Params v
  | .table name i j => { p with tables := p.tables.set r i j name }
  | .enc k c => { p with encoder := p.encoder.modify k (fun e => e.set r c) }
  | .state c => { p with state_net := setState v p.state_net r c }
  | .dec k c => { p with decoder := p.decoder.modify k (fun d => d.set r c) }
  | .ln_f c => { p with ln_f := p.ln_f.set r c }
  | .head h c => { p with heads := fun h' => if e : h' = h then e ▸ (p.heads h).set r c else p.heads h' }

namespace Spec

/-- the number is a parameter of a model with the given numbers of blocks; the tables of positions and players are fixed -/
def Coord.Exists {v : Variant} (nEnc nDec : ℕ) : Coord v → Prop
  | .table name i _ => i < tableSize v name ∧ name ≠ .position ∧ name ≠ .player
  | .enc k _ => k < nEnc
  | .dec k _ => k < nDec
  | _ => True

def AttnCoord.keyBias : AttnCoord → Prop
  | .head _ (.key (.bias _)) => True
  | _ => False

def AttnCoord.keyOrQuery : AttnCoord → Prop
  | .head _ (.key _) => True
  | .head _ (.query _) => True
  | _ => False

/-- the numbers without influence: the biases of all keys, in the ordered model the keys and queries of the first attention
layers of the decoder, and the dead rows of the tables -/
def Coord.Dead {v : Variant} : Coord v → Prop
  | .table name i _ => i ∈ deadRows v name
  | .enc _ (.attn c) => c.keyBias
  | .dec _ (.self c) => c.keyBias ∨ (v = .ordered ∧ c.keyOrQuery)
  | .dec _ (.cross c) => c.keyBias
  | _ => False

/-- the tables that are not trained (MahjongAI/agents/transformer.py:110-112, 119-122) -/
def FixedTables (T : Tables (Fin embdSize → ℝ)) : Prop :=
  T.empty = 0 ∧ (∀ i j, T.position i j = positionTable embdSize i j) ∧ ∀ i j, T.player i j = playerTable embdSize i j

/-- there are a model and a batch of one sample, with tokens that occur in samples, for which changing the number changes
the logits -/
def HasInfluence (gelu : ℝ → ℝ) {v : Variant} (nEnc nDec : ℕ) (c : Coord v) : Prop :=
  ∃ (p : Params v) (h : HeadName) (X : Input v h 1) (r : ℝ) (o o' : Output h 1),
    p.encoder.length = nEnc ∧ p.decoder.length = nDec ∧ FixedTables p.tables ∧
    (∀ b t, ∃ n, LogToken n ∧ X.tokens b t = BitVec.ofNat 64 n) ∧
    run gelu p X = .ok o ∧ run gelu (p.set r c) X = .ok o' ∧ o.logits ≠ o'.logits

end Spec
end MJ
