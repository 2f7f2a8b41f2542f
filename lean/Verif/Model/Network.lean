import Verif.Model.Schedule
import Verif.Model.Embedding
import Verif.Model.Tensors
import Mathlib.Algebra.BigOperators.Fin
import Mathlib.Data.Fin.Tuple.Basic
import Mathlib.Analysis.SpecialFunctions.Pow.NNReal
/-!
The networks: MahjongAI/agents/transformer.py:34-523, transformer_conv.py, transformer_conv_large.py
(same as transformer_conv.py with any number of blocks) and transformer_conv_ordered.py:33-527.

* Numbers are real numbers (floating point rounding is not modelled); a tensor is a function of its indices, the
  first of which is the batch index.  Operations are written as in the code: `bmm`, `transpose`, `softmax` over the last
  index, `cat`, `view`.
* Evaluation mode: the dropout layers do nothing (`model.eval()`, MahjongAI/supervised_learning.py:192).
* GELU is an arbitrary function `gelu`.
* The parameters are arbitrary; any number of blocks; `embdSize`, `nHeads` as in the code.
-/
namespace MJ.Net
open scoped BigOperators

/-- `EMBD_SIZE`, `N_HEADS` (MahjongAI/agents/transformer.py:27-28), `EMBD_SIZE // num_heads` (l.343) -/
abbrev embdSize : ℕ := 64
@[inherit_doc embdSize] abbrev nHeads : ℕ := 8
@[inherit_doc embdSize] abbrev headSize : ℕ := 8

/-- tensors with two and with three indices -/
abbrev T2 (a b : ℕ) := Fin a → Fin b → ℝ
@[inherit_doc T2] abbrev T3 (a b c : ℕ) := Fin a → Fin b → Fin c → ℝ
@[inherit_doc T2] abbrev T4 (a b c d : ℕ) := Fin a → Fin b → Fin c → Fin d → ℝ

/-- `nn.Linear` -/
structure Linear (m n : ℕ) where
  weight : Fin n → Fin m → ℝ
  bias : Fin n → ℝ

/-- `nn.Linear` on the last index -/
noncomputable def Linear.fwd {m n : ℕ} (l : Linear m n) (x : Fin m → ℝ) : Fin n → ℝ :=
  fun o => ∑ i, l.weight o i * x i + l.bias o

/-- `nn.LayerNorm` -/
structure LayerNorm (n : ℕ) where
  weight : Fin n → ℝ
  bias : Fin n → ℝ

/-- the mean and the (biased) variance of a vector -/
noncomputable def mean {n : ℕ} (x : Fin n → ℝ) : ℝ := (∑ i, x i) / n
@[inherit_doc mean] noncomputable def variance {n : ℕ} (x : Fin n → ℝ) : ℝ := (∑ i, (x i - mean x) ^ 2) / n

/-- `nn.LayerNorm` on the last index, with the default `eps = 1e-5` -/
noncomputable def LayerNorm.fwd {n : ℕ} (l : LayerNorm n) (x : Fin n → ℝ) : Fin n → ℝ :=
  fun i => (x i - mean x) / Real.sqrt (variance x + 1 / 100000) * l.weight i + l.bias i

/-- `torch.bmm` -/
noncomputable def bmm {a b c d : ℕ} (x : T3 a b c) (y : T3 a c d) : T3 a b d := fun n i j => ∑ k, x n i k * y n k j

/-- `k.transpose(1, 2)` -/
def transpose12 {a b c : ℕ} (x : T3 a b c) : T3 a c b := fun n i j => x n j i

/-- `F.softmax(wei, dim=-1)` -/
noncomputable def softmaxLast {a b c : ℕ} (x : T3 a b c) : T3 a b c := fun n i => softmax (x n i)

/-- `Head` (MahjongAI/agents/transformer.py:479-485) -/
structure Head where
  key : Linear embdSize headSize
  query : Linear embdSize headSize
  value : Linear embdSize headSize

/-- the attention weights of a head (MahjongAI/agents/transformer.py:498-507) -/
noncomputable def Head.wei {B T Q : ℕ} (h : Head) (k : T3 B T embdSize) (q : T3 B Q embdSize) : T3 B Q T :=
  let k := fun b t => h.key.fwd (k b t)
  let q := fun b t => h.query.fwd (q b t)
  let k_transposed := transpose12 k
  let wei := bmm q k_transposed
  let wei := fun b i j => wei b i j / Real.sqrt headSize
  softmaxLast wei

/-- `Head.forward` (MahjongAI/agents/transformer.py:487-513) -/
noncomputable def Head.fwd {B T Q : ℕ} (h : Head) (k v : T3 B T embdSize) (q : T3 B Q embdSize) : T3 B Q headSize :=
  bmm (h.wei k q) (fun b t => h.value.fwd (v b t))

/-- `MultiHeadAttention` (MahjongAI/agents/transformer.py:462-467) -/
structure MultiHeadAttention where
  heads : Fin nHeads → Head
  proj : Linear (nHeads * headSize) embdSize

/-- `MultiHeadAttention.forward` (MahjongAI/agents/transformer.py:469-474): the outputs of the heads one after the
other, then `proj` -/
noncomputable def MultiHeadAttention.fwd {B T Q : ℕ} (m : MultiHeadAttention) (k v : T3 B T embdSize)
    (q : T3 B Q embdSize) : T3 B Q embdSize :=
  fun b i => m.proj.fwd (fun j => (m.heads j.divNat).fwd k v q b i j.modNat)

/-- `FeedForward` (MahjongAI/agents/transformer.py:515-527) -/
structure FeedForward where
  l1 : Linear embdSize (4 * embdSize)
  l2 : Linear (4 * embdSize) embdSize

/-- `FeedForward.forward` (MahjongAI/agents/transformer.py:520-527) -/
noncomputable def FeedForward.fwd (gelu : ℝ → ℝ) (f : FeedForward) (x : Fin embdSize → ℝ) : Fin embdSize → ℝ :=
  f.l2.fwd (fun i => gelu (f.l1.fwd x i))

/-- `EncoderBlock` (MahjongAI/agents/transformer.py:340-347) -/
structure EncoderBlock where
  self_attention : MultiHeadAttention
  ffwd : FeedForward
  ln1 : LayerNorm embdSize
  ln2 : LayerNorm embdSize

/-- `EncoderBlock.forward` (MahjongAI/agents/transformer.py:349-353, transformer_conv_ordered.py:288-291) -/
noncomputable def EncoderBlock.fwd {B T : ℕ} (gelu : ℝ → ℝ) (e : EncoderBlock) (x : T3 B T embdSize) :
    T3 B T embdSize :=
  let n := fun b t => e.ln1.fwd (x b t)
  let a := e.self_attention.fwd n n n
  let x := fun b t i => x b t i + a b t i
  fun b t i => x b t i + e.ffwd.fwd gelu (e.ln2.fwd (x b t)) i

/-- `DecoderBlock` (MahjongAI/agents/transformer.py:356-365, transformer_conv_ordered.py:363-371) -/
structure DecoderBlock where
  self_attention : MultiHeadAttention
  cross_attention : MultiHeadAttention
  ffwd : FeedForward
  ln1 : LayerNorm embdSize
  ln2 : LayerNorm embdSize
  ln3 : LayerNorm embdSize

/-- `x.unsqueeze(1)`, `x.squeeze(1)` -/
def unsqueeze1 {a b : ℕ} (x : T2 a b) : T3 a 1 b := fun n _ => x n
@[inherit_doc unsqueeze1] def squeeze1 {a b : ℕ} (x : T3 a 1 b) : T2 a b := fun n => x n 0

/-- `DecoderBlock.forward` of the basic and the convolutional models (MahjongAI/agents/transformer.py:367-386): the
layer called `self_attention` gets the encoder output as keys and values -/
noncomputable def DecoderBlock.fwdBasic {B T : ℕ} (gelu : ℝ → ℝ) (d : DecoderBlock) (x : T2 B embdSize)
    (enc_out : T3 B T embdSize) : T2 B embdSize :=
  let x_norm := unsqueeze1 (fun b => d.ln1.fwd (x b))
  let self_attn := squeeze1 (d.self_attention.fwd enc_out enc_out x_norm)
  let x := fun b i => x b i + self_attn b i
  let x_norm := unsqueeze1 (fun b => d.ln2.fwd (x b))
  let cross_attn := squeeze1 (d.cross_attention.fwd enc_out enc_out x_norm)
  let x := fun b i => x b i + cross_attn b i
  fun b i => x b i + d.ffwd.fwd gelu (d.ln3.fwd (x b)) i

/-- `DecoderBlock.forward` of the ordered model (MahjongAI/agents/transformer_conv_ordered.py:373-385) -/
noncomputable def DecoderBlock.fwdOrdered {B Q T : ℕ} (gelu : ℝ → ℝ) (d : DecoderBlock) (x : T3 B Q embdSize)
    (enc_out : T3 B T embdSize) : T3 B Q embdSize :=
  let n := fun b t => d.ln1.fwd (x b t)
  let self_attn := d.self_attention.fwd n n n
  let x := fun b t i => x b t i + self_attn b t i
  let cross_attn := d.cross_attention.fwd enc_out enc_out (fun b t => d.ln2.fwd (x b t))
  let x := fun b t i => x b t i + cross_attn b t i
  fun b t i => x b t i + d.ffwd.fwd gelu (d.ln3.fwd (x b t)) i

/-- `nn.ReLU` -/
noncomputable def relu (x : ℝ) : ℝ := max x 0

/-- entry `p + k - 1`, and zero outside: reading with `padding=1` -/
noncomputable def pad1 {n : ℕ} (x : Fin n → ℝ) (p : Fin n) (k : Fin 3) : ℝ :=
  if h : 1 ≤ p.val + k.val ∧ p.val + k.val - 1 < n then x ⟨p.val + k.val - 1, h.2⟩ else 0

/-- `nn.Conv1d(c, o, kernel_size=3, padding=1)` -/
structure Conv1d (c o : ℕ) where
  weight : Fin o → Fin c → Fin 3 → ℝ
  bias : Fin o → ℝ

@[inherit_doc Conv1d]
noncomputable def Conv1d.fwd {c o n : ℕ} (f : Conv1d c o) (x : T2 c n) : T2 o n :=
  fun m p => ∑ i, ∑ k, f.weight m i k * pad1 (x i) p k + f.bias m

/-- `nn.Conv2d(c, o, kernel_size=(3, 3), padding=(1, 1))` -/
structure Conv2d (c o : ℕ) where
  weight : Fin o → Fin c → Fin 3 → Fin 3 → ℝ
  bias : Fin o → ℝ

@[inherit_doc Conv2d]
noncomputable def Conv2d.fwd {c o n w : ℕ} (f : Conv2d c o) (x : T3 c n w) : T3 o n w :=
  fun m p r => ∑ i, ∑ k, ∑ l, f.weight m i k l * pad1 (fun p' => pad1 (x i p') r l) p k + f.bias m

/-- `x.view(B, -1)`: rows one after the other -/
def flatten {a b : ℕ} (x : T2 a b) : Fin (a * b) → ℝ := fun j => x j.divNat j.modNat

/-- `torch.cat([x, y], dim=1)` -/
def cat {a b : ℕ} (x : Fin a → ℝ) (y : Fin b → ℝ) : Fin (a + b) → ℝ := Fin.append x y

/-- the common part of `StateNet` (MahjongAI/agents/transformer.py:404-411): layers after the convolutions -/
structure StateTail (n : ℕ) where
  fc_x1 : Linear n 64
  fc_main_1 : Linear (64 + 7 * 4 + 4) embdSize
  fc_main_2 : Linear embdSize embdSize

/-- `StateNet.forward` after `x1_combined` (MahjongAI/agents/transformer.py:435-457) -/
noncomputable def StateTail.fwd {n : ℕ} (s : StateTail n) (x1_combined : Fin n → ℝ) (x2 : T2 7 4) (x3 : Fin 4 → ℝ) :
    Fin embdSize → ℝ :=
  let x1_processed := fun i => relu (s.fc_x1.fwd x1_combined i)
  let combined := cat (cat x1_processed (flatten x2)) x3
  let x := fun i => relu (s.fc_main_1.fwd combined i)
  fun i => relu (s.fc_main_2.fwd x i)

/-- number of channels of `x1` and number of values per slot -/
abbrev chan : Variant → ℕ
  | .ordered => 6
  | _ => 3
@[inherit_doc chan] abbrev width : Variant → ℕ
  | .basic => 1
  | _ => 4

/-- `StateNet` of transformer.py:388-411 -/
structure StateNet1 where
  conv1 : Conv1d 3 8
  conv2 : Conv1d 8 16
  tail : StateTail (16 * 37 + 3 * 37)

/-- `StateNet` of transformer_conv.py:388-417 (`c = 3`, `o = 8`) and transformer_conv_ordered.py:388-419
(`c = 6`, `o = 16`) -/
structure StateNet2 (c o : ℕ) where
  conv1 : Conv2d c 8
  conv2 : Conv2d 8 o
  tail : StateTail (o * (37 * 4) + c * (37 * 4))

/-- `StateNet.forward` (MahjongAI/agents/transformer.py:413-459), for one sample.  The convolutions and `view`
treat every batch index separately. -/
noncomputable def StateNet1.fwd (s : StateNet1) (x1 : T2 3 37) (x2 : T2 7 4) (x3 : Fin 4 → ℝ) : Fin embdSize → ℝ :=
  let conv_x1 := fun m p => relu (s.conv1.fwd x1 m p)
  let conv_x1 := fun m p => relu (s.conv2.fwd conv_x1 m p)
  s.tail.fwd (cat (flatten conv_x1) (flatten x1)) x2 x3

/-- `StateNet.forward` (MahjongAI/agents/transformer_conv.py:419-464, transformer_conv_ordered.py:421-467) -/
noncomputable def StateNet2.fwd {c o : ℕ} (s : StateNet2 c o) (x1 : T3 c 37 4) (x2 : T2 7 4) (x3 : Fin 4 → ℝ) :
    Fin embdSize → ℝ :=
  let conv_x1 := fun m p r => relu (s.conv1.fwd x1 m p r)
  let conv_x1 := fun m p r => relu (s.conv2.fwd conv_x1 m p r)
  s.tail.fwd (cat (flatten (fun m => flatten (conv_x1 m))) (flatten (fun m => flatten (x1 m)))) x2 x3

/-- the parameters of `StateNet` -/
abbrev StateNet : Variant → Type
  | .basic => StateNet1
  | .conv => StateNet2 3 8
  | .ordered => StateNet2 6 16

@[inherit_doc StateNet1.fwd]
noncomputable def stateNet : (v : Variant) → StateNet v → T3 (chan v) 37 (width v) → T2 7 4 → (Fin 4 → ℝ) →
    Fin embdSize → ℝ
  | .basic, s, x1, x2, x3 => StateNet1.fwd s (fun c k => x1 c k 0) x2 x3
  | .conv, s, x1, x2, x3 => StateNet2.fwd s x1 x2 x3
  | .ordered, s, x1, x2, x3 => StateNet2.fwd s x1 x2 x3

/-- the three heads -/
inductive HeadName where
  | during | discard | post
  deriving DecidableEq, Repr

/-- the number of actions (MahjongAI/agents/transformer.py:22-24) -/
abbrev actionDim : HeadName → ℕ
  | .during => 71
  | .discard => 37
  | .post => 154

/-- all parameters (MahjongAI/agents/transformer.py:34-42, 107-131, 273-291) -/
structure Params (v : Variant) where
  tables : Tables (Fin embdSize → ℝ)
  encoder : List EncoderBlock
  state_net : StateNet v
  decoder : List DecoderBlock
  ln_f : LayerNorm embdSize
  heads : (h : HeadName) → Linear embdSize (actionDim h)

/-- the input for one head: `B` samples -/
structure Input (v : Variant) (h : HeadName) (B : ℕ) where
  tokens : Fin B → Fin 150 → BitVec 64
  x1 : T4 B (chan v) 37 (width v)
  x2 : T3 B 7 4
  x3 : T2 B 4
  mask : Fin B → Fin (actionDim h) → Int
  y : Fin B → Fin (actionDim h)
  player : Fin B → Int

/-- one embedding (Model/Embedding.lean); the player is used in the ordered model only -/
def embed {V : Type} [Zero V] [Add V] (v : Variant) (T : Tables V) (player : Int) (pos : Nat) (t : BitVec 64) :
    Except PyErr V :=
  match v with
  | .ordered => embedOrdered T player pos t
  | _ => embedBasic T pos t

open Classical in
/-- the sum of the embeddings for every sample and position; an index out of range raises
(MahjongAI/agents/transformer.py:177-264) -/
noncomputable def embedAll {v : Variant} {h : HeadName} {B : ℕ} (p : Params v) (X : Input v h B) :
    Except PyErr (T3 B 150 embdSize) :=
  if ∀ b t, ∃ e, embed v p.tables (X.player b) t.val (X.tokens b t) = .ok e then
    .ok (fun b t => ((embed v p.tables (X.player b) t.val (X.tokens b t)).toOption).getD 0)
  else .error .index

/-- the blocks of `Encoder.forward` (MahjongAI/agents/transformer.py:266-268) -/
noncomputable def encBlocks {B T : ℕ} (gelu : ℝ → ℝ) (blocks : List EncoderBlock) (x : T3 B T embdSize) :
    T3 B T embdSize :=
  blocks.foldl (fun x e => e.fwd gelu x) x

/-- the blocks and `ln_f` of `Decoder.forward` (MahjongAI/agents/transformer.py:321-324,
transformer_conv_ordered.py:341-347) -/
noncomputable def decBlocks (v : Variant) {B T : ℕ} (gelu : ℝ → ℝ) (blocks : List DecoderBlock) (ln_f : LayerNorm embdSize)
    (x : T2 B embdSize) (enc_out : T3 B T embdSize) : T2 B embdSize :=
  match v with
  | .ordered =>
    let x := blocks.foldl (fun x d => d.fwdOrdered gelu x enc_out) (unsqueeze1 x)
    squeeze1 (fun b t => ln_f.fwd (x b t))
  | _ =>
    let x := blocks.foldl (fun x d => d.fwdBasic gelu x enc_out) x
    fun b => ln_f.fwd (x b)

/-- the logits before masking (MahjongAI/agents/transformer.py:321-325; the ordered model squeezes after the
linear layer, transformer_conv_ordered.py:347-348) -/
noncomputable def rawLogits {v : Variant} {h : HeadName} {B : ℕ} (gelu : ℝ → ℝ) (p : Params v) (X : Input v h B)
    (emb : T3 B 150 embdSize) : T2 B (actionDim h) :=
  let enc_out := encBlocks gelu p.encoder emb
  let x := fun b => stateNet v p.state_net (X.x1 b) (X.x2 b) (X.x3 b)
  let x := decBlocks v gelu p.decoder p.ln_f x enc_out
  fun b => (p.heads h).fwd (x b)

/-- what `forward` yields for one head -/
structure Output (h : HeadName) (B : ℕ) where
  logits : T2 B (actionDim h)
  loss : ℝ

/-- encoder and decoder for one head (MahjongAI/agents/transformer.py:98-102, 296-337).  The assertions about the mask
come before the decoder; the types take care of the shapes, see Model/Forward.lean. -/
noncomputable def run {v : Variant} {h : HeadName} {B : ℕ} (gelu : ℝ → ℝ) (p : Params v) (X : Input v h B) :
    Except PyErr (Output h B) := do
  let emb ← embedAll p X
  pyAssert (decide (∀ b a, X.mask b a = 0 ∨ X.mask b a = 1))
  pyAssert (decide (∀ b, ∃ a, X.mask b a ≠ 0))
  let logits := fun b => maskedLogits (X.mask b) (rawLogits gelu p X emb b)
  .ok { logits := logits, loss := (∑ b, crossEntropy (logits b) (X.y b)) / B }

end MJ.Net
