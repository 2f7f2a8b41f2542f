import Verif.Model.Forward
/-!
The networks in training mode: `nn.Dropout(0.2)` after the attention weights, after the projection of the heads and
after the feed-forward layer (MahjongAI/agents/transformer.py:463-474, 479-511, 516-527; the same in the other files).
In evaluation mode (`model.eval()`, MahjongAI/supervised_learning.py:192) dropout does nothing, which is
Model/Network.lean.

The random factors are a parameter: any numbers, one for each entry of each tensor that goes through dropout.  (PyTorch
takes 0 with probability 0.2, and 1 / 0.8 otherwise.)
-/
namespace MJ.Net
open scoped BigOperators

/-- the factors in one call of `MultiHeadAttention.forward` -/
structure AttnDrop (B Q T : ℕ) where
  wei : Fin nHeads → T3 B Q T
  out : T3 B Q embdSize

/-- `Head.forward` (MahjongAI/agents/transformer.py:487-513) -/
noncomputable def Head.fwdDrop {B T Q : ℕ} (h : Head) (r : T3 B Q T) (k v : T3 B T embdSize) (q : T3 B Q embdSize) :
    T3 B Q headSize :=
  let wei := h.wei k q
  let wei := fun b i t => r b i t * wei b i t
  bmm wei (fun b t => h.value.fwd (v b t))

/-- `MultiHeadAttention.forward` (MahjongAI/agents/transformer.py:469-474) -/
noncomputable def MultiHeadAttention.fwdDrop {B T Q : ℕ} (m : MultiHeadAttention) (r : AttnDrop B Q T)
    (k v : T3 B T embdSize) (q : T3 B Q embdSize) : T3 B Q embdSize :=
  let out := fun b i => m.proj.fwd (fun j => (m.heads j.divNat).fwdDrop (r.wei j.divNat) k v q b i j.modNat)
  fun b i j => r.out b i j * out b i j

/-- `FeedForward.forward` (MahjongAI/agents/transformer.py:520-527) -/
noncomputable def FeedForward.fwdDrop (gelu : ℝ → ℝ) (f : FeedForward) (r x : Fin embdSize → ℝ) : Fin embdSize → ℝ :=
  fun i => r i * f.fwd gelu x i

/-- the factors in one encoder block -/
structure EncDrop (B T : ℕ) where
  self_attention : AttnDrop B T T
  ffwd : T3 B T embdSize

/-- `EncoderBlock.forward` (MahjongAI/agents/transformer.py:349-353, transformer_conv_ordered.py:288-291) -/
noncomputable def EncoderBlock.fwdDrop {B T : ℕ} (gelu : ℝ → ℝ) (e : EncoderBlock) (r : EncDrop B T)
    (x : T3 B T embdSize) : T3 B T embdSize :=
  let n := fun b t => e.ln1.fwd (x b t)
  let a := e.self_attention.fwdDrop r.self_attention n n n
  let x := fun b t i => x b t i + a b t i
  fun b t i => x b t i + e.ffwd.fwdDrop gelu (r.ffwd b t) (e.ln2.fwd (x b t)) i

/-- the factors in one decoder block: the first attention has `S` keys -/
structure DecDrop (B S T : ℕ) where
  self_attention : AttnDrop B 1 S
  cross_attention : AttnDrop B 1 T
  ffwd : T3 B 1 embdSize

/-- `DecoderBlock.forward` (MahjongAI/agents/transformer.py:367-386) -/
noncomputable def DecoderBlock.fwdBasicDrop {B T : ℕ} (gelu : ℝ → ℝ) (d : DecoderBlock) (r : DecDrop B T T)
    (x : T2 B embdSize) (enc_out : T3 B T embdSize) : T2 B embdSize :=
  let x_norm := unsqueeze1 (fun b => d.ln1.fwd (x b))
  let self_attn := squeeze1 (d.self_attention.fwdDrop r.self_attention enc_out enc_out x_norm)
  let x := fun b i => x b i + self_attn b i
  let x_norm := unsqueeze1 (fun b => d.ln2.fwd (x b))
  let cross_attn := squeeze1 (d.cross_attention.fwdDrop r.cross_attention enc_out enc_out x_norm)
  let x := fun b i => x b i + cross_attn b i
  fun b i => x b i + d.ffwd.fwdDrop gelu (r.ffwd b 0) (d.ln3.fwd (x b)) i

/-- `DecoderBlock.forward` of the ordered model (MahjongAI/agents/transformer_conv_ordered.py:373-385); the sequence has
length one -/
noncomputable def DecoderBlock.fwdOrderedDrop {B T : ℕ} (gelu : ℝ → ℝ) (d : DecoderBlock) (r : DecDrop B 1 T)
    (x : T3 B 1 embdSize) (enc_out : T3 B T embdSize) : T3 B 1 embdSize :=
  let n := fun b t => d.ln1.fwd (x b t)
  let self_attn := d.self_attention.fwdDrop r.self_attention n n n
  let x := fun b t i => x b t i + self_attn b t i
  let cross_attn := d.cross_attention.fwdDrop r.cross_attention enc_out enc_out (fun b t => d.ln2.fwd (x b t))
  let x := fun b t i => x b t i + cross_attn b t i
  fun b t i => x b t i + d.ffwd.fwdDrop gelu (r.ffwd b t) (d.ln3.fwd (x b t)) i

/-- number of keys of the first attention of a decoder block -/
abbrev firstKeys : Variant → ℕ
  | .ordered => 1
  | _ => 150

/-- all factors in one call of encoder and decoder, by the number of the block -/
structure NetDrop (v : Variant) (B : ℕ) where
  enc : ℕ → EncDrop B 150
  dec : ℕ → DecDrop B (firstKeys v) 150

/-- the blocks of `Encoder.forward`; `n` is the number of the first block -/
noncomputable def encBlocksDrop {B T : ℕ} (gelu : ℝ → ℝ) (r : ℕ → EncDrop B T) : List EncoderBlock → ℕ → T3 B T embdSize →
    T3 B T embdSize
  | [], _, x => x
  | e :: es, n, x => encBlocksDrop gelu r es (n + 1) (e.fwdDrop gelu (r n) x)

/-- the blocks of `Decoder.forward` -/
noncomputable def decFoldDrop {X D R : Type} (f : D → R → X → X) (r : ℕ → R) : List D → ℕ → X → X
  | [], _, x => x
  | d :: ds, n, x => decFoldDrop f r ds (n + 1) (f d (r n) x)

/-- the blocks and `ln_f` of `Decoder.forward` (MahjongAI/agents/transformer.py:321-324,
transformer_conv_ordered.py:341-347) -/
noncomputable def decBlocksDrop : (v : Variant) → {B : ℕ} → (gelu : ℝ → ℝ) → (r : ℕ → DecDrop B (firstKeys v) 150) →
    (blocks : List DecoderBlock) → (ln_f : LayerNorm embdSize) → (x : T2 B embdSize) → (enc_out : T3 B 150 embdSize) →
    T2 B embdSize
  | .ordered, _, gelu, r, blocks, ln_f, x, enc_out =>
    let x := decFoldDrop (fun d r x => DecoderBlock.fwdOrderedDrop gelu d r x enc_out) r blocks 0 (unsqueeze1 x)
    squeeze1 (fun b t => ln_f.fwd (x b t))
  | .basic, _, gelu, r, blocks, ln_f, x, enc_out =>
    let x := decFoldDrop (fun d r x => DecoderBlock.fwdBasicDrop gelu d r x enc_out) r blocks 0 x
    fun b => ln_f.fwd (x b)
  | .conv, _, gelu, r, blocks, ln_f, x, enc_out =>
    let x := decFoldDrop (fun d r x => DecoderBlock.fwdBasicDrop gelu d r x enc_out) r blocks 0 x
    fun b => ln_f.fwd (x b)

/-- the logits before masking -/
noncomputable def rawLogitsDrop {v : Variant} {h : HeadName} {B : ℕ} (gelu : ℝ → ℝ) (p : Params v) (r : NetDrop v B)
    (X : Input v h B) (emb : T3 B 150 embdSize) : T2 B (actionDim h) :=
  let enc_out := encBlocksDrop gelu r.enc p.encoder 0 emb
  let x := fun b => stateNet v p.state_net (X.x1 b) (X.x2 b) (X.x3 b)
  let x := decBlocksDrop v gelu r.dec p.decoder p.ln_f x enc_out
  fun b => (p.heads h).fwd (x b)

/-- encoder and decoder for one head, in training mode -/
noncomputable def runDrop {v : Variant} {h : HeadName} {B : ℕ} (gelu : ℝ → ℝ) (p : Params v) (r : NetDrop v B)
    (X : Input v h B) : Except PyErr (Output h B) := do
  let emb ← embedAll p X
  pyAssert (decide (∀ b a, X.mask b a = 0 ∨ X.mask b a = 1))
  pyAssert (decide (∀ b, ∃ a, X.mask b a ≠ 0))
  let logits := fun b => maskedLogits (X.mask b) (rawLogitsDrop gelu p r X emb b)
  .ok { logits := logits, loss := (∑ b, crossEntropy (logits b) (X.y b)) / B }

/-- `forward` on the tensors of one head in training mode; the factors may depend on everything -/
noncomputable def runRowsDrop (v : Variant) (gelu : ℝ → ℝ) (p : Params v)
    (r : HeadName → (b : Batch) → NetDrop v b.encodings.length) (h : HeadName) (b : Batch) :
    Except PyErr (List (List ℝ) × ℝ) := do
  if ¬ shapeOk v h b then .error .runtime
  if ¬ labelsOk h b then .error .index
  let o ← runDrop gelu p (r h b) (toInput v h b)
  .ok (List.ofFn (fun i => List.ofFn (o.logits i)), o.loss)

end MJ.Net
