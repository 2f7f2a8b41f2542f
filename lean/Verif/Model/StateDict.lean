import Verif.Model.Network
import Verif.Model.Learning
import Verif.Model.Command
/-!
The parameters of a model as PyTorch lists them: `model.state_dict()` as saved in a checkpoint
(MahjongAI/supervised_learning.py:182), `load_state_dict` (l.125), and the number of parameters printed when a file of a network
is run (MahjongAI/agents/transformer.py:1152-1154, transformer_conv.py:1134-1136, transformer_conv_large.py:1140-1142,
transformer_conv_ordered.py:1283-1285).

A key such as `encoder.blocks.0.ln1.weight` is the list of its parts.  Only modules have keys: the fixed tables of the encoder are
plain attributes, and so is the dictionary `self.heads` of the decoder.
-/
namespace MJ.StateDict

/-- a part of a key: the name of an attribute, or a position in `nn.Sequential` or `nn.ModuleList` -/
inductive Part where
  | name (s : String)
  | index (n : ℕ)
  deriving DecidableEq, Repr

/-- keys with the shapes of their tensors -/
abbrev Dict := List (List Part × List ℕ)

/-- a module as an attribute of another one -/
def under (p : Part) (d : Dict) : Dict := d.map (fun e => (p :: e.1, e.2))

/-- modules one after the other, as `nn.Sequential` and `nn.ModuleList` number them -/
def numbered (n : ℕ) (d : Dict) : Dict := (List.range n).flatMap (fun i => under (.index i) d)

/-- the modules of PyTorch: weight and bias -/
def linear (m n : ℕ) : Dict := [([.name "weight"], [n, m]), ([.name "bias"], [n])]
@[inherit_doc linear] def layerNorm (n : ℕ) : Dict := [([.name "weight"], [n]), ([.name "bias"], [n])]
@[inherit_doc linear] def embedding (n d : ℕ) : Dict := [([.name "weight"], [n, d])]
@[inherit_doc linear] def conv1d (c o k : ℕ) : Dict := [([.name "weight"], [o, c, k]), ([.name "bias"], [o])]
@[inherit_doc linear] def conv2d (c o k l : ℕ) : Dict := [([.name "weight"], [o, c, k, l]), ([.name "bias"], [o])]

/-- `Head` (MahjongAI/agents/transformer.py:473-479) -/
def head : Dict := under (.name "key") (linear 64 8) ++ under (.name "query") (linear 64 8) ++ under (.name "value") (linear 64 8)

/-- `MultiHeadAttention` (l.458-463) -/
def attention : Dict := under (.name "heads") (numbered 8 head) ++ under (.name "proj") (linear (8 * 8) 64)

/-- `FeedForward` (l.511-519): positions 1 and 3 have no parameters -/
def feedForward : Dict :=
  under (.name "net") (under (.index 0) (linear 64 (4 * 64)) ++ under (.index 2) (linear (4 * 64) 64))

/-- `EncoderBlock` (l.340-347) -/
def encoderBlock : Dict :=
  under (.name "self_attention") attention ++ under (.name "ffwd") feedForward ++ under (.name "ln1") (layerNorm 64) ++
  under (.name "ln2") (layerNorm 64)

/-- `DecoderBlock` (l.356-365) -/
def decoderBlock : Dict :=
  under (.name "self_attention") attention ++ under (.name "cross_attention") attention ++ under (.name "ffwd") feedForward ++
  under (.name "ln1") (layerNorm 64) ++ under (.name "ln2") (layerNorm 64) ++ under (.name "ln3") (layerNorm 64)

/-- the convolutions of `StateNet` (l.395-400; transformer_conv.py:394-399; transformer_conv_ordered.py:393-398) -/
def convolutions : Variant → Dict
  | .basic => under (.name "conv1d_x1_1") (conv1d 3 8 3) ++ under (.name "conv1d_x1_2") (conv1d 8 16 3)
  | .conv => under (.name "conv2d_x1_1") (conv2d 3 8 3 3) ++ under (.name "conv2d_x1_2") (conv2d 8 8 3 3)
  | .ordered => under (.name "conv2d_x1_1") (conv2d 6 8 3 3) ++ under (.name "conv2d_x1_2") (conv2d 8 16 3 3)

/-- the input of `fc_x1` (l.405; transformer_conv.py:404-406; transformer_conv_ordered.py:403-405) -/
def flatSize : Variant → ℕ
  | .basic => 16 * 37 + 3 * 37
  | .conv => 8 * 37 * 4 + 3 * 37 * 4
  | .ordered => 16 * 37 * 4 + 6 * 37 * 4

/-- `StateNet` (l.388-411) -/
def stateNet (v : Variant) : Dict :=
  convolutions v ++ under (.name "fc_x1") (linear (flatSize v) 64) ++ under (.name "fc_main_1") (linear (64 + 7 * 4 + 4) 64) ++
  under (.name "fc_main_2") (linear 64 64)

/-- `Encoder` (l.108-131; transformer_conv_ordered.py:143-168) -/
def encoder (v : Variant) (n : ℕ) : Dict :=
  under (.name "type_embedding") (embedding 4 64) ++ under (.name "tile_embedding") (embedding 37 64) ++
  under (.name "tsumogiri_embedding") (embedding (match v with | .ordered => 2 | _ => 1) 64) ++
  under (.name "during_naki_embedding") (embedding 71 64) ++ under (.name "post_naki_embedding") (embedding 154 64) ++
  under (.name "blocks") (numbered n encoderBlock)

/-- `Decoder` (l.273-290) -/
def decoder (v : Variant) (n : ℕ) : Dict :=
  under (.name "state_net") (stateNet v) ++ under (.name "blocks") (numbered n decoderBlock) ++
  under (.name "ln_f") (layerNorm 64) ++ under (.name "discard_head") (linear 64 37) ++
  under (.name "during_head") (linear 64 71) ++ under (.name "post_head") (linear 64 154)

/-- the whole model (l.34-41) with `n` layers -/
def model (v : Variant) (n : ℕ) : Dict := under (.name "encoder") (encoder v n) ++ under (.name "decoder") (decoder v n)

/-- `sum(p.numel() for p in model.parameters())` -/
def numel (d : Dict) : ℕ := (d.map (fun e => e.2.prod)).sum

/-- the tensor under a key -/
def find (d : Dict) (k : List Part) : Option (List ℕ) := (d.find? (fun e => e.1 == k)).map (·.2)

/-- `load_state_dict`, which is strict: missing keys, unexpected keys and tensors of another shape raise RuntimeError -/
def loadStateDict (own saved : Dict) : Except PyErr Unit :=
  if own.all (fun e => find saved e.1 == some e.2) && saved.all (fun e => (find own e.1).isSome) then .ok () else .error .runtime

/-- the network of a training name: class and number of layers (MahjongAI/agents/transformer.py:28, transformer_conv.py:28 for
the classes that take none) -/
def ofNet (n : Command.Net) : Dict :=
  match n.cls with
  | .basic => model .basic (n.layers.getD 1)
  | .conv => model .conv (n.layers.getD 1)
  | .convLarge => model .conv (n.layers.getD 1)
  | .convOrdered => model .ordered (n.layers.getD 1)

/-- what can go wrong when a file is run -/
inductive MainErr where
  | nameError
  | typeError
  deriving DecidableEq, Repr

/-- the class of the model in a file, and whether its constructor needs the number of layers -/
def classIn : Command.NetClass → String × Bool
  | .basic => ("TransformerModel", false)
  | .conv => ("TransformerConvModel", false)
  | .convLarge => ("TransformerConvLargeModel", true)
  | .convOrdered => ("TransformerConvOrderedModel", true)

/-- the class that is called at the end of the file, always without an argument -/
def calledIn : Command.NetClass → String
  | .basic => "TransformerModel"
  | .conv => "TransformerConvModel"
  | .convLarge => "TransformerConvModel"
  | .convOrdered => "TransformerConvOrderedModel"

/-- running a file: the number of which a millionth is printed -/
def runFile (c : Command.NetClass) : Except MainErr ℕ :=
  if calledIn c ≠ (classIn c).1 then .error .nameError
  else if (classIn c).2 then .error .typeError
  else .ok (numel (ofNet ⟨c, none, 0⟩))

end MJ.StateDict

namespace MJ.Net
open MJ.Spec

/-- the numbers of a checkpoint put into a model: what `load_state_dict` does if keys and
shapes agree (MahjongAI/supervised_learning.py:125) -/
def Params.load {v : Variant} (q : Params v) (saved : Coord v → ℝ) : Params v := q.update (fun c _ => saved c)

end MJ.Net
