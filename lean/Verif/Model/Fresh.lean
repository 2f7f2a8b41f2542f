import Verif.Model.Dropout
/-!
The parameters of a new model: `_init_weights` (MahjongAI/agents/transformer.py:43-49, 137-143, 292-298), `_init_embeddings`
(l.133-135) and what the constructors of PyTorch set (`nn.LayerNorm`: weight one, bias zero).

Weights are drawn at random; here they are any numbers, those of the given parameters.  `self.apply` reaches every module
inside, so after the last call in the constructor of the whole model (l.41) every `nn.Linear` has bias zero.  The convolutions
are not mentioned in `_init_weights` and keep the numbers of PyTorch.
-/
namespace MJ.Net

/-- `torch.nn.init.zeros_(module.bias)` -/
def Linear.fresh {m n : ℕ} (l : Linear m n) : Linear m n := ⟨l.weight, fun _ => 0⟩

/-- `nn.LayerNorm` when it is made -/
def freshNorm (n : ℕ) : LayerNorm n := ⟨fun _ => 1, fun _ => 0⟩

def Head.fresh (h : Head) : Head := ⟨h.key.fresh, h.query.fresh, h.value.fresh⟩

def MultiHeadAttention.fresh (m : MultiHeadAttention) : MultiHeadAttention := ⟨fun i => (m.heads i).fresh, m.proj.fresh⟩

def FeedForward.fresh (f : FeedForward) : FeedForward := ⟨f.l1.fresh, f.l2.fresh⟩

def EncoderBlock.fresh (e : EncoderBlock) : EncoderBlock :=
  ⟨e.self_attention.fresh, e.ffwd.fresh, freshNorm embdSize, freshNorm embdSize⟩

def DecoderBlock.fresh (d : DecoderBlock) : DecoderBlock :=
  ⟨d.self_attention.fresh, d.cross_attention.fresh, d.ffwd.fresh, freshNorm embdSize, freshNorm embdSize, freshNorm embdSize⟩

def StateTail.fresh {n : ℕ} (s : StateTail n) : StateTail n := ⟨s.fc_x1.fresh, s.fc_main_1.fresh, s.fc_main_2.fresh⟩

/-- the convolutions stay -/
def freshState : (v : Variant) → StateNet v → StateNet v
  | .basic, s => StateNet1.mk s.conv1 s.conv2 s.tail.fresh
  | .conv, s => StateNet2.mk s.conv1 s.conv2 s.tail.fresh
  | .ordered, s => StateNet2.mk s.conv1 s.conv2 s.tail.fresh

/-- the tables: the fixed ones (MahjongAI/agents/transformer.py:111-125) and those that are drawn -/
noncomputable def freshTables (t : Tables (Fin embdSize → ℝ)) : Tables (Fin embdSize → ℝ) :=
  { t with
    empty := 0
    position := fun i j => positionTable embdSize i j
    player := fun i j => playerTable embdSize i j }

/-- the parameters of a new model -/
noncomputable def Params.fresh {v : Variant} (p : Params v) : Params v :=
  { tables := freshTables p.tables
    encoder := p.encoder.map EncoderBlock.fresh
    state_net := freshState v p.state_net
    decoder := p.decoder.map DecoderBlock.fresh
    ln_f := freshNorm embdSize
    heads := fun h => (p.heads h).fresh }

end MJ.Net
