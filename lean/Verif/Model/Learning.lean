import Verif.Spec.Coordinates
import Verif.Model.Dropout
import Verif.Model.Optimizer
/-!
The loop of training with the network in it (MahjongAI/supervised_learning.py:147-162): `model(…)` is a generator, so the
optimiser's step after a loss is done before the next head is evaluated, which then works with the new parameters.

The gradients (`loss.backward()`, l.157) are a parameter, `grad`; the random permutations and the random factors of dropout
are parameters, too, and may be different for every loss.
-/
namespace MJ.Net
open Spec

/-! ### the numbers of a model: reading and changing all of them -/

def Linear.get {m n : ℕ} (l : Linear m n) : LinCoord m n → ℝ
  | .weight o i => l.weight o i
  | .bias o => l.bias o
def Linear.update {m n : ℕ} (l : Linear m n) (f : LinCoord m n → ℝ → ℝ) : Linear m n :=
  ⟨fun o i => f (.weight o i) (l.weight o i), fun o => f (.bias o) (l.bias o)⟩

def LayerNorm.get {n : ℕ} (l : LayerNorm n) : NormCoord n → ℝ
  | .weight i => l.weight i
  | .bias i => l.bias i
def LayerNorm.update {n : ℕ} (l : LayerNorm n) (f : NormCoord n → ℝ → ℝ) : LayerNorm n :=
  ⟨fun i => f (.weight i) (l.weight i), fun i => f (.bias i) (l.bias i)⟩

def Head.get (h : Head) : HeadCoord → ℝ
  | .key c => h.key.get c
  | .query c => h.query.get c
  | .value c => h.value.get c
def Head.update (h : Head) (f : HeadCoord → ℝ → ℝ) : Head :=
  ⟨h.key.update (fun c => f (.key c)), h.query.update (fun c => f (.query c)), h.value.update (fun c => f (.value c))⟩

def MultiHeadAttention.get (a : MultiHeadAttention) : AttnCoord → ℝ
  | .head n c => (a.heads n).get c
  | .proj c => a.proj.get c
def MultiHeadAttention.update (a : MultiHeadAttention) (f : AttnCoord → ℝ → ℝ) : MultiHeadAttention :=
  ⟨fun n => (a.heads n).update (fun c => f (.head n c)), a.proj.update (fun c => f (.proj c))⟩

def FeedForward.get (x : FeedForward) : FeedCoord → ℝ
  | .l1 c => x.l1.get c
  | .l2 c => x.l2.get c
def FeedForward.update (x : FeedForward) (f : FeedCoord → ℝ → ℝ) : FeedForward :=
  ⟨x.l1.update (fun c => f (.l1 c)), x.l2.update (fun c => f (.l2 c))⟩

def EncoderBlock.get (e : EncoderBlock) : EncCoord → ℝ
  | .attn c => e.self_attention.get c
  | .feed c => e.ffwd.get c
  | .ln1 c => e.ln1.get c
  | .ln2 c => e.ln2.get c
def EncoderBlock.update (e : EncoderBlock) (f : EncCoord → ℝ → ℝ) : EncoderBlock :=
  ⟨e.self_attention.update (fun c => f (.attn c)), e.ffwd.update (fun c => f (.feed c)), e.ln1.update (fun c => f (.ln1 c)),
    e.ln2.update (fun c => f (.ln2 c))⟩

def DecoderBlock.get (d : DecoderBlock) : DecCoord → ℝ
  | .self c => d.self_attention.get c
  | .cross c => d.cross_attention.get c
  | .feed c => d.ffwd.get c
  | .ln1 c => d.ln1.get c
  | .ln2 c => d.ln2.get c
  | .ln3 c => d.ln3.get c
def DecoderBlock.update (d : DecoderBlock) (f : DecCoord → ℝ → ℝ) : DecoderBlock :=
  ⟨d.self_attention.update (fun c => f (.self c)), d.cross_attention.update (fun c => f (.cross c)),
    d.ffwd.update (fun c => f (.feed c)), d.ln1.update (fun c => f (.ln1 c)), d.ln2.update (fun c => f (.ln2 c)),
    d.ln3.update (fun c => f (.ln3 c))⟩

def Conv1d.get {c o : ℕ} (x : Conv1d c o) : Conv1Coord c o → ℝ
  | .weight m i k => x.weight m i k
  | .bias m => x.bias m
def Conv1d.update {c o : ℕ} (x : Conv1d c o) (f : Conv1Coord c o → ℝ → ℝ) : Conv1d c o :=
  ⟨fun m i k => f (.weight m i k) (x.weight m i k), fun m => f (.bias m) (x.bias m)⟩

def Conv2d.get {c o : ℕ} (x : Conv2d c o) : Conv2Coord c o → ℝ
  | .weight m i k l => x.weight m i k l
  | .bias m => x.bias m
def Conv2d.update {c o : ℕ} (x : Conv2d c o) (f : Conv2Coord c o → ℝ → ℝ) : Conv2d c o :=
  ⟨fun m i k l => f (.weight m i k l) (x.weight m i k l), fun m => f (.bias m) (x.bias m)⟩

def StateTail.get {n : ℕ} (s : StateTail n) : TailCoord n → ℝ
  | .fc_x1 c => s.fc_x1.get c
  | .main1 c => s.fc_main_1.get c
  | .main2 c => s.fc_main_2.get c
def StateTail.update {n : ℕ} (s : StateTail n) (f : TailCoord n → ℝ → ℝ) : StateTail n :=
  ⟨s.fc_x1.update (fun c => f (.fc_x1 c)), s.fc_main_1.update (fun c => f (.main1 c)), s.fc_main_2.update (fun c => f (.main2 c))⟩

def StateNet1.get (s : StateNet1) : State1Coord → ℝ
  | .conv1 c => s.conv1.get c
  | .conv2 c => s.conv2.get c
  | .tail c => s.tail.get c
def StateNet1.update (s : StateNet1) (f : State1Coord → ℝ → ℝ) : StateNet1 :=
  ⟨s.conv1.update (fun c => f (.conv1 c)), s.conv2.update (fun c => f (.conv2 c)), s.tail.update (fun c => f (.tail c))⟩

def StateNet2.get {c o : ℕ} (s : StateNet2 c o) : State2Coord c o → ℝ
  | .conv1 d => s.conv1.get d
  | .conv2 d => s.conv2.get d
  | .tail d => s.tail.get d
def StateNet2.update {c o : ℕ} (s : StateNet2 c o) (f : State2Coord c o → ℝ → ℝ) : StateNet2 c o :=
  ⟨s.conv1.update (fun d => f (.conv1 d)), s.conv2.update (fun d => f (.conv2 d)), s.tail.update (fun d => f (.tail d))⟩

def getState : (v : Variant) → StateNet v → StateCoord v → ℝ
  | .basic, s, c => StateNet1.get s c
  | .conv, s, c => StateNet2.get s c
  | .ordered, s, c => StateNet2.get s c
def updateState : (v : Variant) → StateNet v → (StateCoord v → ℝ → ℝ) → StateNet v
  | .basic, s, f => StateNet1.update s f
  | .conv, s, f => StateNet2.update s f
  | .ordered, s, f => StateNet2.update s f

/-- a number of the model; 0 for blocks that do not exist -/
def Params.get {v : Variant} (p : Params v) : Coord v → ℝ
  | .table name i j => p.tables.row name i j
  | .enc k c => (p.encoder[k]?).elim 0 (fun e => e.get c)
  | .state c => getState v p.state_net c
  | .dec k c => (p.decoder[k]?).elim 0 (fun d => d.get c)
  | .ln_f c => p.ln_f.get c
  | .head h c => (p.heads h).get c

/-- all trainable numbers changed; the tables of positions and players and the empty embedding are not parameters
(MahjongAI/agents/transformer.py:110-112,119-122) -/
def Params.update {v : Variant} (p : Params v) (f : Coord v → ℝ → ℝ) : Params v :=
  { tables :=
      { empty := p.tables.empty
        type := fun i j => f (.table .type i j) (p.tables.type i j)
        tile := fun i j => f (.table .tile i j) (p.tables.tile i j)
        tsumogiri := fun i j => f (.table .tsumogiri i j) (p.tables.tsumogiri i j)
        during_naki := fun i j => f (.table .during i j) (p.tables.during_naki i j)
        post_naki := fun i j => f (.table .post i j) (p.tables.post_naki i j)
        position := p.tables.position
        player := p.tables.player }
    encoder := p.encoder.mapIdx (fun k e => e.update (fun c => f (.enc k c)))
    state_net := updateState v p.state_net (fun c => f (.state c))
    decoder := p.decoder.mapIdx (fun k d => d.update (fun c => f (.dec k c)))
    ln_f := p.ln_f.update (fun c => f (.ln_f c))
    heads := fun h => (p.heads h).update (fun c => f (.head h c)) }

/-! ### training -/

/-- what there is in memory during a call of `train`: the step of the scheduler, which is `current_step`, too; the state of the
optimiser; the model -/
structure Learner (v : Variant) where
  sched : ℕ
  adam : Coord v → AdamState
  params : Params v

/-- the beginning of a call of `train`: scheduler and optimiser are new, the model is new or loaded
(MahjongAI/supervised_learning.py:93-133) -/
def Learner.begin {v : Variant} (p : Params v) : Learner v := ⟨0, fun _ => .init, p⟩

/-- `optimizer.step()`, `scheduler.step()` and `current_step += 1` (MahjongAI/supervised_learning.py:158-162) with the gradients
`g` -/
noncomputable def Learner.step {v : Variant} (s : Learner v) (g : Coord v → Option ℝ) : Learner v :=
  let lr := 1e-3 * lrFactor s.sched
  { sched := s.sched + 1
    adam := fun c => (adamStep lr (s.adam c) (s.params.get c) (g c)).1
    params := s.params.update (fun c x => (adamStep lr (s.adam c) x (g c)).2) }

/-- `loss.backward()`: the gradients for parameters, head, samples and factors of dropout -/
abbrev Backward (v : Variant) := Params v → HeadName → (b : Batch) → NetDrop v b.encodings.length → Coord v → Option ℝ

/-- what is random: for each loss of a call of `train` the permutation for every length, and the factors of dropout -/
structure Chance (v : Variant) where
  perm : ℕ → ℕ → List ℕ
  drop : ℕ → HeadName → (b : Batch) → NetDrop v b.encodings.length

/-- one loss: the state in which it is computed, the head, the samples used, and what the generator yields -/
structure Lesson (v : Variant) where
  before : Learner v
  head : HeadName
  batch : Batch
  logits : List (List ℝ)
  loss : ℝ

/-- the body of the loop over the losses of a batch (MahjongAI/supervised_learning.py:153-168), together with the generator
(MahjongAI/agents/transformer.py:67-104, `sample=True`) -/
noncomputable def learnLoop {v : Variant} (gelu : ℝ → ℝ) (grad : Backward v) (ch : Chance v) :
    List (HeadName × Batch) → Learner v → Except PyErr (List (Lesson v) × Learner v)
  | [], s => .ok ([], s)
  | (h, b) :: rest, s =>
    if b.encodings.length = 0 then learnLoop gelu grad ch rest s
    else do
      let b := sampleRows true 2250 (ch.perm s.sched) b
      let o ← runRowsDrop v gelu s.params (ch.drop s.sched) h b
      let r ← learnLoop gelu grad ch rest (s.step (grad s.params h b (ch.drop s.sched h b)))
      .ok (⟨s, h, b, o.1, o.2⟩ :: r.1, r.2)

/-- the losses of one batch -/
noncomputable def learnBatch {v : Variant} (gelu : ℝ → ℝ) (grad : Backward v) (ch : Chance v) (t : Batch × Batch × Batch)
    (s : Learner v) : Except PyErr (List (Lesson v) × Learner v) :=
  learnLoop gelu grad ch [(.during, t.1), (.discard, t.2.1), (.post, t.2.2)] s

/-- the losses of several batches (MahjongAI/supervised_learning.py:150-168).  Validation (l.170-174) changes nothing in
memory. -/
noncomputable def learnAll {v : Variant} (gelu : ℝ → ℝ) (grad : Backward v) (ch : Chance v) :
    List (Batch × Batch × Batch) → Learner v → Except PyErr (List (Lesson v) × Learner v)
  | [], s => .ok ([], s)
  | t :: ts, s => do
    let r ← learnBatch gelu grad ch t s
    let q ← learnAll gelu grad ch ts r.2
    .ok (r.1 ++ q.1, q.2)

/-- several calls of `train`, each going on from the checkpoint of the previous one; of each call the batches up to that
checkpoint -/
noncomputable def learnRuns {v : Variant} (gelu : ℝ → ℝ) (grad : Backward v) :
    List (Chance v × List (Batch × Batch × Batch)) → Params v → Except PyErr (List (List (Lesson v)) × Params v)
  | [], p => .ok ([], p)
  | x :: xs, p => do
    let r ← learnAll gelu grad x.1 x.2 (.begin p)
    let q ← learnRuns gelu grad xs r.2.params
    .ok (r.1 :: q.1, q.2)

end MJ.Net
