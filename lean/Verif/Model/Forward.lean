import Verif.Model.Network
/-!
`TransformerModel.forward` (MahjongAI/agents/transformer.py:50-104, transformer_conv_ordered.py:50-106) on the
tensors of Model/Tensors.lean, and the average of `estimate_loss` (MahjongAI/supervised_learning.py:189-207).

`forward` is a generator; here it is the list of what it yields, or an exception (what is yielded before an exception
is left out).  `torch.randperm(n)` is `perm n`.
-/
namespace MJ

/-- `tensor[idx]` for a list of indices -/
def pick {α : Type} [Inhabited α] (l : List α) (idx : List Nat) : List α := idx.map (fun i => l.getD i default)

/-- the tuple of `tensors[..][idx]` (MahjongAI/agents/transformer.py:77-86, transformer_conv_ordered.py:77-87).  The
list of players is part of the ordered model's tensors only. -/
def Batch.pick (b : Batch) (idx : List Nat) : Batch :=
  { encodings := MJ.pick b.encodings idx, x1 := MJ.pick b.x1 idx, x2 := MJ.pick b.x2 idx, x3 := MJ.pick b.x3 idx
    mask := MJ.pick b.mask idx, y := MJ.pick b.y idx, player := MJ.pick b.player idx }

/-- the sampling step (MahjongAI/agents/transformer.py:74-86) -/
def sampleRows (sample : Bool) (sample_size : Nat) (perm : Nat → List Nat) (b : Batch) : Batch :=
  if sample && decide (b.encodings.length > sample_size) then b.pick ((perm b.encodings.length).take sample_size) else b

/-- the loop of `forward` (MahjongAI/agents/transformer.py:67-104): per head, the tensors given to encoder and decoder
and what these compute -/
def forwardLoop {R : Type} (sample : Bool) (sample_size : Nat) (perm : Nat → List Nat)
    (run : Net.HeadName → Batch → Except PyErr R) :
    List (Net.HeadName × Batch) → Except PyErr (List (Net.HeadName × Batch × R))
  | [] => .ok []
  | (h, b) :: rest =>
    if b.encodings.length = 0 then forwardLoop sample sample_size perm run rest
    else do
      let b := sampleRows sample sample_size perm b
      let r ← run h b
      let rs ← forwardLoop sample sample_size perm run rest
      .ok ((h, b, r) :: rs)

/-- `forward` after `prepare_batches` -/
def forward {R : Type} (sample : Bool) (sample_size : Nat) (perm : Nat → List Nat)
    (run : Net.HeadName → Batch → Except PyErr R) (during discard post : Batch) :
    Except PyErr (List (Net.HeadName × Batch × R)) :=
  forwardLoop sample sample_size perm run [(.during, during), (.discard, discard), (.post, post)]

namespace Net

/-- the tensors have the shapes of the batch: `n` samples of the sizes that the layers and `torch.stack` require -/
def shapeOk (v : Variant) (h : HeadName) (b : Batch) : Bool :=
  let n := b.encodings.length
  b.encodings.all (fun r => r.length == 150) &&
  b.x1.length == n && b.x1.all (fun c => c.length == chan v && c.all (fun s => s.length == 37 && s.all (fun w => w.length == width v))) &&
  b.x2.length == n && b.x2.all (fun r => r.length == 7 && r.all (fun q => q.length == 4)) &&
  b.x3.length == n && b.x3.all (fun r => r.length == 4) &&
  b.mask.length == n && b.mask.all (fun r => r.length == actionDim h) &&
  b.y.length == n && (v != .ordered || b.player.length == n)

/-- `F.cross_entropy` raises IndexError for a label outside of the classes (-100 is the value to be ignored, which
the tensor processor does not produce; it is counted as an error here) -/
def labelsOk (h : HeadName) (b : Batch) : Bool := b.y.all (fun y => decide (0 ≤ y ∧ y < (actionDim h : Int)))

/-- the entries of the tensors as functions of the indices -/
def toInput (v : Variant) (h : HeadName) (b : Batch) : Input v h b.encodings.length :=
  { tokens := fun i j => BitVec.ofNat 64 (((b.encodings.getD i []).getD j 0))
    x1 := fun i c k w => ((((((b.x1.getD i []).getD c []).getD k []).getD w 0 : Int)) : ℝ)
    x2 := fun i r q => ((((b.x2.getD i []).getD r []).getD q 0 : Int) : ℝ)
    x3 := fun i r => (((b.x3.getD i []).getD r 0 : Int) : ℝ)
    mask := fun i a => (b.mask.getD i []).getD a 0
    y := fun i => if hy : (b.y.getD i 0).toNat < actionDim h then ⟨(b.y.getD i 0).toNat, hy⟩
      else ⟨0, by cases h <;> decide⟩
    player := fun i => ((b.player.getD i 0 : Nat) : Int) }

/-- encoder and decoder on the tensors of one head (MahjongAI/agents/transformer.py:88-102, 296-337), with the
assertion about the shape of the logits -/
noncomputable def runBatch (v : Variant) (gelu : ℝ → ℝ) (p : Params v) (h : HeadName) (b : Batch) :
    Except PyErr (Output h b.encodings.length) := do
  if ¬ shapeOk v h b then .error .runtime
  if ¬ labelsOk h b then .error .index
  run gelu p (toInput v h b)

/-- what `forward` yields, with the logits as a list of rows -/
noncomputable def runRows (v : Variant) (gelu : ℝ → ℝ) (p : Params v) (h : HeadName) (b : Batch) :
    Except PyErr (List (List ℝ) × ℝ) := do
  let o ← runBatch v gelu p h b
  .ok (List.ofFn (fun i => List.ofFn (o.logits i)), o.loss)

end Net

/-- `total_loss / num_batches` of `estimate_loss` (MahjongAI/supervised_learning.py:193-207), given the losses yielded
for each batch used -/
noncomputable def valLoss (losses : List (List ℝ)) : Except PyErr ℝ :=
  if losses.flatten.length = 0 then .error .zeroDivision else .ok (losses.flatten.sum / losses.flatten.length)

end MJ
