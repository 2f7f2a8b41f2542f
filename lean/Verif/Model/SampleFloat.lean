import Verif.Model.Tensors
/-!
The samples are tensors of float32: `torch.tensor(..., dtype=torch.float32)` (MahjongAI/agents/transformer.py:692-699, 821,
1063-1147), and the tokens, which are `int64` at first, become float32 when they are joined with
`torch.zeros(150 - encoding_idx)` (lines 682-689); `Encoder.forward` turns them back to `int64` (line 186).  Model/Tensors.lean
has whole numbers in all these places.  Labels and players stay `int64`.
-/
namespace MJ

/-- a batch after every number has been stored, `rnd` being what storing does to a whole number -/
def Batch.stored (rnd : Int → Int) (b : Batch) : Batch :=
  { b with
    encodings := b.encodings.map (fun row => row.map (fun (t : Nat) => (rnd (t : Int)).toNat))
    x1 := b.x1.map (fun x => x.map (fun y => y.map (fun z => z.map rnd)))
    x2 := b.x2.map (fun x => x.map (fun y => y.map rnd))
    x3 := b.x3.map (fun x => x.map rnd)
    mask := b.mask.map (fun x => x.map rnd) }

end MJ
