import Verif.Spec.Rows
import Verif.Model.Network
/-!
What is expected of the networks, in terms of samples.
-/
namespace MJ.Spec

/-- the samples used: all of them, or, when sampling and there are more than `size`, `size` different ones -/
def Selected (sample : Bool) (size : Nat) (all used : List Row) : Prop :=
  if sample = true ∧ size < all.length then used.length = size ∧ ∃ rest, (used ++ rest).Perm all else used = all

/-- sample `b` of a batch as a batch of its own -/
def row {v : Variant} {h : Net.HeadName} {B : ℕ} (X : Net.Input v h B) (b : Fin B) : Net.Input v h 1 :=
  { tokens := fun _ => X.tokens b, x1 := fun _ => X.x1 b, x2 := fun _ => X.x2 b, x3 := fun _ => X.x3 b
    mask := fun _ => X.mask b, y := fun _ => X.y b, player := fun _ => X.player b }

/-- the largest absolute value that final layer norm and output layer can produce for action `a`, as a function of their
parameters: a normalised vector of 64 entries has entries of absolute value at most 8 -/
noncomputable def outputBound {n : ℕ} (ln : Net.LayerNorm 64) (l : Net.Linear 64 n) (a : Fin n) : ℝ :=
  ∑ i, |l.weight a i| * (8 * |ln.weight i| + |ln.bias i|) + |l.bias a|

end MJ.Spec
