import Verif.Model.Network
/-!
What is expected of the layers of the networks, in terms of sums over the entries.
-/
namespace MJ.Spec
open scoped BigOperators

/-- scalar product plus constant: one output of a linear layer -/
noncomputable def affine {n : ℕ} (w : Fin n → ℝ) (c : ℝ) (x : Fin n → ℝ) : ℝ := (∑ i, w i * x i) + c

/-- all outputs of a linear layer -/
noncomputable def outputs {m n : ℕ} (l : Net.Linear m n) (x : Fin m → ℝ) : Fin n → ℝ :=
  fun o => affine (l.weight o) (l.bias o) x

/-- `w` is the scaled dot-product attention of the query `q` to the keys `k`: positive shares that add up to one, in
proportions given by the scalar products of query and keys divided by the root of their length -/
structure Attends {T d : ℕ} (q : Fin d → ℝ) (k : Fin T → Fin d → ℝ) (w : Fin T → ℝ) : Prop where
  pos : ∀ t, 0 < w t
  sum : ∑ t, w t = 1
  ratio : ∀ t u, w t = w u * Real.exp ((∑ i, q i * k t i - ∑ i, q i * k u i) / Real.sqrt d)

/-- `z` is `x` moved and scaled to mean zero and (nearly) unit variance -/
def Normalised {n : ℕ} (x z : Fin n → ℝ) : Prop :=
  ∃ m s : ℝ, n * m = ∑ i, x i ∧ 0 < s ∧ s ^ 2 * ((∑ i, (x i - m) ^ 2) / n + 1 / 100000) = 1 ∧ ∀ i, z i = (x i - m) * s

/-- the largest absolute value of an output of a linear layer, given bounds for its inputs -/
noncomputable def linBound {m n : ℕ} (l : Net.Linear m n) (c : Fin m → ℝ) (a : Fin n) : ℝ :=
  ∑ i, |l.weight a i| * c i + |l.bias a|

/-- the largest absolute value of an output of a layer norm of 64 entries -/
noncomputable def normBound (ln : Net.LayerNorm 64) (i : Fin 64) : ℝ := 8 * |ln.weight i| + |ln.bias i|

/-- the most that attention to vectors bounded by `c` can add to entry `i`: output `j` of the heads is entry `j % 8` of
head `j / 8` -/
noncomputable def attnBound (m : Net.MultiHeadAttention) (c : Fin 64 → ℝ) (i : Fin 64) : ℝ :=
  linBound m.proj (fun j => linBound (m.heads j.divNat).value c j.modNat) i

/-- the most that the feed-forward layer can add to entry `i` -/
noncomputable def ffBound (f : Net.FeedForward) (c : Fin 64 → ℝ) (i : Fin 64) : ℝ := linBound f.l2 (linBound f.l1 c) i

/-- the most that an encoder block can change entry `i` of any vector by -/
noncomputable def encBound (e : Net.EncoderBlock) (i : Fin 64) : ℝ :=
  attnBound e.self_attention (normBound e.ln1) i + ffBound e.ffwd (normBound e.ln2) i

/-- the most that a decoder block can change entry `i` by, for encoder outputs bounded by `c` -/
noncomputable def decBound (v : Variant) (d : Net.DecoderBlock) (c : Fin 64 → ℝ) (i : Fin 64) : ℝ :=
  (match v with
    | .ordered => attnBound d.self_attention (normBound d.ln1) i
    | _ => attnBound d.self_attention c i) +
  attnBound d.cross_attention c i + ffBound d.ffwd (normBound d.ln3) i

/-- slots of consecutive tiles of a suit; slots 34 to 36 are the red fives -/
def consecutive (p q : ℕ) : Prop :=
  p / 9 = q / 9 ∧ p < 27 ∧ (p + 1 = q ∨ q + 1 = p) ∨
  34 ≤ p ∧ (q + 1 = 9 * (p - 34) + 4 ∨ q = 9 * (p - 34) + 5) ∨
  34 ≤ q ∧ (p + 1 = 9 * (q - 34) + 4 ∨ p = 9 * (q - 34) + 5)

end MJ.Spec
