import Verif.Model.Schedule
/-!
The loss of a sample once more, in float32 arithmetic: `masked_fill` and `F.cross_entropy` (MahjongAI/agents/transformer.py:334-336
and the same lines of the other models) on the numbers that are really used.

`F.cross_entropy` computes, for the logits `x` of a sample with the largest one `m` and the label `y`, the sum `s` of the
`exp (x j - m)` and the loss `- ((x y - m) - log s)`, rounding after each operation.  The order in which the sum is taken is
left open, and so are the last digits of `exp` and `log`.
-/
namespace MJ.Loss32

/-- a number of the format float32: a whole number of at most 24 binary digits times a power of two from 2^-149 on.  (Numbers
from 2^128 on overflow; the results below are far smaller.) -/
def IsFloat (x : ℝ) : Prop := ∃ m e : ℤ, |m| ≤ 2 ^ 24 ∧ -149 ≤ e ∧ x = m * (2 : ℝ) ^ e

/-- how real numbers are rounded, and how `exp` and `log` are computed -/
structure Arith where
  round : ℝ → ℝ
  exp : ℝ → ℝ
  log : ℝ → ℝ

/-- the results of adding up a list in any order, two numbers at a time, rounding after each addition -/
inductive SumOf (round : ℝ → ℝ) : List ℝ → ℝ → Prop where
  | nil : SumOf round [] 0
  | one (x : ℝ) : SumOf round [x] x
  | add {l k : List ℝ} {x y : ℝ} (h : SumOf round l x) (h' : SumOf round k y) : SumOf round (l ++ k) (round (x + y))
  | perm {l k : List ℝ} {x : ℝ} (h : SumOf round l x) (p : l.Perm k) : SumOf round k x

/-- the largest logit `m` and the sum `s` that are computed from the logits `xs` -/
structure Sums (A : Arith) (xs : List ℝ) (m s : ℝ) : Prop where
  mem : m ∈ xs
  max : ∀ x ∈ xs, x ≤ m
  sum : SumOf A.round (xs.map fun x => A.exp (A.round (x - m))) s

/-- the logarithm of the probability of an action with logit `x` -/
noncomputable def logProb (A : Arith) (m s x : ℝ) : ℝ := A.round (A.round (x - m) - A.log s)

/-- a loss that can be computed from the logits `xs` if the logit of the label is `x` -/
def Loss (A : Arith) (xs : List ℝ) (x loss : ℝ) : Prop := ∃ m s, Sums A xs m s ∧ loss = - logProb A m s x

/-- a probability that can be computed for an action with logit `x`; the gradient consists of these -/
def Prob (A : Arith) (xs : List ℝ) (x p : ℝ) : Prop := ∃ m s, Sums A xs m s ∧ p = A.exp (logProb A m s x)

/-- `reduction="mean"` -/
def Mean (A : Arith) (losses : List ℝ) (mean : ℝ) : Prop :=
  ∃ t, SumOf A.round losses t ∧ mean = A.round (t / losses.length)

end MJ.Loss32
