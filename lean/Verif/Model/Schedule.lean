import Mathlib.Analysis.SpecialFunctions.Trigonometric.Basic
import Mathlib.Analysis.SpecialFunctions.Log.Basic
import Mathlib.Analysis.SpecialFunctions.Pow.Real
/-!
The numeric formulas of training, over the real numbers (floating point rounding is not modelled): the learning-rate
schedule, the masked cross-entropy loss, and the two fixed encoding tables.
-/
namespace MJ

/-- the factor `lr_lambda` (MahjongAI/supervised_learning.py:96-115) -/
noncomputable def lrFactor (step : ℕ) : ℝ :=
  if step < 1000 then (step : ℝ) / (max 1 1000 : ℝ)
  else 0.5 * (1.0 + Real.cos (Real.pi * ((step : ℝ) - 1000) / (max 1 (1000000 - 1000) : ℝ)))

/-- the factors used by the optimiser steps of successive runs of `train`, given the number of steps of each: every
run makes a new scheduler (MahjongAI/supervised_learning.py:93-118), whose first factor is for step 0, and steps it
once per optimiser step (l.156-161); only the model is saved (l.182) -/
noncomputable def runFactors (runs : List ℕ) : List ℝ := runs.flatMap (fun n => (List.range n).map lrFactor)

/-- `logits.masked_fill(action_mask_batch == 0, -1e9)` for one sample
(MahjongAI/agents/transformer.py:334, MahjongAI/agents/transformer_conv_ordered.py:356) -/
noncomputable def maskedLogits {n : ℕ} (mask : Fin n → Int) (logits : Fin n → ℝ) : Fin n → ℝ :=
  fun i => if mask i = 0 then -1000000000 else logits i

/-- `F.cross_entropy` for one sample (MahjongAI/agents/transformer.py:336) -/
noncomputable def crossEntropy {n : ℕ} (logits : Fin n → ℝ) (y : Fin n) : ℝ :=
  Real.log (∑ i, Real.exp (logits i)) - logits y

/-- the probability the model gives to an action -/
noncomputable def softmax {n : ℕ} (logits : Fin n → ℝ) (i : Fin n) : ℝ :=
  Real.exp (logits i) / ∑ j, Real.exp (logits j)

/-- entry `j` of row `p` of `_get_position_encoding` (MahjongAI/agents/transformer.py:145-153), for embedding size `e` -/
noncomputable def positionTable (e : ℕ) (p j : ℕ) : ℝ :=
  if j % 2 = 0 then Real.sin (p * Real.exp ((j : ℝ) * -(Real.log 10000 / e)))
  else Real.cos (p * Real.exp (((j - 1 : ℕ) : ℝ) * -(Real.log 10000 / e)))

/-- entry `j` of row `p` of `_get_player_encoding` (MahjongAI/agents/transformer.py:155-175) -/
noncomputable def playerTable (e : ℕ) (p j : ℕ) : ℝ :=
  if j % 2 = 0 then Real.sin (p * (2 * Real.pi) / 4 / (10000 : ℝ) ^ ((j : ℝ) / e))
  else Real.cos (p * (2 * Real.pi) / 4 / (10000 : ℝ) ^ (((j - 1 : ℕ) : ℝ) / e))

end MJ
