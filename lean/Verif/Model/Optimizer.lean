import Verif.Model.Schedule
/-!
The optimiser `torch.optim.AdamW(model.parameters(), lr=learning_rate)` with its default settings
(MahjongAI/supervised_learning.py:93), over the reals.  It treats every entry of every parameter by itself, so the model is for
one number.  `betas` are 0.9 and 0.999, `eps` is 1e-8, `weight_decay` is 0.01 and `amsgrad` is off.
-/
namespace MJ

/-- the state that `AdamW` keeps for an entry: `step`, `exp_avg` and `exp_avg_sq` -/
structure AdamState where
  step : ℕ
  exp_avg : ℝ
  exp_avg_sq : ℝ

/-- the state before the first gradient -/
def AdamState.init : AdamState := ⟨0, 0, 0⟩

/-- the state after one more gradient: `exp_avg.lerp_(grad, 1 - beta1)`, `exp_avg_sq.mul_(beta2).addcmul_(grad, grad,
value=1 - beta2)` -/
noncomputable def AdamState.next (s : AdamState) (g : ℝ) : AdamState :=
  ⟨s.step + 1, s.exp_avg + (1 - 0.9) * (g - s.exp_avg), s.exp_avg_sq * 0.999 + (1 - 0.999) * (g * g)⟩

/-- the quotient `(exp_avg / bias_correction1) / (exp_avg_sq.sqrt() / bias_correction2 ** 0.5 + eps)`: the direction of the step -/
noncomputable def AdamState.direction (s : AdamState) : ℝ :=
  s.exp_avg / (1 - 0.9 ^ s.step) / (Real.sqrt s.exp_avg_sq / Real.sqrt (1 - 0.999 ^ s.step) + 1e-8)

/-- `optimizer.step()` for an entry (MahjongAI/supervised_learning.py:158): `param.mul_(1 - lr * weight_decay)`, then the step.
Entries without a gradient (`zero_grad`, l.156, sets it to `None`; the loss of a head does not reach the last layers of other
heads) are left alone. -/
noncomputable def adamStep (lr : ℝ) (s : AdamState) (x : ℝ) : Option ℝ → AdamState × ℝ
  | none => (s, x)
  | some g => (s.next g, x * (1 - lr * 0.01) - lr * (s.next g).direction)

/-- an entry during training: the step of the scheduler, the state of the optimiser, the value -/
structure EntryState where
  sched : ℕ
  adam : AdamState
  value : ℝ

/-- one loss (MahjongAI/supervised_learning.py:156-161): a step of the optimiser with the learning rate 1e-3 (l.19) times the
factor of the schedule, and a step of the scheduler.  If a new run of `train` begins before it (`restart`), optimiser and
scheduler are new and only the value has been kept in the checkpoint (l.93-118, 123-125, 182). -/
noncomputable def lossStep (restart : Bool) (g : Option ℝ) (e : EntryState) : EntryState :=
  let e := if restart then ⟨0, .init, e.value⟩ else e
  let r := adamStep (1e-3 * lrFactor e.sched) e.adam e.value g
  ⟨e.sched + 1, r.1, r.2⟩

/-- the entry after `n` losses; `g` are its gradients, whatever they are -/
noncomputable def entryAfter (restart : ℕ → Bool) (g : ℕ → Option ℝ) (x : ℝ) : ℕ → EntryState
  | 0 => ⟨0, .init, x⟩
  | n + 1 => lossStep (restart n) (g n) (entryAfter restart g x n)

end MJ
