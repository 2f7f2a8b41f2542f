import Verif.Model.Optimizer
import Verif.Props.Schedule
import Verif.Props.Dropout
import Verif.Spec.Moves
import Mathlib.Analysis.SpecialFunctions.Sqrt
/-!
C134: the parameters during training.
-/
namespace MJ
open Real

/-- states in which the average of the gradients is small compared to the average of their squares -/
def AdamState.Tame (s : AdamState) : Prop := 0 ≤ s.exp_avg_sq ∧ s.exp_avg ^ 2 ≤ 53 * s.exp_avg_sq

theorem tame_init : AdamState.init.Tame := by simp [AdamState.Tame, AdamState.init]

theorem tame_next {s : AdamState} (h : s.Tame) (g : ℝ) : (s.next g).Tame := by
  obtain ⟨h0, h1⟩ := h
  unfold AdamState.Tame AdamState.next
  dsimp only
  refine ⟨by nlinarith [mul_self_nonneg g], ?_⟩
  -- the difference of the two sides is a square plus a non-negative multiple of the hypothesis
  nlinarith [sq_nonneg (0.189 * s.exp_avg * 0.9 - 0.811 * 0.1 * g), mul_self_nonneg g, h1, h0]

theorem bias_le (n : ℕ) : 1 - (0.999 : ℝ) ^ n ≤ (1 - 0.9 ^ n) ^ 2 := by
  have h : 2 * (0.9 : ℝ) ^ n ≤ 0.999 ^ n + (0.9 ^ n) ^ 2 := by
    by_cases hn : n < 7
    · interval_cases n <;> norm_num
    · have h7 : ∀ k : ℕ, 2 * (0.9 : ℝ) ^ (7 + k) ≤ 0.999 ^ (7 + k) := by
        intro k
        induction k with
        | zero => norm_num
        | succ k ih =>
          rw [← add_assoc, pow_succ, pow_succ]
          have : (0 : ℝ) < 0.999 ^ (7 + k) := by positivity
          have : (0 : ℝ) < 0.9 ^ (7 + k) := by positivity
          nlinarith
      obtain ⟨k, rfl⟩ := Nat.exists_eq_add_of_le (Nat.not_lt.1 hn)
      have := h7 k
      have := sq_nonneg ((0.9 : ℝ) ^ (7 + k))
      linarith
  nlinarith

/-- the direction of a step is never longer than 7.3 -/
theorem direction_le {s : AdamState} (h : s.Tame) (hs : 0 < s.step) : |s.direction| ≤ 7.3 := by
  obtain ⟨h0, h1⟩ := h
  have hb1 : 0 < 1 - (0.9 : ℝ) ^ s.step := by
    have : (0.9 : ℝ) ^ s.step < 1 := pow_lt_one₀ (by norm_num) (by norm_num) (by omega)
    linarith
  have hb2 : 0 < 1 - (0.999 : ℝ) ^ s.step := by
    have : (0.999 : ℝ) ^ s.step < 1 := pow_lt_one₀ (by norm_num) (by norm_num) (by omega)
    linarith
  have hs2 : 0 < √(1 - (0.999 : ℝ) ^ s.step) := sqrt_pos.2 hb2
  have hle : √(1 - (0.999 : ℝ) ^ s.step) ≤ 1 - 0.9 ^ s.step := by
    rw [← sqrt_sq hb1.le]
    exact sqrt_le_sqrt (bias_le s.step)
  have hm : |s.exp_avg| ≤ 7.3 * √s.exp_avg_sq := by
    rw [← sqrt_sq (show (0:ℝ) ≤ 7.3 by norm_num), ← sqrt_mul (by positivity), ← sqrt_sq_eq_abs]
    exact sqrt_le_sqrt (by nlinarith)
  have hv : 0 ≤ √s.exp_avg_sq := sqrt_nonneg _
  have hd : 0 < √s.exp_avg_sq / √(1 - (0.999 : ℝ) ^ s.step) + 1e-8 := by positivity
  unfold AdamState.direction
  rw [abs_div, abs_div, abs_of_pos hd, abs_of_pos hb1, div_le_iff₀ hd, div_le_iff₀ hb1]
  have h2 : √s.exp_avg_sq ≤ √s.exp_avg_sq / √(1 - (0.999 : ℝ) ^ s.step) * (1 - 0.9 ^ s.step) := by
    rw [div_mul_eq_mul_div, le_div_iff₀ hs2]
    exact mul_le_mul_of_nonneg_left hle hv
  have h3 : 0 < (1e-8 : ℝ) * (1 - 0.9 ^ s.step) := by positivity
  nlinarith

theorem lossStep_tame {restart : Bool} {g : Option ℝ} {e : EntryState} (h : e.adam.Tame) : (lossStep restart g e).adam.Tame := by
  unfold lossStep
  cases restart <;> cases g <;> simp only [adamStep, if_true, Bool.false_eq_true, if_false]
  · exact h
  · exact tame_next h _
  · exact tame_init
  · exact tame_next tame_init _

theorem entryAfter_tame (restart : ℕ → Bool) (g : ℕ → Option ℝ) (x : ℝ) : ∀ n, (entryAfter restart g x n).adam.Tame
  | 0 => tame_init
  | n + 1 => lossStep_tame (entryAfter_tame restart g x n)

/-- the learning rate that the step after `n` losses has -/
noncomputable def rateAt (restart : ℕ → Bool) (g : ℕ → Option ℝ) (x : ℝ) (n : ℕ) : ℝ :=
  1e-3 * lrFactor (if restart n then 0 else (entryAfter restart g x n).sched)

theorem rateAt_bounds (restart : ℕ → Bool) (g : ℕ → Option ℝ) (x : ℝ) (n : ℕ) :
    0 ≤ rateAt restart g x n ∧ rateAt restart g x n ≤ 0.001 := by
  have := C75_bounds (if restart n then 0 else (entryAfter restart g x n).sched)
  unfold rateAt
  constructor <;> nlinarith [this.1, this.2]

/-- the value after one more loss -/
theorem value_next (restart : ℕ → Bool) (g : ℕ → Option ℝ) (x : ℝ) (n : ℕ) :
    (entryAfter restart g x (n + 1)).value = (entryAfter restart g x n).value ∨
    ∃ d, |d| ≤ 7.3 ∧ (entryAfter restart g x (n + 1)).value =
      (entryAfter restart g x n).value * (1 - rateAt restart g x n * 0.01) - rateAt restart g x n * d := by
  have ht := entryAfter_tame restart g x n
  unfold rateAt
  simp only [entryAfter, lossStep]
  generalize entryAfter restart g x n = e at ht ⊢
  cases g n with
  | none => left; cases restart n <;> simp [adamStep]
  | some y =>
    right
    cases restart n
    · exact ⟨_, direction_le (tame_next ht y) (Nat.succ_pos _), rfl⟩
    · exact ⟨_, direction_le (tame_next tame_init y) (Nat.succ_pos _), rfl⟩

/-- C134: one optimiser step moves a parameter by at most 7.3 learning rates plus one hundredth of a learning rate times its
size, whatever the gradients are. -/
theorem C134_step (restart : ℕ → Bool) (g : ℕ → Option ℝ) (x : ℝ) (n : ℕ) :
    |(entryAfter restart g x (n + 1)).value - (entryAfter restart g x n).value| ≤
      rateAt restart g x n * (7.3 + |(entryAfter restart g x n).value| / 100) := by
  have hr := (rateAt_bounds restart g x n).1
  rcases value_next restart g x n with h | ⟨d, hd, h⟩
  · rw [h, sub_self, abs_zero]
    positivity
  · rw [h]
    have : (entryAfter restart g x n).value * (1 - rateAt restart g x n * 0.01) - rateAt restart g x n * d -
        (entryAfter restart g x n).value = - (rateAt restart g x n * (d + (entryAfter restart g x n).value / 100)) := by ring
    rw [this, abs_neg, abs_mul, abs_of_nonneg hr]
    refine mul_le_mul_of_nonneg_left ((abs_add_le _ _).trans ?_) hr
    rw [abs_div, abs_of_pos (show (0:ℝ) < 100 by norm_num)]
    linarith

/-- C134: during training, of any length, with any data, with any number of interruptions, no parameter gets larger than 730
or than it was at the beginning. -/
theorem C134_bounded (restart : ℕ → Bool) (g : ℕ → Option ℝ) (x : ℝ) (n : ℕ) :
    |(entryAfter restart g x n).value| ≤ max |x| 730 := by
  induction n with
  | zero => exact le_max_left _ _
  | succ n ih =>
    obtain ⟨h0, h1⟩ := rateAt_bounds restart g x n
    rcases value_next restart g x n with h | ⟨d, hd, h⟩
    · rw [h]; exact ih
    · rw [h]
      have hm : (730 : ℝ) ≤ max |x| 730 := le_max_right _ _
      generalize max |x| 730 = M at *
      generalize (entryAfter restart g x n).value = y at *
      generalize rateAt restart g x n = r at *
      rw [abs_le] at *
      have ha : 0 ≤ 1 - r * 0.01 := by nlinarith
      constructor <;> nlinarith [mul_le_mul_of_nonneg_left hd.1 h0, mul_le_mul_of_nonneg_left hd.2 h0,
        mul_le_mul_of_nonneg_left ih.1 ha, mul_le_mul_of_nonneg_left ih.2 ha, mul_le_mul_of_nonneg_left hm h0]

/-- C134: parameters without a gradient are not changed. -/
theorem C134_untouched (restart : ℕ → Bool) (x : ℝ) (n : ℕ) : (entryAfter restart (fun _ => none) x n).value = x := by
  induction n with
  | zero => rfl
  | succ n ih =>
    simp only [entryAfter, lossStep, adamStep]
    cases restart n <;> simpa using ih

/-- C134: the first loss of every run changes no parameter: the factor of the schedule is zero. -/
theorem C134_first (restart : ℕ → Bool) (g : ℕ → Option ℝ) (x : ℝ) (n : ℕ) (h : n = 0 ∨ restart n = true) :
    (entryAfter restart g x (n + 1)).value = (entryAfter restart g x n).value := by
  have hr : rateAt restart g x n = 0 := by
    unfold rateAt
    have : (if restart n then 0 else (entryAfter restart g x n).sched) = 0 := by
      rcases h with rfl | h
      · simp [entryAfter]
      · simp [h]
    rw [this, C75_warmup.1, mul_zero]
  have := C134_step restart g x n
  rw [hr, zero_mul] at this
  exact sub_eq_zero.1 (abs_eq_zero.1 (le_antisymm this (abs_nonneg _)))

theorem direction_pos {s : AdamState} {g : ℝ} (h : 0 ≤ s.exp_avg) (hg : 0 < g) : 0 ≤ (s.next g).exp_avg ∧ 0 < (s.next g).direction := by
  have hm : 0 < (s.next g).exp_avg := by
    simp only [AdamState.next]
    nlinarith
  have hb1 : 0 < 1 - (0.9 : ℝ) ^ (s.next g).step := by
    have : (0.9 : ℝ) ^ (s.next g).step < 1 := pow_lt_one₀ (by norm_num) (by norm_num) (by simp [AdamState.next])
    linarith
  refine ⟨hm.le, ?_⟩
  unfold AdamState.direction
  have : 0 ≤ √(s.next g).exp_avg_sq / √(1 - 0.999 ^ (s.next g).step) := by positivity
  exact div_pos (div_pos hm hb1) (by positivity)

/-- C134: if the loss has always grown with the parameter, each step makes the parameter smaller than weight decay alone does,
provided that the learning rate is not zero. -/
theorem C134_against (restart : ℕ → Bool) (g : ℕ → Option ℝ) (x : ℝ) (n : ℕ) (hg : ∀ k ≤ n, ∃ y, 0 < y ∧ g k = some y) :
    (0 < rateAt restart g x n → (entryAfter restart g x (n + 1)).value <
      (entryAfter restart g x n).value * (1 - rateAt restart g x n * 0.01)) := by
  have ha : ∀ m, m ≤ n + 1 → 0 ≤ (entryAfter restart g x m).adam.exp_avg := by
    intro m
    induction m with
    | zero => intro _; simp [entryAfter, AdamState.init]
    | succ m ih =>
      intro hm
      obtain ⟨y, hy, hgy⟩ := hg m (by omega)
      simp only [entryAfter, lossStep, hgy, adamStep]
      cases restart m
      · exact (direction_pos (ih (by omega)) hy).1
      · exact (direction_pos (s := .init) le_rfl hy).1
  obtain ⟨y, hy, hgy⟩ := hg n le_rfl
  unfold rateAt
  simp only [entryAfter, lossStep, hgy, adamStep]
  intro hr
  cases hrn : restart n
  · have := (direction_pos (ha n (by omega)) hy).2
    simp only [hrn, Bool.false_eq_true, if_false] at hr ⊢
    nlinarith [mul_pos hr this]
  · simp [hrn, C75_warmup.1] at hr

/-- parameters do move -/
example : (entryAfter (fun _ => false) (fun _ => some 1) 0 2).value < 0 := by
  have hr : 0 < rateAt (fun _ => false) (fun _ => some 1) 0 1 := by
    have := C75_warmup.2.2 1 (by norm_num)
    simp only [rateAt, entryAfter, lossStep, Bool.false_eq_true, if_false, zero_add, this]
    norm_num
  have h := C134_against (fun _ => false) (fun _ => some 1) 0 1 (fun k _ => ⟨1, one_pos, rfl⟩) hr
  have h1 := C134_first (fun _ => false) (fun _ => some 1) 0 0 (Or.inl rfl)
  simp only [zero_add] at h1
  rw [h1] at h
  simpa [entryAfter] using h

/-- C134: a parameter on which the losses do not depend but which gets the gradient zero shrinks by weight decay only. -/
theorem C134_decay (restart : ℕ → Bool) (x : ℝ) (n : ℕ) :
    (entryAfter restart (fun _ => some 0) x (n + 1)).value =
      (entryAfter restart (fun _ => some 0) x n).value * (1 - rateAt restart (fun _ => some 0) x n * 0.01) := by
  have hz : ∀ s : AdamState, s.exp_avg = 0 → (s.next 0).exp_avg = 0 ∧ (s.next 0).direction = 0 := by
    intro s h
    have h1 : (s.next 0).exp_avg = 0 := by simp [AdamState.next, h]
    exact ⟨h1, by simp [AdamState.direction, h1]⟩
  have ha : ∀ m, (entryAfter restart (fun _ => some 0) x m).adam.exp_avg = 0 := by
    intro m
    induction m with
    | zero => rfl
    | succ m ih =>
      simp only [entryAfter, lossStep, adamStep]
      cases restart m
      · exact (hz _ ih).1
      · exact (hz .init rfl).1
  have ha := ha n
  unfold rateAt
  simp only [entryAfter, lossStep, adamStep]
  cases restart n
  · simp [(hz _ ha).2]
  · simp [(hz .init rfl).2]

theorem averages_const (restart : ℕ → Bool) (g : ℕ → Option ℝ) (x y : ℝ) (m : ℕ) (h0 : m = 0 ∨ restart m = true) (k : ℕ)
    (hr : ∀ i < k, restart (m + 1 + i) = false) (hg : ∀ i ≤ k, g (m + i) = some y) :
    (entryAfter restart g x (m + k + 1)).adam = ⟨k + 1, y * (1 - 0.9 ^ (k + 1)), y ^ 2 * (1 - 0.999 ^ (k + 1))⟩ := by
  induction k with
  | zero =>
    have h := hg 0 (Nat.le_refl 0)
    simp only [Nat.add_zero] at h
    have hb : (if restart m then AdamState.init else (entryAfter restart g x m).adam) = .init := by
      rcases h0 with rfl | h0
      · cases restart 0 <;> rfl
      · rw [h0]; rfl
    have hl : ∀ (r : Bool) (e : EntryState), (lossStep r (some y) e).adam = (if r then AdamState.init else e.adam).next y := by
      intro r e
      cases r <;> rfl
    rw [Nat.add_zero, entryAfter, h, hl, hb]
    simp only [AdamState.next, AdamState.init]
    congr 1 <;> ring
  | succ k ih =>
    have ih := ih (fun i hi => hr i (by omega)) (fun i hi => hg i (by omega))
    have h1 := hr k (by omega)
    rw [show m + 1 + k = m + k + 1 by omega] at h1
    have h2 := hg (k + 1) (by omega)
    rw [show m + (k + 1) = m + k + 1 by omega] at h2
    rw [show m + (k + 1) + 1 = (m + k + 1) + 1 by omega, entryAfter]
    simp only [lossStep, h1, h2, adamStep, ih, AdamState.next, Bool.false_eq_true, if_false]
    congr 1 <;> ring

/-- C134: while the gradient has been the same number since the beginning of the run, the averages give back this number exactly,
from the first step on: apart from weight decay the parameter moves by the learning rate against the sign of the gradient, less a
share that is noticeable only for gradients around 1e-8. -/
theorem C134_constant (restart : ℕ → Bool) (g : ℕ → Option ℝ) (x y : ℝ) (m : ℕ) (h0 : m = 0 ∨ restart m = true) (k : ℕ)
    (hr : ∀ i < k, restart (m + 1 + i) = false) (hg : ∀ i ≤ k, g (m + i) = some y) :
    (entryAfter restart g x (m + k + 1)).value = (entryAfter restart g x (m + k)).value * (1 - rateAt restart g x (m + k) * 0.01)
      - rateAt restart g x (m + k) * (y / (|y| + 1e-8)) := by
  have ha := averages_const restart g x y m h0 k hr hg
  have hd : (entryAfter restart g x (m + k + 1)).adam.direction = y / (|y| + 1e-8) := by
    have h1 : (0.9 : ℝ) ^ (k + 1) < 1 := pow_lt_one₀ (by norm_num) (by norm_num) (by omega)
    have h2 : (0.999 : ℝ) ^ (k + 1) < 1 := pow_lt_one₀ (by norm_num) (by norm_num) (by omega)
    rw [ha]
    simp only [AdamState.direction]
    rw [mul_div_assoc, div_self (by linarith), mul_one, Real.sqrt_mul (sq_nonneg y), Real.sqrt_sq_eq_abs, mul_div_assoc,
      div_self (Real.sqrt_ne_zero'.2 (by linarith)), mul_one]
  rw [← hd]
  unfold rateAt
  have h2 := hg k (Nat.le_refl k)
  simp only [entryAfter, lossStep, h2, adamStep]
  cases restart (m + k) <;> simp

end MJ
namespace MJ.Net
open MJ.Spec

/-- C134: during training, of any length, with any data and any interruptions, every allowed action gets a larger logit than
every forbidden one, on every input, in evaluation and in training mode, if the parameters were at most 730 at the beginning. -/
theorem C134_forbidden_below {v : Variant} {h : HeadName} {B : ℕ} (restart : ℕ → Bool) {p : ℕ → Params v}
    (hp : ParamsIn (fun f : ℕ → ℝ => |f 0| ≤ 730 ∧ ∃ g, ∀ n, f n = (entryAfter restart g (f 0) n).value) p)
    (n : ℕ) (gelu : ℝ → ℝ) (X : Input v h B) (b : Fin B) (a f : Fin (actionDim h)) (ha : X.mask b a ≠ 0) (hf : X.mask b f = 0) :
    (∀ o, run gelu (p n) X = .ok o → o.logits b f < o.logits b a) ∧
    (∀ r o, runDrop gelu (p n) r X = .ok o → o.logits b f < o.logits b a) := by
  have key : ∀ f : ℕ → ℝ, (|f 0| ≤ 730 ∧ ∃ g, ∀ n, f n = (entryAfter restart g (f 0) n).value) → |f n| ≤ 1000 := by
    rintro f ⟨h0, g, hg⟩
    rw [hg n]
    refine (C134_bounded restart g (f 0) n).trans ((max_le h0 le_rfl).trans (by norm_num))
  have hb : ∀ a, outputBound (p n).ln_f ((p n).heads h) a < 1000000000 := C97_small _ _
    (fun i => ⟨key (fun t => (p t).ln_f.weight i) (hp.ln_f.weight i), key (fun t => (p t).ln_f.bias i) (hp.ln_f.bias i)⟩)
    (fun a => ⟨key (fun t => ((p t).heads h).bias a) ((hp.heads h).bias a), fun i => key (fun t => ((p t).heads h).weight a i) ((hp.heads h).weight a i)⟩)
  exact ⟨fun o ho => C97_forbidden_below ho hb b a f ha hf, fun r o ho => C130_forbidden_below ho hb b a f ha hf⟩

end MJ.Net
