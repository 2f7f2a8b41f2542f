import Verif.Model.Schedule
import Mathlib.Analysis.Real.Pi.Irrational
/-!
C75, C85, C86, C87: the learning-rate schedule, the masked loss, and the encoding tables, over the real numbers.
-/
namespace MJ
open Real

/-! ### C75 -/

theorem lrFactor_warm {k : ℕ} (h : k < 1000) : lrFactor k = k / 1000 := by
  unfold lrFactor
  rw [if_pos h]
  norm_num

theorem lrFactor_cos {k : ℕ} (h : 1000 ≤ k) : lrFactor k = (1 + cos (π * ((k : ℝ) - 1000) / 999000)) / 2 := by
  unfold lrFactor
  rw [if_neg (by omega)]
  have : (max 1 (1000000 - 1000) : ℝ) = 999000 := by norm_num
  rw [this]
  norm_num
  ring

/-- C75: the factor is between 0 and 1 at every step. -/
theorem C75_bounds (k : ℕ) : 0 ≤ lrFactor k ∧ lrFactor k ≤ 1 := by
  by_cases h : k < 1000
  · rw [lrFactor_warm h]
    have h1 : (k : ℝ) < 1000 := by exact_mod_cast h
    have h2 : (0 : ℝ) ≤ k := Nat.cast_nonneg k
    constructor
    · positivity
    · rw [div_le_one (by norm_num)]; exact h1.le
  · rw [lrFactor_cos (by omega)]
    have h1 := neg_one_le_cos (π * ((k : ℝ) - 1000) / 999000)
    have h2 := cos_le_one (π * ((k : ℝ) - 1000) / 999000)
    constructor <;> linarith

/-- C75: the factor rises linearly from 0 to 1 during the first 1000 steps. -/
theorem C75_warmup : lrFactor 0 = 0 ∧ lrFactor 1000 = 1 ∧ ∀ k ≤ 1000, lrFactor k = k / 1000 := by
  have h0 : lrFactor 0 = 0 := by rw [lrFactor_warm (by norm_num)]; norm_num
  have h1 : lrFactor 1000 = 1 := by rw [lrFactor_cos (le_refl _)]; norm_num
  refine ⟨h0, h1, ?_⟩
  intro k hk
  rcases Nat.lt_or_ge k 1000 with h | h
  · exact lrFactor_warm h
  · have : k = 1000 := by omega
    subst this
    rw [h1]; norm_num

theorem cos_arg {k : ℕ} (h : 1000 ≤ k) : 0 ≤ π * ((k : ℝ) - 1000) / 999000 := by
  have h1 : (1000 : ℝ) ≤ k := by exact_mod_cast h
  have := pi_pos.le
  have : 0 ≤ (k : ℝ) - 1000 := by linarith
  positivity

theorem cos_arg_le {k : ℕ} (h : k ≤ 1000000) : π * ((k : ℝ) - 1000) / 999000 ≤ π := by
  have h1 : (k : ℝ) ≤ 1000000 := by exact_mod_cast h
  rw [div_le_iff₀ (by norm_num)]
  have := pi_pos
  nlinarith

/-- C75: the factor falls strictly from 1 at step 1000 to 0 at step 1000000. -/
theorem C75_decay : lrFactor 1000000 = 0 ∧ ∀ j k : ℕ, 1000 ≤ j → j < k → k ≤ 1000000 → lrFactor k < lrFactor j := by
  constructor
  · rw [lrFactor_cos (by norm_num)]
    have : π * (((1000000 : ℕ) : ℝ) - 1000) / 999000 = π := by norm_num
    rw [this, cos_pi]; norm_num
  · intro j k hj hjk hk
    rw [lrFactor_cos hj, lrFactor_cos (by omega)]
    have hlt : π * ((j : ℝ) - 1000) / 999000 < π * ((k : ℝ) - 1000) / 999000 := by
      have h1 : (j : ℝ) < k := by exact_mod_cast hjk
      have := pi_pos
      apply div_lt_div_of_pos_right _ (by norm_num)
      nlinarith
    have := strictAntiOn_cos ⟨cos_arg hj, cos_arg_le (by omega)⟩ ⟨cos_arg (by omega), cos_arg_le hk⟩ hlt
    linarith

/-- C75, beyond the statement: nothing stops the schedule at step 1000000; after it the factor climbs back the way it
came, up to 1 again at step 1999000. -/
theorem C75_after_end (k : ℕ) (h : k ≤ 999000) : lrFactor (1000000 + k) = lrFactor (1000000 - k) := by
  rw [lrFactor_cos (by omega), lrFactor_cos (by omega)]
  have h1 : π * (((1000000 + k : ℕ) : ℝ) - 1000) / 999000 = 2 * π - π * (((1000000 - k : ℕ) : ℝ) - 1000) / 999000 := by
    rw [Nat.cast_sub (by omega)]
    push_cast
    ring
  rw [h1, cos_two_pi_sub]

/-! ### C85 -/

/-- C85 does not hold: a resumed run starts the schedule again.  For any two runs with `n` and `m + 1` steps,
`0 < n < 1000000`, step `n` overall gets factor 0 where an uninterrupted run of the same length gets a positive one. -/
theorem C85_schedule_continues_violated (n m : ℕ) (h0 : 0 < n) (h1 : n < 1000000) :
    (runFactors [n, m + 1])[n]? = some 0 ∧
    ∃ f, (runFactors [n + (m + 1)])[n]? = some f ∧ 0 < f ∧ runFactors [n, m + 1] ≠ runFactors [n + (m + 1)] := by
  have ha : (runFactors [n, m + 1])[n]? = some 0 := by
    unfold runFactors
    simp [C75_warmup.1]
  have hb : (runFactors [n + (m + 1)])[n]? = some (lrFactor n) := by
    unfold runFactors
    simp
  have hpos : 0 < lrFactor n := by
    rcases Nat.lt_or_ge n 1000 with h | h
    · rw [lrFactor_warm h]
      have : (0 : ℝ) < n := by exact_mod_cast h0
      positivity
    · have := C75_decay.2 n 1000000 h h1 (le_refl _)
      rw [C75_decay.1] at this
      exact this
  refine ⟨ha, lrFactor n, hb, hpos, ?_⟩
  intro e
  rw [e, hb] at ha
  simp only [Option.some.injEq] at ha
  linarith

/-- C85, what is used: every run goes through the factors of steps 0, 1, 2, … -/
theorem C85_factors_partial (runs : List ℕ) (n : ℕ) :
    runFactors (runs ++ [n]) = runFactors runs ++ (List.range n).map lrFactor := by
  simp [runFactors]

/-! ### C86 -/

theorem le_log_sum {n : ℕ} (l : Fin n → ℝ) (i : Fin n) : l i ≤ log (∑ j, exp (l j)) := by
  rw [le_log_iff_exp_le]
  · exact Finset.single_le_sum (f := fun j => exp (l j)) (fun j _ => (exp_pos _).le) (Finset.mem_univ i)
  · exact Finset.sum_pos (fun j _ => exp_pos _) ⟨i, Finset.mem_univ i⟩

/-- C86: the loss is never negative, and is minus the log of the probability of the label. -/
theorem C86_loss_nonneg {n : ℕ} (mask : Fin n → Int) (l : Fin n → ℝ) (y : Fin n) :
    0 ≤ crossEntropy (maskedLogits mask l) y ∧
    crossEntropy (maskedLogits mask l) y = - log (softmax (maskedLogits mask l) y) := by
  constructor
  · have := le_log_sum (maskedLogits mask l) y
    unfold crossEntropy
    linarith
  · have hpos : 0 < ∑ j, exp (maskedLogits mask l j) := Finset.sum_pos (fun j _ => exp_pos _) ⟨y, Finset.mem_univ y⟩
    unfold crossEntropy softmax
    rw [log_div (exp_ne_zero _) hpos.ne', log_exp]
    ring

/-- C86: an action that is not allowed gets at most probability exp(-10^9 - L), for L the logit of any allowed
action. -/
theorem C86_forbidden_probability {n : ℕ} (mask : Fin n → Int) (l : Fin n → ℝ) (i a : Fin n) (hi : mask i = 0)
    (ha : mask a ≠ 0) : softmax (maskedLogits mask l) i ≤ exp (-1000000000 - l a) := by
  unfold softmax
  have hpos : 0 < ∑ j, exp (maskedLogits mask l j) := Finset.sum_pos (fun j _ => exp_pos _) ⟨i, Finset.mem_univ i⟩
  have h1 : exp (l a) ≤ ∑ j, exp (maskedLogits mask l j) := by
    have := Finset.single_le_sum (f := fun j => exp (maskedLogits mask l j)) (fun j _ => (exp_pos _).le) (Finset.mem_univ a)
    simpa [maskedLogits, ha] using this
  have h2 : maskedLogits mask l i = -1000000000 := by simp [maskedLogits, hi]
  rw [h2, div_le_iff₀ hpos]
  calc exp (-1000000000) = exp (-1000000000 - l a) * exp (l a) := by rw [← exp_add]; congr 1; ring
    _ ≤ exp (-1000000000 - l a) * ∑ j, exp (maskedLogits mask l j) :=
      mul_le_mul_of_nonneg_left h1 (exp_pos _).le

/-- C86: if the label is not allowed by the mask (as happens, C59 and C60) and some action with logit L is, the loss of
the sample is at least 10^9 + L, whatever the network has learnt. -/
theorem C86_forbidden_label {n : ℕ} (mask : Fin n → Int) (l : Fin n → ℝ) (y a : Fin n) (hy : mask y = 0)
    (ha : mask a ≠ 0) : 1000000000 + l a ≤ crossEntropy (maskedLogits mask l) y := by
  have h1 := le_log_sum (maskedLogits mask l) a
  have h2 : maskedLogits mask l a = l a := by simp [maskedLogits, ha]
  have h3 : maskedLogits mask l y = -1000000000 := by simp [maskedLogits, hy]
  unfold crossEntropy
  rw [h3]
  rw [h2] at h1
  linarith

example : (fun _ : Fin 2 => (0 : Int)) 0 = 0 ∧ (fun i : Fin 2 => (if i = 0 then 0 else 1 : Int)) 1 ≠ 0 := by decide

/-! ### C87 -/

/-- C87: different positions have different rows, whatever the embedding size, already in the first two entries. -/
theorem C87_positions (e p q : ℕ) (h0 : positionTable e p 0 = positionTable e q 0)
    (h1 : positionTable e p 1 = positionTable e q 1) : p = q := by
  have hs : sin (p : ℝ) = sin (q : ℝ) := by simpa [positionTable] using h0
  have hc : cos (p : ℝ) = cos (q : ℝ) := by simpa [positionTable] using h1
  have hcos : cos ((p : ℝ) - q) = 1 := by
    rw [cos_sub, hs, hc]
    have := sin_sq_add_cos_sq (q : ℝ)
    nlinarith
  rw [cos_eq_one_iff] at hcos
  obtain ⟨n, hn⟩ := hcos
  by_cases hz : n = 0
  · subst hz
    simp only [Int.cast_zero, zero_mul] at hn
    have : (p : ℝ) = q := by linarith
    exact_mod_cast this
  · exfalso
    have hz' : (2 * (n : ℝ)) ≠ 0 := by
      have : (n : ℝ) ≠ 0 := by exact_mod_cast hz
      positivity
    have hpi : π = ((((p : ℤ) - q : ℤ) : ℚ) / ((2 * n : ℤ) : ℚ) : ℚ) := by
      push_cast
      rw [eq_div_iff hz']
      linarith
    exact irrational_pi ⟨_, hpi.symm⟩

/-- C87: the four players have different rows, already in the first two entries. -/
theorem C87_players (e p q : ℕ) (hp : p < 4) (hq : q < 4) (h0 : playerTable e p 0 = playerTable e q 0)
    (h1 : playerTable e p 1 = playerTable e q 1) : p = q := by
  have hs : sin ((p : ℝ) * (2 * π) / 4) = sin ((q : ℝ) * (2 * π) / 4) := by simpa [playerTable] using h0
  have hc : cos ((p : ℝ) * (2 * π) / 4) = cos ((q : ℝ) * (2 * π) / 4) := by simpa [playerTable] using h1
  have hcos : cos ((p : ℝ) * (2 * π) / 4 - (q : ℝ) * (2 * π) / 4) = 1 := by
    rw [cos_sub, hs, hc]
    have := sin_sq_add_cos_sq ((q : ℝ) * (2 * π) / 4)
    nlinarith
  rw [cos_eq_one_iff] at hcos
  obtain ⟨n, hn⟩ := hcos
  have h2 : (4 * n : ℝ) = p - q := by
    have := pi_pos
    have h3 : (4 * n - (p - q) : ℝ) * (2 * π) = 0 := by linarith
    rcases mul_eq_zero.1 h3 with h | h
    · linarith
    · linarith
  have h3 : (4 * n : ℤ) = (p : ℤ) - q := by exact_mod_cast h2
  omega

/-- C87: all entries of both tables are between -1 and 1. -/
theorem C87_bounded (e p j : ℕ) : |positionTable e p j| ≤ 1 ∧ |playerTable e p j| ≤ 1 := by
  unfold positionTable playerTable
  constructor <;> split <;> first | exact abs_sin_le_one _ | exact abs_cos_le_one _

end MJ
