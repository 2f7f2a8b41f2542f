import Verif.Props.Schedule
/-!
C164: what the fixed tables of the encoder are.  Each row consists of points on circles, one for every two entries; the code of
position `p` has turned by `p` times the speed of the circle.
-/
namespace MJ
open Real Finset

/-- the speed of the circle number `k`: the speeds fall geometrically from 1 towards 1/10000 -/
noncomputable def circleSpeed (e k : ℕ) : ℝ := (10000 : ℝ) ^ (-((2 * k : ℕ) : ℝ) / e)

/-- the inner product of two rows -/
noncomputable def alike (e : ℕ) (r s : ℕ → ℝ) : ℝ := ∑ j ∈ range e, r j * s j

theorem sum_pairs (f : ℕ → ℝ) (h : ℕ) : ∑ j ∈ range (2 * h), f j = ∑ k ∈ range h, (f (2 * k) + f (2 * k + 1)) := by
  induction h with
  | zero => simp
  | succ h ih => rw [sum_range_succ, ← ih, show 2 * (h + 1) = 2 * h + 1 + 1 by ring, sum_range_succ, sum_range_succ, add_assoc]

/-- C164: the speed of the first circle is 1, each is the same fraction of the one before, and all of them are above 1/10000. -/
theorem C164_speeds {e : ℕ} (he : 0 < e) :
    circleSpeed e 0 = 1 ∧ (∀ k, circleSpeed e (k + 1) = circleSpeed e k * (10000 : ℝ) ^ (-2 / (e : ℝ))) ∧
    (∀ k l, k < l → circleSpeed e l < circleSpeed e k) ∧ ∀ k, 2 * k < e → 1 / 10000 < circleSpeed e k ∧ circleSpeed e k ≤ 1 := by
  have he' : (0 : ℝ) < e := by exact_mod_cast he
  have anti : ∀ k l, k < l → circleSpeed e l < circleSpeed e k := by
    intro k l h
    refine rpow_lt_rpow_of_exponent_lt (by norm_num) ?_
    rw [div_lt_div_iff_of_pos_right he']
    have : ((2 * k : ℕ) : ℝ) < ((2 * l : ℕ) : ℝ) := by exact_mod_cast (by omega : 2 * k < 2 * l)
    linarith
  refine ⟨by simp [circleSpeed], fun k => ?_, anti, fun k hk => ⟨?_, ?_⟩⟩
  · unfold circleSpeed
    rw [← rpow_add (by norm_num)]
    congr 1
    push_cast
    ring
  · have h1 : (1 : ℝ) / 10000 = (10000 : ℝ) ^ (-1 : ℝ) := by rw [rpow_neg_one]; norm_num
    rw [h1]
    refine rpow_lt_rpow_of_exponent_lt (by norm_num) ?_
    have : ((2 * k : ℕ) : ℝ) < e := by exact_mod_cast hk
    rw [lt_div_iff₀ he']
    linarith
  · refine rpow_le_one_of_one_le_of_nonpos (by norm_num) ?_
    rw [neg_div]
    exact neg_nonpos.2 (by positivity)

/-- C164: entries `2k` and `2k+1` of a row are a point on a circle: the code of a position has turned by the position times the
speed of the circle, the code of a seat by a quarter of a turn per seat times the speed. -/
theorem C164_circles (e p k : ℕ) :
    positionTable e p (2 * k) = sin (p * circleSpeed e k) ∧ positionTable e p (2 * k + 1) = cos (p * circleSpeed e k) ∧
    playerTable e p (2 * k) = sin (p * (π / 2) * circleSpeed e k) ∧ playerTable e p (2 * k + 1) = cos (p * (π / 2) * circleSpeed e k) := by
  have h1 : rexp (((2 * k : ℕ) : ℝ) * -(Real.log 10000 / e)) = circleSpeed e k := by
    unfold circleSpeed
    rw [rpow_def_of_pos (by norm_num)]
    congr 1
    ring
  have h2 : ∀ x : ℝ, x * (2 * π) / 4 / (10000 : ℝ) ^ (((2 * k : ℕ) : ℝ) / e) = x * (π / 2) * circleSpeed e k := by
    intro x
    unfold circleSpeed
    rw [neg_div, rpow_neg (by norm_num)]
    ring
  have e1 : (2 * k) % 2 = 0 := by omega
  have e2 : ¬ (2 * k + 1) % 2 = 0 := by omega
  unfold positionTable playerTable
  simp only [e1, e2, if_true, if_false, Nat.add_sub_cancel, h1, h2, and_self]

/-- C164: how alike the codes of two positions are depends on their distance only; it is greatest at distance zero and nowhere
else. -/
theorem C164_alike (h p q : ℕ) :
    alike (2 * h) (positionTable (2 * h) p) (positionTable (2 * h) q) = ∑ k ∈ range h, cos (((p : ℝ) - q) * circleSpeed (2 * h) k) ∧
    alike (2 * h) (positionTable (2 * h) p) (positionTable (2 * h) q) ≤ h ∧
    (0 < h → (alike (2 * h) (positionTable (2 * h) p) (positionTable (2 * h) q) = h ↔ p = q)) := by
  have key : alike (2 * h) (positionTable (2 * h) p) (positionTable (2 * h) q)
      = ∑ k ∈ range h, cos (((p : ℝ) - q) * circleSpeed (2 * h) k) := by
    unfold alike
    rw [sum_pairs]
    refine sum_congr rfl fun k _ => ?_
    rw [(C164_circles _ p k).1, (C164_circles _ p k).2.1, (C164_circles _ q k).1, (C164_circles _ q k).2.1, sub_mul, cos_sub]
    ring
  have hle : ∑ k ∈ range h, cos (((p : ℝ) - q) * circleSpeed (2 * h) k) ≤ h := by
    calc _ ≤ ∑ _k ∈ range h, (1 : ℝ) := sum_le_sum fun k _ => cos_le_one _
      _ = h := by simp
  refine ⟨key, key ▸ hle, fun hpos => ⟨fun heq => ?_, ?_⟩⟩
  · have h0 : cos (((p : ℝ) - q) * circleSpeed (2 * h) 0) = 1 := by
      by_contra hne
      have hlt := lt_of_le_of_ne (cos_le_one (((p : ℝ) - q) * circleSpeed (2 * h) 0)) hne
      have : ∑ k ∈ range h, cos (((p : ℝ) - q) * circleSpeed (2 * h) k) < ∑ _k ∈ range h, (1 : ℝ) :=
        sum_lt_sum (fun k _ => cos_le_one _) ⟨0, mem_range.2 hpos, hlt⟩
      rw [← key, heq] at this
      simp at this
    rw [(C164_speeds (by omega)).1, mul_one, cos_sub] at h0
    have hp := sin_sq_add_cos_sq (p : ℝ)
    have hq := sin_sq_add_cos_sq (q : ℝ)
    have hc : (cos (p : ℝ) - cos q) ^ 2 + (sin (p : ℝ) - sin q) ^ 2 = 0 := by nlinarith
    have h1 : cos (p : ℝ) - cos q = 0 := by nlinarith [sq_nonneg (cos (p : ℝ) - cos q), sq_nonneg (sin (p : ℝ) - sin q)]
    have h2 : sin (p : ℝ) - sin q = 0 := by nlinarith [sq_nonneg (cos (p : ℝ) - cos q), sq_nonneg (sin (p : ℝ) - sin q)]
    refine C87_positions 1 p q ?_ ?_
    · simpa [positionTable] using sub_eq_zero.1 h2
    · simpa [positionTable] using sub_eq_zero.1 h1
  · rintro rfl
    rw [key]
    simp

/-- C164: the code of a later position is got from the code of a position by turning each circle by an angle that depends on the
distance only. -/
theorem C164_shift (e p d k : ℕ) :
    positionTable e (p + d) (2 * k) = cos (d * circleSpeed e k) * positionTable e p (2 * k)
      + sin (d * circleSpeed e k) * positionTable e p (2 * k + 1) ∧
    positionTable e (p + d) (2 * k + 1) = cos (d * circleSpeed e k) * positionTable e p (2 * k + 1)
      - sin (d * circleSpeed e k) * positionTable e p (2 * k) := by
  rw [(C164_circles e (p + d) k).1, (C164_circles e (p + d) k).2.1, (C164_circles e p k).1, (C164_circles e p k).2.1]
  push_cast
  rw [add_mul, sin_add, cos_add]
  constructor <;> ring

/-- C164: two seats are alike according to their distance in numbers. -/
theorem C164_seats (h p q : ℕ) : alike (2 * h) (playerTable (2 * h) p) (playerTable (2 * h) q)
    = ∑ k ∈ range h, cos (((p : ℝ) - q) * (π / 2) * circleSpeed (2 * h) k) := by
  unfold alike
  rw [sum_pairs]
  refine sum_congr rfl fun k _ => ?_
  rw [(C164_circles _ p k).2.2.1, (C164_circles _ p k).2.2.2, (C164_circles _ q k).2.2.1, (C164_circles _ q k).2.2.2,
    sub_mul, sub_mul, cos_sub]
  ring

/-- C164 is false for seats, which are arranged in a circle: seat 0 is the next after seat 3 as seat 1 is after seat 0, but in every
table with more than one circle the codes of 3 and 0 are less alike than those of 0 and 1. -/
theorem C164_seats_violated (h : ℕ) (hh : 2 ≤ h) :
    alike (2 * h) (playerTable (2 * h) 3) (playerTable (2 * h) 0) < alike (2 * h) (playerTable (2 * h) 0) (playerTable (2 * h) 1) := by
  rw [C164_seats, C164_seats]
  have step : ∀ x : ℝ, cos x - cos (3 * x) = 4 * cos x * sin x ^ 2 := by
    intro x
    rw [cos_three_mul]
    have := sin_sq_add_cos_sq x
    rw [show sin x ^ 2 = 1 - cos x ^ 2 by linarith]
    ring
  have e0 : ∀ w : ℝ, cos ((((0 : ℕ) : ℝ) - ((1 : ℕ) : ℝ)) * (π / 2) * w) = cos (π / 2 * w) := by
    intro w
    rw [← cos_neg]
    congr 1
    push_cast
    ring
  have e3 : ∀ w : ℝ, cos ((((3 : ℕ) : ℝ) - ((0 : ℕ) : ℝ)) * (π / 2) * w) = cos (3 * (π / 2 * w)) := by
    intro w
    congr 1
    push_cast
    ring
  have hpi := pi_pos
  obtain ⟨s0, -, anti, bounds⟩ := C164_speeds (e := 2 * h) (by omega)
  have range' : ∀ k ∈ range h, 0 < π / 2 * circleSpeed (2 * h) k ∧ π / 2 * circleSpeed (2 * h) k ≤ π / 2 := by
    intro k hk
    obtain ⟨h1, h2⟩ := bounds k (by have := mem_range.1 hk; omega)
    have h0 : 0 < circleSpeed (2 * h) k := lt_trans (by norm_num) h1
    exact ⟨by positivity, by nlinarith⟩
  refine sum_lt_sum (fun k hk => ?_) ⟨1, mem_range.2 (by omega), ?_⟩
  · rw [e0, e3]
    obtain ⟨h1, h2⟩ := range' k hk
    have := step (π / 2 * circleSpeed (2 * h) k)
    have hc := cos_nonneg_of_neg_pi_div_two_le_of_le (by linarith) h2
    have : 0 ≤ 4 * cos (π / 2 * circleSpeed (2 * h) k) * sin (π / 2 * circleSpeed (2 * h) k) ^ 2 := by positivity
    linarith
  · rw [e0, e3]
    obtain ⟨h1, -⟩ := range' 1 (mem_range.2 (by omega))
    have hlt : circleSpeed (2 * h) 1 < 1 := s0 ▸ anti 0 1 (by omega)
    have h2 : π / 2 * circleSpeed (2 * h) 1 < π / 2 := by nlinarith
    have := step (π / 2 * circleSpeed (2 * h) 1)
    have hc := cos_pos_of_mem_Ioo ⟨by linarith, h2⟩
    have hs := sin_pos_of_pos_of_lt_pi h1 (by linarith)
    have : 0 < 4 * cos (π / 2 * circleSpeed (2 * h) 1) * sin (π / 2 * circleSpeed (2 * h) 1) ^ 2 := by positivity
    linarith

/-- On the first circle alone the seats form a square. -/
theorem C164_seats_partial (e p : ℕ) : playerTable e (p + 4) 0 = playerTable e p 0 ∧ playerTable e (p + 4) 1 = playerTable e p 1 := by
  have h := C164_circles e (p + 4) 0
  have h' := C164_circles e p 0
  have hs : circleSpeed e 0 = 1 := by simp [circleSpeed]
  simp only [Nat.mul_zero, Nat.zero_add, hs, mul_one] at h h'
  rw [h.2.2.1, h.2.2.2, h'.2.2.1, h'.2.2.2]
  push_cast
  rw [show ((p : ℝ) + 4) * (π / 2) = p * (π / 2) + 2 * π by ring, sin_add_two_pi, cos_add_two_pi]
  exact ⟨rfl, rfl⟩

end MJ
