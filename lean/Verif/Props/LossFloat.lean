import Verif.Model.LossFloat
import Mathlib.Data.Int.Log
import Mathlib.Analysis.Complex.ExponentialBounds
import Mathlib.Algebra.Order.Round
/-!
C148: masking does in float32 arithmetic what it is for.
-/
namespace MJ
open Loss32

/-- Spec: arithmetic as it is done.  Rounding is to a nearest number of the format, whichever one if there are two. `exp` is
zero from somewhere before -104 on (already exp (-104) is less than half of the smallest positive number), and `exp` and
`log` keep to the right side of 0, 1 and 7. -/
structure Spec.Float32 (A : Loss32.Arith) : Prop where
  round_float : ∀ x, IsFloat (A.round x)
  nearest : ∀ x f, IsFloat f → |x - A.round x| ≤ |x - f|
  exp_float : ∀ x, IsFloat (A.exp x)
  exp_zero : A.exp 0 = 1
  exp_nonneg : ∀ x, 0 ≤ A.exp x
  exp_le_one : ∀ x, x ≤ 0 → A.exp x ≤ 1
  exp_small : ∀ x, x ≤ -104 → A.exp x = 0
  log_range : ∀ x, 1 ≤ x → x ≤ 1000 → 0 ≤ A.log x ∧ A.log x ≤ 7

/-- Spec: the logits of the allowed actions -/
def Spec.allowedLogits {n : ℕ} (mask : Fin n → Int) (l : Fin n → ℝ) : List ℝ :=
  ((List.finRange n).filter fun i => decide (mask i ≠ 0)).map l

namespace Loss32

theorem isFloat_int (n : ℤ) (h : |n| ≤ 2 ^ 24) : IsFloat n := ⟨n, 0, h, by omega, by simp⟩

theorem isFloat_zero : IsFloat 0 := by simpa using isFloat_int 0 (by norm_num)

theorem isFloat_neg {x : ℝ} (h : IsFloat x) : IsFloat (-x) := by
  obtain ⟨m, e, hm, he, rfl⟩ := h
  exact ⟨-m, e, by rwa [abs_neg], he, by push_cast; ring⟩

/-- the number written for forbidden actions is a number of the format -/
theorem isFloat_masked : IsFloat (-1000000000) :=
  ⟨-1953125, 9, by norm_num, by omega, by norm_num⟩

/-- big numbers of the format are multiples of 64 -/
theorem isFloat_big {x : ℝ} (h : IsFloat x) (hb : 2 ^ 29 ≤ |x|) : ∃ k : ℤ, x = k * 64 := by
  obtain ⟨m, e, hm, he, rfl⟩ := h
  have hm' : |(m : ℝ)| ≤ 2 ^ 24 := by exact_mod_cast hm
  have h2 : (0 : ℝ) < 2 ^ e := by positivity
  rw [abs_mul, abs_of_pos h2] at hb
  have h5 : 5 ≤ e := by
    apply Classical.byContradiction
    intro hc
    have : (2 : ℝ) ^ e ≤ 2 ^ (4 : ℤ) := zpow_le_zpow_right₀ (by norm_num) (by omega)
    have h16 : (2 : ℝ) ^ (4 : ℤ) = 16 := by norm_num
    rw [h16] at this
    have := mul_le_mul hm' this h2.le (by norm_num)
    norm_num at this hb
    linarith
  by_cases h6 : 6 ≤ e
  · obtain ⟨d, rfl⟩ : ∃ d : ℕ, e = 6 + d := ⟨(e - 6).toNat, by omega⟩
    refine ⟨m * 2 ^ d, ?_⟩
    rw [zpow_add₀ (by norm_num)]
    push_cast
    norm_num
    ring
  · obtain rfl : e = 5 := by omega
    have h32 : (2 : ℝ) ^ (5 : ℤ) = 32 := by norm_num
    rw [h32] at hb ⊢
    have : |(m : ℝ)| = 2 ^ 24 := by
      apply le_antisymm hm'
      norm_num at hb ⊢
      linarith
    have hz : |m| = 2 ^ 24 := by exact_mod_cast this
    rcases (abs_eq (by norm_num)).mp hz with h | h
    · exact ⟨2 ^ 23, by rw [h]; norm_num⟩
    · exact ⟨-2 ^ 23, by rw [h]; norm_num⟩

variable {A : Loss32.Arith} (g : Spec.Float32 A)
include g

theorem round_fix {x : ℝ} (h : IsFloat x) : A.round x = x := by
  have := g.nearest x x h
  rw [sub_self, abs_zero] at this
  have := abs_nonpos_iff.mp this
  linarith

theorem round_mono {x y : ℝ} (h : x ≤ y) : A.round x ≤ A.round y := by
  apply Classical.byContradiction
  intro hc
  have hlt : A.round y < A.round x := not_le.mp hc
  have h1 := g.nearest x _ (g.round_float y)
  have h2 := g.nearest y _ (g.round_float x)
  rcases eq_or_lt_of_le h with rfl | h
  · exact absurd hlt (lt_irrefl _)
  · rw [← sq_le_sq] at h1 h2
    nlinarith

theorem round_le {x f : ℝ} (hf : IsFloat f) (h : x ≤ f) : A.round x ≤ f := by
  have := round_mono g h
  rwa [round_fix g hf] at this

theorem le_round {x f : ℝ} (hf : IsFloat f) (h : f ≤ x) : f ≤ A.round x := by
  have := round_mono g h
  rwa [round_fix g hf] at this

theorem SumOf.isFloat {l : List ℝ} {s : ℝ} (h : SumOf A.round l s) : (∀ x ∈ l, IsFloat x) → IsFloat s := by
  induction h with
  | nil => intro _; exact isFloat_zero
  | one x => intro h; exact h x (by simp)
  | add _ _ _ _ => intro _; exact g.round_float _
  | perm _ p ih => intro h; exact ih fun x hx => h x (p.subset hx)

theorem SumOf.nonneg {l : List ℝ} {s : ℝ} (h : SumOf A.round l s) : (∀ x ∈ l, 0 ≤ x) → 0 ≤ s := by
  induction h with
  | nil => intro _; exact le_rfl
  | one x => intro h; exact h x (by simp)
  | add _ _ ih ih' =>
    intro h
    have h1 := ih fun x hx => h x (by simp [hx])
    have h2 := ih' fun x hx => h x (by simp [hx])
    exact le_round g isFloat_zero (by linarith)
  | perm _ p ih => intro h; exact ih fun x hx => h x (p.subset hx)

theorem SumOf.ge {l : List ℝ} {s : ℝ} (h : SumOf A.round l s) :
    (∀ x ∈ l, 0 ≤ x) → (∀ x ∈ l, IsFloat x) → ∀ x ∈ l, x ≤ s := by
  induction h with
  | nil => intro _ _ x hx; simp at hx
  | one x => intro _ _ y hy; simp at hy; exact hy.le
  | @add l k x y h h' ih ih' =>
    intro hn hf z hz
    have n1 := SumOf.nonneg g h fun x hx => hn x (by simp [hx])
    have n2 := SumOf.nonneg g h' fun x hx => hn x (by simp [hx])
    rcases List.mem_append.mp hz with hz' | hz'
    · have := ih (fun x hx => hn x (by simp [hx])) (fun x hx => hf x (by simp [hx])) z hz'
      exact le_round g (hf z hz) (by linarith)
    · have := ih' (fun x hx => hn x (by simp [hx])) (fun x hx => hf x (by simp [hx])) z hz'
      exact le_round g (hf z hz) (by linarith)
  | perm _ p ih => intro hn hf z hz; exact ih (fun x hx => hn x (p.subset hx)) (fun x hx => hf x (p.subset hx)) z (p.symm.subset hz)

theorem SumOf.le {K : ℕ} {l : List ℝ} {s : ℝ} (h : SumOf A.round l s) :
    (∀ x ∈ l, x ≤ K) → l.length * K ≤ 2 ^ 24 → s ≤ ((l.length * K : ℕ) : ℝ) := by
  induction h with
  | nil => intro _ _; simp
  | one x => intro h _; simpa using h x (by simp)
  | @add l k x y h h' ih ih' =>
    intro hn hl
    rw [List.length_append, Nat.add_mul] at hl ⊢
    have h1 := ih (fun x hx => hn x (by simp [hx])) (by omega)
    have h2 := ih' (fun x hx => hn x (by simp [hx])) (by omega)
    have := isFloat_int ((l.length * K + k.length * K : ℕ) : ℤ) (by rw [abs_of_nonneg (by positivity)]; exact_mod_cast hl)
    apply round_le g (by exact_mod_cast this)
    push_cast at *
    linarith
  | perm _ p ih =>
    intro hn hl
    rw [← p.length_eq] at hl ⊢
    exact ih (fun x hx => hn x (p.subset hx)) hl

omit g in
theorem SumOf.of_all {l : List ℝ} {s : ℝ} (h : SumOf A.round l s) : SumOf A.round (l.filter (fun x => decide (x ≠ 0))) s := by
  induction h with
  | nil => exact .nil
  | one x =>
    by_cases hx : x = 0
    · subst hx; simpa using SumOf.nil
    · simpa [hx] using SumOf.one x
  | add _ _ ih ih' => rw [List.filter_append]; exact .add ih ih'
  | perm _ p ih => exact .perm ih (p.filter _)

theorem SumOf.to_all {l : List ℝ} {s : ℝ} (hf : ∀ x ∈ l, IsFloat x)
    (h : SumOf A.round (l.filter (fun x => decide (x ≠ 0))) s) : SumOf A.round l s := by
  have hs : IsFloat s := SumOf.isFloat g h fun x hx => hf x (List.mem_filter.mp hx).1
  have hz : ∀ k : ℕ, SumOf A.round (l.filter (fun x => decide (x ≠ 0)) ++ List.replicate k 0) s := by
    intro k
    induction k with
    | zero => simpa using h
    | succ k ih =>
      have := SumOf.add ih (.one 0)
      rw [add_zero, round_fix g hs, List.append_assoc, ← List.replicate_succ'] at this
      exact this
  have hp : (l.filter (fun x => decide (x ≠ 0)) ++ l.filter (fun x => !decide (x ≠ 0))).Perm l := List.filter_append_perm _ _
  have hr : l.filter (fun x => !decide (x ≠ 0)) = List.replicate (l.filter (fun x => !decide (x ≠ 0))).length 0 := by
    apply List.eq_replicate_iff.mpr
    refine ⟨rfl, fun x hx => ?_⟩
    have := (List.mem_filter.mp hx).2
    simpa using this
  rw [hr] at hp
  exact .perm (hz _) hp

theorem exp_forbidden {m : ℝ} (hm : -100000000 ≤ m) : A.exp (A.round (-1000000000 - m)) = 0 := by
  apply g.exp_small
  have h : IsFloat (-900000000) := ⟨-3515625, 8, by norm_num, by omega, by norm_num⟩
  have := round_le g h (x := -1000000000 - m) (by linarith)
  linarith

omit g in
theorem filter_terms {n : ℕ} (mask : Fin n → Int) (l : Fin n → ℝ) (f : ℝ → ℝ) (hf : f (-1000000000) = 0) (L : List (Fin n)) :
    ((L.map (maskedLogits mask l)).map f).filter (fun x => decide (x ≠ 0)) =
      (((L.filter fun i => decide (mask i ≠ 0)).map l).map f).filter (fun x => decide (x ≠ 0)) := by
  induction L with
  | nil => rfl
  | cons i L ih =>
    by_cases hi : mask i = 0
    · have h1 : maskedLogits mask l i = -1000000000 := by simp [maskedLogits, hi]
      rw [List.map_cons, List.map_cons, h1, hf, List.filter_cons_of_neg (by simp), ih,
        List.filter_cons_of_neg (by simp [hi])]
    · have h1 : maskedLogits mask l i = l i := by simp [maskedLogits, hi]
      rw [List.filter_cons_of_pos (by simp [hi])]
      simp only [List.map_cons, h1, List.filter_cons, ih]

omit g in
theorem mem_allowed {n : ℕ} {mask : Fin n → Int} {l : Fin n → ℝ} {x : ℝ} :
    x ∈ Spec.allowedLogits mask l ↔ ∃ i, mask i ≠ 0 ∧ l i = x := by
  simp [Spec.allowedLogits]

omit g in
theorem mem_masked {n : ℕ} {mask : Fin n → Int} {l : Fin n → ℝ} {x : ℝ} :
    x ∈ List.ofFn (maskedLogits mask l) ↔ ∃ i, maskedLogits mask l i = x := by
  simp [List.mem_ofFn]

theorem sums_iff {n : ℕ} {mask : Fin n → Int} {l : Fin n → ℝ} (h : ∃ a, mask a ≠ 0 ∧ -100000000 ≤ l a) (m s : ℝ) :
    Sums A (List.ofFn (maskedLogits mask l)) m s ↔ Sums A (Spec.allowedLogits mask l) m s := by
  obtain ⟨a, ha, hl⟩ := h
  have hterms : -100000000 ≤ m → (SumOf A.round ((List.ofFn (maskedLogits mask l)).map fun x => A.exp (A.round (x - m))) s ↔
      SumOf A.round ((Spec.allowedLogits mask l).map fun x => A.exp (A.round (x - m))) s) := by
    intro hm
    have := filter_terms mask l (fun x => A.exp (A.round (x - m))) (exp_forbidden g hm) (List.finRange n)
    rw [List.ofFn_eq_map]
    constructor
    · intro h
      apply SumOf.to_all g
      · intro x hx
        obtain ⟨y, _, rfl⟩ := List.mem_map.mp hx
        exact g.exp_float _
      · rw [Spec.allowedLogits, ← this]
        exact SumOf.of_all h
    · intro h
      apply SumOf.to_all g
      · intro x hx
        obtain ⟨y, _, rfl⟩ := List.mem_map.mp hx
        exact g.exp_float _
      · rw [this]
        exact SumOf.of_all h
  constructor
  · rintro ⟨h1, h2, h3⟩
    have hm : l a ≤ m := h2 _ (mem_masked.mpr ⟨a, by simp [maskedLogits, ha]⟩)
    refine ⟨?_, ?_, (hterms (by linarith)).mp h3⟩
    · obtain ⟨i, hi⟩ := mem_masked.mp h1
      by_cases h0 : mask i = 0
      · simp [maskedLogits, h0] at hi
        linarith
      · exact mem_allowed.mpr ⟨i, h0, by simpa [maskedLogits, h0] using hi⟩
    · intro x hx
      obtain ⟨i, h0, rfl⟩ := mem_allowed.mp hx
      exact h2 _ (mem_masked.mpr ⟨i, by simp [maskedLogits, h0]⟩)
  · rintro ⟨h1, h2, h3⟩
    have hm : l a ≤ m := h2 _ (mem_allowed.mpr ⟨a, ha, rfl⟩)
    refine ⟨?_, ?_, (hterms (by linarith)).mpr h3⟩
    · obtain ⟨i, h0, hi⟩ := mem_allowed.mp h1
      exact mem_masked.mpr ⟨i, by simpa [maskedLogits, h0] using hi⟩
    · intro x hx
      obtain ⟨i, rfl⟩ := mem_masked.mp hx
      by_cases h0 : mask i = 0
      · simp only [maskedLogits, h0, if_true]
        linarith
      · simp only [maskedLogits, h0, if_false]
        exact h2 _ (mem_allowed.mpr ⟨i, h0, rfl⟩)

theorem sum_range {xs : List ℝ} {m s : ℝ} (h : Sums A xs m s) (hn : xs.length ≤ 1000) : 1 ≤ s ∧ s ≤ 1000 := by
  obtain ⟨h1, h2, h3⟩ := h
  constructor
  · apply SumOf.ge g h3
    · intro x hx
      obtain ⟨y, _, rfl⟩ := List.mem_map.mp hx
      exact g.exp_nonneg _
    · intro x hx
      obtain ⟨y, _, rfl⟩ := List.mem_map.mp hx
      exact g.exp_float _
    · refine List.mem_map.mpr ⟨m, h1, ?_⟩
      rw [sub_self, round_fix g isFloat_zero, g.exp_zero]
  · have := SumOf.le g (K := 1) h3 (by
      intro x hx
      obtain ⟨y, hy, rfl⟩ := List.mem_map.mp hx
      simpa using g.exp_le_one _ (round_le g isFloat_zero (by linarith [h2 y hy]))) (by simp; omega)
    simp at this
    have hl : (xs.length : ℝ) ≤ 1000 := by exact_mod_cast hn
    linarith

/-- adding a small number to a big one changes nothing -/
theorem absorbed {G d : ℝ} (hG : IsFloat G) (hb : G ≤ -2 ^ 29) (h0 : 0 ≤ d) (hd : d < 32) : A.round (G - d) = G := by
  have h1 := g.nearest (G - d) G hG
  rw [show G - d - G = -d by ring, abs_neg, abs_of_nonneg h0, abs_le] at h1
  have hle : A.round (G - d) ≤ G := round_le g hG (by linarith)
  obtain ⟨i, hi⟩ := isFloat_big hG (by rw [abs_of_neg (by linarith)]; linarith)
  obtain ⟨j, hj⟩ := isFloat_big (g.round_float (G - d)) (by rw [abs_of_neg (by linarith)]; linarith)
  have h2 : (i : ℝ) - j < 1 := by linarith
  have h3 : (j : ℝ) ≤ i := by linarith
  have h2' : i - j < 1 := by exact_mod_cast h2
  have h3' : j ≤ i := by exact_mod_cast h3
  have : i = j := by omega
  rw [hj, hi, this]

theorem round_masked {m : ℝ} (hm : |m| < 32) : A.round (-1000000000 - m) = -1000000000 := by
  have h1 := g.nearest (-1000000000 - m) _ isFloat_masked
  rw [show (-1000000000 - m) - -1000000000 = -m by ring, abs_neg] at h1
  have h2 := abs_lt.mp hm
  have h3 := abs_le.mp (h1.trans hm.le)
  have h4 := abs_lt.mp (lt_of_le_of_lt h1 hm)
  obtain ⟨j, hj⟩ := isFloat_big (g.round_float (-1000000000 - m)) (by rw [abs_of_neg (by linarith)]; linarith)
  have e1 : (j : ℝ) < -15625000 + 1 := by linarith
  have e2 : (-15625000 : ℝ) - 1 < j := by linarith
  have e1' : j < -15625000 + 1 := by exact_mod_cast e1
  have e2' : (-15625000 : ℤ) - 1 < j := by exact_mod_cast e2
  have : j = -15625000 := by omega
  rw [hj, this]
  norm_num

end Loss32

open Loss32

/-- C148: the loss of an allowed label, digit for digit, is one that the same computation gives on the allowed actions alone,
and the other way round: it makes no difference whether forbidden actions are masked or not there at all. -/
theorem C148_allowed_only {A : Loss32.Arith} (g : Spec.Float32 A) {n : ℕ} {mask : Fin n → Int} {l : Fin n → ℝ}
    (h : ∃ a, mask a ≠ 0 ∧ -100000000 ≤ l a) {y : Fin n} (hy : mask y ≠ 0) (loss : ℝ) :
    Loss A (List.ofFn (maskedLogits mask l)) (maskedLogits mask l y) loss ↔ Loss A (Spec.allowedLogits mask l) (l y) loss := by
  have : maskedLogits mask l y = l y := by simp [maskedLogits, hy]
  rw [this]
  simp only [Loss, sums_iff g h]

/-- C148: the same for the probabilities of the allowed actions; those of forbidden actions are exactly zero. -/
theorem C148_probabilities {A : Loss32.Arith} (g : Spec.Float32 A) {n : ℕ} (hn : n ≤ 1000) {mask : Fin n → Int}
    {l : Fin n → ℝ} (h : ∃ a, mask a ≠ 0 ∧ -100000000 ≤ l a) (i : Fin n) (p : ℝ)
    (hp : Prob A (List.ofFn (maskedLogits mask l)) (maskedLogits mask l i) p) :
    (mask i ≠ 0 → Prob A (Spec.allowedLogits mask l) (l i) p) ∧ (mask i = 0 → p = 0) := by
  constructor
  · intro hi
    have : maskedLogits mask l i = l i := by simp [maskedLogits, hi]
    rw [this] at hp
    simpa only [Prob, sums_iff g h] using hp
  · intro hi
    obtain ⟨m, s, hs, rfl⟩ := hp
    have : maskedLogits mask l i = -1000000000 := by simp [maskedLogits, hi]
    rw [this]
    obtain ⟨a, ha, hl⟩ := h
    have hm : l a ≤ m := hs.max _ (mem_masked.mpr ⟨a, by simp [maskedLogits, ha]⟩)
    obtain ⟨s1, s2⟩ := sum_range g hs (by simpa using hn)
    obtain ⟨l1, l2⟩ := g.log_range s s1 s2
    apply g.exp_small
    have hf : IsFloat (-900000000) := ⟨-3515625, 8, by norm_num, by omega, by norm_num⟩
    have := round_le g hf (x := -1000000000 - m) (by linarith)
    have := round_le g hf (x := A.round (-1000000000 - m) - A.log s) (by linarith)
    unfold logProb
    linarith

/-- C148: the loss of an allowed label is never negative and never infinite: the argument of the logarithm is between 1 and
the number of actions. -/
theorem C148_bounded {A : Loss32.Arith} (g : Spec.Float32 A) {n : ℕ} (hn : n ≤ 1000) {mask : Fin n → Int} {l : Fin n → ℝ}
    {K : ℕ} (hK : K ≤ 1000000) (hl : ∀ i, mask i ≠ 0 → |l i| ≤ K) {y : Fin n} (hy : mask y ≠ 0) {loss : ℝ}
    (h : Loss A (List.ofFn (maskedLogits mask l)) (maskedLogits mask l y) loss) : 0 ≤ loss ∧ loss ≤ 2 * K + 7 := by
  have hK' : (K : ℝ) ≤ 1000000 := by exact_mod_cast hK
  have hb : ∃ a, mask a ≠ 0 ∧ -100000000 ≤ l a := ⟨y, hy, by linarith [(abs_le.mp (hl y hy)).1]⟩
  rw [C148_allowed_only g hb hy] at h
  obtain ⟨m, s, hs, rfl⟩ := h
  obtain ⟨s1, s2⟩ := sum_range g hs (by
    unfold Spec.allowedLogits
    rw [List.length_map]
    exact (List.length_filter_le _ _).trans (by simpa using hn))
  obtain ⟨l1, l2⟩ := g.log_range s s1 s2
  obtain ⟨b, hb0, rfl⟩ := mem_allowed.mp hs.mem
  have hle := hs.max (l y) (mem_allowed.mpr ⟨y, hy, rfl⟩)
  have h1 := abs_le.mp (hl y hy)
  have h2 := abs_le.mp (hl b hb0)
  have r1 := round_le g isFloat_zero (x := l y - l b) (by linarith)
  have f1 : IsFloat (-(2 * K : ℝ)) := by
    have := isFloat_int (-(2 * K : ℤ)) (by rw [abs_neg, abs_of_nonneg (by positivity)]; omega)
    exact_mod_cast this
  have r2 := le_round g f1 (x := l y - l b) (by linarith)
  have r3 := round_le g isFloat_zero (x := A.round (l y - l b) - A.log s) (by linarith)
  have f2 : IsFloat (-(2 * K + 7 : ℝ)) := by
    have := isFloat_int (-(2 * K + 7 : ℤ)) (by rw [abs_neg, abs_of_nonneg (by positivity)]; omega)
    exact_mod_cast this
  have r4 := le_round g f2 (x := A.round (l y - l b) - A.log s) (by linarith)
  unfold logProb
  constructor <;> linarith

/-- C148: a label that is not allowed (as happens, C59 and C60) costs the same whatever the network says: in float32, the
logarithm of the sum disappears completely, and if the largest logit is less than 32 in size so does that, and the loss is
exactly 10^9. -/
theorem C148_forbidden_label {A : Loss32.Arith} (g : Spec.Float32 A) {n : ℕ} (hn : n ≤ 1000) {mask : Fin n → Int}
    {l : Fin n → ℝ} {y : Fin n} (hy : mask y = 0) {loss : ℝ}
    (h : Loss A (List.ofFn (maskedLogits mask l)) (maskedLogits mask l y) loss) :
    (∀ m, (∃ a, mask a ≠ 0 ∧ l a = m) → (∀ a, mask a ≠ 0 → l a ≤ m) → -100000000 ≤ m →
      loss = - A.round (-1000000000 - m)) ∧
    ((∃ a, mask a ≠ 0) → (∀ a, mask a ≠ 0 → |l a| < 32) → loss = 1000000000) := by
  have hl : maskedLogits mask l y = -1000000000 := by simp [maskedLogits, hy]
  rw [hl] at h
  have first : ∀ m, (∃ a, mask a ≠ 0 ∧ l a = m) → (∀ a, mask a ≠ 0 → l a ≤ m) → -100000000 ≤ m →
      loss = - A.round (-1000000000 - m) := by
    rintro m ⟨a, ha, rfl⟩ hmax hm
    obtain ⟨m', s, hs, rfl⟩ := h
    obtain ⟨s1, s2⟩ := sum_range g hs (by simpa using hn)
    obtain ⟨l1, l2⟩ := g.log_range s s1 s2
    have hs' := (sums_iff g ⟨a, ha, hm⟩ m' s).mp hs
    obtain ⟨b, hb, rfl⟩ := mem_allowed.mp hs'.mem
    have : l b = l a := le_antisymm (hmax b hb) (hs'.max _ (mem_allowed.mpr ⟨a, ha, rfl⟩))
    rw [this]
    unfold logProb
    rw [absorbed g (g.round_float _) _ l1 (by linarith)]
    have hf : IsFloat (-900000000) := ⟨-3515625, 8, by norm_num, by omega, by norm_num⟩
    have := round_le g hf (x := -1000000000 - l a) (by linarith)
    linarith
  refine ⟨first, ?_⟩
  rintro ⟨a, ha⟩ hb
  obtain ⟨m, s, hs, _⟩ := id h
  have hs' := (sums_iff g ⟨a, ha, by linarith [(abs_lt.mp (hb a ha)).1]⟩ m s).mp hs
  obtain ⟨b, hb0, rfl⟩ := mem_allowed.mp hs'.mem
  have := first (l b) ⟨b, hb0, rfl⟩ (fun c hc => hs'.max _ (mem_allowed.mpr ⟨c, hc, rfl⟩)) (by linarith [(abs_lt.mp (hb b hb0)).1])
  rw [this, round_masked g (hb b hb0)]
  norm_num

/-- C148: one such label in a batch of `B` samples makes the loss of the batch at least 10^9 / B, rounded, however good the
network is; without one, the loss of the batch stays below the bound for the samples. -/
theorem C148_batch {A : Loss32.Arith} (g : Spec.Float32 A) {losses : List ℝ} {mean : ℝ} (h : Mean A losses mean)
    (h0 : ∀ x ∈ losses, 0 ≤ x) (hf : ∀ x ∈ losses, IsFloat x) :
    (1000000000 ∈ losses → A.round (1000000000 / losses.length) ≤ mean) ∧
    (∀ K : ℕ, (∀ x ∈ losses, x ≤ K) → losses.length * K ≤ 2 ^ 24 → losses ≠ [] → 0 ≤ mean ∧ mean ≤ K) := by
  obtain ⟨t, ht, rfl⟩ := h
  constructor
  · intro hm
    apply round_mono g
    have := SumOf.ge g ht h0 hf _ hm
    exact div_le_div_of_nonneg_right this (by positivity)
  · intro K hK hl hne
    have h1 := SumOf.le g ht hK hl
    have h2 := SumOf.nonneg g ht h0
    have hlen : (0 : ℝ) < losses.length := by
      exact_mod_cast List.length_pos_iff.mpr hne
    have hKf : IsFloat K := by
      have hK24 : K ≤ 2 ^ 24 := by
        have : 1 ≤ losses.length := List.length_pos_iff.mpr hne
        nlinarith
      have := isFloat_int (K : ℤ) (by rw [abs_of_nonneg (by positivity)]; exact_mod_cast hK24)
      exact_mod_cast this
    refine ⟨le_round g isFloat_zero (by positivity), round_le g hKf ?_⟩
    rw [div_le_iff₀ hlen]
    push_cast at h1
    linarith

/-! ### such an arithmetic exists -/

namespace Loss32

/-- the exponent of the last digit -/
noncomputable def lastDigit (x : ℝ) : ℤ := max (Int.log 2 |x| - 23) (-149)

/-- a nearest number of the format -/
noncomputable def toNearest (x : ℝ) : ℝ := round (x / 2 ^ lastDigit x) * (2 : ℝ) ^ lastDigit x

theorem toNearest_float (x : ℝ) : IsFloat (toNearest x) := by
  refine ⟨round (x / 2 ^ lastDigit x), lastDigit x, ?_, le_max_right _ _, rfl⟩
  have h2 : (0 : ℝ) < 2 ^ lastDigit x := by positivity
  have h1 : |x| < 2 ^ 24 * 2 ^ lastDigit x := by
    have := Int.lt_zpow_succ_log_self (b := 2) (by norm_num) |x|
    refine lt_of_lt_of_le this ?_
    rw [show (2 : ℝ) ^ 24 = 2 ^ (24 : ℤ) by norm_num, ← zpow_add₀ (by norm_num)]
    push_cast
    apply zpow_le_zpow_right₀ (by norm_num)
    have := le_max_left (Int.log 2 |x| - 23) (-149)
    unfold lastDigit
    omega
  have h3 : |x / 2 ^ lastDigit x| ≤ 2 ^ 24 := by
    rw [abs_div, abs_of_pos h2, div_le_iff₀ h2]
    exact h1.le
  have h4 := abs_le.mp h3
  have u : round (x / 2 ^ lastDigit x) ≤ 2 ^ 24 := by
    rw [round_eq, Int.floor_le_iff]
    push_cast
    norm_num at h4 ⊢
    linarith [h4.2]
  have d : -2 ^ 24 ≤ round (x / 2 ^ lastDigit x) := by
    rw [round_eq, Int.le_floor]
    push_cast
    norm_num at h4 ⊢
    linarith [h4.1]
  exact abs_le.mpr ⟨d, u⟩

theorem toNearest_multiple (x : ℝ) (z : ℤ) : |x - toNearest x| ≤ |x - z * 2 ^ lastDigit x| := by
  have h2 : (0 : ℝ) < 2 ^ lastDigit x := by positivity
  have h := _root_.round_le (x / 2 ^ lastDigit x) z
  have e : ∀ k : ℝ, x - k * 2 ^ lastDigit x = (x / 2 ^ lastDigit x - k) * 2 ^ lastDigit x := by
    intro k
    field_simp
  unfold toNearest
  rw [e, e, abs_mul, abs_mul]
  exact mul_le_mul_of_nonneg_right h (abs_nonneg _)

theorem toNearest_nearest (x f : ℝ) (hf : IsFloat f) : |x - toNearest x| ≤ |x - f| := by
  obtain ⟨m, e, hm, he, rfl⟩ := hf
  by_cases hle : lastDigit x ≤ e
  · obtain ⟨d, rfl⟩ : ∃ d : ℕ, e = lastDigit x + d := ⟨(e - lastDigit x).toNat, by omega⟩
    have := toNearest_multiple x (m * 2 ^ d)
    rw [zpow_add₀ (by norm_num)]
    push_cast at this
    rw [zpow_natCast, mul_comm ((2 : ℝ) ^ lastDigit x), ← mul_assoc]
    exact this
  · have hlog : lastDigit x = Int.log 2 |x| - 23 := by
      have : lastDigit x = Int.log 2 |x| - 23 ∨ lastDigit x = -149 := by
        unfold lastDigit
        omega
      omega
    have hm' : |(m : ℝ)| ≤ 2 ^ 24 := by exact_mod_cast hm
    have hp : (2 : ℝ) ^ 24 * 2 ^ (lastDigit x - 1) = 2 ^ 23 * 2 ^ lastDigit x := by
      rw [zpow_sub₀ (by norm_num)]
      norm_num
      ring
    have hsmall : |(m : ℝ) * 2 ^ e| ≤ 2 ^ 23 * 2 ^ lastDigit x := by
      rw [abs_mul, abs_of_pos (a := (2 : ℝ) ^ e) (by positivity), ← hp]
      exact mul_le_mul hm' (zpow_le_zpow_right₀ (by norm_num) (by omega)) (by positivity) (by positivity)
    by_cases hx : x = 0
    · subst hx
      simp only [toNearest, zero_div, round_zero, Int.cast_zero, zero_mul, sub_self, abs_zero]
      exact abs_nonneg _
    have hbig : (2 : ℝ) ^ 23 * 2 ^ lastDigit x ≤ |x| := by
      have := Int.zpow_log_le_self (b := 2) (by norm_num) (abs_pos.mpr hx)
      refine le_trans (le_of_eq ?_) this
      rw [hlog, show (2 : ℝ) ^ 23 = 2 ^ (23 : ℤ) by norm_num, ← zpow_add₀ (by norm_num)]
      push_cast
      congr 1
      omega
    have hs := abs_le.mp hsmall
    rcases le_or_gt 0 x with h0 | h0
    · rw [abs_of_nonneg h0] at hbig
      have := toNearest_multiple x (2 ^ 23)
      push_cast at this
      rw [abs_of_nonneg (a := x - 8388608 * 2 ^ lastDigit x) (by linarith)] at this
      refine this.trans ((le_abs_self _).trans' ?_)
      linarith
    · rw [abs_of_neg h0] at hbig
      have := toNearest_multiple x (-2 ^ 23)
      push_cast at this
      rw [abs_of_nonpos (a := x - -8388608 * 2 ^ lastDigit x) (by linarith)] at this
      refine this.trans ((neg_le_abs _).trans' ?_)
      linarith

/-- exact functions, rounded to a nearest number -/
noncomputable def ideal : Loss32.Arith :=
  ⟨toNearest, fun x => if x ≤ -104 then 0 else toNearest (Real.exp x), fun x => toNearest (Real.log x)⟩

theorem toNearest_mono_float {x f : ℝ} (hf : IsFloat f) : (x ≤ f → toNearest x ≤ f) ∧ (f ≤ x → f ≤ toNearest x) := by
  have h := toNearest_nearest x f hf
  constructor
  · intro hx
    rw [abs_of_nonpos (a := x - f) (by linarith), abs_le] at h
    linarith [h.1]
  · intro hx
    rw [abs_of_nonneg (a := x - f) (by linarith), abs_le] at h
    linarith [h.2]

theorem ideal_float32 : Spec.Float32 ideal where
  round_float := toNearest_float
  nearest := toNearest_nearest
  exp_float := by
    intro x
    show IsFloat (if x ≤ -104 then 0 else toNearest (Real.exp x))
    split
    · exact isFloat_zero
    · exact toNearest_float _
  exp_zero := by
    show (if (0 : ℝ) ≤ -104 then 0 else toNearest (Real.exp 0)) = 1
    rw [if_neg (by norm_num), Real.exp_zero]
    have h1 : IsFloat 1 := by simpa using isFloat_int 1 (by norm_num)
    exact le_antisymm ((toNearest_mono_float h1).1 le_rfl) ((toNearest_mono_float h1).2 le_rfl)
  exp_nonneg := by
    intro x
    show 0 ≤ (if x ≤ -104 then 0 else toNearest (Real.exp x))
    split
    · exact le_rfl
    · exact (toNearest_mono_float isFloat_zero).2 (Real.exp_pos _).le
  exp_le_one := by
    intro x hx
    show (if x ≤ -104 then 0 else toNearest (Real.exp x)) ≤ 1
    have h1 : IsFloat 1 := by simpa using isFloat_int 1 (by norm_num)
    split
    · exact zero_le_one
    · exact (toNearest_mono_float h1).1 (Real.exp_le_one_iff.mpr hx)
  exp_small := by
    intro x hx
    exact if_pos hx
  log_range := by
    intro x h1 h2
    show 0 ≤ toNearest (Real.log x) ∧ toNearest (Real.log x) ≤ 7
    have h7 : IsFloat 7 := by simpa using isFloat_int 7 (by norm_num)
    refine ⟨(toNearest_mono_float isFloat_zero).2 (Real.log_nonneg h1), (toNearest_mono_float h7).1 ?_⟩
    rw [Real.log_le_iff_le_exp (by linarith)]
    have e1 : (2.7 : ℝ) ≤ Real.exp 1 := by linarith [Real.exp_one_gt_d9]
    have e7 : Real.exp 7 = Real.exp 1 ^ 7 := by rw [← Real.exp_nat_mul]; norm_num
    rw [e7]
    calc x ≤ 1000 := h2
      _ ≤ 2.7 ^ 7 := by norm_num
      _ ≤ _ := pow_le_pow_left₀ (by norm_num) e1 7

end Loss32

/-- what `Spec.Float32` asks of `exp` is what exact rounding gives: exp (-104) is less than half of the smallest positive
number of the format. -/
example : Real.exp (-104) < 2 ^ (-150 : ℤ) := by
  have e1 : (2.718 : ℝ) ≤ Real.exp 1 := by linarith [Real.exp_one_gt_d9]
  rw [Real.exp_neg, zpow_neg]
  apply inv_strictAnti₀ (by positivity)
  have e7 : Real.exp 104 = Real.exp 1 ^ 104 := by rw [← Real.exp_nat_mul]; norm_num
  rw [e7]
  calc (2 : ℝ) ^ (150 : ℤ) < 2.718 ^ 104 := by norm_num
    _ ≤ _ := pow_le_pow_left₀ (by norm_num) e1 104

/-- two actions, one of them allowed: the loss of the allowed one is 0, that of the other one 10^9 -/
example : Spec.Float32 ideal ∧ Sums ideal (List.ofFn (maskedLogits ![1, 0] ![3, 5])) 3 1 := by
  refine ⟨ideal_float32, ?_⟩
  rw [sums_iff ideal_float32 ⟨0, by simp, by norm_num⟩]
  have : Spec.allowedLogits ![1, 0] ![(3 : ℝ), 5] = [3] := by simp [Spec.allowedLogits, List.finRange_succ]
  rw [this]
  refine ⟨by simp, by simp, ?_⟩
  have := SumOf.one (round := ideal.round) 1
  simpa [round_fix ideal_float32 isFloat_zero, ideal_float32.exp_zero] using this

end MJ
