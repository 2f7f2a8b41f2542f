import Verif.Proofs.Moves
import Mathlib.Analysis.SpecialFunctions.ExpDeriv
import Mathlib.Analysis.SpecialFunctions.Log.Deriv
import Mathlib.Analysis.SpecialFunctions.Sqrt
import Mathlib.Analysis.Calculus.Deriv.Abs
import Mathlib.Algebra.BigOperators.Field
/-!
C132, C133: how the loss depends on the parameters, and in which direction training moves the logits.
-/
namespace MJ.Net
open scoped BigOperators
open Spec

/-! ### C132 -/

theorem closed_continuous {I : Type} [TopologicalSpace I] {gelu : ℝ → ℝ} (hg : Continuous gelu) :
    Closed gelu (fun f : I → ℝ => Continuous f) where
  const := fun _ => continuous_const
  add := fun hf hg => hf.add hg
  mul := fun hf hg => hf.mul hg
  inv := fun hf h => hf.inv₀ h
  exp := fun hf => Real.continuous_exp.comp hf
  sqrt := fun hf _ => Real.continuous_sqrt.comp hf
  log := fun hf h => hf.log (fun t => (h t).ne')
  gelu := fun hf => hg.comp hf

/-- C132: logits and loss are continuous in all parameters and in the numbers of the state together: if these depend
continuously on anything, so do the logits and the loss (or the same exception is raised throughout). -/
theorem C132_continuous {I : Type} [TopologicalSpace I] {gelu : ℝ → ℝ} (hg : Continuous gelu) {v : Variant} {h : HeadName} {B : ℕ}
    {p : I → Params v} (hp : ParamsIn (fun f : I → ℝ => Continuous f) p)
    (hs : StateIn (fun f : I → ℝ => Continuous f) v (fun t => (p t).state_net)) (X : Input v h B)
    {x1 : I → T4 B (chan v) 37 (width v)} {x2 : I → T3 B 7 4} {x3 : I → T2 B 4} (h1 : ∀ b c k w, Continuous (fun t => x1 t b c k w))
    (h2 : ∀ b i j, Continuous (fun t => x2 t b i j)) (h3 : ∀ b i, Continuous (fun t => x3 t b i)) :
    RunIn (fun f : I → ℝ => Continuous f) gelu p (fun t => Spec.Input.withState X (x1 t) (x2 t) (x3 t)) :=
  (closed_continuous hg).run hp X (fun b i => (closed_continuous hg).state
    (fun hf => hf.max continuous_const) hs (h1 b) (h2 b) (h3 b) i)

theorem closed_differentiable {gelu : ℝ → ℝ} (hg : Differentiable ℝ gelu) : Closed gelu (fun f : ℝ → ℝ => Differentiable ℝ f) where
  const := fun c => differentiable_const c
  add := fun hf hg => hf.add hg
  mul := fun hf hg => hf.mul hg
  inv := fun hf h => hf.inv h
  exp := fun hf => hf.exp
  sqrt := fun hf h => hf.sqrt (fun t => (h t).ne')
  log := fun hf h => hf.log (fun t => (h t).ne')
  gelu := fun hf => hg.comp hf

/-- C132: the loss is differentiable in all parameters outside of `StateNet`, everywhere. -/
theorem C132_differentiable {gelu : ℝ → ℝ} (hg : Differentiable ℝ gelu) {v : Variant} {h : HeadName} {B : ℕ} {p : ℝ → Params v}
    (hp : ParamsIn (fun f : ℝ → ℝ => Differentiable ℝ f) p) {s : StateNet v} (hs : ∀ t, (p t).state_net = s) (X : Input v h B) :
    RunIn (fun f : ℝ → ℝ => Differentiable ℝ f) gelu p (fun _ => X) :=
  (closed_differentiable hg).run hp X (x1 := fun _ => X.x1) (x2 := fun _ => X.x2) (x3 := fun _ => X.x3)
    (fun b i => by simp only [hs]; exact (closed_differentiable hg).const _)

theorem fixed_linear {m n : ℕ} (l : Linear m n) : LinearIn (fun f : ℝ → ℝ => Differentiable ℝ f) (fun _ => l) :=
  ⟨fun o i => differentiable_const (l.weight o i), fun o => differentiable_const (l.bias o)⟩

theorem fixed_norm {n : ℕ} (l : LayerNorm n) : NormIn (fun f : ℝ → ℝ => Differentiable ℝ f) (fun _ => l) :=
  ⟨fun i => differentiable_const (l.weight i), fun i => differentiable_const (l.bias i)⟩

theorem fixed_attn (m : MultiHeadAttention) : AttnIn (fun f : ℝ → ℝ => Differentiable ℝ f) (fun _ => m) :=
  ⟨fun j => fixed_linear (m.heads j).key, fun j => fixed_linear (m.heads j).query, fun j => fixed_linear (m.heads j).value,
    fixed_linear m.proj⟩

theorem fixed_feed (f : FeedForward) : FeedIn (fun f : ℝ → ℝ => Differentiable ℝ f) (fun _ => f) :=
  ⟨fixed_linear f.l1, fixed_linear f.l2⟩

/-- parameters of which some move -/
example (v : Variant) (p : Params v) : ParamsIn (fun f : ℝ → ℝ => Differentiable ℝ f)
    (fun t => { p with ln_f := ⟨fun _ => t, fun _ => t * t⟩ }) where
  tables := ⟨fun j => differentiable_const (p.tables.empty j), fun i j => differentiable_const (p.tables.type i j),
    fun i j => differentiable_const (p.tables.tile i j), fun i j => differentiable_const (p.tables.tsumogiri i j),
    fun i j => differentiable_const (p.tables.during_naki i j), fun i j => differentiable_const (p.tables.post_naki i j),
    fun i j => differentiable_const (p.tables.position i j), fun i j => differentiable_const (p.tables.player i j)⟩
  encoder := ⟨p.encoder.map (fun e _ => e), by
    intro c hc
    obtain ⟨e, _, rfl⟩ := List.mem_map.1 hc
    exact ⟨fixed_attn e.self_attention, fixed_feed e.ffwd, fixed_norm e.ln1, fixed_norm e.ln2⟩,
    fun t => by simp [Function.comp_def]⟩
  decoder := ⟨p.decoder.map (fun e _ => e), by
    intro c hc
    obtain ⟨e, _, rfl⟩ := List.mem_map.1 hc
    exact ⟨fixed_attn e.self_attention, fixed_attn e.cross_attention, fixed_feed e.ffwd, fixed_norm e.ln1, fixed_norm e.ln2,
      fixed_norm e.ln3⟩,
    fun t => by simp [Function.comp_def]⟩
  ln_f := ⟨fun _ => differentiable_id, fun _ => differentiable_id.mul differentiable_id⟩
  heads := fun h => fixed_linear (p.heads h)

/-- C132: `StateNet` is made of rectifiers, which are not differentiable where their input is zero. -/
theorem C132_rectifier : Continuous relu ∧ ¬ DifferentiableAt ℝ relu 0 := by
  refine ⟨continuous_id.max continuous_const, fun h => ?_⟩
  have h2 : DifferentiableAt ℝ (fun x : ℝ => |x|) 0 := by
    have : (fun x : ℝ => |x|) = fun x => 2 * relu x - x := by
      funext x
      unfold relu
      rcases le_total x 0 with hx | hx
      · rw [abs_of_nonpos hx, max_eq_right hx]; ring
      · rw [abs_of_nonneg hx, max_eq_left hx]; ring
    rw [this]
    exact (h.const_mul 2).sub differentiableAt_id
  exact not_differentiableAt_abs_zero h2

/-- C132: the loss of one head does not depend on the last layers of the other heads. -/
theorem C132_other_heads {v : Variant} {h : HeadName} {B : ℕ} (gelu : ℝ → ℝ) (p : Params v)
    (hd : (h : HeadName) → Linear embdSize (actionDim h)) (hh : hd h = p.heads h) (X : Input v h B) :
    run gelu { p with heads := hd } X = run gelu p X := by
  have : rawLogits gelu { p with heads := hd } X = rawLogits gelu p X := by
    unfold rawLogits
    simp only [hh]
  unfold run
  rw [this]
  rfl

/-! ### C133 -/

theorem sum_exp_pos {n : ℕ} (l : Fin n → ℝ) (y : Fin n) : 0 < ∑ i, Real.exp (l i) :=
  Finset.sum_pos (fun j _ => Real.exp_pos _) ⟨y, Finset.mem_univ _⟩

theorem crossEntropy_deriv {n : ℕ} {l : ℝ → Fin n → ℝ} {l' : Fin n → ℝ} {t : ℝ} (h : ∀ a, HasDerivAt (fun t => l t a) (l' a) t)
    (y : Fin n) : HasDerivAt (fun t => crossEntropy (l t) y) (∑ a, (softmax (l t) a - if a = y then 1 else 0) * l' a) t := by
  have h1 : HasDerivAt (fun t => ∑ a, Real.exp (l t a)) (∑ a, Real.exp (l t a) * l' a) t :=
    HasDerivAt.fun_sum (fun a _ => (h a).exp)
  have h2 := (h1.log (sum_exp_pos (l t) y).ne').sub (h y)
  refine h2.congr_deriv ?_
  simp only [sub_mul, Finset.sum_sub_distrib, softmax, ite_mul, one_mul, zero_mul, Finset.sum_ite_eq', Finset.mem_univ, if_true]
  rw [Finset.sum_div]
  refine congrArg (· - l' y) (Finset.sum_congr rfl (fun a _ => ?_))
  rw [div_mul_eq_mul_div]

/-- C133: the derivative of the loss.  An action contributes probability minus one (if it is the label) or minus zero, times
the change of its logit; an action that is not allowed contributes nothing. -/
theorem C133_gradient {B n : ℕ} (mask : Fin B → Fin n → Int) (y : Fin B → Fin n) {l : ℝ → T2 B n} {l' : T2 B n} {t : ℝ}
    (h : ∀ b a, mask b a ≠ 0 → HasDerivAt (fun t => l t b a) (l' b a) t) :
    HasDerivAt (fun t => (∑ b, crossEntropy (maskedLogits (mask b) (l t b)) (y b)) / B)
      ((∑ b, ∑ a, if mask b a = 0 then 0 else
        (softmax (maskedLogits (mask b) (l t b)) a - if a = y b then 1 else 0) * l' b a) / B) t := by
  refine HasDerivAt.div_const (HasDerivAt.fun_sum (fun b _ => ?_)) _
  have hm : ∀ a, HasDerivAt (fun t => maskedLogits (mask b) (l t b) a) (if mask b a = 0 then 0 else l' b a) t := fun a => by
    unfold maskedLogits
    split
    · exact hasDerivAt_const t _
    · exact h b a ‹_›
  refine (crossEntropy_deriv hm (y b)).congr_deriv (Finset.sum_congr rfl (fun a _ => ?_))
  split <;> simp

theorem softmax_entry_pos {n : ℕ} (l : Fin n → ℝ) (a : Fin n) : 0 < softmax l a := div_pos (Real.exp_pos _) (sum_exp_pos l a)

theorem softmax_lt {n : ℕ} (l : Fin n → ℝ) {a c : Fin n} (h : c ≠ a) : softmax l a < 1 := by
  unfold softmax
  rw [div_lt_one (sum_exp_pos l a)]
  have : Real.exp (l a) + Real.exp (l c) ≤ ∑ j, Real.exp (l j) := by
    rw [← Finset.sum_pair (f := fun j => Real.exp (l j)) h.symm]
    exact Finset.sum_le_sum_of_subset_of_nonneg (Finset.subset_univ _) (fun _ _ _ => (Real.exp_pos _).le)
  linarith [Real.exp_pos (l c)]

/-- the derivative of the loss of one sample when only the raw logit of action `a` grows, at speed one -/
noncomputable def slope {n : ℕ} (mask : Fin n → Int) (l : Fin n → ℝ) (y a : Fin n) : ℝ :=
  deriv (fun t => crossEntropy (maskedLogits mask (fun c => l c + if c = a then t else 0)) y) 0

theorem slope_eq {n : ℕ} (mask : Fin n → Int) (l : Fin n → ℝ) (y a : Fin n) :
    slope mask l y a = if mask a = 0 then 0 else softmax (maskedLogits mask l) a - if a = y then 1 else 0 := by
  have h := C133_gradient (B := 1) (fun _ => mask) (fun _ => y) (l := fun t _ c => l c + if c = a then t else 0)
    (l' := fun _ c => if c = a then 1 else 0) (t := 0) (fun _ c _ => by
      by_cases hc : c = a
      · simpa [hc] using (hasDerivAt_id (0 : ℝ)).const_add (l a)
      · simpa [hc] using hasDerivAt_const (0 : ℝ) (l c))
  have h' := h.deriv
  simp only [Finset.univ_unique, Finset.sum_singleton, Nat.cast_one, div_one] at h'
  unfold slope
  rw [h', Finset.sum_eq_single a]
  · simp
  · intro c _ hc
    simp [hc]
  · simp

/-- C133: for an action that is allowed the slope is negative if it is the label and positive otherwise; for one that is not
allowed it is zero.  (There are at least two actions in each head.) -/
theorem C133_direction {n : ℕ} (hn : 2 ≤ n) (mask : Fin n → Int) (l : Fin n → ℝ) (y a : Fin n) :
    (mask a = 0 → slope mask l y a = 0) ∧ (mask a ≠ 0 → a = y → slope mask l y a < 0) ∧
    (mask a ≠ 0 → a ≠ y → 0 < slope mask l y a) := by
  rw [slope_eq]
  refine ⟨fun h => if_pos h, fun h e => ?_, fun h e => ?_⟩
  · rw [if_neg h, if_pos e]
    obtain ⟨c, hc⟩ : ∃ c : Fin n, c ≠ a := by
      by_cases h0 : a.val = 0
      · exact ⟨⟨1, by omega⟩, fun hc => by rw [← hc] at h0; simp at h0⟩
      · exact ⟨⟨0, by omega⟩, fun hc => h0 (by rw [← hc])⟩
    linarith [softmax_lt (maskedLogits mask l) hc]
  · rw [if_neg h, if_neg e]
    linarith [softmax_entry_pos (maskedLogits mask l) a]

/-- C133: the slopes of a sample whose label is allowed add up to minus the probability of the actions that are not allowed. -/
theorem C133_balanced {n : ℕ} (mask : Fin n → Int) (l : Fin n → ℝ) {y : Fin n} (hy : mask y ≠ 0) :
    ∑ a, slope mask l y a = - ∑ a, if mask a = 0 then softmax (maskedLogits mask l) a else 0 := by
  have h1 : ∑ a, softmax (maskedLogits mask l) a = 1 := by
    unfold softmax
    rw [← Finset.sum_div]
    exact div_self (sum_exp_pos _ y).ne'
  have h2 : ∀ a, slope mask l y a = softmax (maskedLogits mask l) a - (if a = y then 1 else 0) -
      if mask a = 0 then softmax (maskedLogits mask l) a else 0 := fun a => by
    rw [slope_eq]
    by_cases h : mask a = 0
    · have : a ≠ y := fun e => hy (e ▸ h)
      simp [h, this]
    · simp [h]
  simp only [h2, Finset.sum_sub_distrib, h1, Finset.sum_ite_eq', Finset.mem_univ, if_true]
  ring

/-- C133: if the label is not allowed (as happens, C59 and C60), every slope is at least zero, and positive for all actions that
are allowed: the sample only lowers the logits of all allowed actions. -/
theorem C133_forbidden_label {n : ℕ} (mask : Fin n → Int) (l : Fin n → ℝ) {y : Fin n} (hy : mask y = 0) (a : Fin n) :
    0 ≤ slope mask l y a ∧ (mask a ≠ 0 → 0 < slope mask l y a) := by
  rw [slope_eq]
  by_cases h : mask a = 0
  · rw [if_pos h]
    exact ⟨le_refl _, fun h' => absurd h h'⟩
  · have e : a ≠ y := fun e => h (e ▸ hy)
    rw [if_neg h, if_neg e]
    have := softmax_entry_pos (maskedLogits mask l) a
    exact ⟨by linarith, fun _ => by linarith⟩

/-- C133: a step against the gradient lowers the loss of a sample, for all small enough step sizes, unless the gradient is
zero, which happens only if no action is allowed.  -/
theorem C133_descent {n : ℕ} (hn : 2 ≤ n) (mask : Fin n → Int) (l : Fin n → ℝ) (y : Fin n) (ha : ∃ a, mask a ≠ 0) :
    ∃ ε > 0, ∀ η, 0 < η → η < ε →
      crossEntropy (maskedLogits mask (fun a => l a - η * slope mask l y a)) y < crossEntropy (maskedLogits mask l) y := by
  let g := slope mask l y
  have h := C133_gradient (B := 1) (fun _ => mask) (fun _ => y) (l := fun t _ c => l c - t * g c)
    (l' := fun _ c => - g c) (t := 0) (fun _ c _ => by
      simpa using ((hasDerivAt_id (0 : ℝ)).mul_const (g c)).const_sub (l c))
  simp only [Finset.univ_unique, Finset.sum_singleton, Nat.cast_one, div_one, zero_mul, sub_zero] at h
  have e : (∑ a, if mask a = 0 then 0 else (softmax (maskedLogits mask (fun c => l c)) a - if a = y then 1 else 0) * -g a) = - ∑ a, g a ^ 2 := by
    rw [← Finset.sum_neg_distrib]
    refine Finset.sum_congr rfl (fun a _ => ?_)
    have hg : g a = if mask a = 0 then 0 else softmax (maskedLogits mask l) a - if a = y then 1 else 0 := slope_eq mask l y a
    by_cases hm : mask a = 0
    · simp [hg, hm]
    · rw [if_neg hm] at hg ⊢
      rw [show softmax (maskedLogits mask (fun c => l c)) a - (if a = y then 1 else 0) = g a from hg.symm]
      ring
  rw [e] at h
  have hneg : - ∑ a, g a ^ 2 < 0 := by
    obtain ⟨a, ha⟩ := ha
    have hga : g a ≠ 0 := by
      obtain ⟨_, h1, h2⟩ := C133_direction hn mask l y a
      by_cases hay : a = y
      · exact (h1 ha hay).ne
      · exact (h2 ha hay).ne'
    have : 0 < ∑ a, g a ^ 2 := Finset.sum_pos' (fun a _ => sq_nonneg _) ⟨a, Finset.mem_univ a, by positivity⟩
    linarith
  have hlim := h.tendsto_slope_zero_right
  have hev := hlim.eventually (gt_mem_nhds hneg)
  rw [eventually_nhdsWithin_iff, Metric.eventually_nhds_iff] at hev
  obtain ⟨ε, he, hε⟩ := hev
  refine ⟨ε, he, fun η h0 h1 => ?_⟩
  have := hε (y := η) (by rw [Real.dist_eq, sub_zero, abs_of_pos h0]; exact h1) h0
  simp only [zero_add, zero_mul, sub_zero, smul_eq_mul] at this
  have h3 : η⁻¹ > 0 := inv_pos.2 h0
  have h4 := (mul_neg_iff.1 this).resolve_right (fun h => absurd h.1 (not_lt.2 h3.le))
  linarith [h4.2]

end MJ.Net
