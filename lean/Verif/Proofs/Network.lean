import Verif.Spec.Network
import Verif.Proofs.Except
import Verif.Props.Schedule
/-!
The network treats the samples of a batch separately; bounds for layer norm and softmax.
-/
namespace MJ.Net
open scoped BigOperators
open Spec

variable {B B' T Q : ℕ}

/-! ### samples are independent -/

/-- selecting samples -/
def re {α : Type} (σ : Fin B' → Fin B) (x : Fin B → α) : Fin B' → α := fun b => x (σ b)

theorem mha_re (m : MultiHeadAttention) (σ : Fin B' → Fin B) (k v : T3 B T embdSize) (q : T3 B Q embdSize) :
    m.fwd (re σ k) (re σ v) (re σ q) = re σ (m.fwd k v q) := rfl

theorem encBlocks_re (gelu : ℝ → ℝ) (σ : Fin B' → Fin B) (blocks : List EncoderBlock) (x : T3 B T embdSize) :
    encBlocks gelu blocks (re σ x) = re σ (encBlocks gelu blocks x) := by
  unfold encBlocks
  induction blocks generalizing x with
  | nil => rfl
  | cons e es ih =>
    rw [List.foldl_cons, List.foldl_cons, ← ih]
    rfl

theorem decBlocks_re (v : Variant) (gelu : ℝ → ℝ) (σ : Fin B' → Fin B) (blocks : List DecoderBlock) (ln : LayerNorm embdSize)
    (x : T2 B embdSize) (enc : T3 B T embdSize) :
    decBlocks v gelu blocks ln (re σ x) (re σ enc) = re σ (decBlocks v gelu blocks ln x enc) := by
  have hb : ∀ (x : T2 B embdSize), blocks.foldl (fun x d => d.fwdBasic gelu x (re σ enc)) (re σ x) =
      re σ (blocks.foldl (fun x d => d.fwdBasic gelu x enc) x) := by
    induction blocks with
    | nil => intro x; rfl
    | cons d ds ih =>
      intro x
      rw [List.foldl_cons, List.foldl_cons, ← ih]
      rfl
  have ho : ∀ (x : T3 B 1 embdSize), blocks.foldl (fun x d => d.fwdOrdered gelu x (re σ enc)) (re σ x) =
      re σ (blocks.foldl (fun x d => d.fwdOrdered gelu x enc) x) := by
    clear hb
    induction blocks with
    | nil => intro x; rfl
    | cons d ds ih =>
      intro x
      rw [List.foldl_cons, List.foldl_cons, ← ih]
      rfl
  cases v with
  | basic => simp only [decBlocks, hb]; rfl
  | conv => simp only [decBlocks, hb]; rfl
  | ordered =>
    have := ho (unsqueeze1 x)
    have e : re σ (unsqueeze1 x) = unsqueeze1 (re σ x) := rfl
    rw [e] at this
    simp only [decBlocks, this]
    rfl

/-- samples `σ b` of a batch -/
def Input.re {v : Variant} {h : HeadName} (X : Input v h B) (σ : Fin B' → Fin B) : Input v h B' :=
  { tokens := Net.re σ X.tokens, x1 := Net.re σ X.x1, x2 := Net.re σ X.x2, x3 := Net.re σ X.x3
    mask := Net.re σ X.mask, y := Net.re σ X.y, player := Net.re σ X.player }

theorem rawLogits_re {v : Variant} {h : HeadName} (gelu : ℝ → ℝ) (p : Params v) (X : Input v h B) (σ : Fin B' → Fin B)
    (emb : T3 B 150 embdSize) : rawLogits gelu p (X.re σ) (re σ emb) = re σ (rawLogits gelu p X emb) := by
  have e : (fun b => stateNet v p.state_net ((X.re σ).x1 b) ((X.re σ).x2 b) ((X.re σ).x3 b)) =
      re σ (fun b => stateNet v p.state_net (X.x1 b) (X.x2 b) (X.x3 b)) := rfl
  unfold rawLogits
  rw [e, encBlocks_re]
  simp only []
  rw [decBlocks_re]
  rfl

/-- what `run` computes, when it does not raise -/
theorem run_ok {v : Variant} {h : HeadName} {gelu : ℝ → ℝ} {p : Params v} {X : Input v h B} {o : Output h B} :
    run gelu p X = .ok o ↔
      (∀ b t, ∃ e, embed v p.tables (X.player b) t.val (X.tokens b t) = .ok e) ∧
      (∀ b a, X.mask b a = 0 ∨ X.mask b a = 1) ∧ (∀ b, ∃ a, X.mask b a ≠ 0) ∧
      o.logits = (fun b => maskedLogits (X.mask b) (rawLogits gelu p X
        (fun b t => ((embed v p.tables (X.player b) t.val (X.tokens b t)).toOption).getD 0) b)) ∧
      o.loss = (∑ b, crossEntropy (o.logits b) (X.y b)) / B := by
  unfold run embedAll
  by_cases h1 : ∀ b t, ∃ e, embed v p.tables (X.player b) t.val (X.tokens b t) = .ok e
  · rw [if_pos h1]
    by_cases h2 : ∀ b a, X.mask b a = 0 ∨ X.mask b a = 1
    · by_cases h3 : ∀ b, ∃ a, X.mask b a ≠ 0
      · simp only [bind_ok, pyAssert, h2, h3, implies_true, decide_true, if_true]
        constructor
        · rintro ⟨_, he, _, _, _, _, ho⟩
          simp only [Except.ok.injEq] at he ho
          subst ho; subst he
          exact ⟨h1, trivial, trivial, rfl, rfl⟩
        · rintro ⟨_, _, _, h4, h5⟩
          refine ⟨_, rfl, (), ?_, (), ?_, ?_⟩
          · simp
          · simp
          · cases o
            simp only at h4 h5
            subst h4; subst h5; rfl
      · simp only [bind_ok, pyAssert, h3, decide_false]
        constructor
        · rintro ⟨_, _, _, _, _, h, _⟩; simp at h
        · rintro ⟨_, _, h, _⟩; exact h.elim
    · simp only [bind_ok, pyAssert, h2, decide_false]
      constructor
      · rintro ⟨_, _, _, h, _⟩; simp at h
      · rintro ⟨_, h, _⟩; exact h.elim
  · rw [if_neg h1]
    simp only [bind_ok]
    constructor
    · rintro ⟨_, h, _⟩; simp at h
    · rintro ⟨h, _⟩; exact absurd h h1

theorem run_re {v : Variant} {h : HeadName} {gelu : ℝ → ℝ} {p : Params v} {X : Input v h B} {o : Output h B}
    (hr : run gelu p X = .ok o) (σ : Fin B' → Fin B) :
    run gelu p (X.re σ) = .ok ⟨re σ o.logits, (∑ b, crossEntropy (o.logits (σ b)) (X.y (σ b))) / B'⟩ := by
  rw [run_ok] at hr ⊢
  obtain ⟨h1, h2, h3, h4, h5⟩ := hr
  refine ⟨fun b t => h1 (σ b) t, fun b a => h2 (σ b) a, fun b => h3 (σ b), ?_, rfl⟩
  have := rawLogits_re gelu p X σ (fun b t => ((embed v p.tables (X.player b) t.val (X.tokens b t)).toOption).getD 0)
  funext b
  rw [h4]
  exact congrArg (maskedLogits (X.mask (σ b))) (congrFun this b).symm

/-! ### layer norm is bounded -/

theorem variance_nonneg {n : ℕ} (x : Fin n → ℝ) : 0 ≤ variance x :=
  div_nonneg (Finset.sum_nonneg (fun _ _ => sq_nonneg _)) (Nat.cast_nonneg _)

theorem dev_le {n : ℕ} (x : Fin n → ℝ) (i : Fin n) : (x i - mean x) ^ 2 ≤ n * variance x := by
  have hn : (n : ℝ) ≠ 0 := by
    have := i.pos
    positivity
  unfold variance
  rw [mul_div_cancel₀ _ hn]
  exact Finset.single_le_sum (f := fun j => (x j - mean x) ^ 2) (fun _ _ => sq_nonneg _) (Finset.mem_univ i)

theorem layerNorm_bound {n : ℕ} (l : LayerNorm n) (x : Fin n → ℝ) (i : Fin n) :
    |l.fwd x i| ≤ Real.sqrt n * |l.weight i| + |l.bias i| := by
  have hv : 0 < variance x + 1 / 100000 := by have := variance_nonneg x; positivity
  have hs : 0 < Real.sqrt (variance x + 1 / 100000) := Real.sqrt_pos.2 hv
  have hd : |(x i - mean x) / Real.sqrt (variance x + 1 / 100000)| ≤ Real.sqrt n := by
    rw [abs_div, abs_of_pos hs, div_le_iff₀ hs, ← Real.sqrt_mul (Nat.cast_nonneg n), ← Real.sqrt_sq_eq_abs]
    apply Real.sqrt_le_sqrt
    have := dev_le x i
    have hn : (0 : ℝ) ≤ n := Nat.cast_nonneg n
    nlinarith
  unfold LayerNorm.fwd
  calc |(x i - mean x) / Real.sqrt (variance x + 1 / 100000) * l.weight i + l.bias i|
      ≤ |(x i - mean x) / Real.sqrt (variance x + 1 / 100000) * l.weight i| + |l.bias i| := abs_add_le _ _
    _ ≤ Real.sqrt n * |l.weight i| + |l.bias i| := by
      rw [abs_mul]
      have := mul_le_mul_of_nonneg_right hd (abs_nonneg (l.weight i))
      linarith

theorem sqrt64 : Real.sqrt (64 : ℕ) = 8 := by
  rw [show ((64 : ℕ) : ℝ) = 8 ^ 2 by norm_num]
  exact Real.sqrt_sq (by norm_num)

theorem linear_bound {m n : ℕ} (l : Linear m n) (x c : Fin m → ℝ) (hx : ∀ i, |x i| ≤ c i) (a : Fin n) :
    |l.fwd x a| ≤ ∑ i, |l.weight a i| * c i + |l.bias a| := by
  unfold Linear.fwd
  refine (abs_add_le _ _).trans ?_
  have : |∑ i, l.weight a i * x i| ≤ ∑ i, |l.weight a i| * c i := by
    refine (Finset.abs_sum_le_sum_abs _ _).trans (Finset.sum_le_sum (fun i _ => ?_))
    rw [abs_mul]
    exact mul_le_mul_of_nonneg_left (hx i) (abs_nonneg _)
  linarith

/-- the vector given to the output layer is a layer norm output -/
theorem decBlocks_ln (v : Variant) (gelu : ℝ → ℝ) (blocks : List DecoderBlock) (ln : LayerNorm embdSize) (x : T2 B embdSize)
    (enc : T3 B T embdSize) (b : Fin B) : ∃ z, decBlocks v gelu blocks ln x enc b = ln.fwd z := by
  cases v with
  | basic => exact ⟨_, rfl⟩
  | conv => exact ⟨_, rfl⟩
  | ordered => exact ⟨_, rfl⟩

theorem rawLogits_bound {v : Variant} {h : HeadName} (gelu : ℝ → ℝ) (p : Params v) (X : Input v h B) (emb : T3 B 150 embdSize)
    (b : Fin B) (a : Fin (actionDim h)) : |rawLogits gelu p X emb b a| ≤ outputBound p.ln_f (p.heads h) a := by
  unfold rawLogits
  obtain ⟨z, hz⟩ := decBlocks_ln v gelu p.decoder p.ln_f
    (fun b => stateNet v p.state_net (X.x1 b) (X.x2 b) (X.x3 b)) (encBlocks gelu p.encoder emb) b
  rw [hz]
  apply linear_bound
  intro i
  have := layerNorm_bound p.ln_f z i
  rwa [sqrt64] at this

/-! ### softmax -/

theorem softmax_pos {n : ℕ} (l : Fin n → ℝ) (i : Fin n) : 0 < softmax l i := by
  unfold softmax
  exact div_pos (Real.exp_pos _) (Finset.sum_pos (fun _ _ => Real.exp_pos _) ⟨i, Finset.mem_univ i⟩)

theorem softmax_sum {n : ℕ} (l : Fin n → ℝ) (hn : 0 < n) : ∑ i, softmax l i = 1 := by
  unfold softmax
  rw [← Finset.sum_div]
  apply div_self
  exact (Finset.sum_pos (fun _ _ => Real.exp_pos _) ⟨⟨0, hn⟩, Finset.mem_univ _⟩).ne'

theorem softmax_one (l : Fin 1 → ℝ) (i : Fin 1) : softmax l i = 1 := by
  have := softmax_sum l (by decide)
  rwa [Fin.sum_univ_one, show (0 : Fin 1) = i from Subsingleton.elim _ _] at this

end MJ.Net
