import Verif.Model.Fresh
import Verif.Props.Dropout
import Verif.Props.Layers
/-!
C165: a new network guesses among the allowed actions.
-/
namespace MJ
open Real Finset

/-- how many actions the mask allows -/
def allowedCount {n : ℕ} (mask : Fin n → Int) : ℕ := (univ.filter (fun a => mask a ≠ 0)).card

/-- the loss of a sample whose recorded action is allowed, if no allowed action has a large logit, is that of guessing among the
allowed actions, up to twice the bound -/
theorem guess_loss {n : ℕ} (hn : n ≤ 154) (mask : Fin n → Int) (l : Fin n → ℝ) {c : ℝ} (hc : 0 ≤ c)
    (hl : ∀ a, mask a ≠ 0 → |l a| ≤ c) (y : Fin n) (hy : mask y ≠ 0) :
    |crossEntropy (maskedLogits mask l) y - log (allowedCount mask)| ≤ 2 * c + 1e-6 := by
  have hpos : 0 < allowedCount mask := card_pos.2 ⟨y, mem_filter.2 ⟨mem_univ _, hy⟩⟩
  have hk : (0 : ℝ) < allowedCount mask := by exact_mod_cast hpos
  have hk1 : (1 : ℝ) ≤ allowedCount mask := by exact_mod_cast hpos
  have hsplit : ∑ i, exp (maskedLogits mask l i) = ∑ i ∈ univ.filter (fun a => mask a ≠ 0), exp (l i)
      + ∑ i ∈ univ.filter (fun a => ¬ mask a ≠ 0), exp (-1000000000) := by
    rw [← sum_filter_add_sum_filter_not univ (fun a => mask a ≠ 0)]
    congr 1
    · refine sum_congr rfl fun i hi => ?_
      rw [maskedLogits, if_neg (mem_filter.1 hi).2]
    · refine sum_congr rfl fun i hi => ?_
      rw [maskedLogits, if_pos (not_not.1 (mem_filter.1 hi).2)]
  have hlow : (allowedCount mask : ℝ) * exp (-c) ≤ ∑ i ∈ univ.filter (fun a => mask a ≠ 0), exp (l i) := by
    rw [allowedCount, ← nsmul_eq_mul]
    refine card_nsmul_le_sum _ _ _ fun i hi => exp_le_exp.2 ?_
    have := abs_le.1 (hl i (mem_filter.1 hi).2)
    linarith
  have hup : ∑ i ∈ univ.filter (fun a => mask a ≠ 0), exp (l i) ≤ (allowedCount mask : ℝ) * exp c := by
    rw [allowedCount, ← nsmul_eq_mul]
    refine sum_le_card_nsmul _ _ _ fun i hi => exp_le_exp.2 ?_
    exact (abs_le.1 (hl i (mem_filter.1 hi).2)).2
  have hrest : ∑ i ∈ univ.filter (fun a => ¬ mask a ≠ 0), exp (-1000000000 : ℝ) ≤ 1e-6 := by
    rw [sum_const, nsmul_eq_mul]
    have h1 : ((univ.filter (fun a => ¬ mask a ≠ 0)).card : ℝ) ≤ 154 := by
      have := (card_filter_le (univ : Finset (Fin n)) (fun a => ¬ mask a ≠ 0)).trans (by simp [hn] : (univ : Finset (Fin n)).card ≤ 154)
      exact_mod_cast this
    have h2 : exp (-1000000000 : ℝ) ≤ 1 / 1000000001 := by
      rw [exp_neg, inv_eq_one_div]
      refine one_div_le_one_div_of_le (by norm_num) ?_
      have := add_one_le_exp (1000000000 : ℝ)
      linarith
    calc _ ≤ (154 : ℝ) * (1 / 1000000001) := mul_le_mul h1 h2 (exp_pos _).le (by norm_num)
      _ ≤ 1e-6 := by norm_num
  have hrest0 : 0 ≤ ∑ i ∈ univ.filter (fun a => ¬ mask a ≠ 0), exp (-1000000000 : ℝ) := sum_nonneg fun _ _ => (exp_pos _).le
  have hyl := abs_le.1 (hl y hy)
  have hym : maskedLogits mask l y = l y := by rw [maskedLogits, if_neg hy]
  unfold crossEntropy
  rw [hsplit, hym, abs_le]
  generalize ∑ i ∈ univ.filter (fun a => mask a ≠ 0), exp (l i) = A at *
  generalize ∑ i ∈ univ.filter (fun a => ¬ mask a ≠ 0), exp (-1000000000 : ℝ) = R at *
  generalize (allowedCount mask : ℝ) = k at *
  have hA : 0 < k * exp (-c) := mul_pos hk (exp_pos _)
  constructor
  · have h1 : log (k * exp (-c)) ≤ log (A + R) := log_le_log hA (by linarith)
    rw [log_mul hk.ne' (exp_ne_zero _), log_exp] at h1
    linarith
  · have h1 : A + R ≤ k * exp c * exp (1e-6) := by
      have e1 : 1 ≤ exp c := one_le_exp hc
      have e2 : 1 + 1e-6 ≤ exp (1e-6 : ℝ) := by have := add_one_le_exp (1e-6 : ℝ); linarith
      have e3 : 1 ≤ k * exp c := one_le_mul_of_one_le_of_one_le hk1 e1
      nlinarith
    have h2 : log (A + R) ≤ log (k * exp c * exp (1e-6)) := log_le_log (by linarith) h1
    rw [log_mul (mul_pos hk (exp_pos _)).ne' (exp_ne_zero _), log_mul hk.ne' (exp_ne_zero _), log_exp, log_exp] at h2
    linarith

end MJ
namespace MJ.Net
open MJ.Spec Finset

variable {v : Variant} {h : HeadName} {B : ℕ}

/-- `x` comes out of the network, in evaluation or in training mode -/
def Gives (gelu : ℝ → ℝ) (p : Params v) (X : Input v h B) (o : Output h B) : Prop :=
  run gelu p X = .ok o ∨ ∃ r, runDrop gelu p r X = .ok o

theorem gives_norm {gelu : ℝ → ℝ} {p : Params v} {X : Input v h B} {o : Output h B} (ho : Gives gelu p X o) :
    (∀ b, ∃ z, o.logits b = maskedLogits (X.mask b) ((p.heads h).fwd (p.ln_f.fwd z))) ∧
    o.loss = (∑ b, crossEntropy (o.logits b) (X.y b)) / B := by
  rcases ho with ho | ⟨r, ho⟩
  · obtain ⟨-, -, -, h1, h2⟩ := run_ok.1 ho
    refine ⟨fun b => ?_, h2⟩
    rw [h1]
    obtain ⟨z, hz⟩ := decBlocks_ln v gelu p.decoder p.ln_f (fun b => stateNet v p.state_net (X.x1 b) (X.x2 b) (X.x3 b))
      (encBlocks gelu p.encoder (fun b t => ((embed v p.tables (X.player b) t.val (X.tokens b t)).toOption).getD 0)) b
    refine ⟨z, ?_⟩
    simp only [rawLogits]
    rw [hz]
  · obtain ⟨-, -, -, h1, h2⟩ := runDrop_ok.1 ho
    refine ⟨fun b => ?_, h2⟩
    rw [h1]
    generalize (fun b t => ((embed v p.tables (X.player b) t.val (X.tokens b t)).toOption).getD 0 : T3 B 150 embdSize) = emb
    have hz : ∃ z, rawLogitsDrop gelu p r X emb b = (p.heads h).fwd (p.ln_f.fwd z) := by
      unfold rawLogitsDrop
      cases v <;> exact ⟨_, rfl⟩
    obtain ⟨z, hz⟩ := hz
    exact ⟨z, by dsimp only; rw [hz]⟩

/-- C165: the logits of the allowed actions of a new network are at most eight times the length of the weights of the action,
whatever the input, in evaluation and in training mode. -/
theorem C165_logits {gelu : ℝ → ℝ} {p : Params v} {X : Input v h B} {o : Output h B} (ho : Gives gelu p.fresh X o) {r : ℝ}
    (hr : 0 ≤ r) (b : Fin B) (a : Fin (actionDim h)) (hw : ∑ i, (p.heads h).weight a i ^ 2 ≤ r ^ 2) (ha : X.mask b a ≠ 0) :
    |o.logits b a| ≤ 8 * r := by
  obtain ⟨z, hz⟩ := (gives_norm ho).1 b
  rw [hz, maskedLogits, if_neg ha]
  obtain ⟨u, hu, h1⟩ := C125_norm (by norm_num : 0 < 64) p.fresh.ln_f z
  have h2 := (C125_moments (by norm_num : 0 < 64) hu).2
  have h3 : ∑ i, u i ^ 2 ≤ 64 := by
    rw [div_lt_one (by norm_num)] at h2
    push_cast at h2
    linarith
  have h4 : (p.fresh.heads h).fwd (p.fresh.ln_f.fwd z) a = ∑ i, (p.heads h).weight a i * u i := by
    simp only [Linear.fwd, h1]
    simp only [Params.fresh, Linear.fresh, freshNorm, one_mul, add_zero]
  rw [h4]
  refine abs_le_of_sq_le_sq ?_ (by positivity)
  calc (∑ i, (p.heads h).weight a i * u i) ^ 2 ≤ (∑ i, (p.heads h).weight a i ^ 2) * ∑ i, u i ^ 2 := sum_mul_sq_le_sq_mul_sq _ _ _
    _ ≤ r ^ 2 * 64 := mul_le_mul hw h3 (sum_nonneg fun _ _ => sq_nonneg _) (sq_nonneg _)
    _ = (8 * r) ^ 2 := by ring

theorem actionDim_le (h : HeadName) : actionDim h ≤ 154 := by cases h <;> decide

/-- the logits of the output, with the mask put on again -/
theorem gives_masked {gelu : ℝ → ℝ} {p : Params v} {X : Input v h B} {o : Output h B} (ho : Gives gelu p X o) (b : Fin B) :
    o.logits b = maskedLogits (X.mask b) (o.logits b) := by
  obtain ⟨z, hz⟩ := (gives_norm ho).1 b
  rw [hz]
  funext i
  by_cases hi : X.mask b i = 0 <;> simp [maskedLogits, hi]

/-- C165: so the loss of a sample is near the logarithm of the number of allowed actions, that of a uniform guess among them. -/
theorem C165_sample {gelu : ℝ → ℝ} {p : Params v} {X : Input v h B} {o : Output h B} (ho : Gives gelu p.fresh X o) {r : ℝ}
    (hr : 0 ≤ r) (hw : ∀ a, ∑ i, (p.heads h).weight a i ^ 2 ≤ r ^ 2) (b : Fin B) (y : Fin (actionDim h)) (hy : X.mask b y ≠ 0) :
    |crossEntropy (o.logits b) y - Real.log (allowedCount (X.mask b))| ≤ 16 * r + 1e-6 := by
  rw [gives_masked ho b]
  have := guess_loss (actionDim_le h) (X.mask b) (o.logits b) (c := 8 * r) (by positivity)
    (fun a ha => C165_logits ho hr b a (hw a) ha) y hy
  linarith

/-- C165: and every allowed action has about the same probability. -/
theorem C165_probability {gelu : ℝ → ℝ} {p : Params v} {X : Input v h B} {o : Output h B} (ho : Gives gelu p.fresh X o) {r : ℝ}
    (hr : 0 ≤ r) (hw : ∀ a, ∑ i, (p.heads h).weight a i ^ 2 ≤ r ^ 2) (b : Fin B) (a : Fin (actionDim h)) (ha : X.mask b a ≠ 0) :
    Real.exp (-(16 * r + 1e-6)) / allowedCount (X.mask b) ≤ softmax (o.logits b) a ∧
    softmax (o.logits b) a ≤ Real.exp (16 * r + 1e-6) / allowedCount (X.mask b) := by
  have h1 := abs_le.1 (C165_sample ho hr hw b a ha)
  have h2 : crossEntropy (o.logits b) a = - Real.log (softmax (o.logits b) a) := by
    rw [gives_masked ho b]
    exact (C86_loss_nonneg (X.mask b) (o.logits b) a).2
  have hk : (0 : ℝ) < allowedCount (X.mask b) := by
    have : 0 < allowedCount (X.mask b) := card_pos.2 ⟨a, mem_filter.2 ⟨mem_univ _, ha⟩⟩
    exact_mod_cast this
  have hs : 0 < softmax (o.logits b) a := softmax_pos _ a
  rw [h2] at h1
  constructor
  · rw [div_le_iff₀ hk, ← Real.log_le_log_iff (Real.exp_pos _) (mul_pos hs hk), Real.log_exp, Real.log_mul hs.ne' hk.ne']
    linarith
  · rw [le_div_iff₀ hk, ← Real.log_le_log_iff (mul_pos hs hk) (Real.exp_pos _), Real.log_exp, Real.log_mul hs.ne' hk.ne']
    linarith

/-- C165: the first loss of a batch whose recorded actions are allowed is near the mean of these logarithms. -/
theorem C165_loss {gelu : ℝ → ℝ} {p : Params v} {X : Input v h B} {o : Output h B} (ho : Gives gelu p.fresh X o) {r : ℝ}
    (hr : 0 ≤ r) (hw : ∀ a, ∑ i, (p.heads h).weight a i ^ 2 ≤ r ^ 2) (hB : 0 < B) (hy : ∀ b, X.mask b (X.y b) ≠ 0) :
    |o.loss - (∑ b, Real.log (allowedCount (X.mask b))) / B| ≤ 16 * r + 1e-6 := by
  have hB' : (0 : ℝ) < B := by exact_mod_cast hB
  rw [(gives_norm ho).2, ← sub_div, ← sum_sub_distrib, abs_div, abs_of_pos hB', div_le_iff₀ hB']
  refine (abs_sum_le_sum_abs _ _).trans ?_
  calc _ ≤ ∑ _b : Fin B, (16 * r + 1e-6) := sum_le_sum fun b _ => C165_sample ho hr hw b _ (hy b)
    _ = (16 * r + 1e-6) * B := by rw [sum_const, card_univ, Fintype.card_fin, nsmul_eq_mul, mul_comm]

theorem run_exists (gelu : ℝ → ℝ) (p : Params v) (X : Input v h B)
    (h1 : ∀ b t, ∃ e, embed v p.tables (X.player b) t.val (X.tokens b t) = .ok e) (h2 : ∀ b a, X.mask b a = 0 ∨ X.mask b a = 1)
    (h3 : ∀ b, ∃ a, X.mask b a ≠ 0) : ∃ o, run gelu p X = .ok o := by
  generalize hl : (fun b => maskedLogits (X.mask b) (rawLogits gelu p X
    (fun b t => ((embed v p.tables (X.player b) t.val (X.tokens b t)).toOption).getD 0) b)) = l
  exact ⟨⟨l, (∑ b, crossEntropy (l b) (X.y b)) / B⟩, run_ok.2 ⟨h1, h2, h3, hl.symm, rfl⟩⟩

/-- the hypotheses can be met: a sample without events that allows all actions, with the weights zero -/
example (gelu : ℝ → ℝ) (p : Params .ordered) : ∃ (q : Params .ordered) (X : Input .ordered .discard 1) (o : Output .discard 1),
    Gives gelu q.fresh X o ∧ (∀ a, ∑ i, (q.heads .discard).weight a i ^ 2 ≤ (0.01 : ℝ) ^ 2) ∧ ∀ b, X.mask b (X.y b) ≠ 0 := by
  obtain ⟨o, ho⟩ := run_exists gelu ({ p with heads := fun _ => ⟨fun _ _ => 0, fun _ => 5⟩ } : Params .ordered).fresh
    (⟨fun _ _ => BitVec.ofNat 64 padId, fun _ _ _ _ => 0, fun _ _ _ => 0, fun _ _ => 0, fun _ _ => 1, fun _ => 0, fun _ => 0⟩ :
      Input .ordered .discard 1)
    (fun b t => ⟨0, C69_padding_zero (add_zero 0) _ rfl _ _ t.isLt⟩) (by simp) (fun b => ⟨0, by simp⟩)
  exact ⟨_, _, o, .inl ho, by intro a; simp only [ne_eq, OfNat.ofNat_ne_zero, not_false_eq_true, zero_pow, sum_const_zero]; positivity,
    by simp⟩

/-- C165: in the first layer of a new ordered network the padding adds nothing but takes its share: its values and keys are zero,
and a padding position attends to all positions alike. -/
theorem C165_padding {p : Params .ordered} {X : Input .ordered h B} {emb : T3 B 150 embdSize} (he : embedAll p.fresh X = .ok emb)
    (e : EncoderBlock) (j : Fin nHeads) (b : Fin B) (t : Fin 150) (ht : X.tokens b t = BitVec.ofNat 64 padId) :
    let x : T3 B 150 embdSize := fun b t => e.fresh.ln1.fwd (emb b t)
    let hd := e.fresh.self_attention.heads j
    hd.value.fwd (x b t) = 0 ∧ hd.key.fwd (x b t) = 0 ∧ ∀ u, hd.wei x x b t u = 1 / 150 := by
  have h0 : emb b t = 0 := by
    unfold embedAll at he
    split at he
    · simp only [Except.ok.injEq] at he
      subst he
      simp only [embed, ht]
      rw [C69_padding_zero (add_zero 0) p.fresh.tables rfl _ _ t.isLt]
      rfl
    · simp at he
  have hx : e.fresh.ln1.fwd (emb b t) = 0 := by
    rw [h0]
    funext i
    simp [LayerNorm.fwd, mean, EncoderBlock.fresh, freshNorm]
  have hlin : ∀ {m : ℕ} (l : Linear embdSize m), l.fresh.fwd 0 = 0 := by
    intro m l
    funext a
    simp [Linear.fwd, Linear.fresh]
  refine ⟨?_, ?_, fun u => ?_⟩
  · simp only [hx]
    exact hlin _
  · simp only [hx]
    exact hlin _
  · simp only [Head.wei, softmaxLast, softmax, bmm]
    have hq : (e.fresh.self_attention.heads j).query.fwd (e.fresh.ln1.fwd (emb b t)) = 0 := by
      rw [hx]
      exact hlin _
    rw [hq]
    simp

end MJ.Net
