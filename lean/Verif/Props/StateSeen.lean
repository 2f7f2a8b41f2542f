import Verif.Props.Layers
/-!
No part of the state given to the networks is lost on the way.
-/
namespace MJ.Net
open scoped BigOperators
open Spec

/-- a layer that passes on `σ * x j + c` as its output 0 and nothing else -/
noncomputable def select {m n : ℕ} (j : Fin m) (σ c : ℝ) : Linear m n :=
  ⟨fun o i => if o.val = 0 ∧ i = j then σ else 0, fun o => if o.val = 0 then c else 0⟩

theorem select_fwd {m n : ℕ} (j : Fin m) (σ c : ℝ) (x : Fin m → ℝ) (o : Fin n) :
    (select j σ c : Linear m n).fwd x o = if o.val = 0 then σ * x j + c else 0 := by
  unfold select Linear.fwd
  by_cases h : o.val = 0
  · simp [h, ite_mul]
  · simp [h]

/-- a vector with at most the entry 0 different from zero -/
def only0 {n : ℕ} (a : ℝ) : Fin n → ℝ := fun i => if i.val = 0 then a else 0

theorem relu_only0 {n : ℕ} (a : ℝ) (i : Fin n) : relu (if i.val = 0 then a else 0) = (only0 (relu a) : Fin n → ℝ) i := by
  unfold only0
  split
  · rfl
  · simp [relu]

theorem relu_pos {a : ℝ} (h : 0 < a) : relu a = a := max_eq_left h.le
theorem relu_zero : relu 0 = 0 := max_self 0

/-- different numbers: an affine function that is positive at one and zero at the other -/
theorem separate {a b : ℝ} (h : a ≠ b) : ∃ σ c : ℝ, 0 < σ * a + c ∧ σ * b + c = 0 := by
  rcases lt_or_gt_of_ne h with h | h
  · exact ⟨-1, b, by linarith, by ring⟩
  · exact ⟨1, -b, by linarith, by ring⟩

/-- layers after the convolutions that separate two values of the combined planes -/
theorem tail_x1 {n : ℕ} (j : Fin n) (z z' : Fin n → ℝ) (h : z j ≠ z' j) (x2 x2' : T2 7 4) (x3 x3' : Fin 4 → ℝ) :
    ∃ s : StateTail n, ∃ a : ℝ, 0 < a ∧ (∀ y : Fin n → ℝ, y j = z j → s.fwd y x2 x3 = only0 a) ∧
      ∀ y : Fin n → ℝ, y j = z' j → s.fwd y x2' x3' = only0 0 := by
  obtain ⟨σ, c, hp, h0⟩ := separate h
  let i0 : Fin (64 + 7 * 4 + 4) := Fin.castAdd 4 (Fin.castAdd (7 * 4) 0)
  refine ⟨⟨select j σ c, select i0 1 0, select 0 1 0⟩, σ * z j + c, hp, ?_, ?_⟩
  all_goals
    intro y hy
    unfold StateTail.fwd cat
    simp only [select_fwd, i0, Fin.append_left, relu_only0, hy]
    simp only [only0, Fin.val_zero, if_true, one_mul, add_zero]
  · simp only [relu_pos hp]
    rfl
  · simp only [h0, relu_zero]
    rfl

/-- layers that separate two values of `x2` or `x3` -/
theorem tail_rest {n : ℕ} (z z' : Fin n → ℝ) (x2 x2' : T2 7 4) (x3 x3' : Fin 4 → ℝ) (h : x2 ≠ x2' ∨ x3 ≠ x3') :
    ∃ s : StateTail n, ∃ a : ℝ, 0 < a ∧ s.fwd z x2 x3 = only0 a ∧ s.fwd z' x2' x3' = only0 0 := by
  have hj : ∃ j : Fin (64 + 7 * 4 + 4), 64 ≤ j.val ∧ ∀ u u' : Fin 64 → ℝ,
      Fin.append (Fin.append u (flatten x2)) x3 j ≠ Fin.append (Fin.append u' (flatten x2')) x3' j := by
    rcases h with h | h
    · obtain ⟨r, hr⟩ := Function.ne_iff.1 h
      obtain ⟨q, hq⟩ := Function.ne_iff.1 hr
      let k : Fin (7 * 4) := finProdFinEquiv (r, q)
      refine ⟨Fin.castAdd 4 (Fin.natAdd 64 k), by simp, fun u u' => ?_⟩
      rw [Fin.append_left, Fin.append_right, Fin.append_left, Fin.append_right]
      have hk : (k.divNat, k.modNat) = (r, q) := finProdFinEquiv.symm_apply_apply (r, q)
      unfold flatten
      rw [show k.divNat = r from congrArg Prod.fst hk, show k.modNat = q from congrArg Prod.snd hk]
      exact hq
    · obtain ⟨r, hr⟩ := Function.ne_iff.1 h
      refine ⟨Fin.natAdd (64 + 7 * 4) r, by simp; omega, fun u u' => ?_⟩
      rw [Fin.append_right, Fin.append_right]
      exact hr
  obtain ⟨j, _, hj⟩ := hj
  have hz : ∀ (x : Fin n → ℝ), (fun i => relu ((zeroLinear n 64).fwd x i)) = fun _ => 0 := by
    intro x
    rw [zeroLinear_fwd]
    funext i
    exact relu_zero
  obtain ⟨σ, c, hp, h0⟩ := separate (hj (fun _ => 0) (fun _ => 0))
  refine ⟨⟨zeroLinear _ _, select j σ c, select 0 1 0⟩, _, hp, ?_, ?_⟩
  all_goals
    unfold StateTail.fwd cat
    simp only [hz, select_fwd, relu_only0]
    simp only [only0, Fin.val_zero, if_true, one_mul, add_zero]
  · simp only [relu_pos hp]
    rfl
  · simp only [h0, relu_zero]
    rfl

/-- C129: two different states are told apart by the state network for some parameters. -/
theorem C129_state_net (v : Variant) (x1 x1' : T3 (chan v) 37 (width v)) (x2 x2' : T2 7 4) (x3 x3' : Fin 4 → ℝ)
    (h : (x1, x2, x3) ≠ (x1', x2', x3')) :
    ∃ s : StateNet v, ∃ a : ℝ, 0 < a ∧ stateNet v s x1 x2 x3 = only0 a ∧ stateNet v s x1' x2' x3' = only0 0 := by
  have h' : x1 ≠ x1' ∨ x2 ≠ x2' ∨ x3 ≠ x3' := by
    by_contra hc
    simp only [not_or, not_not] at hc
    obtain ⟨e1, e2, e3⟩ := hc
    exact h (by rw [e1, e2, e3])
  rcases h' with h' | h'
  · obtain ⟨i, hi⟩ := Function.ne_iff.1 h'
    obtain ⟨r, hr⟩ := Function.ne_iff.1 hi
    obtain ⟨w, hw⟩ := Function.ne_iff.1 hr
    have flat : ∀ {a b : ℕ} (y : T2 a b) (r : Fin a) (q : Fin b), flatten y (finProdFinEquiv (r, q)) = y r q := by
      intro a b y r q
      have hk := finProdFinEquiv.symm_apply_apply (r, q)
      unfold flatten
      rw [show (finProdFinEquiv (r, q)).divNat = r from congrArg Prod.fst hk,
        show (finProdFinEquiv (r, q)).modNat = q from congrArg Prod.snd hk]
    cases v with
    | basic =>
      have hw0 : w = 0 := Subsingleton.elim _ _
      subst hw0
      let y : Fin (16 * 37 + 3 * 37) → ℝ := cat (fun _ => 0) (flatten (fun c k => x1 c k 0))
      let y' : Fin (16 * 37 + 3 * 37) → ℝ := cat (fun _ => 0) (flatten (fun c k => x1' c k 0))
      obtain ⟨s, a, ha, h1, h2⟩ := tail_x1 (Fin.natAdd (16 * 37) (finProdFinEquiv (i, r))) y y'
        (by simp only [y, y', cat, Fin.append_right, flat]; exact hw) x2 x2' x3 x3'
      refine ⟨⟨⟨fun _ _ _ => 0, fun _ => 0⟩, ⟨fun _ _ _ => 0, fun _ => 0⟩, s⟩, a, ha, ?_, ?_⟩
      · exact h1 _ (by simp only [y, cat, Fin.append_right])
      · exact h2 _ (by simp only [y', cat, Fin.append_right])
    | conv =>
      let y : Fin (8 * (37 * 4) + 3 * (37 * 4)) → ℝ := cat (fun _ => 0) (flatten (fun m => flatten (x1 m)))
      let y' : Fin (8 * (37 * 4) + 3 * (37 * 4)) → ℝ := cat (fun _ => 0) (flatten (fun m => flatten (x1' m)))
      obtain ⟨s, a, ha, h1, h2⟩ := tail_x1 (Fin.natAdd (8 * (37 * 4)) (finProdFinEquiv (i, finProdFinEquiv (r, w)))) y y'
        (by simp only [y, y', cat, Fin.append_right, flat]; exact hw) x2 x2' x3 x3'
      refine ⟨⟨⟨fun _ _ _ _ => 0, fun _ => 0⟩, ⟨fun _ _ _ _ => 0, fun _ => 0⟩, s⟩, a, ha, ?_, ?_⟩
      · exact h1 _ (by simp only [y, cat, Fin.append_right])
      · exact h2 _ (by simp only [y', cat, Fin.append_right])
    | ordered =>
      let y : Fin (16 * (37 * 4) + 6 * (37 * 4)) → ℝ := cat (fun _ => 0) (flatten (fun m => flatten (x1 m)))
      let y' : Fin (16 * (37 * 4) + 6 * (37 * 4)) → ℝ := cat (fun _ => 0) (flatten (fun m => flatten (x1' m)))
      obtain ⟨s, a, ha, h1, h2⟩ := tail_x1 (Fin.natAdd (16 * (37 * 4)) (finProdFinEquiv (i, finProdFinEquiv (r, w)))) y y'
        (by simp only [y, y', cat, Fin.append_right, flat]; exact hw) x2 x2' x3 x3'
      refine ⟨⟨⟨fun _ _ _ _ => 0, fun _ => 0⟩, ⟨fun _ _ _ _ => 0, fun _ => 0⟩, s⟩, a, ha, ?_, ?_⟩
      · exact h1 _ (by simp only [y, cat, Fin.append_right])
      · exact h2 _ (by simp only [y', cat, Fin.append_right])
  · cases v with
    | basic =>
      obtain ⟨s, a, ha, h1, h2⟩ := tail_rest
        (cat (flatten (fun m p => relu ((⟨fun _ _ _ => 0, fun _ => 0⟩ : Conv1d 8 16).fwd (fun m p => relu
          ((⟨fun _ _ _ => 0, fun _ => 0⟩ : Conv1d 3 8).fwd (fun c k => x1 c k 0) m p)) m p))) (flatten (fun c k => x1 c k 0)))
        (cat (flatten (fun m p => relu ((⟨fun _ _ _ => 0, fun _ => 0⟩ : Conv1d 8 16).fwd (fun m p => relu
          ((⟨fun _ _ _ => 0, fun _ => 0⟩ : Conv1d 3 8).fwd (fun c k => x1' c k 0) m p)) m p))) (flatten (fun c k => x1' c k 0)))
        x2 x2' x3 x3' h'
      exact ⟨⟨⟨fun _ _ _ => 0, fun _ => 0⟩, ⟨fun _ _ _ => 0, fun _ => 0⟩, s⟩, a, ha, h1, h2⟩
    | conv =>
      obtain ⟨s, a, ha, h1, h2⟩ := tail_rest
        (cat (flatten (fun m => flatten ((fun m p r => relu ((⟨fun _ _ _ _ => 0, fun _ => 0⟩ : Conv2d 8 8).fwd
          (fun m p r => relu ((⟨fun _ _ _ _ => 0, fun _ => 0⟩ : Conv2d 3 8).fwd x1 m p r)) m p r)) m)))
          (flatten (fun m => flatten (x1 m))))
        (cat (flatten (fun m => flatten ((fun m p r => relu ((⟨fun _ _ _ _ => 0, fun _ => 0⟩ : Conv2d 8 8).fwd
          (fun m p r => relu ((⟨fun _ _ _ _ => 0, fun _ => 0⟩ : Conv2d 3 8).fwd x1' m p r)) m p r)) m)))
          (flatten (fun m => flatten (x1' m))))
        x2 x2' x3 x3' h'
      exact ⟨⟨⟨fun _ _ _ _ => 0, fun _ => 0⟩, ⟨fun _ _ _ _ => 0, fun _ => 0⟩, s⟩, a, ha, h1, h2⟩
    | ordered =>
      obtain ⟨s, a, ha, h1, h2⟩ := tail_rest
        (cat (flatten (fun m => flatten ((fun m p r => relu ((⟨fun _ _ _ _ => 0, fun _ => 0⟩ : Conv2d 8 16).fwd
          (fun m p r => relu ((⟨fun _ _ _ _ => 0, fun _ => 0⟩ : Conv2d 6 8).fwd x1 m p r)) m p r)) m)))
          (flatten (fun m => flatten (x1 m))))
        (cat (flatten (fun m => flatten ((fun m p r => relu ((⟨fun _ _ _ _ => 0, fun _ => 0⟩ : Conv2d 8 16).fwd
          (fun m p r => relu ((⟨fun _ _ _ _ => 0, fun _ => 0⟩ : Conv2d 6 8).fwd x1' m p r)) m p r)) m)))
          (flatten (fun m => flatten (x1' m))))
        x2 x2' x3 x3' h'
      exact ⟨⟨⟨fun _ _ _ _ => 0, fun _ => 0⟩, ⟨fun _ _ _ _ => 0, fun _ => 0⟩, s⟩, a, ha, h1, h2⟩

/-! ### through the decoder -/

/-- attention that adds nothing -/
noncomputable def zeroAttention : MultiHeadAttention :=
  ⟨fun _ => ⟨zeroLinear _ _, zeroLinear _ _, zeroLinear _ _⟩, zeroLinear _ _⟩

/-- a layer norm with weight one and bias zero, as it is initialised -/
noncomputable def plainNorm : LayerNorm embdSize := ⟨fun _ => 1, fun _ => 0⟩

/-- a decoder block that adds nothing -/
noncomputable def zeroDecoder : DecoderBlock :=
  ⟨zeroAttention, zeroAttention, ⟨zeroLinear _ _, zeroLinear _ _⟩, plainNorm, plainNorm, plainNorm⟩

theorem zeroAttention_fwd {B T Q : ℕ} (k v : T3 B T embdSize) (q : T3 B Q embdSize) :
    zeroAttention.fwd k v q = fun _ _ _ => 0 := by
  unfold MultiHeadAttention.fwd zeroAttention
  simp only [zeroLinear_fwd]

theorem zeroDecoder_basic {B T : ℕ} (gelu : ℝ → ℝ) (x : T2 B embdSize) (enc : T3 B T embdSize) :
    zeroDecoder.fwdBasic gelu x enc = x := by
  unfold DecoderBlock.fwdBasic zeroDecoder squeeze1
  simp only [zeroAttention_fwd, FeedForward.fwd, zeroLinear_fwd, add_zero]

theorem zeroDecoder_ordered {B Q T : ℕ} (gelu : ℝ → ℝ) (x : T3 B Q embdSize) (enc : T3 B T embdSize) :
    zeroDecoder.fwdOrdered gelu x enc = x := by
  unfold DecoderBlock.fwdOrdered zeroDecoder
  simp only [zeroAttention_fwd, FeedForward.fwd, zeroLinear_fwd, add_zero]

theorem decBlocks_zero {B T : ℕ} (v : Variant) (gelu : ℝ → ℝ) (n : ℕ) (ln : LayerNorm embdSize) (x : T2 B embdSize)
    (enc : T3 B T embdSize) (b : Fin B) :
    decBlocks v gelu (List.replicate n zeroDecoder) ln x enc b = ln.fwd (x b) := by
  have h1 : ∀ x : T2 B embdSize, (List.replicate n zeroDecoder).foldl (fun x d => d.fwdBasic gelu x enc) x = x := by
    intro x
    induction n with
    | zero => rfl
    | succ n ih => rw [List.replicate_succ, List.foldl_cons, zeroDecoder_basic, ih]
  have h2 : ∀ x : T3 B 1 embdSize, (List.replicate n zeroDecoder).foldl (fun x d => d.fwdOrdered gelu x enc) x = x := by
    clear h1
    intro x
    induction n with
    | zero => rfl
    | succ n ih => rw [List.replicate_succ, List.foldl_cons, zeroDecoder_ordered, ih]
  cases v <;> simp only [decBlocks, h1, h2] <;> rfl

theorem sum_only0 (a : ℝ) : ∑ i : Fin embdSize, only0 a i = a := by
  unfold only0
  rw [Finset.sum_eq_single (0 : Fin embdSize)]
  · simp
  · intro i _ hi
    exact if_neg (fun h => hi (Fin.ext h))
  · intro h
    exact absurd (Finset.mem_univ _) h

theorem plainNorm_zero : plainNorm.fwd (only0 0) = fun _ => 0 := by
  have h0 : (only0 0 : Fin embdSize → ℝ) = fun _ => 0 := by
    funext i
    unfold only0
    split <;> rfl
  funext i
  unfold LayerNorm.fwd plainNorm mean
  rw [h0]
  simp

theorem plainNorm_pos {a : ℝ} (ha : 0 < a) : 0 < plainNorm.fwd (only0 a) 0 := by
  have hm : mean (only0 a : Fin embdSize → ℝ) = a / 64 := by
    unfold mean
    rw [sum_only0]
    norm_num
  have hv : 0 < variance (only0 a : Fin embdSize → ℝ) + 1 / 100000 := by
    have := variance_nonneg (only0 a : Fin embdSize → ℝ)
    positivity
  unfold LayerNorm.fwd plainNorm
  simp only [mul_one, add_zero]
  apply div_pos
  · rw [hm]
    have : (only0 a : Fin embdSize → ℝ) 0 = a := rfl
    rw [this]
    linarith
  · exact Real.sqrt_pos.2 hv

/-- C129: two inputs with different states get different logits, for every action, by the network with some parameters;
this is so for any number of layers and whatever the encoder does. -/
theorem C129_logits {v : Variant} {h : HeadName} (X Y : Input v h 1) (hne : (X.x1, X.x2, X.x3) ≠ (Y.x1, Y.x2, Y.x3))
    (gelu : ℝ → ℝ) (tables : Tables (Fin embdSize → ℝ)) (encoder : List EncoderBlock) (n : ℕ) (a : Fin (actionDim h)) :
    ∃ p : Params v, p.tables = tables ∧ p.encoder = encoder ∧ p.decoder.length = n ∧
      ∀ emb emb', rawLogits gelu p X emb 0 a ≠ rawLogits gelu p Y emb' 0 a := by
  have hne' : (X.x1 0, X.x2 0, X.x3 0) ≠ (Y.x1 0, Y.x2 0, Y.x3 0) := by
    intro e
    simp only [Prod.mk.injEq] at e
    apply hne
    have f : ∀ {α : Type} {u w : Fin 1 → α}, u 0 = w 0 → u = w := by
      intro α u w he
      funext i
      rw [Subsingleton.elim i 0, he]
    rw [f e.1, f e.2.1, f e.2.2]
  obtain ⟨s, c, hc, h1, h2⟩ := C129_state_net v _ _ _ _ _ _ hne'
  let hd : (h : HeadName) → Linear embdSize (actionDim h) := fun h => ⟨fun _ i => if i = 0 then 1 else 0, fun _ => 0⟩
  refine ⟨⟨tables, encoder, s, List.replicate n zeroDecoder, plainNorm, hd⟩, rfl, rfl, List.length_replicate, fun emb emb' => ?_⟩
  unfold rawLogits
  simp only [decBlocks_zero, h1, h2]
  have e : ∀ z : Fin embdSize → ℝ, (hd h).fwd z a = z 0 := by
    intro z
    simp [hd, Linear.fwd]
  rw [e, e, plainNorm_zero]
  exact (plainNorm_pos hc).ne'

end MJ.Net
