import Verif.Spec.Layers
import Verif.Proofs.Network
/-!
The layers of the networks: attention, layer norm, blocks, convolutions, and what they can tell apart.
-/
namespace MJ.Net
open scoped BigOperators
open Spec

variable {B T Q : ℕ}

/-! ### C124: attention -/

theorem outputs_eq {m n : ℕ} (l : Linear m n) (x : Fin m → ℝ) : l.fwd x = outputs l x := rfl

/-- C124: the weights that a head gives to the positions are the scaled dot-product attention of query and keys. -/
theorem C124_weights (h : Head) (k : T3 B T embdSize) (q : T3 B Q embdSize) (b : Fin B) (i : Fin Q) (hT : 0 < T) :
    Attends (outputs h.query (q b i)) (fun t => outputs h.key (k b t)) (h.wei k q b i) := by
  unfold Head.wei softmaxLast
  refine ⟨fun t => softmax_pos _ t, softmax_sum _ hT, fun t u => ?_⟩
  unfold softmax
  rw [div_mul_eq_mul_div, ← Real.exp_add]
  congr 2
  simp only [bmm, transpose12, outputs_eq]
  rw [sub_div, add_sub_cancel]

/-- C124: these conditions leave no freedom. -/
theorem C124_unique {T d : ℕ} {q : Fin d → ℝ} {k : Fin T → Fin d → ℝ} {w w' : Fin T → ℝ} (h : Attends q k w)
    (h' : Attends q k w') : w = w' := by
  funext u
  have key : ∀ {w : Fin T → ℝ}, Attends q k w →
      w u * ∑ t, Real.exp ((∑ i, q i * k t i - ∑ i, q i * k u i) / Real.sqrt d) = 1 := by
    intro w h
    rw [Finset.mul_sum, ← h.sum]
    exact Finset.sum_congr rfl (fun t _ => (h.ratio t u).symm)
  have hp : 0 < ∑ t, Real.exp ((∑ i, q i * k t i - ∑ i, q i * k u i) / Real.sqrt d) :=
    Finset.sum_pos (fun _ _ => Real.exp_pos _) ⟨u, Finset.mem_univ _⟩
  exact mul_right_cancel₀ hp.ne' ((key h).trans (key h').symm)

/-- C124: the output of a head is the average of the values with these weights. -/
theorem C124_head (h : Head) (k v : T3 B T embdSize) (q : T3 B Q embdSize) (b : Fin B) (i : Fin Q) {w : Fin T → ℝ}
    (hw : Attends (outputs h.query (q b i)) (fun t => outputs h.key (k b t)) w) (j : Fin headSize) :
    h.fwd k v q b i j = ∑ t, w t * outputs h.value (v b t) j := by
  have hT : 0 < T := by
    rcases Nat.eq_zero_or_pos T with rfl | hT
    · have := hw.sum
      simp at this
    · exact hT
  rw [C124_unique hw (C124_weights h k q b i hT)]
  rfl

theorem average_between {n : ℕ} (w x : Fin n → ℝ) (hw : ∀ i, 0 < w i) (hs : ∑ i, w i = 1) (lo hi : ℝ)
    (hx : ∀ i, lo ≤ x i ∧ x i ≤ hi) : lo ≤ ∑ i, w i * x i ∧ ∑ i, w i * x i ≤ hi := by
  constructor
  · calc lo = ∑ i, w i * lo := by rw [← Finset.sum_mul, hs, one_mul]
      _ ≤ _ := Finset.sum_le_sum (fun i _ => mul_le_mul_of_nonneg_left (hx i).1 (hw i).le)
  · calc _ ≤ ∑ i, w i * hi := Finset.sum_le_sum (fun i _ => mul_le_mul_of_nonneg_left (hx i).2 (hw i).le)
      _ = hi := by rw [← Finset.sum_mul, hs, one_mul]

/-- C124: a head never leaves the range of the values. -/
theorem C124_range (h : Head) (k v : T3 B T embdSize) (q : T3 B Q embdSize) (b : Fin B) (i : Fin Q) (hT : 0 < T)
    (j : Fin headSize) (lo hi : ℝ) (hv : ∀ t, lo ≤ outputs h.value (v b t) j ∧ outputs h.value (v b t) j ≤ hi) :
    lo ≤ h.fwd k v q b i j ∧ h.fwd k v q b i j ≤ hi := by
  have hw := C124_weights h k q b i hT
  rw [C124_head h k v q b i hw j]
  exact average_between _ _ hw.pos hw.sum lo hi hv

/-- C124: the outputs of the eight heads are put one after the other and go through the projection. -/
theorem C124_heads (m : MultiHeadAttention) (k v : T3 B T embdSize) (q : T3 B Q embdSize) (b : Fin B) (i : Fin Q) :
    ∃ z : Fin (nHeads * headSize) → ℝ, m.fwd k v q b i = outputs m.proj z ∧
      ∀ (n : Fin nHeads) (d : Fin headSize) (j : Fin (nHeads * headSize)), j.val = 8 * n.val + d.val →
        z j = (m.heads n).fwd k v q b i d := by
  refine ⟨_, rfl, fun n d j hj => ?_⟩
  have h1 : j.divNat = n := Fin.ext (by simp only [Fin.coe_divNat]; have := d.2; unfold headSize at *; omega)
  have h2 : j.modNat = d := Fin.ext (by simp only [Fin.coe_modNat]; have := d.2; unfold headSize at *; omega)
  simp only [h1, h2]

/-- two positions whose keys are equal share the attention equally -/
example (h : Head) (k v : T3 1 2 embdSize) (q : T3 1 1 embdSize) (hk : k 0 0 = k 0 1) (j : Fin headSize) :
    h.fwd k v q 0 0 j = (outputs h.value (v 0 0) j + outputs h.value (v 0 1) j) / 2 := by
  have : Attends (outputs h.query (q 0 0)) (fun t => outputs h.key (k 0 t)) (fun _ : Fin 2 => (1 / 2 : ℝ)) := by
    refine ⟨fun _ => by norm_num, by rw [Fin.sum_univ_two]; norm_num, fun t u => ?_⟩
    have hkk : ∀ t u : Fin 2, k 0 t = k 0 u := by
      intro t u
      fin_cases t <;> fin_cases u <;> first | rfl | exact hk | exact hk.symm
    simp only [hkk t u, sub_self, zero_div, Real.exp_zero, mul_one]
  rw [C124_head h k v q 0 0 this j, Fin.sum_univ_two]
  ring

/-! ### C125: layer norm -/

/-- C125: a layer norm is `weight * z + bias` where `z` is the input moved to mean zero and scaled to unit variance
(with 1/100000 added to the variance). -/
theorem C125_norm {n : ℕ} (hn : 0 < n) (l : LayerNorm n) (x : Fin n → ℝ) :
    ∃ z, Normalised x z ∧ ∀ i, l.fwd x i = l.weight i * z i + l.bias i := by
  have hn' : (n : ℝ) ≠ 0 := by positivity
  have hv : 0 < variance x + 1 / 100000 := by have := variance_nonneg x; positivity
  refine ⟨fun i => (x i - mean x) * (Real.sqrt (variance x + 1 / 100000))⁻¹,
    ⟨mean x, (Real.sqrt (variance x + 1 / 100000))⁻¹, ?_, ?_, ?_, fun _ => rfl⟩, fun i => ?_⟩
  · unfold mean
    field_simp
  · exact inv_pos.2 (Real.sqrt_pos.2 hv)
  · rw [inv_pow, Real.sq_sqrt hv.le]
    exact inv_mul_cancel₀ hv.ne'
  · unfold LayerNorm.fwd
    rw [div_eq_mul_inv]
    ring

/-- C125: there is only one such vector. -/
theorem C125_unique {n : ℕ} (hn : 0 < n) {x z z' : Fin n → ℝ} (h : Normalised x z) (h' : Normalised x z') : z = z' := by
  obtain ⟨m, s, h1, h2, h3, h4⟩ := h
  obtain ⟨m', s', h1', h2', h3', h4'⟩ := h'
  have hn' : (n : ℝ) ≠ 0 := by positivity
  have hm : m = m' := mul_left_cancel₀ hn' (h1.trans h1'.symm)
  subst hm
  have hp : (∑ i, (x i - m) ^ 2) / n + 1 / 100000 ≠ 0 := by
    intro h0
    rw [h0, mul_zero] at h3
    exact zero_ne_one h3
  have hs : s ^ 2 = s' ^ 2 := mul_right_cancel₀ hp (h3.trans h3'.symm)
  have : s = s' := by
    rcases sq_eq_sq_iff_eq_or_eq_neg.1 hs with h | h
    · exact h
    · linarith
  subst this
  funext i
  rw [h4, h4']

/-- C125: so its entries add up to zero and the mean of their squares is below one. -/
theorem C125_moments {n : ℕ} (hn : 0 < n) {x z : Fin n → ℝ} (h : Normalised x z) :
    ∑ i, z i = 0 ∧ (∑ i, z i ^ 2) / n < 1 := by
  obtain ⟨m, s, h1, h2, h3, h4⟩ := h
  have hn' : (0 : ℝ) < n := by positivity
  constructor
  · simp only [h4]
    rw [← Finset.sum_mul, Finset.sum_sub_distrib, Finset.sum_const, Finset.card_univ, Fintype.card_fin, nsmul_eq_mul,
      h1, sub_self, zero_mul]
  · have : (∑ i, z i ^ 2) / n = s ^ 2 * ((∑ i, (x i - m) ^ 2) / n) := by
      simp only [h4, mul_pow]
      rw [← Finset.sum_mul]
      ring
    rw [this]
    have hs : 0 < s ^ 2 := by positivity
    nlinarith

/-- C125: adding the same number to all entries changes nothing. -/
theorem C125_shift {n : ℕ} (hn : 0 < n) (l : LayerNorm n) (x : Fin n → ℝ) (c : ℝ) : l.fwd (fun i => x i + c) = l.fwd x := by
  obtain ⟨z, hz, h1⟩ := C125_norm hn l x
  obtain ⟨z', hz', h2⟩ := C125_norm hn l (fun i => x i + c)
  have : Normalised (fun i => x i + c) z := by
    obtain ⟨m, s, a1, a2, a3, a4⟩ := hz
    refine ⟨m + c, s, ?_, a2, ?_, ?_⟩
    · rw [Finset.sum_add_distrib, ← a1, Finset.sum_const, Finset.card_univ, Fintype.card_fin, nsmul_eq_mul]
      ring
    · simpa only [add_sub_add_right_eq_sub] using a3
    · intro i
      rw [a4, add_sub_add_right_eq_sub]
  have e := C125_unique hn hz' this
  funext i
  rw [h1, h2, e]

/-! ### C126: blocks -/

theorem linBound_mono {m n : ℕ} (l : Linear m n) {c c' : Fin m → ℝ} (h : ∀ i, c i ≤ c' i) (a : Fin n) :
    linBound l c a ≤ linBound l c' a := by
  unfold linBound
  have := Finset.sum_le_sum (fun i (_ : i ∈ Finset.univ) => mul_le_mul_of_nonneg_left (h i) (abs_nonneg (l.weight a i)))
  linarith

theorem norm_le (l : LayerNorm embdSize) (x : Fin embdSize → ℝ) (i : Fin embdSize) : |l.fwd x i| ≤ normBound l i := by
  have := layerNorm_bound l x i
  rwa [sqrt64] at this

theorem attn_le (m : MultiHeadAttention) (k v : T3 B T embdSize) (q : T3 B Q embdSize) (b : Fin B) (i : Fin Q) (hT : 0 < T)
    (c : Fin embdSize → ℝ) (hv : ∀ t j, |v b t j| ≤ c j) (j : Fin embdSize) : |m.fwd k v q b i j| ≤ attnBound m c j := by
  refine linear_bound m.proj _ _ (fun n => ?_) j
  have h := C124_range (m.heads n.divNat) k v q b i hT n.modNat (-linBound (m.heads n.divNat).value c n.modNat)
    (linBound (m.heads n.divNat).value c n.modNat)
    (fun t => abs_le.1 (linear_bound (m.heads n.divNat).value (v b t) c (hv t) n.modNat))
  exact abs_le.2 h

theorem ff_le {gelu : ℝ → ℝ} (hg : ∀ z, |gelu z| ≤ |z|) (f : FeedForward) (x c : Fin embdSize → ℝ)
    (hx : ∀ i, |x i| ≤ c i) (i : Fin embdSize) : |f.fwd gelu x i| ≤ ffBound f c i :=
  linear_bound f.l2 _ _ (fun j => (hg _).trans (linear_bound f.l1 x c hx j)) i

/-- C126: an encoder block adds a bounded amount to every entry, whatever its input. -/
theorem C126_block {gelu : ℝ → ℝ} (hg : ∀ z, |gelu z| ≤ |z|) (e : EncoderBlock) (x : T3 B T embdSize) (b : Fin B)
    (t : Fin T) (i : Fin embdSize) : |e.fwd gelu x b t i - x b t i| ≤ encBound e i := by
  have h1 := attn_le e.self_attention (fun b t => e.ln1.fwd (x b t)) (fun b t => e.ln1.fwd (x b t))
    (fun b t => e.ln1.fwd (x b t)) b t t.pos (normBound e.ln1) (fun t j => norm_le _ _ j) i
  have h2 := ff_le hg e.ffwd (e.ln2.fwd (fun i => x b t i + e.self_attention.fwd (fun b t => e.ln1.fwd (x b t))
    (fun b t => e.ln1.fwd (x b t)) (fun b t => e.ln1.fwd (x b t)) b t i)) (normBound e.ln2) (fun j => norm_le _ _ j) i
  have e1 : ∀ u v w : ℝ, u + v + w - u = v + w := fun u v w => by ring
  have : e.fwd gelu x b t i - x b t i = e.self_attention.fwd (fun b t => e.ln1.fwd (x b t))
      (fun b t => e.ln1.fwd (x b t)) (fun b t => e.ln1.fwd (x b t)) b t i +
      e.ffwd.fwd gelu (e.ln2.fwd (fun i => x b t i + e.self_attention.fwd (fun b t => e.ln1.fwd (x b t))
    (fun b t => e.ln1.fwd (x b t)) (fun b t => e.ln1.fwd (x b t)) b t i)) i := e1 _ _ _
  rw [this]
  exact (abs_add_le _ _).trans (add_le_add h1 h2)

/-- C126: all encoder blocks together add at most the sum of these amounts. -/
theorem C126_encoder {gelu : ℝ → ℝ} (hg : ∀ z, |gelu z| ≤ |z|) (blocks : List EncoderBlock) (x : T3 B T embdSize)
    (b : Fin B) (t : Fin T) (i : Fin embdSize) :
    |encBlocks gelu blocks x b t i - x b t i| ≤ (blocks.map (fun e => encBound e i)).sum := by
  unfold encBlocks
  induction blocks generalizing x with
  | nil => simp
  | cons e es ih =>
    rw [List.foldl_cons, List.map_cons, List.sum_cons]
    have h1 := ih (e.fwd gelu x)
    have h2 := C126_block hg e x b t i
    have := abs_sub_le (es.foldl (fun x e => e.fwd gelu x) (e.fwd gelu x) b t i) (e.fwd gelu x b t i) (x b t i)
    linarith

/-- C126: and a decoder block adds an amount bounded in terms of the encoder output. -/
theorem C126_decoder_ordered {gelu : ℝ → ℝ} (hg : ∀ z, |gelu z| ≤ |z|) (d : DecoderBlock) (x : T3 B Q embdSize)
    (enc : T3 B T embdSize) (hT : 0 < T) (b : Fin B) (c : Fin embdSize → ℝ) (hc : ∀ t j, |enc b t j| ≤ c j) (t : Fin Q)
    (i : Fin embdSize) : |d.fwdOrdered gelu x enc b t i - x b t i| ≤ decBound .ordered d c i := by
  have h1 := attn_le d.self_attention (fun b t => d.ln1.fwd (x b t)) (fun b t => d.ln1.fwd (x b t))
    (fun b t => d.ln1.fwd (x b t)) b t t.pos (normBound d.ln1) (fun t j => norm_le _ _ j) i
  unfold DecoderBlock.fwdOrdered decBound
  simp only []
  generalize d.self_attention.fwd (fun b t => d.ln1.fwd (x b t)) (fun b t => d.ln1.fwd (x b t))
    (fun b t => d.ln1.fwd (x b t)) = a1 at h1
  have h2 := attn_le d.cross_attention enc enc (fun b t => d.ln2.fwd (fun i => x b t i + a1 b t i)) b t hT c hc i
  generalize d.cross_attention.fwd enc enc (fun b t => d.ln2.fwd (fun i => x b t i + a1 b t i)) = a2 at h2
  have h3 := ff_le hg d.ffwd (d.ln3.fwd (fun i => x b t i + a1 b t i + a2 b t i)) (normBound d.ln3) (fun j => norm_le _ _ j) i
  have e1 : ∀ u v w y : ℝ, u + v + w + y - u = v + w + y := fun u v w y => by ring
  rw [e1]
  exact (abs_add_three _ _ _).trans (add_le_add (add_le_add h1 h2) h3)

@[inherit_doc C126_decoder_ordered]
theorem C126_decoder_basic {gelu : ℝ → ℝ} (hg : ∀ z, |gelu z| ≤ |z|) (d : DecoderBlock) (x : T2 B embdSize)
    (enc : T3 B T embdSize) (hT : 0 < T) (b : Fin B) (c : Fin embdSize → ℝ) (hc : ∀ t j, |enc b t j| ≤ c j)
    (i : Fin embdSize) : |d.fwdBasic gelu x enc b i - x b i| ≤ decBound .basic d c i ∧
      decBound .conv d c i = decBound .basic d c i := by
  refine ⟨?_, rfl⟩
  have h1 := attn_le d.self_attention enc enc (unsqueeze1 (fun b => d.ln1.fwd (x b))) b 0 hT c hc i
  unfold DecoderBlock.fwdBasic decBound squeeze1
  simp only []
  generalize d.self_attention.fwd enc enc (unsqueeze1 (fun b => d.ln1.fwd (x b))) = a1 at h1
  have h2 := attn_le d.cross_attention enc enc (unsqueeze1 (fun b => d.ln2.fwd (fun i => x b i + a1 b 0 i))) b 0 hT c hc i
  generalize d.cross_attention.fwd enc enc (unsqueeze1 (fun b => d.ln2.fwd (fun i => x b i + a1 b 0 i))) = a2 at h2
  have h3 := ff_le hg d.ffwd (d.ln3.fwd (fun i => x b i + a1 b 0 i + a2 b 0 i)) (normBound d.ln3) (fun j => norm_le _ _ j) i
  have e1 : ∀ u v w y : ℝ, u + v + w + y - u = v + w + y := fun u v w y => by ring
  rw [e1]
  exact (abs_add_three _ _ _).trans (add_le_add (add_le_add h1 h2) h3)

/-- a layer whose parameters are zero -/
def zeroLinear (m n : ℕ) : Linear m n := ⟨fun _ _ => 0, fun _ => 0⟩

theorem zeroLinear_fwd {m n : ℕ} (x : Fin m → ℝ) : (zeroLinear m n).fwd x = fun _ => 0 := by
  funext o
  simp [zeroLinear, Linear.fwd]

theorem zeroLinear_bound {m n : ℕ} (c : Fin m → ℝ) (a : Fin n) : linBound (zeroLinear m n) c a = 0 := by
  simp [zeroLinear, linBound]

/-- C126: a block whose last layers are zero passes on its input. -/
theorem C126_identity {gelu : ℝ → ℝ} (hg : ∀ z, |gelu z| ≤ |z|) (e : EncoderBlock) (x : T3 B T embdSize)
    (h1 : e.self_attention.proj = zeroLinear _ _) (h2 : e.ffwd.l2 = zeroLinear _ _) : e.fwd gelu x = x := by
  funext b t i
  have := C126_block hg e x b t i
  have hz : encBound e i = 0 := by
    unfold encBound attnBound ffBound
    rw [h1, h2, zeroLinear_bound, zeroLinear_bound, add_zero]
  rw [hz] at this
  linarith [abs_nonpos_iff.1 this]

/-- the function `x * P x` with `P` between 0 and 1, such as GELU, satisfies the assumption -/
example (P : ℝ → ℝ) (hP : ∀ x, 0 ≤ P x ∧ P x ≤ 1) (z : ℝ) : |z * P z| ≤ |z| := by
  rw [abs_mul, abs_of_nonneg (hP z).1]
  exact mul_le_of_le_one_right (abs_nonneg z) (hP z).2

end MJ.Net
