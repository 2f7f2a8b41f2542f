import Verif.Props.Fresh
import Verif.Props.Looks
/-!
C165: a new ordered network makes nothing of padding.
-/
namespace MJ.Net

theorem fresh_zero {m n : ℕ} (l : Linear m n) : l.fresh.fwd 0 = 0 := by
  funext o
  simp [Linear.fresh, Linear.fwd]

theorem freshNorm_zero (n : ℕ) : (freshNorm n).fwd 0 = 0 := by
  funext i
  simp [freshNorm, LayerNorm.fwd, mean]

/-- attention to nothing adds nothing -/
theorem fresh_attention_zero (m : MultiHeadAttention) (q : Fin embdSize → ℝ) : attn1 m.fresh (0 : Fin 150 → Fin embdSize → ℝ) q = 0 := by
  unfold attn1 MultiHeadAttention.fwd
  have : (fun j : Fin (nHeads * headSize) => (m.fresh.heads j.divNat).fwd (fun _ : Fin 1 => (0 : Fin 150 → Fin embdSize → ℝ))
      (fun _ : Fin 1 => (0 : Fin 150 → Fin embdSize → ℝ)) (fun _ (_ : Fin 1) => q) 0 0 j.modNat) = 0 := by
    funext j
    unfold Head.fwd bmm
    have hv : (m.fresh.heads j.divNat).value.fwd 0 = 0 := fresh_zero _
    simp [hv]
  rw [this]
  exact fresh_zero _

theorem fresh_step_zero {gelu : ℝ → ℝ} (hg : gelu 0 = 0) (e : EncoderBlock) : encStep gelu 0 e.fresh = 0 := by
  have hf : e.ffwd.fresh.fwd gelu 0 = 0 := by
    unfold FeedForward.fwd
    have : (fun i => gelu (e.ffwd.fresh.l1.fwd 0 i)) = 0 := by
      funext i
      rw [show e.ffwd.fresh.l1 = e.ffwd.l1.fresh from rfl, fresh_zero, Pi.zero_apply, hg]
    rw [this]
    exact fresh_zero _
  funext t
  unfold encStep
  have h1 : (fun t : Fin 150 => e.fresh.ln1.fwd ((0 : Fin 150 → Fin embdSize → ℝ) t)) = 0 := by
    funext t
    exact freshNorm_zero _
  dsimp only
  rw [h1, show e.fresh.self_attention = e.self_attention.fresh from rfl, fresh_attention_zero]
  simp only [Pi.zero_apply, add_zero, zero_add]
  rw [show e.fresh.ln2 = freshNorm embdSize from rfl, freshNorm_zero, show e.fresh.ffwd = e.ffwd.fresh from rfl, hf]

/-- C165: in a new ordered network what the encoder gives for a sample without events is zero, whatever the weights are, and attention
to it adds nothing in the decoder. -/
theorem C165_no_events {h : HeadName} {B : ℕ} {gelu : ℝ → ℝ} (hg : gelu 0 = 0) {p : Params .ordered} {X : Input .ordered h B}
    {emb : T3 B 150 embdSize} (he : embedAll p.fresh X = .ok emb) (b : Fin B)
    (ht : ∀ t, X.tokens b t = BitVec.ofNat 64 padId) :
    encBlocks gelu p.fresh.encoder emb b = 0 ∧
    ∀ d ∈ p.fresh.decoder, ∀ q, attn1 d.cross_attention (encBlocks gelu p.fresh.encoder emb b) q = 0 := by
  have h0 : emb b = 0 := by
    unfold embedAll at he
    split at he
    · simp only [Except.ok.injEq] at he
      subst he
      funext t
      simp only [embed, ht]
      rw [C69_padding_zero (add_zero 0) p.fresh.tables rfl _ _ t.isLt]
      rfl
    · simp at he
  have key : encBlocks gelu p.fresh.encoder emb b = 0 := by
    rw [enc_row, h0, show p.fresh.encoder = p.encoder.map EncoderBlock.fresh from rfl]
    induction p.encoder with
    | nil => rfl
    | cons e es ih => rw [List.map_cons, List.foldl_cons, fresh_step_zero hg, ih]
  refine ⟨key, fun d hd q => ?_⟩
  rw [key]
  obtain ⟨d', -, rfl⟩ := List.mem_map.1 (show d ∈ p.decoder.map DecoderBlock.fresh from hd)
  exact fresh_attention_zero _ _

end MJ.Net
