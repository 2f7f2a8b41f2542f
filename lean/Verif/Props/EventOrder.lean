import Verif.Proofs.Network
import Mathlib.Algebra.BigOperators.Group.Finset.Basic
/-!
The networks know the order of the events only by the position codes.
-/
namespace MJ.Net
open scoped BigOperators
open Spec

variable {B T Q : ℕ}

/-- the positions in another order, for every sample -/
def reorder {α : Type} (π : Fin B → Equiv.Perm (Fin T)) (x : Fin B → Fin T → α) : Fin B → Fin T → α := fun b t => x b (π b t)

theorem softmax_reorder {n : ℕ} (σ : Equiv.Perm (Fin n)) (l : Fin n → ℝ) (i : Fin n) :
    softmax (fun j => l (σ j)) i = softmax l (σ i) := by
  unfold softmax
  rw [Equiv.sum_comp σ (fun j => Real.exp (l j))]

theorem wei_reorder (h : Head) (π : Fin B → Equiv.Perm (Fin T)) (k : T3 B T embdSize) (q : T3 B Q embdSize) (b : Fin B)
    (i : Fin Q) (t : Fin T) : h.wei (reorder π k) q b i t = h.wei k q b i (π b t) := by
  unfold Head.wei softmaxLast
  exact softmax_reorder (π b) (fun j => bmm (fun b t => h.query.fwd (q b t)) (transpose12 (fun b t => h.key.fwd (k b t))) b i j /
    Real.sqrt headSize) t

/-- attention does not depend on the order of keys and values -/
theorem mha_reorder (m : MultiHeadAttention) (π : Fin B → Equiv.Perm (Fin T)) (k v : T3 B T embdSize)
    (q : T3 B Q embdSize) : m.fwd (reorder π k) (reorder π v) q = m.fwd k v q := by
  unfold MultiHeadAttention.fwd Head.fwd bmm
  funext b i
  congr 1
  funext j
  simp only [wei_reorder]
  exact Equiv.sum_comp (π b) (fun t => (m.heads j.divNat).wei k q b i t * (m.heads j.divNat).value.fwd (v b t) j.modNat)

/-- C127: reordering the inputs of the encoder blocks reorders the outputs in the same way. -/
theorem C127_encoder (gelu : ℝ → ℝ) (blocks : List EncoderBlock) (π : Fin B → Equiv.Perm (Fin T)) (x : T3 B T embdSize) :
    encBlocks gelu blocks (reorder π x) = reorder π (encBlocks gelu blocks x) := by
  unfold encBlocks
  induction blocks generalizing x with
  | nil => rfl
  | cons e es ih =>
    rw [List.foldl_cons, List.foldl_cons, ← ih]
    congr 1
    have ha : e.self_attention.fwd (reorder π (fun b t => e.ln1.fwd (x b t))) (reorder π (fun b t => e.ln1.fwd (x b t)))
        (reorder π (fun b t => e.ln1.fwd (x b t))) = reorder π (e.self_attention.fwd (fun b t => e.ln1.fwd (x b t))
        (fun b t => e.ln1.fwd (x b t)) (fun b t => e.ln1.fwd (x b t))) := by
      rw [mha_reorder]
      rfl
    unfold EncoderBlock.fwd
    have hn : (fun b t => e.ln1.fwd (reorder π x b t)) = reorder π (fun b t => e.ln1.fwd (x b t)) := rfl
    simp only [hn, ha]
    rfl

/-- C127: the decoder does not depend on the order of the encoder outputs. -/
theorem C127_decoder (v : Variant) (gelu : ℝ → ℝ) (blocks : List DecoderBlock) (ln : LayerNorm embdSize)
    (π : Fin B → Equiv.Perm (Fin T)) (x : T2 B embdSize) (enc : T3 B T embdSize) :
    decBlocks v gelu blocks ln x (reorder π enc) = decBlocks v gelu blocks ln x enc := by
  have hb : ∀ (d : DecoderBlock) (x : T2 B embdSize), d.fwdBasic gelu x (reorder π enc) = d.fwdBasic gelu x enc := by
    intro d x
    unfold DecoderBlock.fwdBasic
    simp only [mha_reorder]
  have ho : ∀ (d : DecoderBlock) (x : T3 B 1 embdSize), d.fwdOrdered gelu x (reorder π enc) = d.fwdOrdered gelu x enc := by
    intro d x
    unfold DecoderBlock.fwdOrdered
    simp only [mha_reorder]
  cases v <;> simp only [decBlocks, hb, ho]

/-- C127: two batches that differ only in their events give the same result if the embedded events of every sample
are the same up to order. -/
theorem C127_events {v : Variant} {h : HeadName} (gelu : ℝ → ℝ) (p : Params v) (X Y : Input v h B)
    (π : Fin B → Equiv.Perm (Fin 150)) (h1 : Y.x1 = X.x1) (h2 : Y.x2 = X.x2) (h3 : Y.x3 = X.x3) (hm : Y.mask = X.mask)
    (hy : Y.y = X.y)
    (he : ∀ b t, embed v p.tables (Y.player b) t.val (Y.tokens b t) =
      embed v p.tables (X.player b) (π b t).val (X.tokens b (π b t))) {o : Output h B} (hX : run gelu p X = .ok o) :
    run gelu p Y = .ok o := by
  rw [run_ok] at hX ⊢
  obtain ⟨a1, a2, a3, a4, a5⟩ := hX
  refine ⟨fun b t => ?_, by rw [hm]; exact a2, by rw [hm]; exact a3, ?_, by rw [hy]; exact a5⟩
  · rw [he]
    exact a1 b (π b t)
  · rw [a4, hm]
    have e1 : (fun b t => ((embed v p.tables (Y.player b) t.val (Y.tokens b t)).toOption).getD 0 : T3 B 150 embdSize) =
        reorder π (fun b t => ((embed v p.tables (X.player b) t.val (X.tokens b t)).toOption).getD 0) := by
      funext b t
      simp only [he]
      rfl
    have e2 : rawLogits gelu p Y (reorder π (fun b t => ((embed v p.tables (X.player b) t.val (X.tokens b t)).toOption).getD 0)) =
        rawLogits gelu p X (fun b t => ((embed v p.tables (X.player b) t.val (X.tokens b t)).toOption).getD 0) := by
      unfold rawLogits
      rw [h1, h2, h3, C127_encoder]
      simp only []
      rw [C127_decoder]
    rw [e1, e2]

theorem embed_position {v : Variant} {T : Tables (Fin embdSize → ℝ)} {c : Fin embdSize → ℝ} (hc : ∀ i, T.position i = c)
    (player : Int) (s t : Fin 150) (tok : BitVec 64) :
    embed v T player s.val tok = embed v T player t.val tok := by
  have hl : lookup maxActionLen T.position s.val = lookup maxActionLen T.position t.val := by
    have h1 : s.val < maxActionLen := s.2
    have h2 : t.val < maxActionLen := t.2
    simp only [lookup, if_pos h1, if_pos h2, hc]
  cases v <;> simp only [embed, embedBasic, embedOrdered, hl]

/-- C127: with a position table whose rows are all equal, the order of the events would make no difference at all. -/
theorem C127_blind {v : Variant} {h : HeadName} (gelu : ℝ → ℝ) (p : Params v) {c : Fin embdSize → ℝ}
    (hc : ∀ i, p.tables.position i = c) (X : Input v h B) (π : Fin B → Equiv.Perm (Fin 150)) {o : Output h B}
    (hX : run gelu p X = .ok o) : run gelu p { X with tokens := reorder π X.tokens } = .ok o :=
  C127_events gelu p X { X with tokens := reorder π X.tokens } π rfl rfl rfl rfl rfl (fun _ _ => embed_position hc _ _ _ _) hX

end MJ.Net
