import Verif.Model.Dropout
import Verif.Proofs.Network
import Verif.Proofs.Except
import Verif.Props.Epoch
/-!
Training mode: dropout changes numbers, but neither what raises nor which actions can be chosen.
-/
namespace MJ.Net
open scoped BigOperators
open Spec

variable {B B' : ℕ} {v : Variant} {h : HeadName}

/-- what `runDrop` computes, when it does not raise -/
theorem runDrop_ok {gelu : ℝ → ℝ} {p : Params v} {r : NetDrop v B} {X : Input v h B} {o : Output h B} :
    runDrop gelu p r X = .ok o ↔
      (∀ b t, ∃ e, embed v p.tables (X.player b) t.val (X.tokens b t) = .ok e) ∧
      (∀ b a, X.mask b a = 0 ∨ X.mask b a = 1) ∧ (∀ b, ∃ a, X.mask b a ≠ 0) ∧
      o.logits = (fun b => maskedLogits (X.mask b) (rawLogitsDrop gelu p r X
        (fun b t => ((embed v p.tables (X.player b) t.val (X.tokens b t)).toOption).getD 0) b)) ∧
      o.loss = (∑ b, crossEntropy (o.logits b) (X.y b)) / B := by
  unfold runDrop embedAll
  by_cases h1 : ∀ b t, ∃ e, embed v p.tables (X.player b) t.val (X.tokens b t) = .ok e
  · rw [if_pos h1]
    by_cases h2 : ∀ b a, X.mask b a = 0 ∨ X.mask b a = 1
    · by_cases h3 : ∀ b, ∃ a, X.mask b a ≠ 0
      · simp only [bind_ok, pyAssert, h2, h3, implies_true, decide_true, if_true]
        constructor
        · rintro ⟨_, he, _, _, _, _, ho⟩
          simp only [Except.ok.injEq] at he ho
          subst ho; subst he
          exact ⟨h1, trivial, trivial, rfl, rfl⟩
        · rintro ⟨_, _, _, h4, h5⟩
          refine ⟨_, rfl, (), ?_, (), ?_, ?_⟩
          · simp
          · simp
          · cases o
            simp only at h4 h5
            subst h4; subst h5; rfl
      · simp only [bind_ok, pyAssert, h3, decide_false]
        constructor
        · rintro ⟨_, _, _, _, _, h, _⟩; simp at h
        · rintro ⟨_, _, h, _⟩; exact h.elim
    · simp only [bind_ok, pyAssert, h2, decide_false]
      constructor
      · rintro ⟨_, _, _, h, _⟩; simp at h
      · rintro ⟨_, h, _⟩; exact h.elim
  · rw [if_neg h1]
    simp only [bind_ok]
    constructor
    · rintro ⟨_, h, _⟩; simp at h
    · rintro ⟨h, _⟩; exact absurd h h1

/-- C130: training mode raises for a batch iff evaluation mode does, whatever the random factors. -/
theorem C130_exceptions {gelu : ℝ → ℝ} {p : Params v} (r : NetDrop v B) {X : Input v h B} :
    (∃ o, runDrop gelu p r X = .ok o) ↔ ∃ o, run gelu p X = .ok o := by
  constructor
  · rintro ⟨o, ho⟩
    obtain ⟨h1, h2, h3, _⟩ := runDrop_ok.1 ho
    exact ⟨⟨fun b => maskedLogits (X.mask b) (rawLogits gelu p X
        (fun b t => ((embed v p.tables (X.player b) t.val (X.tokens b t)).toOption).getD 0) b),
      (∑ b, crossEntropy (maskedLogits (X.mask b) (rawLogits gelu p X
        (fun b t => ((embed v p.tables (X.player b) t.val (X.tokens b t)).toOption).getD 0) b)) (X.y b)) / B⟩,
      run_ok.2 ⟨h1, h2, h3, rfl, rfl⟩⟩
  · rintro ⟨o, ho⟩
    obtain ⟨h1, h2, h3, _⟩ := run_ok.1 ho
    exact ⟨⟨fun b => maskedLogits (X.mask b) (rawLogitsDrop gelu p r X
        (fun b t => ((embed v p.tables (X.player b) t.val (X.tokens b t)).toOption).getD 0) b),
      (∑ b, crossEntropy (maskedLogits (X.mask b) (rawLogitsDrop gelu p r X
        (fun b t => ((embed v p.tables (X.player b) t.val (X.tokens b t)).toOption).getD 0) b)) (X.y b)) / B⟩,
      runDrop_ok.2 ⟨h1, h2, h3, rfl, rfl⟩⟩

theorem runRowsDrop_ok {gelu : ℝ → ℝ} {p : Params v} {r : HeadName → (b : Batch) → NetDrop v b.encodings.length}
    {h : HeadName} {b : Batch} : (∃ o, runRowsDrop v gelu p r h b = .ok o) ↔ ∃ o, runRows v gelu p h b = .ok o := by
  unfold runRowsDrop runRows runBatch
  by_cases h1 : shapeOk v h b
  · by_cases h2 : labelsOk h b
    · simp only [h1, h2, not_true_eq_false, if_false, pure_bind, bind_ok]
      constructor
      · rintro ⟨_, o, ho, _⟩
        obtain ⟨o', ho'⟩ := (C130_exceptions (r h b)).1 ⟨o, ho⟩
        exact ⟨_, o', ho', rfl⟩
      · rintro ⟨_, o, ho, _⟩
        obtain ⟨o', ho'⟩ := (C130_exceptions (r h b)).2 ⟨o, ho⟩
        exact ⟨_, o', ho', rfl⟩
    · simp [h1, h2, bind, Except.bind]
  · simp [h1, bind, Except.bind]

/-- C130: so `forward` raises in training mode iff it does in evaluation mode. -/
theorem C130_forward {gelu : ℝ → ℝ} {p : Params v} (r : HeadName → (b : Batch) → NetDrop v b.encodings.length)
    (sample : Bool) (size : Nat) (perm : Nat → List Nat) (during discard post : Batch) :
    (∃ out, forward sample size perm (runRowsDrop v gelu p r) during discard post = .ok out) ↔
      ∃ out, forward sample size perm (runRows v gelu p) during discard post = .ok out := by
  unfold forward
  generalize [(HeadName.during, during), (HeadName.discard, discard), (HeadName.post, post)] = l
  induction l with
  | nil => simp [forwardLoop]
  | cons x l ih =>
    obtain ⟨hd, b⟩ := x
    simp only [forwardLoop]
    split
    · exact ih
    · simp only [bind_ok]
      have key := runRowsDrop_ok (gelu := gelu) (p := p) (r := r) (h := hd) (b := sampleRows sample size perm b)
      constructor
      · rintro ⟨_, o, ho, os, hos, _⟩
        obtain ⟨o', ho'⟩ := key.1 ⟨o, ho⟩
        obtain ⟨os', hos'⟩ := ih.1 ⟨os, hos⟩
        exact ⟨_, o', ho', os', hos', rfl⟩
      · rintro ⟨_, o, ho, os, hos, _⟩
        obtain ⟨o', ho'⟩ := key.2 ⟨o, ho⟩
        obtain ⟨os', hos'⟩ := ih.2 ⟨os, hos⟩
        exact ⟨_, o', ho', os', hos', rfl⟩

/-- C130: so the batches of an epoch over logs of games played by the rules can be trained on: in training mode, whatever
the random factors, `forward` returns its losses. -/
theorem C130_training {N : Type} {pi : PyInt} (hpi : ReadsDecimals pi) {est : Estimate} {sh : List Int → Except PyErr Int}
    (he : ∀ q, RealHand q → ∃ b, est q = .ok b) (hs : ∀ l, RealConcealed l → ∃ n, sh l = .ok n) {content : N → Elem}
    {listing : List N} (hd : GoodDirectory pi content listing) {n : Nat} (hn : 0 < n) (v : Variant) :
    ∀ b ∈ epochBatches pi est sh content listing n,
      ∀ (gelu : ℝ → ℝ) (params : Params v) (r : HeadName → (b : Batch) → NetDrop v b.encodings.length) (sample : Bool)
        (size : Nat) {perm : Nat → List Nat}, (∀ n, (perm n).Perm (List.range n)) →
      ∃ d c p out, prepareBatches v (gameTurns b) (gameTokens b) = .ok (d, c, p) ∧
        forward sample size perm (runRowsDrop v gelu params r) d c p = .ok out := by
  intro b hb gelu params r sample size perm hperm
  obtain ⟨_, _, _, _, h5⟩ := C123_batches hpi he hs hd hn v
  obtain ⟨_, _, _, h6⟩ := h5 b hb
  obtain ⟨d, c, p, out, h7, h8⟩ := h6 gelu params sample size hperm
  obtain ⟨out', h9⟩ := (C130_forward r sample size perm d c p).2 ⟨out, h8⟩
  exact ⟨d, c, p, out', h7, h9⟩

/-- factors that are all one -/
def ones (v : Variant) (B : ℕ) : NetDrop v B :=
  ⟨fun _ => ⟨⟨fun _ _ _ _ => 1, fun _ _ _ => 1⟩, fun _ _ _ => 1⟩,
   fun _ => ⟨⟨fun _ _ _ _ => 1, fun _ _ _ => 1⟩, ⟨fun _ _ _ _ => 1, fun _ _ _ => 1⟩, fun _ _ _ => 1⟩⟩

theorem mha_ones {T Q : ℕ} (m : MultiHeadAttention) (k w : T3 B T embdSize) (q : T3 B Q embdSize) :
    m.fwdDrop ⟨fun _ _ _ _ => 1, fun _ _ _ => 1⟩ k w q = m.fwd k w q := by
  unfold MultiHeadAttention.fwdDrop MultiHeadAttention.fwd Head.fwdDrop Head.fwd
  simp only [one_mul]

theorem ff_ones (gelu : ℝ → ℝ) (f : FeedForward) (x : Fin embdSize → ℝ) : f.fwdDrop gelu (fun _ => 1) x = f.fwd gelu x := by
  unfold FeedForward.fwdDrop
  simp only [one_mul]

/-- C130: with all factors equal to one, training mode is evaluation mode. -/
theorem C130_off (gelu : ℝ → ℝ) (p : Params v) (X : Input v h B) : runDrop gelu p (ones v B) X = run gelu p X := by
  have henc : ∀ (es : List EncoderBlock) (n : ℕ) (x : T3 B 150 embdSize),
      encBlocksDrop gelu (ones v B).enc es n x = encBlocks gelu es x := by
    intro es
    induction es with
    | nil => intro n x; rfl
    | cons e es ih =>
      intro n x
      rw [encBlocksDrop, ih]
      unfold encBlocks
      rw [List.foldl_cons]
      congr 1
      unfold EncoderBlock.fwdDrop EncoderBlock.fwd
      simp only [ones, mha_ones, ff_ones]
  have hraw : rawLogitsDrop gelu p (ones v B) X = rawLogits gelu p X := by
    funext emb b
    unfold rawLogitsDrop rawLogits
    simp only [henc]
    generalize encBlocks gelu p.encoder emb = enc
    congr 1
    have hb : ∀ (r : ℕ → DecDrop B 150 150) (hr : ∀ n, r n = ⟨⟨fun _ _ _ _ => 1, fun _ _ _ => 1⟩,
        ⟨fun _ _ _ _ => 1, fun _ _ _ => 1⟩, fun _ _ _ => 1⟩) (ds : List DecoderBlock) (n : ℕ) (x : T2 B embdSize),
        decFoldDrop (fun d r x => DecoderBlock.fwdBasicDrop gelu d r x enc) r ds n x =
          ds.foldl (fun x d => d.fwdBasic gelu x enc) x := by
      intro r hr ds
      induction ds with
      | nil => intro n x; rfl
      | cons d ds ih =>
        intro n x
        rw [decFoldDrop, ih, List.foldl_cons, hr]
        congr 1
        unfold DecoderBlock.fwdBasicDrop DecoderBlock.fwdBasic
        simp only [mha_ones, ff_ones]
    have ho : ∀ (r : ℕ → DecDrop B 1 150) (hr : ∀ n, r n = ⟨⟨fun _ _ _ _ => 1, fun _ _ _ => 1⟩,
        ⟨fun _ _ _ _ => 1, fun _ _ _ => 1⟩, fun _ _ _ => 1⟩) (ds : List DecoderBlock) (n : ℕ) (x : T3 B 1 embdSize),
        decFoldDrop (fun d r x => DecoderBlock.fwdOrderedDrop gelu d r x enc) r ds n x =
          ds.foldl (fun x d => d.fwdOrdered gelu x enc) x := by
      intro r hr ds
      induction ds with
      | nil => intro n x; rfl
      | cons d ds ih =>
        intro n x
        rw [decFoldDrop, ih, List.foldl_cons, hr]
        congr 1
        unfold DecoderBlock.fwdOrderedDrop DecoderBlock.fwdOrdered
        simp only [mha_ones, ff_ones]
    cases v with
    | basic => exact congrArg (fun x : T2 B embdSize => p.ln_f.fwd (x b)) (hb _ (fun _ => rfl) p.decoder 0 _)
    | conv => exact congrArg (fun x : T2 B embdSize => p.ln_f.fwd (x b)) (hb _ (fun _ => rfl) p.decoder 0 _)
    | ordered => exact congrArg (fun x : T3 B 1 embdSize => p.ln_f.fwd (x b 0)) (ho _ (fun _ => rfl) p.decoder 0 _)
  unfold runDrop run
  rw [hraw]

/-- C130: in training mode too, every allowed action gets a larger logit than every other one, under the bound on the
output layer of C97. -/
theorem C130_forbidden_below {gelu : ℝ → ℝ} {p : Params v} {r : NetDrop v B} {X : Input v h B} {o : Output h B}
    (hr : runDrop gelu p r X = .ok o) (hp : ∀ a, outputBound p.ln_f (p.heads h) a < 1000000000) (b : Fin B)
    (a f : Fin (actionDim h)) (ha : X.mask b a ≠ 0) (hf : X.mask b f = 0) : o.logits b f < o.logits b a := by
  rw [(runDrop_ok.1 hr).2.2.2.1]
  simp only [maskedLogits, hf, if_true, if_neg ha]
  generalize (fun b t => ((embed v p.tables (X.player b) t.val (X.tokens b t)).toOption).getD 0 : T3 B 150 embdSize) = emb
  have h1 : |rawLogitsDrop gelu p r X emb b a| ≤ outputBound p.ln_f (p.heads h) a := by
    have hz : ∃ z, rawLogitsDrop gelu p r X emb b = (p.heads h).fwd (p.ln_f.fwd z) := by
      unfold rawLogitsDrop
      cases v <;> exact ⟨_, rfl⟩
    obtain ⟨z, hz⟩ := hz
    rw [hz]
    apply linear_bound
    intro i
    have := layerNorm_bound p.ln_f z i
    rwa [sqrt64] at this
  have h2 := hp a
  have h3 := neg_abs_le (rawLogitsDrop gelu p r X emb b a)
  linarith

/-! ### samples -/

/-- the factors for the samples `σ b` -/
def AttnDrop.re {Q T : ℕ} (r : AttnDrop B Q T) (σ : Fin B' → Fin B) : AttnDrop B' Q T :=
  ⟨fun n => Net.re σ (r.wei n), Net.re σ r.out⟩
@[inherit_doc AttnDrop.re] def EncDrop.re {T : ℕ} (r : EncDrop B T) (σ : Fin B' → Fin B) : EncDrop B' T :=
  ⟨r.self_attention.re σ, Net.re σ r.ffwd⟩
@[inherit_doc AttnDrop.re] def DecDrop.re {S T : ℕ} (r : DecDrop B S T) (σ : Fin B' → Fin B) : DecDrop B' S T :=
  ⟨r.self_attention.re σ, r.cross_attention.re σ, Net.re σ r.ffwd⟩
@[inherit_doc AttnDrop.re] def NetDrop.re (r : NetDrop v B) (σ : Fin B' → Fin B) : NetDrop v B' :=
  ⟨fun n => (r.enc n).re σ, fun n => (r.dec n).re σ⟩

theorem encBlocksDrop_re {T : ℕ} (gelu : ℝ → ℝ) (σ : Fin B' → Fin B) (r : ℕ → EncDrop B T) (es : List EncoderBlock) (n : ℕ)
    (x : T3 B T embdSize) :
    encBlocksDrop gelu (fun n => (r n).re σ) es n (re σ x) = re σ (encBlocksDrop gelu r es n x) := by
  induction es generalizing n x with
  | nil => rfl
  | cons e es ih =>
    rw [encBlocksDrop, encBlocksDrop, ← ih]
    rfl

theorem decFoldDrop_re {X X' D R R' : Type} (f : D → R → X → X) (f' : D → R' → X' → X') (g : X → X') (gr : R → R')
    (hf : ∀ d r x, f' d (gr r) (g x) = g (f d r x)) (r : ℕ → R) (ds : List D) (n : ℕ) (x : X) :
    decFoldDrop f' (fun n => gr (r n)) ds n (g x) = g (decFoldDrop f r ds n x) := by
  induction ds generalizing n x with
  | nil => rfl
  | cons d ds ih => rw [decFoldDrop, decFoldDrop, ← ih, hf]

theorem decBlocksDrop_re (v : Variant) (gelu : ℝ → ℝ) (σ : Fin B' → Fin B) (r : ℕ → DecDrop B (firstKeys v) 150)
    (blocks : List DecoderBlock) (ln : LayerNorm embdSize) (x : T2 B embdSize) (enc : T3 B 150 embdSize) :
    decBlocksDrop v gelu (fun n => (r n).re σ) blocks ln (re σ x) (re σ enc) = re σ (decBlocksDrop v gelu r blocks ln x enc) := by
  cases v with
  | basic =>
    have := decFoldDrop_re (fun d r x => DecoderBlock.fwdBasicDrop gelu d r x enc)
      (fun d r x => DecoderBlock.fwdBasicDrop gelu d r x (re σ enc)) (re σ) (fun r => r.re σ) (fun _ _ _ => rfl) r blocks 0 x
    simp only [decBlocksDrop, this]
    rfl
  | conv =>
    have := decFoldDrop_re (fun d r x => DecoderBlock.fwdBasicDrop gelu d r x enc)
      (fun d r x => DecoderBlock.fwdBasicDrop gelu d r x (re σ enc)) (re σ) (fun r => r.re σ) (fun _ _ _ => rfl) r blocks 0 x
    simp only [decBlocksDrop, this]
    rfl
  | ordered =>
    have := decFoldDrop_re (fun d r x => DecoderBlock.fwdOrderedDrop gelu d r x enc)
      (fun d r x => DecoderBlock.fwdOrderedDrop gelu d r x (re σ enc)) (re σ) (fun r => r.re σ) (fun _ _ _ => rfl) r blocks 0
      (unsqueeze1 x)
    have e : re σ (unsqueeze1 x) = unsqueeze1 (re σ x) := rfl
    rw [e] at this
    simp only [decBlocksDrop, this]
    rfl

/-- C130: in training mode too, the logits of a sample depend on this sample and its own random factors only. -/
theorem C130_independent {gelu : ℝ → ℝ} {p : Params v} {r : NetDrop v B} {r' : NetDrop v B'} {X : Input v h B}
    {Y : Input v h B'} {o : Output h B} {o' : Output h B'} (hX : runDrop gelu p r X = .ok o)
    (hY : runDrop gelu p r' Y = .ok o') (b : Fin B) (b' : Fin B') (hrow : row X b = row Y b')
    (hr : r.re (fun _ : Fin 1 => b) = r'.re (fun _ : Fin 1 => b')) : o.logits b = o'.logits b' := by
  have key : ∀ {B : ℕ} {r : NetDrop v B} {X : Input v h B} {o : Output h B} (_ : runDrop gelu p r X = .ok o) (b : Fin B),
      o.logits b = maskedLogits (X.mask b) (rawLogitsDrop gelu p (r.re (fun _ : Fin 1 => b)) (row X b)
        (fun b' t => ((embed v p.tables ((row X b).player b') t.val ((row X b).tokens b' t)).toOption).getD 0) 0) := by
    intro B r X o ho b
    rw [(runDrop_ok.1 ho).2.2.2.1]
    simp only []
    congr 1
    unfold rawLogitsDrop
    have h1 := encBlocksDrop_re gelu (fun _ : Fin 1 => b) r.enc p.encoder 0
      (fun b t => ((embed v p.tables (X.player b) t.val (X.tokens b t)).toOption).getD 0)
    have h2 := decBlocksDrop_re v gelu (fun _ : Fin 1 => b) r.dec p.decoder p.ln_f
      (fun b => stateNet v p.state_net (X.x1 b) (X.x2 b) (X.x3 b)) (encBlocksDrop gelu r.enc p.encoder 0
        (fun b t => ((embed v p.tables (X.player b) t.val (X.tokens b t)).toOption).getD 0))
    rw [← h1] at h2
    exact congrArg (p.heads h).fwd (congrFun h2 0).symm
  rw [key hX b, key hY b', hr, hrow]
  have : (X.mask b) = (Y.mask b') := congrFun (congrArg Input.mask hrow) 0
  rw [this]

/-! ### Every branch goes through dropout -/

/-- C130: dropout reaches every branch that is added to the residual stream: with factors zero an encoder block gives
its input unchanged, and so do the decoder blocks; with factors zero on the attention weights only, the heads give
zero. -/
theorem C130_silenced (gelu : ℝ → ℝ) {B T : ℕ} :
    (∀ (e : EncoderBlock) (r : EncDrop B T) (x : T3 B T embdSize), r.self_attention.out = 0 → r.ffwd = 0 →
      e.fwdDrop gelu r x = x) ∧
    (∀ (d : DecoderBlock) (r : DecDrop B T T) (x : T2 B embdSize) (enc : T3 B T embdSize), r.self_attention.out = 0 →
      r.cross_attention.out = 0 → r.ffwd = 0 → d.fwdBasicDrop gelu r x enc = x) ∧
    (∀ (d : DecoderBlock) (r : DecDrop B 1 T) (x : T3 B 1 embdSize) (enc : T3 B T embdSize), r.self_attention.out = 0 →
      r.cross_attention.out = 0 → r.ffwd = 0 → d.fwdOrderedDrop gelu r x enc = x) ∧
    (∀ (hd : Head) (Q : ℕ) (k v : T3 B T embdSize) (q : T3 B Q embdSize), hd.fwdDrop 0 k v q = 0) := by
  have hf : ∀ (f : FeedForward) (x : Fin embdSize → ℝ), f.fwdDrop gelu 0 x = 0 := by
    intro f x
    funext i
    exact zero_mul _
  have ha : ∀ {S Q : ℕ} (m : MultiHeadAttention) (r : AttnDrop B Q S) (k v : T3 B S embdSize) (q : T3 B Q embdSize),
      r.out = 0 → m.fwdDrop r k v q = 0 := by
    intro S Q m r k v q h
    funext b i j
    show r.out b i j * _ = 0
    rw [h]
    exact zero_mul _
  refine ⟨?_, ?_, ?_, ?_⟩
  · intro e r x h1 h2
    funext b t i
    unfold EncoderBlock.fwdDrop
    simp only [ha _ _ _ _ _ h1, h2, Pi.zero_apply, add_zero]
    rw [hf]
    exact add_zero _
  · intro d r x enc h1 h2 h3
    funext b i
    unfold DecoderBlock.fwdBasicDrop
    simp only [ha _ _ _ _ _ h1, ha _ _ _ _ _ h2, h3, squeeze1, Pi.zero_apply, add_zero]
    rw [hf]
    exact add_zero _
  · intro d r x enc h1 h2 h3
    funext b t i
    unfold DecoderBlock.fwdOrderedDrop
    simp only [ha _ _ _ _ _ h1, ha _ _ _ _ _ h2, h3, Pi.zero_apply, add_zero]
    rw [hf]
    exact add_zero _
  · intro hd Q k v q
    funext b i j
    unfold Head.fwdDrop bmm
    simp only [Pi.zero_apply, zero_mul]
    exact Finset.sum_const_zero

end MJ.Net
