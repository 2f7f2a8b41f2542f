import Verif.Proofs.InfluenceNet
/-!
Property C99: exactly which parameters have an influence on the logits.
-/
namespace MJ
open scoped BigOperators
open Spec Net

/-! ### parameters without influence -/

theorem softmax_shift {n : ℕ} (l : Fin n → ℝ) (a : ℝ) : softmax (fun s => l s + a) = softmax l := by
  funext i
  unfold softmax
  simp only [Real.exp_add]
  rw [← Finset.sum_mul, mul_div_mul_right _ _ (Real.exp_ne_zero a)]

/-- the attention layers do the same for sequences of `T` keys -/
def SameAttn (T : ℕ) (a a' : MultiHeadAttention) : Prop :=
  a.proj = a'.proj ∧ ∀ n, (a.heads n).value = (a'.heads n).value ∧
    ∀ {B Q : ℕ} (k : T3 B T embdSize) (q : T3 B Q embdSize), (a.heads n).wei k q = (a'.heads n).wei k q

theorem SameAttn.fwd {T : ℕ} {a a' : MultiHeadAttention} (h : SameAttn T a a') {B Q : ℕ} (k v : T3 B T embdSize) (q : T3 B Q embdSize) :
    a.fwd k v q = a'.fwd k v q := by
  obtain ⟨hp, hh⟩ := h
  unfold MultiHeadAttention.fwd Head.fwd
  simp only [hp, (hh _).1, (hh _).2]

theorem SameAttn.fwdDrop {T : ℕ} {a a' : MultiHeadAttention} (h : SameAttn T a a') {B Q : ℕ} (r : AttnDrop B Q T) (k v : T3 B T embdSize)
    (q : T3 B Q embdSize) : a.fwdDrop r k v q = a'.fwdDrop r k v q := by
  obtain ⟨hp, hh⟩ := h
  unfold MultiHeadAttention.fwdDrop Head.fwdDrop
  simp only [hp, (hh _).1, (hh _).2]

theorem linear_set_bias {m n : ℕ} (l : Linear m n) (r : ℝ) (o : Fin n) (x : Fin m → ℝ) (o' : Fin n) :
    (l.set r (.bias o)).fwd x o' = l.fwd x o' + (if o' = o then r - l.bias o else 0) := by
  unfold Linear.fwd Linear.set
  dsimp only
  split
  · rename_i h; subst h; ring
  · ring

theorem same_keyBias (T : ℕ) (a : MultiHeadAttention) (r : ℝ) (c : AttnCoord) (hc : c.keyBias) : SameAttn T (a.set r c) a := by
  match c, hc with
  | .head n (.key (.bias o)), _ =>
    refine ⟨rfl, fun n' => ?_⟩
    by_cases hn : n' = n
    · subst hn
      have e : (a.set r (.head n' (.key (.bias o)))).heads n' = { a.heads n' with key := (a.heads n').key.set r (.bias o) } := by
        simp only [MultiHeadAttention.set, if_true, Head.set]
      rw [e]
      refine ⟨rfl, fun {B Q} k q => ?_⟩
      funext b i
      unfold Head.wei softmaxLast
      dsimp only
      refine (congrArg softmax ?_).trans (softmax_shift _ ((a.heads n').query.fwd (q b i) o * (r - (a.heads n').key.bias o) / Real.sqrt headSize))
      funext s
      unfold bmm transpose12
      simp only [linear_set_bias, mul_add, mul_ite, mul_zero]
      rw [Finset.sum_add_distrib, Finset.sum_ite_eq' Finset.univ o]
      simp only [Finset.mem_univ, if_true]
      ring
    · have e : (a.set r (.head n (.key (.bias o)))).heads n' = a.heads n' := by
        simp only [MultiHeadAttention.set, if_neg hn]
      rw [e]
      exact ⟨rfl, fun _ _ => rfl⟩

theorem same_keyOrQuery (a : MultiHeadAttention) (r : ℝ) (c : AttnCoord) (hc : c.keyOrQuery) : SameAttn 1 (a.set r c) a := by
  have hw : ∀ (h h' : Head) {B Q : ℕ} (k : T3 B 1 embdSize) (q : T3 B Q embdSize), h.wei k q = h'.wei k q := by
    intro h h' B Q k q
    funext b i t
    unfold Head.wei softmaxLast
    rw [softmax_one, softmax_one]
  match c, hc with
  | .head n (.key c), _ =>
    refine ⟨rfl, fun n' => ⟨?_, fun k q => hw _ _ k q⟩⟩
    simp only [MultiHeadAttention.set]
    split
    · rename_i h; subst h; rfl
    · rfl
  | .head n (.query c), _ =>
    refine ⟨rfl, fun n' => ⟨?_, fun k q => hw _ _ k q⟩⟩
    simp only [MultiHeadAttention.set]
    split
    · rename_i h; subst h; rfl
    · rfl

/-! blocks and lists -/

theorem foldl_modify {α β : Type} (step : β → α → β) (f : α → α) (h : ∀ x d, step x (f d) = step x d) (l : List α) (k : ℕ) (x : β) :
    (l.modify k f).foldl step x = l.foldl step x := by
  induction l generalizing k x with
  | nil => cases k <;> rfl
  | cons d ds ih =>
    cases k with
    | zero => simp [h]
    | succ k => simp [ih]

theorem encDrop_modify {B T : ℕ} (gelu : ℝ → ℝ) (r : ℕ → EncDrop B T) (f : EncoderBlock → EncoderBlock)
    (h : ∀ r x e, (f e).fwdDrop gelu r x = e.fwdDrop gelu r (x : T3 B T embdSize)) (l : List EncoderBlock) (k n : ℕ) (x : T3 B T embdSize) :
    encBlocksDrop gelu r (l.modify k f) n x = encBlocksDrop gelu r l n x := by
  induction l generalizing k n x with
  | nil => cases k <;> rfl
  | cons d ds ih =>
    cases k with
    | zero => simp [encBlocksDrop, h]
    | succ k => simp [encBlocksDrop, ih]

theorem decDrop_modify {X D R : Type} (g : D → R → X → X) (r : ℕ → R) (f : D → D) (h : ∀ d r x, g (f d) r x = g d r x) (l : List D)
    (k n : ℕ) (x : X) : decFoldDrop g r (l.modify k f) n x = decFoldDrop g r l n x := by
  induction l generalizing k n x with
  | nil => cases k <;> rfl
  | cons d ds ih =>
    cases k with
    | zero => simp [decFoldDrop, h]
    | succ k => simp [decFoldDrop, ih]

/-- **C99.** The dead numbers have no influence on logits and loss, with or without dropout, whatever the other parameters and
the batch are. -/
theorem C99_dead {v : Variant} {h : HeadName} {B : ℕ} (gelu : ℝ → ℝ) (p : Params v) (r : ℝ) (c : Coord v) (hc : c.Dead) (X : Input v h B)
    (hX : ∀ b t, ∃ n, LogToken n ∧ X.tokens b t = BitVec.ofNat 64 n) :
    run gelu (p.set r c) X = run gelu p X ∧ ∀ rr, runDrop gelu (p.set r c) rr X = runDrop gelu p rr X := by
  have lift : ∀ p' : Params v, p'.tables = p.tables → (∀ emb, rawLogits gelu p' X emb = rawLogits gelu p X emb) →
      (∀ rr emb, rawLogitsDrop gelu p' rr X emb = rawLogitsDrop gelu p rr X emb) →
      run gelu p' X = run gelu p X ∧ ∀ rr, runDrop gelu p' rr X = runDrop gelu p rr X := by
    intro p' ht h1 h2
    have he : embedAll p' X = embedAll p X := by unfold embedAll; rw [ht]
    refine ⟨?_, fun rr => ?_⟩
    · unfold run; rw [he]; simp only [h1]
    · unfold runDrop; rw [he]; simp only [h2]
  match c, hc with
  | .table name i j, hc =>
    have := C150_network gelu (p.set r (.table name i j)) p (by cases name <;> rfl) ?_ rfl X hX
    · exact this
    · rintro m k ⟨_, hk⟩
      have hne : ¬ (m = name ∧ k = i) := by rintro ⟨rfl, rfl⟩; exact hk hc
      funext l
      cases m <;> cases name <;> first
        | rfl
        | (simp only [true_and] at hne; simp [Params.set, Tables.set, Tables.row, setRow, hne])
  | .enc k (.attn c), hc =>
    have hs := fun a : MultiHeadAttention => same_keyBias 150 a r c hc
    refine lift (p.set r (.enc k (.attn c))) rfl (fun emb => ?_) (fun rr emb => ?_)
    · have : encBlocks gelu (p.encoder.modify k fun e => e.set r (.attn c)) emb = encBlocks gelu p.encoder emb := by
        unfold encBlocks
        refine foldl_modify _ _ (fun x e => ?_) _ _ _
        unfold EncoderBlock.fwd EncoderBlock.set
        simp only [(hs _).fwd]
      unfold rawLogits Params.set
      dsimp only
      rw [this]
    · have : encBlocksDrop gelu rr.enc (p.encoder.modify k fun e => e.set r (.attn c)) 0 emb = encBlocksDrop gelu rr.enc p.encoder 0 emb := by
        refine encDrop_modify _ _ _ (fun r x e => ?_) _ _ _ _
        unfold EncoderBlock.fwdDrop EncoderBlock.set
        simp only [(hs _).fwdDrop]
      unfold rawLogitsDrop Params.set
      dsimp only
      rw [this]
  | .dec k (.cross c), hc =>
    have hs := fun a : MultiHeadAttention => same_keyBias 150 a r c hc
    refine lift (p.set r (.dec k (.cross c))) rfl (fun emb => ?_) (fun rr emb => ?_)
    · have : ∀ x F, decBlocks (B := B) (T := 150) v gelu (p.decoder.modify k fun e => e.set r (.cross c)) p.ln_f x F = decBlocks v gelu p.decoder p.ln_f x F := by
        intro x F
        cases v <;> simp only [decBlocks]
        · rw [foldl_modify _ _ (fun x e => ?_)]
          unfold DecoderBlock.fwdBasic DecoderBlock.set
          simp only [(hs _).fwd]
        · rw [foldl_modify _ _ (fun x e => ?_)]
          unfold DecoderBlock.fwdBasic DecoderBlock.set
          simp only [(hs _).fwd]
        · rw [foldl_modify _ _ (fun x e => ?_)]
          unfold DecoderBlock.fwdOrdered DecoderBlock.set
          simp only [(hs _).fwd]
      unfold rawLogits Params.set
      dsimp only
      rw [this]
    · have : ∀ x F, decBlocksDrop (B := B) v gelu rr.dec (p.decoder.modify k fun e => e.set r (.cross c)) p.ln_f x F =
          decBlocksDrop v gelu rr.dec p.decoder p.ln_f x F := by
        intro x F
        cases v <;> simp only [decBlocksDrop]
        · rw [decDrop_modify _ _ _ (fun e r x => ?_)]
          unfold DecoderBlock.fwdBasicDrop DecoderBlock.set
          simp only [(hs _).fwdDrop]
        · rw [decDrop_modify _ _ _ (fun e r x => ?_)]
          unfold DecoderBlock.fwdBasicDrop DecoderBlock.set
          simp only [(hs _).fwdDrop]
        · rw [decDrop_modify _ _ _ (fun e r x => ?_)]
          unfold DecoderBlock.fwdOrderedDrop DecoderBlock.set
          simp only [(hs _).fwdDrop]
      unfold rawLogitsDrop Params.set
      dsimp only
      rw [this]
  | .dec k (.self ca), hc =>
    have hs : ∀ a : MultiHeadAttention, SameAttn (firstKeys v) (a.set r ca) a := by
      intro a
      rcases hc with hk | ⟨hv, hk⟩
      · exact same_keyBias _ a r ca hk
      · rw [show firstKeys v = 1 by rw [hv]]
        exact same_keyOrQuery a r ca hk
    refine lift (p.set r (.dec k (.self ca))) rfl (fun emb => ?_) (fun rr emb => ?_)
    · have : ∀ x F, decBlocks (B := B) (T := 150) v gelu (p.decoder.modify k fun e => e.set r (.self ca)) p.ln_f x F =
          decBlocks v gelu p.decoder p.ln_f x F := by
        intro x F
        cases v <;> simp only [decBlocks]
        · rw [foldl_modify _ _ (fun x e => ?_)]
          unfold DecoderBlock.fwdBasic DecoderBlock.set
          simp only [(hs _).fwd]
        · rw [foldl_modify _ _ (fun x e => ?_)]
          unfold DecoderBlock.fwdBasic DecoderBlock.set
          simp only [(hs _).fwd]
        · rw [foldl_modify _ _ (fun x e => ?_)]
          unfold DecoderBlock.fwdOrdered DecoderBlock.set
          simp only [(hs _).fwd]
      unfold rawLogits Params.set
      dsimp only
      rw [this]
    · have : ∀ x F, decBlocksDrop (B := B) v gelu rr.dec (p.decoder.modify k fun e => e.set r (.self ca)) p.ln_f x F =
          decBlocksDrop v gelu rr.dec p.decoder p.ln_f x F := by
        intro x F
        cases v <;> simp only [decBlocksDrop]
        · rw [decDrop_modify _ _ _ (fun e r x => ?_)]
          unfold DecoderBlock.fwdBasicDrop DecoderBlock.set
          simp only [(hs _).fwdDrop]
        · rw [decDrop_modify _ _ _ (fun e r x => ?_)]
          unfold DecoderBlock.fwdBasicDrop DecoderBlock.set
          simp only [(hs _).fwdDrop]
        · rw [decDrop_modify _ _ _ (fun e r x => ?_)]
          unfold DecoderBlock.fwdOrderedDrop DecoderBlock.set
          simp only [(hs _).fwdDrop]
      unfold rawLogitsDrop Params.set
      dsimp only
      rw [this]

/-- **C99.** Exactly the other numbers have an influence: of every single parameter of a model with at least one decoder
block it is decided whether some input and some values of the other parameters make the logits depend on it.  Of GELU only
that it is not constant is used. -/
theorem C99_influence_partial (gelu : ℝ → ℝ) {a b : ℝ} (hg : gelu a ≠ gelu b) {v : Variant} {nEnc nDec : ℕ} (hn : 0 < nDec) (c : Coord v)
    (hc : c.Exists nEnc nDec) : HasInfluence gelu nEnc nDec c ↔ ¬ c.Dead := by
  constructor
  · rintro ⟨p, h, X, r, o, o', _, _, _, ht, h1, h2, hne⟩ hd
    rw [(C99_dead gelu p r c hd X ht).1, h1] at h2
    exact hne (congrArg Output.logits (Except.ok.inj h2))
  · intro hd
    match c, hc, hd with
    | .table name i j, hc, hd => exact table_influence hn name i j hc.1 hd hc.2.1 hc.2.2
    | .enc k c, hc, hd => exact enc_all hg hn hc c hd
    | .state c, _, _ => exact state_influence c
    | .dec k c, hc, hd => exact dec_all hg hc c hd
    | .ln_f c, _, _ => exact lnf_influence c
    | .head h c, _, _ => exact head_influence h c

/-- C99 is not vacuous: both kinds of numbers exist -/
example : (.enc 0 (.attn (.head 0 (.key (.bias 0)))) : Coord .basic).Dead ∧ ¬ (.enc 0 (.attn (.head 0 (.query (.bias 0)))) : Coord .basic).Dead ∧
    (.dec 0 (.self (.head 0 (.query (.bias 0)))) : Coord .ordered).Dead ∧ ¬ (.dec 0 (.self (.head 0 (.query (.bias 0)))) : Coord .conv).Dead := by
  refine ⟨trivial, id, .inr ⟨rfl, trivial⟩, ?_⟩
  rintro (h | ⟨h, _⟩)
  · exact h
  · cases h

end MJ
