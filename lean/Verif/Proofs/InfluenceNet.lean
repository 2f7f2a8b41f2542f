import Verif.Proofs.InfluenceTokens
/-!
From tests of the layers to the logits of a model.
-/
namespace MJ
open scoped BigOperators
open Spec Net

namespace Net

/-! ### one sample -/

/-- the attention layer of a decoder block that comes first -/
noncomputable def selfPart (v : Variant) (F : Fin 150 → Fin embdSize → ℝ) (d : DecoderBlock) (x : Fin embdSize → ℝ) : Fin embdSize → ℝ :=
  match v with
  | .ordered => attn1 d.self_attention (fun _ : Fin 1 => d.ln1.fwd x) (d.ln1.fwd x)
  | _ => attn1 d.self_attention F (d.ln1.fwd x)

/-- a decoder block for one sample -/
noncomputable def decStep (v : Variant) (gelu : ℝ → ℝ) (F : Fin 150 → Fin embdSize → ℝ) (x : Fin embdSize → ℝ) (d : DecoderBlock) :
    Fin embdSize → ℝ :=
  let x1 := x + selfPart v F d x
  let x2 := x1 + attn1 d.cross_attention F (d.ln2.fwd x1)
  x2 + d.ffwd.fwd gelu (d.ln3.fwd x2)

theorem basic_one (gelu : ℝ → ℝ) (d : DecoderBlock) (x : Fin embdSize → ℝ) (F : Fin 150 → Fin embdSize → ℝ) (v : Variant) (hv : v ≠ .ordered) :
    d.fwdBasic gelu (fun _ : Fin 1 => x) (fun _ => F) = fun _ => decStep v gelu F x d := by
  funext b
  rw [show b = 0 from Subsingleton.elim _ _]
  cases v with
  | basic => rfl
  | conv => rfl
  | ordered => exact absurd rfl hv

theorem ordered_one (gelu : ℝ → ℝ) (d : DecoderBlock) (x : Fin embdSize → ℝ) (F : Fin 150 → Fin embdSize → ℝ) :
    d.fwdOrdered gelu (fun (_ : Fin 1) (_ : Fin 1) => x) (fun _ => F) = fun _ _ => decStep .ordered gelu F x d := by
  funext b t
  rw [show b = 0 from Subsingleton.elim _ _, show t = 0 from Subsingleton.elim _ _]
  rfl

theorem enc_one (gelu : ℝ → ℝ) (e : EncoderBlock) (E : Fin 150 → Fin embdSize → ℝ) :
    e.fwd gelu (fun _ : Fin 1 => E) = fun _ => encStep gelu E e := by
  funext b
  rw [show b = 0 from Subsingleton.elim _ _]
  rfl

theorem encBlocks_one (gelu : ℝ → ℝ) (blocks : List EncoderBlock) (E : Fin 150 → Fin embdSize → ℝ) :
    encBlocks gelu blocks (fun _ : Fin 1 => E) = fun _ => blocks.foldl (encStep gelu) E := by
  unfold encBlocks
  induction blocks generalizing E with
  | nil => rfl
  | cons e es ih => rw [List.foldl_cons, List.foldl_cons, enc_one, ih]

theorem decBlocks_one (v : Variant) (gelu : ℝ → ℝ) (blocks : List DecoderBlock) (ln : LayerNorm embdSize) (x : Fin embdSize → ℝ)
    (F : Fin 150 → Fin embdSize → ℝ) :
    decBlocks v gelu blocks ln (fun _ : Fin 1 => x) (fun _ => F) = fun _ => ln.fwd (blocks.foldl (decStep v gelu F) x) := by
  have hb : ∀ v, v ≠ .ordered → blocks.foldl (fun x d => d.fwdBasic gelu x (fun _ => F)) (fun _ : Fin 1 => x) =
      fun _ => blocks.foldl (decStep v gelu F) x := by
    intro v hv
    induction blocks generalizing x with
    | nil => rfl
    | cons e es ih => rw [List.foldl_cons, List.foldl_cons, basic_one _ _ _ _ v hv, ih]
  have ho : blocks.foldl (fun x d => d.fwdOrdered gelu x (fun _ => F)) (fun (_ : Fin 1) (_ : Fin 1) => x) =
      fun _ _ => blocks.foldl (decStep .ordered gelu F) x := by
    clear hb
    induction blocks generalizing x with
    | nil => rfl
    | cons e es ih => rw [List.foldl_cons, List.foldl_cons, ordered_one, ih]
  cases v with
  | basic => simp only [decBlocks]; rw [hb .basic (by decide)]
  | conv => simp only [decBlocks]; rw [hb .conv (by decide)]
  | ordered =>
    simp only [decBlocks]
    rw [show (unsqueeze1 fun _ : Fin 1 => x) = fun _ _ => x from rfl, ho]
    rfl

/-- the final vector before `ln_f` -/
noncomputable def final {v : Variant} (gelu : ℝ → ℝ) (p : Params v) (E : Fin 150 → Fin embdSize → ℝ) : Fin embdSize → ℝ :=
  p.decoder.foldl (decStep v gelu (p.encoder.foldl (encStep gelu) E)) (stateNet v p.state_net (fun _ _ _ => 1) (fun _ _ => 1) (fun _ => 1))

/-- the input with ones and the given tokens -/
def onesInput (v : Variant) (h : HeadName) (tok : Fin 150 → BitVec 64) (y : Fin (actionDim h)) : Input v h 1 :=
  ⟨fun _ => tok, fun _ _ _ _ => 1, fun _ _ _ => 1, fun _ _ => 1, fun _ _ => 1, fun _ => y, fun _ => 0⟩

theorem raw_one {v : Variant} {h : HeadName} (gelu : ℝ → ℝ) (p : Params v) (tok : Fin 150 → BitVec 64) (y : Fin (actionDim h))
    (E : Fin 150 → Fin embdSize → ℝ) :
    rawLogits gelu p (onesInput v h tok y) (fun _ => E) = fun _ => (p.heads h).fwd (p.ln_f.fwd (final gelu p E)) := by
  unfold rawLogits final
  dsimp only [onesInput]
  rw [encBlocks_one, decBlocks_one]

theorem run_one {v : Variant} {h : HeadName} (gelu : ℝ → ℝ) (p : Params v) (tok : Fin 150 → BitVec 64) (y : Fin (actionDim h))
    (E : Fin 150 → Fin embdSize → ℝ) (hE : ∀ t, embed v p.tables 0 t.val (tok t) = .ok (E t)) :
    ∃ o, run gelu p (onesInput v h tok y) = .ok o ∧ o.logits = fun _ => (p.heads h).fwd (p.ln_f.fwd (final gelu p E)) := by
  have e1 : (fun (b : Fin 1) (t : Fin 150) => ((embed v p.tables ((onesInput v h tok y).player b) t.val
      ((onesInput v h tok y).tokens b t)).toOption).getD 0) = fun _ => E := by
    funext b t
    have := hE t
    dsimp only [onesInput]
    rw [this]
    rfl
  refine ⟨⟨fun b => maskedLogits ((onesInput v h tok y).mask b) (rawLogits gelu p (onesInput v h tok y) (fun _ => E) b),
      (∑ b, crossEntropy (maskedLogits ((onesInput v h tok y).mask b) (rawLogits gelu p (onesInput v h tok y) (fun _ => E) b))
        ((onesInput v h tok y).y b)) / (1 : ℕ)⟩,
    run_ok.2 ⟨fun b t => ⟨E t, hE t⟩, fun b a => .inr rfl, fun b => ⟨y, one_ne_zero⟩, by rw [e1], rfl⟩, ?_⟩
  rw [raw_one]
  funext b a
  rfl

end Net

/-! ### criteria -/

theorem act_pos (h : HeadName) : 0 < actionDim h := by cases h <;> decide

/-- enough: the logits differ -/
theorem influence_of {v : Variant} {gelu : ℝ → ℝ} {nEnc nDec : ℕ} {c : Coord v} (p : Params v) (r : ℝ) (h : HeadName)
    (tok : Fin 150 → BitVec 64) (E E' : Fin 150 → Fin embdSize → ℝ) (h1 : p.encoder.length = nEnc) (h2 : p.decoder.length = nDec)
    (h3 : FixedTables p.tables) (h4 : ∀ t, ∃ n, LogToken n ∧ tok t = BitVec.ofNat 64 n)
    (h5 : ∀ t, embed v p.tables 0 t.val (tok t) = .ok (E t)) (h6 : ∀ t, embed v (p.set r c).tables 0 t.val (tok t) = .ok (E' t))
    (h7 : (p.heads h).fwd (p.ln_f.fwd (final gelu p E)) ≠ ((p.set r c).heads h).fwd ((p.set r c).ln_f.fwd (final gelu (p.set r c) E'))) :
    HasInfluence gelu nEnc nDec c := by
  obtain ⟨o, ho, hl⟩ := run_one gelu p tok (⟨0, act_pos h⟩ : Fin (actionDim h)) E h5
  obtain ⟨o', ho', hl'⟩ := run_one gelu (p.set r c) tok (⟨0, act_pos h⟩ : Fin (actionDim h)) E' h6
  refine ⟨p, h, onesInput v h tok ⟨0, act_pos h⟩, r, o, o', h1, h2, h3, fun _ t => h4 t, ho, ho', ?_⟩
  rw [hl, hl']
  intro e
  exact h7 (congrFun e 0)

/-- not a table -/
def Coord.isTable {v : Variant} : Coord v → Prop
  | .table _ _ _ => True
  | _ => False

theorem set_tables {v : Variant} (p : Params v) (r : ℝ) {c : Coord v} (hc : ¬ Coord.isTable c) : (p.set r c).tables = p.tables := by
  cases c <;> first | rfl | exact absurd trivial hc

/-- enough for numbers outside the tables: the logits differ for embeddings that are zero but at the first position -/
theorem influence_lump {v : Variant} {gelu : ℝ → ℝ} {nEnc nDec : ℕ} {c : Coord v} (hc : ¬ Coord.isTable c) (f : Fin embdSize → ℝ)
    (p : Params v) (r : ℝ) (h : HeadName) (h1 : p.encoder.length = nEnc) (h2 : p.decoder.length = nDec) (h3 : p.tables = lumpTables v f)
    (h7 : (p.heads h).fwd (p.ln_f.fwd (final gelu p (lump f))) ≠
      ((p.set r c).heads h).fwd ((p.set r c).ln_f.fwd (final gelu (p.set r c) (lump f)))) :
    HasInfluence gelu nEnc nDec c :=
  influence_of p r h lumpTokens (lump f) (lump f) h1 h2 (by rw [h3]; exact lumpTables_fixed v f) lumpTokens_logged
    (fun t => by rw [h3]; exact lump_embed v f t) (fun t => by rw [set_tables p r hc, h3]; exact lump_embed v f t) h7

/-! ### reading the final vector -/

/-- the last layers: one coordinate of the normalised vector -/
noncomputable def readLN : LayerNorm embdSize := ⟨1, 0⟩
@[inherit_doc readLN] noncomputable def readHeads (o : Fin embdSize) : (h : HeadName) → Linear embdSize (actionDim h) :=
  fun h => pt ⟨0, act_pos h⟩ o 1 0

theorem read_ne {o : Fin embdSize} {D : ℝ} (hD : D ≠ 0) (h : HeadName) :
    (readHeads o h).fwd (readLN.fwd 0) ≠ (readHeads o h).fwd (readLN.fwd (single o D)) := by
  intro e
  have := congrFun e ⟨0, act_pos h⟩
  unfold readHeads readLN at this
  rw [pt_fwd, pt_fwd, norm_fwd, norm_fwd, normz_zero] at this
  simp at this
  exact normz_single_ne hD this.symm

/-! ### blocks that do nothing -/

def zEnc : EncoderBlock := ⟨zMHA, zFF, zLN, zLN⟩
def zDec : DecoderBlock := ⟨zMHA, zMHA, zFF, zLN, zLN, zLN⟩

@[simp] theorem zEnc_step (gelu : ℝ → ℝ) (E : Fin 150 → Fin embdSize → ℝ) : encStep gelu E zEnc = E := by
  funext t
  simp [encStep, zEnc]

@[simp] theorem zDec_step (v : Variant) (gelu : ℝ → ℝ) (F : Fin 150 → Fin embdSize → ℝ) (x : Fin embdSize → ℝ) : decStep v gelu F x zDec = x := by
  cases v <;> simp [decStep, zDec, selfPart]

theorem zEnc_fold (gelu : ℝ → ℝ) (n : ℕ) (E : Fin 150 → Fin embdSize → ℝ) : (List.replicate n zEnc).foldl (encStep gelu) E = E := by
  induction n with
  | zero => rfl
  | succ n ih => rw [List.replicate_succ, List.foldl_cons, zEnc_step, ih]

theorem zDec_fold (v : Variant) (gelu : ℝ → ℝ) (F : Fin 150 → Fin embdSize → ℝ) (n : ℕ) (x : Fin embdSize → ℝ) :
    (List.replicate n zDec).foldl (decStep v gelu F) x = x := by
  induction n with
  | zero => rfl
  | succ n ih => rw [List.replicate_succ, List.foldl_cons, zDec_step, ih]

/-- one block among blocks that do nothing -/
def encList (n k : ℕ) (e : EncoderBlock) : List EncoderBlock := List.replicate k zEnc ++ e :: List.replicate (n - k - 1) zEnc
@[inherit_doc encList] def decList (n k : ℕ) (d : DecoderBlock) : List DecoderBlock := List.replicate k zDec ++ d :: List.replicate (n - k - 1) zDec

theorem encList_length {n k : ℕ} (h : k < n) (e : EncoderBlock) : (encList n k e).length = n := by simp [encList]; omega
theorem decList_length {n k : ℕ} (h : k < n) (d : DecoderBlock) : (decList n k d).length = n := by simp [decList]; omega

theorem modify_middle {α : Type} (a : List α) (x : α) (b : List α) (f : α → α) : (a ++ x :: b).modify a.length f = a ++ f x :: b := by
  induction a with
  | nil => rfl
  | cons y ys ih => simp [List.modify_succ_cons, ih]

theorem encList_modify (n k : ℕ) (e : EncoderBlock) (f : EncoderBlock → EncoderBlock) : (encList n k e).modify k f = encList n k (f e) := by
  have := modify_middle (List.replicate k zEnc) e (List.replicate (n - k - 1) zEnc) f
  rwa [List.length_replicate] at this

theorem decList_modify (n k : ℕ) (d : DecoderBlock) (f : DecoderBlock → DecoderBlock) : (decList n k d).modify k f = decList n k (f d) := by
  have := modify_middle (List.replicate k zDec) d (List.replicate (n - k - 1) zDec) f
  rwa [List.length_replicate] at this

theorem encList_fold (gelu : ℝ → ℝ) (n k : ℕ) (e : EncoderBlock) (E : Fin 150 → Fin embdSize → ℝ) :
    (encList n k e).foldl (encStep gelu) E = encStep gelu E e := by
  unfold encList
  rw [List.foldl_append, zEnc_fold, List.foldl_cons, zEnc_fold]

theorem decList_fold (v : Variant) (gelu : ℝ → ℝ) (F : Fin 150 → Fin embdSize → ℝ) (n k : ℕ) (d : DecoderBlock) (x : Fin embdSize → ℝ) :
    (decList n k d).foldl (decStep v gelu F) x = decStep v gelu F x d := by
  unfold decList
  rw [List.foldl_append, zDec_fold, List.foldl_cons, zDec_fold]

/-! ### the parts of a model -/

theorem dec_influence {v : Variant} {gelu : ℝ → ℝ} {nEnc nDec k : ℕ} (hk : k < nDec) (c : DecCoord) (d : DecoderBlock) (r : ℝ)
    (x f : Fin embdSize → ℝ) (hx : 0 ≤ x) (o : Fin embdSize) (D : ℝ) (hD : D ≠ 0) (h0 : decStep v gelu (lump f) x d = 0)
    (h1 : decStep v gelu (lump f) x (d.set r c) = single o D) : HasInfluence gelu nEnc nDec (.dec k c : Coord v) := by
  obtain ⟨s, hs⟩ := state_any v x hx
  refine influence_lump (fun h => h) f ⟨lumpTables v f, List.replicate nEnc zEnc, s, decList nDec k d, readLN, readHeads o⟩ r .during
    (List.length_replicate ..) (decList_length hk d) rfl ?_
  have e1 : final gelu (⟨lumpTables v f, List.replicate nEnc zEnc, s, decList nDec k d, readLN, readHeads o⟩ : Params v) (lump f) = 0 := by
    unfold final
    dsimp only
    rw [zEnc_fold, hs, decList_fold, h0]
  have e2 : final gelu ((⟨lumpTables v f, List.replicate nEnc zEnc, s, decList nDec k d, readLN, readHeads o⟩ : Params v).set r (.dec k c))
      (lump f) = single o D := by
    unfold final Params.set
    dsimp only
    rw [zEnc_fold, hs, decList_modify, decList_fold, h1]
  rw [e1, e2]
  exact read_ne hD _

theorem dec_all {v : Variant} {gelu : ℝ → ℝ} {a b : ℝ} (hg : gelu a ≠ gelu b) {nEnc nDec k : ℕ} (hk : k < nDec) (c : DecCoord)
    (hc : ¬ (.dec k c : Coord v).Dead) : HasInfluence gelu nEnc nDec (.dec k c : Coord v) := by
  match c, hc with
  | .self c, hc =>
    by_cases hv : v = .ordered
    · subst hv
      obtain ⟨m, l, r, x, o, D, hx, hD, h0, h1⟩ := self_attn c (fun h => hc (.inr ⟨rfl, h⟩))
      refine dec_influence hk _ ⟨m, zMHA, zFF, l, zLN, zLN⟩ r x 0 hx o D hD ?_ ?_
      · simp [decStep, selfPart, h0]
      · simp [decStep, selfPart, DecoderBlock.set, h1]
    · obtain ⟨m, l, r, x, f, o, D, hx, hD, h0, h1⟩ := cross_attn c (fun h => hc (.inl h))
      refine dec_influence hk _ ⟨m, zMHA, zFF, l, zLN, zLN⟩ r x f hx o D hD ?_ ?_
      · cases v <;> first | exact absurd rfl hv | simp [decStep, selfPart, h0]
      · cases v <;> first | exact absurd rfl hv | simp [decStep, selfPart, DecoderBlock.set, h1]
  | .cross c, hc =>
    obtain ⟨m, l, r, x, f, o, D, hx, hD, h0, h1⟩ := cross_attn c hc
    refine dec_influence hk _ ⟨zMHA, m, zFF, zLN, l, zLN⟩ r x f hx o D hD ?_ ?_
    · cases v <;> simp [decStep, selfPart, h0]
    · cases v <;> simp [decStep, selfPart, DecoderBlock.set, h1]
  | .feed c, _ =>
    obtain ⟨m, l, r, x, o, D, hx, hD, h0, h1⟩ := feed_feed hg c
    refine dec_influence hk _ ⟨zMHA, zMHA, m, zLN, zLN, l⟩ r x 0 hx o D hD ?_ ?_
    · cases v <;> simp [decStep, selfPart, h0]
    · cases v <;> simp [decStep, selfPart, DecoderBlock.set, h1]
  | .ln1 c, _ =>
    by_cases hv : v = .ordered
    · subst hv
      obtain ⟨m, l, r, x, o, D, hx, hD, h0, h1⟩ := self_norm c
      refine dec_influence hk _ ⟨m, zMHA, zFF, l, zLN, zLN⟩ r x 0 hx o D hD ?_ ?_
      · simp [decStep, selfPart, h0]
      · simp [decStep, selfPart, DecoderBlock.set, h1]
    · obtain ⟨m, l, r, x, f, o, D, hx, hD, h0, h1⟩ := cross_norm c
      refine dec_influence hk _ ⟨m, zMHA, zFF, l, zLN, zLN⟩ r x f hx o D hD ?_ ?_
      · cases v <;> first | exact absurd rfl hv | simp [decStep, selfPart, h0]
      · cases v <;> first | exact absurd rfl hv | simp [decStep, selfPart, DecoderBlock.set, h1]
  | .ln2 c, _ =>
    obtain ⟨m, l, r, x, f, o, D, hx, hD, h0, h1⟩ := cross_norm c
    refine dec_influence hk _ ⟨zMHA, m, zFF, zLN, l, zLN⟩ r x f hx o D hD ?_ ?_
    · cases v <;> simp [decStep, selfPart, h0]
    · cases v <;> simp [decStep, selfPart, DecoderBlock.set, h1]
  | .ln3 c, _ =>
    obtain ⟨m, l, r, x, o, D, hx, hD, h0, h1⟩ := feed_norm hg c
    refine dec_influence hk _ ⟨zMHA, zMHA, m, zLN, zLN, l⟩ r x 0 hx o D hD ?_ ?_
    · cases v <;> simp [decStep, selfPart, h0]
    · cases v <;> simp [decStep, selfPart, DecoderBlock.set, h1]

theorem state_influence {v : Variant} {gelu : ℝ → ℝ} {nEnc nDec : ℕ} (c : StateCoord v) : HasInfluence gelu nEnc nDec (.state c : Coord v) := by
  obtain ⟨s, r, o, D, hD, h0, h1⟩ := state_test v c
  refine influence_lump (fun h => h) 0 ⟨lumpTables v 0, List.replicate nEnc zEnc, s, List.replicate nDec zDec, readLN, readHeads o⟩ r .during
    (List.length_replicate ..) (List.length_replicate ..) rfl ?_
  have e1 : final gelu (⟨lumpTables v 0, List.replicate nEnc zEnc, s, List.replicate nDec zDec, readLN, readHeads o⟩ : Params v) (lump 0) = 0 := by
    unfold final
    dsimp only
    rw [zDec_fold, h0]
  have e2 : final gelu ((⟨lumpTables v 0, List.replicate nEnc zEnc, s, List.replicate nDec zDec, readLN, readHeads o⟩ : Params v).set r (.state c))
      (lump 0) = single o D := by
    unfold final Params.set
    dsimp only
    rw [zDec_fold, h1]
  rw [e1, e2]
  exact read_ne hD _

/-- a decoder block that reads a mean of the encoder output -/
noncomputable def reader (o : Fin embdSize) (g : ℝ) (j : Fin (nHeads * headSize)) : DecoderBlock :=
  ⟨zMHA, chan1 j.divNat j.modNat 0 0 0 0 0 o 1 0 (pt o j 1 (single o g)), zFF, zLN, zLN, zLN⟩

theorem softmax_zero (s : Fin 150) : softmax (fun _ : Fin 150 => (0 : ℝ)) s = 1 / 150 := by
  unfold softmax
  simp

theorem reader_step (v : Variant) (gelu : ℝ → ℝ) (F : Fin 150 → Fin embdSize → ℝ) (o : Fin embdSize) (g : ℝ) (j : Fin (nHeads * headSize)) :
    decStep v gelu F 0 (reader o g j) = single o ((∑ s, F s o) / 150 + g) := by
  have e : attn1 (chan1 j.divNat j.modNat 0 0 0 0 0 o 1 0 (pt o j 1 (single o g))) F (zLN.fwd 0) = single o ((∑ s, F s o) / 150 + g) := by
    rw [chan1_attn rfl rfl, single_add]
    congr 2
    simp only [zero_mul, zero_add, mul_zero, zero_div, one_mul, add_zero, softmax_zero]
    rw [← Finset.mul_sum]
    ring
  cases v <;> simp [decStep, selfPart, reader, e]

theorem sum_influence {v : Variant} {gelu : ℝ → ℝ} {nEnc nDec : ℕ} (hn : 0 < nDec) {c : Coord v} (T : Tables (Fin embdSize → ℝ))
    (hT : FixedTables T) (en : List EncoderBlock) (hen : en.length = nEnc) (r : ℝ)
    (tok : Fin 150 → BitVec 64) (E E' : Fin 150 → Fin embdSize → ℝ) (h4 : ∀ t, ∃ n, LogToken n ∧ tok t = BitVec.ofNat 64 n)
    (T' : Tables (Fin embdSize → ℝ)) (en' : List EncoderBlock)
    (hset : ∀ (s : StateNet v) (dc : List DecoderBlock) (ln : LayerNorm embdSize) (hd : (h : HeadName) → Linear embdSize (actionDim h)),
      Params.set ⟨T, en, s, dc, ln, hd⟩ r c = ⟨T', en', s, dc, ln, hd⟩)
    (h5 : ∀ t, embed v T 0 t.val (tok t) = .ok (E t)) (h6 : ∀ t, embed v T' 0 t.val (tok t) = .ok (E' t))
    (o : Fin embdSize) (h : ∑ t, en.foldl (encStep gelu) E t o ≠ ∑ t, en'.foldl (encStep gelu) E' t o) : HasInfluence gelu nEnc nDec c := by
  obtain ⟨s, hs⟩ := state_any v 0 (le_refl _)
  have hD : (∑ t, en'.foldl (encStep gelu) E' t o) / 150 + -((∑ t, en.foldl (encStep gelu) E t o) / 150) ≠ 0 := by
    intro e
    apply h
    linarith
  have hset := hset s (decList nDec 0 (reader o (-((∑ t, en.foldl (encStep gelu) E t o) / 150)) 0)) readLN (readHeads o)
  refine influence_of ⟨T, en, s, decList nDec 0 (reader o (-((∑ t, en.foldl (encStep gelu) E t o) / 150)) 0), readLN, readHeads o⟩ r .during
    tok E E' hen (decList_length hn _) hT h4 h5 ?_ ?_
  · rw [hset]
    exact h6
  rw [hset]
  have e1 : final gelu (⟨T, en, s, decList nDec 0 (reader o (-((∑ t, en.foldl (encStep gelu) E t o) / 150)) 0), readLN, readHeads o⟩ : Params v)
      E = 0 := by
    unfold final
    dsimp only
    rw [hs, decList_fold, reader_step]
    simp
  have e2 : final gelu (⟨T', en', s, decList nDec 0 (reader o (-((∑ t, en.foldl (encStep gelu) E t o) / 150)) 0), readLN, readHeads o⟩ : Params v)
      E' = single o ((∑ t, en'.foldl (encStep gelu) E' t o) / 150 + -((∑ t, en.foldl (encStep gelu) E t o) / 150)) := by
    unfold final
    dsimp only
    rw [hs, decList_fold, reader_step]
  rw [e1, e2]
  exact read_ne hD _

theorem enc_influence {v : Variant} {gelu : ℝ → ℝ} {nEnc nDec k : ℕ} (hn : 0 < nDec) (hk : k < nEnc) (c : EncCoord) (e : EncoderBlock) (r : ℝ)
    (h : EncTest gelu e (e.set r c)) : HasInfluence gelu nEnc nDec (.enc k c : Coord v) := by
  obtain ⟨f, o, h⟩ := h
  refine sum_influence hn (lumpTables v f) (lumpTables_fixed v f) (encList nEnc k e) (encList_length hk e) r lumpTokens (lump f) (lump f)
    lumpTokens_logged (lumpTables v f) (encList nEnc k (e.set r c)) ?_ (lump_embed v f) (lump_embed v f) o ?_
  · intro s dc ln hd
    unfold Params.set
    dsimp only
    rw [encList_modify]
  · rw [encList_fold, encList_fold]
    exact h

theorem enc_all {v : Variant} {gelu : ℝ → ℝ} {a b : ℝ} (hg : gelu a ≠ gelu b) {nEnc nDec k : ℕ} (hn : 0 < nDec) (hk : k < nEnc) (c : EncCoord)
    (hc : ¬ (.enc k c : Coord v).Dead) : HasInfluence gelu nEnc nDec (.enc k c : Coord v) := by
  match c, hc with
  | .attn c, hc =>
    obtain ⟨m, l, r, h⟩ := enc_attn gelu c hc
    exact enc_influence hn hk _ ⟨m, zFF, l, zLN⟩ r h
  | .feed c, _ =>
    obtain ⟨m, l, r, h⟩ := enc_feed hg c
    exact enc_influence hn hk _ ⟨zMHA, m, zLN, l⟩ r h
  | .ln1 c, _ =>
    obtain ⟨m, l, r, h⟩ := enc_norm1 gelu c
    exact enc_influence hn hk _ ⟨m, zFF, l, zLN⟩ r h
  | .ln2 c, _ =>
    obtain ⟨m, l, r, h⟩ := enc_norm2 hg c
    exact enc_influence hn hk _ ⟨zMHA, m, zLN, l⟩ r h

theorem table_influence {v : Variant} {gelu : ℝ → ℝ} {nEnc nDec : ℕ} (hn : 0 < nDec) (name : TableName) (i : ℕ) (j : Fin embdSize)
    (hi : i < tableSize v name) (hd : i ∉ deadRows v name) (hp : name ≠ .position) (hq : name ≠ .player) :
    HasInfluence gelu nEnc nDec (.table name i j : Coord v) := by
  obtain ⟨tok, E, E', h1, h2, h3, h4⟩ := table_test v name i j hi hd hp hq
  refine sum_influence hn plainTables ⟨rfl, fun _ _ => rfl, fun _ _ => rfl⟩ (List.replicate nEnc zEnc) (List.length_replicate ..) 1 tok E E' h1
    (plainTables.set 1 i j name) (List.replicate nEnc zEnc) (fun _ _ _ _ => rfl) h2 h3 j ?_
  rw [zEnc_fold, zEnc_fold]
  exact h4

theorem lnf_influence {v : Variant} {gelu : ℝ → ℝ} {nEnc nDec : ℕ} (c : NormCoord embdSize) : HasInfluence gelu nEnc nDec (.ln_f c : Coord v) := by
  have key : ∀ (x : Fin embdSize → ℝ) (_ : 0 ≤ x) (ln : LayerNorm embdSize) (o : Fin embdSize), ln.fwd x o ≠ (ln.set 1 c).fwd x o →
      HasInfluence gelu nEnc nDec (.ln_f c : Coord v) := by
    intro x hx ln o h
    obtain ⟨s, hs⟩ := state_any v x hx
    refine influence_lump (fun h => h) 0 ⟨lumpTables v 0, List.replicate nEnc zEnc, s, List.replicate nDec zDec, ln, readHeads o⟩ 1 .during
      (List.length_replicate ..) (List.length_replicate ..) rfl ?_
    unfold final Params.set
    dsimp only
    rw [zDec_fold, hs]
    intro e
    have := congrFun e ⟨0, act_pos _⟩
    unfold readHeads at this
    rw [pt_fwd, pt_fwd] at this
    simp at this
    exact h this
  match c with
  | .weight i =>
    refine key (single i 1) (single_nonneg i zero_le_one) ⟨single i 0, 0⟩ i ?_
    rw [norm_set_weight, norm_fwd, norm_fwd]
    simpa using (normz_single_ne (o := i) (r := 1) one_ne_zero).symm
  | .bias i =>
    refine key 0 (le_refl _) ⟨0, single i 0⟩ i ?_
    rw [norm_set_bias, norm_fwd, norm_fwd]
    simp

theorem head_influence {v : Variant} {gelu : ℝ → ℝ} {nEnc nDec : ℕ} (h : HeadName) (c : LinCoord embdSize (actionDim h)) :
    HasInfluence gelu nEnc nDec (.head h c : Coord v) := by
  have key : ∀ (l : Linear embdSize (actionDim h)), l.fwd (fun _ => 1) ≠ (l.set 1 c).fwd (fun _ => 1) →
      HasInfluence gelu nEnc nDec (.head h c : Coord v) := by
    intro l hl
    obtain ⟨s, hs⟩ := state_any v 0 (le_refl _)
    refine influence_lump (fun h => h) 0 ⟨lumpTables v 0, List.replicate nEnc zEnc, s, List.replicate nDec zDec, ⟨0, 1⟩,
      fun h' => if e : h' = h then e ▸ l else ⟨0, 0⟩⟩ 1 h (List.length_replicate ..) (List.length_replicate ..) rfl ?_
    unfold final Params.set
    dsimp only
    rw [zDec_fold, hs]
    have : LayerNorm.fwd (⟨0, 1⟩ : LayerNorm embdSize) 0 = fun _ => 1 := by funext i; simp [norm_fwd]
    rw [this]
    simpa using hl
  match c with
  | .weight a i =>
    refine key (pt a i 0 0) ?_
    rw [pt_set_weight]
    intro e
    have := congrFun e a
    rw [pt_fwd, pt_fwd] at this
    simp at this
  | .bias a =>
    refine key (pt a 0 0 (single a 0)) ?_
    rw [pt_set_bias]
    intro e
    have := congrFun e a
    rw [pt_fwd, pt_fwd] at this
    simp at this

end MJ
