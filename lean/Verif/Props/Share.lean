import Verif.Props.Fresh
import Verif.Props.Amount
import Verif.Props.Alone
import Mathlib.Analysis.Complex.ExponentialBounds
/-!
C172: how much of the attention the padding takes.
-/
namespace MJ.Net
open MJ.Spec Finset

variable {h : HeadName} {B : ℕ}

/-- what a head computes for a query and a position before the softmax -/
noncomputable def score {T Q : ℕ} (hd : Head) (k : T3 B T embdSize) (q : T3 B Q embdSize) (b : Fin B) (i : Fin Q) (t : Fin T) : ℝ :=
  (∑ a, hd.query.fwd (q b i) a * hd.key.fwd (k b t) a) / Real.sqrt 8

/-- the positions of a sample without an event -/
def padded {v : Variant} (X : Input v h B) (b : Fin B) : Finset (Fin 150) :=
  univ.filter fun t => X.tokens b t = BitVec.ofNat 64 padId

/-- how much of the attention of the query goes to the padding -/
noncomputable def paddingShare {v : Variant} {Q : ℕ} (X : Input v h B) (hd : Head) (k : T3 B 150 embdSize) (q : T3 B Q embdSize) (b : Fin B)
    (i : Fin Q) : ℝ :=
  ∑ t ∈ padded X b, hd.wei k q b i t

theorem wei_score {T Q : ℕ} (hd : Head) (k : T3 B T embdSize) (q : T3 B Q embdSize) (b : Fin B) (i : Fin Q) (t : Fin T) :
    hd.wei k q b i t = Real.exp (score hd k q b i t) / ∑ u, Real.exp (score hd k q b i u) := by
  simp only [Head.wei, softmaxLast, softmax, bmm, transpose12, score, headSize, Nat.cast_ofNat]

theorem share_of_score {v : Variant} {Q : ℕ} {X : Input v h B} {hd : Head} {k : T3 B 150 embdSize} {q : T3 B Q embdSize} {b : Fin B}
    {i : Fin Q} {c : ℝ} (hc : ∀ t ∈ padded X b, score hd k q b i t = c) :
    paddingShare X hd k q b i =
      (padded X b).card / ((padded X b).card + ∑ t ∈ (padded X b)ᶜ, Real.exp (score hd k q b i t - c)) := by
  have hsum : ∑ u, Real.exp (score hd k q b i u) =
      Real.exp c * ((padded X b).card + ∑ t ∈ (padded X b)ᶜ, Real.exp (score hd k q b i t - c)) := by
    rw [← sum_add_sum_compl (padded X b), sum_congr rfl (fun t ht => by rw [hc t ht]), sum_const, nsmul_eq_mul, mul_add, mul_sum]
    congr 1
    · ring
    · refine sum_congr rfl fun t _ => ?_
      rw [← Real.exp_add]
      congr 1
      ring
  have hx := Real.exp_pos c
  rw [paddingShare, sum_congr rfl (fun t ht => by rw [wei_score, hc t ht, hsum]), sum_const, nsmul_eq_mul, div_mul_cancel_left₀ hx.ne',
    div_eq_mul_inv]

/-- the embedding of padding does not depend on the position -/
theorem embed_padding (v : Variant) (T : Tables (Fin embdSize → ℝ)) (pl : Int) {t u : ℕ} (ht : t < 150) (hu : u < 150) :
    embed v T pl t (BitVec.ofNat 64 padId) = embed v T pl u (BitVec.ofNat 64 padId) := by
  have hf : tokenFields (BitVec.ofNat 64 padId) = ⟨0, 0, 0, 0, 0, 0⟩ := by decide
  cases v <;> simp only [embed]
  · rw [embedBasic_eq T t _ ht (by rw [hf]; decide), embedBasic_eq T u _ hu (by rw [hf]; decide), hf]
    rfl
  · rw [embedBasic_eq T t _ ht (by rw [hf]; decide), embedBasic_eq T u _ hu (by rw [hf]; decide), hf]
    rfl
  · rw [embedOrdered_eq T pl t _ ht (by rw [hf]; decide), embedOrdered_eq T pl u _ hu (by rw [hf]; decide), hf]
    rfl

/-- C172: the share of the padding, in all networks, for all parameters, after any number of encoder blocks, for the heads of the next
encoder block (`f` is its normalisation) and for those that look at the encoder output (`f` does nothing): all padding positions have
one score, and each counts as much as an event with this score. -/
theorem C172_share {v : Variant} {p : Params v} {X : Input v h B} {emb : T3 B 150 embdSize}
    (he : embedAll p X = .ok emb) (gelu : ℝ → ℝ) (blocks : List EncoderBlock) (f : (Fin embdSize → ℝ) → Fin embdSize → ℝ) (hd : Head)
    {Q : ℕ} (q : T3 B Q embdSize) (b : Fin B) (i : Fin Q) (u : Fin 150) (hu : u ∈ padded X b) :
    let k : T3 B 150 embdSize := fun b t => f (encBlocks gelu blocks emb b t)
    paddingShare X hd k q b i = (padded X b).card / ((padded X b).card +
      ∑ t ∈ (padded X b)ᶜ, Real.exp (score hd k q b i t - score hd k q b i u)) := by
  refine share_of_score fun t ht => ?_
  have hs : encBlocks gelu blocks emb b t = encBlocks gelu blocks emb b u := by
    apply encBlocks_same
    have ht' := (mem_filter.1 ht).2
    have hu' := (mem_filter.1 hu).2
    unfold embedAll at he
    split at he
    · simp only [Except.ok.injEq] at he
      subst he
      simp only [ht', hu']
      rw [embed_padding v p.tables _ t.isLt u.isLt]
    · simp at he
  simp only [score, hs]

/-- the length of the output of a new normalisation -/
theorem fresh_norm_length (z : Fin embdSize → ℝ) : ∑ i, (freshNorm embdSize).fwd z i ^ 2 ≤ 64 := by
  obtain ⟨u, hu, h1⟩ := C125_norm (by norm_num : 0 < 64) (freshNorm embdSize) z
  have h2 := (C125_moments (by norm_num : 0 < 64) hu).2
  rw [div_lt_one (by norm_num)] at h2
  push_cast at h2
  simp only [h1]
  simp only [freshNorm, one_mul, add_zero]
  linarith

/-- `r` bounds how much longer the weights can make a vector -/
def Stretch {m n : ℕ} (l : Linear m n) (r : ℝ) : Prop := ∀ x : Fin m → ℝ, ∑ o, (∑ i, l.weight o i * x i) ^ 2 ≤ r ^ 2 * ∑ i, x i ^ 2

/-- the scores of the first layer of a new network -/
theorem score_fresh {T Q : ℕ} {hd : Head} {rq rk : ℝ} (hq : Stretch hd.query rq) (hk : Stretch hd.key rk) (h1 : 0 ≤ rq) (h2 : 0 ≤ rk)
    (k : T3 B T embdSize) (q : T3 B Q embdSize) (b : Fin B) (i : Fin Q) (t : Fin T) :
    |score hd.fresh (fun b t => (freshNorm embdSize).fwd (k b t)) (fun b t => (freshNorm embdSize).fwd (q b t)) b i t| ≤ 23 * rq * rk := by
  have h3 := hq ((freshNorm embdSize).fwd (q b i))
  have h4 := hk ((freshNorm embdSize).fwd (k b t))
  have h5 := fresh_norm_length (q b i)
  have h6 := fresh_norm_length (k b t)
  have h8 : (64 / 23 : ℝ) ≤ Real.sqrt 8 := by
    rw [Real.le_sqrt (by norm_num) (by norm_num)]
    norm_num
  have hpos : 0 < Real.sqrt 8 := by positivity
  rw [score, abs_div, abs_of_pos hpos, div_le_iff₀ hpos]
  have h7 : |∑ a, hd.fresh.query.fwd ((freshNorm embdSize).fwd (q b i)) a * hd.fresh.key.fwd ((freshNorm embdSize).fwd (k b t)) a| ≤
      64 * rq * rk := by
    refine abs_le_of_sq_le_sq ?_ (by positivity)
    simp only [Linear.fwd, Head.fresh, Linear.fresh, add_zero]
    refine (sum_mul_sq_le_sq_mul_sq _ _ _).trans ?_
    calc _ ≤ (rq ^ 2 * 64) * (rk ^ 2 * 64) := by
          refine mul_le_mul (h3.trans ?_) (h4.trans ?_) (sum_nonneg fun _ _ => sq_nonneg _) (by positivity)
          · exact mul_le_mul_of_nonneg_left h5 (sq_nonneg _)
          · exact mul_le_mul_of_nonneg_left h6 (sq_nonneg _)
      _ = (64 * rq * rk) ^ 2 := by ring
  refine h7.trans ?_
  have : 0 ≤ rq * rk := mul_nonneg h1 h2
  nlinarith

/-- C172: in the first layer of a new ordered network the padding counts as events with score zero and adds nothing: what a head
gives is what it would give for the events alone, made smaller by the share of the padding. -/
theorem C172_new {p : Params .ordered} {X : Input .ordered h B} {emb : T3 B 150 embdSize} (he : embedAll p.fresh X = .ok emb)
    (e : EncoderBlock) (j : Fin nHeads) (b : Fin B) (i : Fin 150) :
    let x : T3 B 150 embdSize := fun b t => e.fresh.ln1.fwd (emb b t)
    let hd := e.fresh.self_attention.heads j
    paddingShare X hd x x b i = (padded X b).card / ((padded X b).card + ∑ t ∈ (padded X b)ᶜ, Real.exp (score hd x x b i t)) ∧
    ∀ a, ((padded X b)ᶜ).Nonempty → hd.fwd x x x b i a = (1 - paddingShare X hd x x b i) *
      ((∑ t ∈ (padded X b)ᶜ, Real.exp (score hd x x b i t) * hd.value.fwd (x b t) a) / ∑ t ∈ (padded X b)ᶜ, Real.exp (score hd x x b i t)) := by
  intro x hd
  have hz : ∀ t ∈ padded X b, score hd x x b i t = 0 := by
    intro t ht
    have := (C165_padding he e j b t (mem_filter.1 ht).2).2.1
    simp only [score]
    rw [show hd.key.fwd (x b t) = 0 from this]
    simp
  have hs := share_of_score hz
  simp only [sub_zero] at hs
  refine ⟨hs, fun a hne => ?_⟩
  have hS : 0 < ∑ t ∈ (padded X b)ᶜ, Real.exp (score hd x x b i t) := sum_pos (fun _ _ => Real.exp_pos _) hne
  have hall : ∑ t, Real.exp (score hd x x b i t) = (padded X b).card + ∑ t ∈ (padded X b)ᶜ, Real.exp (score hd x x b i t) := by
    rw [← sum_add_sum_compl (padded X b), sum_congr rfl (fun t ht => by rw [hz t ht, Real.exp_zero]), sum_const, nsmul_eq_mul, mul_one]
  have hf : hd.fwd x x x b i a = (∑ t ∈ (padded X b)ᶜ, Real.exp (score hd x x b i t) * hd.value.fwd (x b t) a) /
      ((padded X b).card + ∑ t ∈ (padded X b)ᶜ, Real.exp (score hd x x b i t)) := by
    rw [Head.fwd, bmm, ← hall, sum_div, ← sum_add_sum_compl (padded X b)]
    rw [sum_eq_zero (s := padded X b), zero_add]
    · refine sum_congr rfl fun t _ => ?_
      rw [wei_score]
      ring
    · intro t ht
      have := (C165_padding he e j b t (mem_filter.1 ht).2).1
      rw [show hd.value.fwd (x b t) = 0 from this]
      simp
  have hn : (0 : ℝ) ≤ (padded X b).card := Nat.cast_nonneg _
  rw [hf, hs]
  generalize ∑ t ∈ (padded X b)ᶜ, Real.exp (score hd x x b i t) = S at *
  generalize ((padded X b).card : ℝ) = m at *
  have h1 : m + S ≠ 0 := by positivity
  field_simp
  ring

/-- the hypotheses can be met: a sample without events, where the padding has all of the attention -/
example (p : Params .ordered) (e : EncoderBlock) (j : Fin nHeads) (i : Fin 150) :
    ∃ (X : Input .ordered .discard 1) (emb : T3 1 150 embdSize), embedAll p.fresh X = .ok emb ∧
      paddingShare X (e.fresh.self_attention.heads j) (fun b t => e.fresh.ln1.fwd (emb b t)) (fun b t => e.fresh.ln1.fwd (emb b t)) 0 i =
        1 := by
  let X : Input .ordered .discard 1 :=
    ⟨fun _ _ => BitVec.ofNat 64 padId, fun _ _ _ _ => 0, fun _ _ _ => 0, fun _ _ => 0, fun _ _ => 1, fun _ => 0, fun _ => 0⟩
  have hall : ∀ b t, ∃ e, embed .ordered p.fresh.tables (X.player b) t.val (X.tokens b t) = .ok e :=
    fun b t => ⟨0, C69_padding_zero (add_zero 0) _ rfl _ _ t.isLt⟩
  have he : embedAll p.fresh X = .ok _ := if_pos hall
  refine ⟨X, _, he, ?_⟩
  rw [(C172_new he e j 0 i).1]
  have : padded X 0 = univ := filter_true_of_mem fun _ _ => rfl
  simp [this]

/-- and weights of zero make every vector shorter -/
example : Stretch (⟨fun _ _ => 0, fun _ => 0⟩ : Linear 64 8) (1 / 5) := by
  intro x
  simp only [zero_mul, sum_const_zero, ne_eq, OfNat.ofNat_ne_zero, not_false_eq_true, zero_pow]
  exact mul_nonneg (by norm_num) (sum_nonneg fun _ _ => sq_nonneg _)

/-- C172: with weights of usual size the share of the padding in the first layer of a new network is near its share of the positions. -/
theorem C172_size {p : Params .ordered} {X : Input .ordered h B} {emb : T3 B 150 embdSize} (he : embedAll p.fresh X = .ok emb)
    (e : EncoderBlock) (j : Fin nHeads) {rq rk : ℝ} (hq : Stretch (e.self_attention.heads j).query rq)
    (hk : Stretch (e.self_attention.heads j).key rk) (h1 : 0 ≤ rq) (h2 : 0 ≤ rk) (b : Fin B) (i : Fin 150) {m : ℕ}
    (hm : m ≤ (padded X b).card) (hm0 : 0 < m) :
    let x : T3 B 150 embdSize := fun b t => e.fresh.ln1.fwd (emb b t)
    m / (m + (150 - m) * Real.exp (23 * rq * rk)) ≤ paddingShare X (e.fresh.self_attention.heads j) x x b i ∧
    paddingShare X (e.fresh.self_attention.heads j) x x b i ≤
      (padded X b).card / ((padded X b).card + (150 - (padded X b).card) * Real.exp (-(23 * rq * rk))) := by
  intro x
  have hs := (C172_new he e j b i).1
  have hb : ∀ t, |score (e.fresh.self_attention.heads j) x x b i t| ≤ 23 * rq * rk := fun t => score_fresh hq hk h1 h2 emb emb b i t
  have hc : ((padded X b)ᶜ.card : ℝ) = 150 - (padded X b).card := by
    rw [card_compl, Fintype.card_fin, Nat.cast_sub (by simpa using card_le_univ (padded X b))]
    norm_num
  have hle : (padded X b).card ≤ 150 := by simpa using card_le_univ (padded X b)
  have hup : ∑ t ∈ (padded X b)ᶜ, Real.exp (score (e.fresh.self_attention.heads j) x x b i t) ≤
      (150 - (padded X b).card) * Real.exp (23 * rq * rk) := by
    rw [← hc, ← nsmul_eq_mul]
    exact sum_le_card_nsmul _ _ _ fun t _ => Real.exp_le_exp.2 (abs_le.1 (hb t)).2
  have hlow : (150 - (padded X b).card) * Real.exp (-(23 * rq * rk)) ≤
      ∑ t ∈ (padded X b)ᶜ, Real.exp (score (e.fresh.self_attention.heads j) x x b i t) := by
    rw [← hc, ← nsmul_eq_mul]
    exact card_nsmul_le_sum _ _ _ fun t _ => Real.exp_le_exp.2 (abs_le.1 (hb t)).1
  rw [hs]
  have hm' : (m : ℝ) ≤ (padded X b).card := by exact_mod_cast hm
  have hm0' : (0 : ℝ) < m := by exact_mod_cast hm0
  have hle' : ((padded X b).card : ℝ) ≤ 150 := by exact_mod_cast hle
  change _ ≤ _ / (_ + ∑ t ∈ (padded X b)ᶜ, Real.exp (score (e.fresh.self_attention.heads j) x x b i t)) ∧
    _ / (_ + ∑ t ∈ (padded X b)ᶜ, Real.exp (score (e.fresh.self_attention.heads j) x x b i t)) ≤ _
  have hE := Real.exp_pos (23 * rq * rk)
  have hF := Real.exp_pos (-(23 * rq * rk))
  generalize ∑ t ∈ (padded X b)ᶜ, Real.exp (score (e.fresh.self_attention.heads j) x x b i t) = S at *
  generalize ((padded X b).card : ℝ) = n at *
  generalize Real.exp (23 * rq * rk) = E at *
  generalize Real.exp (-(23 * rq * rk)) = F at *
  have hn : 0 < n := hm0'.trans_le hm'
  have hS : 0 ≤ S := (mul_nonneg (by linarith) hF.le).trans hlow
  constructor
  · rw [div_le_div_iff₀ (by nlinarith) (by linarith)]
    have : m * S ≤ m * ((150 - n) * E) := mul_le_mul_of_nonneg_left hup hm0'.le
    have : 0 ≤ (n - m) * E := mul_nonneg (by linarith) hE.le
    nlinarith
  · exact div_le_div_of_nonneg_left hn.le (by nlinarith) (by linarith)

end MJ.Net
namespace MJ
open Spec Net

/-- C172: in every sample of a played round at least 31 of the 150 positions are padding. -/
theorem C172_positions {s : RoundSt} (hs : PlayedRound s) {v : Variant} {d c p : Batch}
    (h : buildTensors v s s.halfturns s.encoding_tokens = .ok (d, c, p)) {r : Row} (hr : r.tokens ∈ d.encodings ++ c.encodings ++ p.encodings)
    {hn : HeadName} {X : Input v hn 1} (hX : Enters r X) : 31 ≤ (padded X 0).card := by
  have key : (Finset.univ.filter fun t : Fin 150 => 119 ≤ t.val) ⊆ padded X 0 := by
    intro t ht
    have ht' := (Finset.mem_filter.1 ht).2
    have h1 := C171_padding hs h _ hr t.val ht' t.isLt
    obtain ⟨n, h2, h3⟩ := hX.tokens t
    rw [h1] at h2
    cases h2
    exact Finset.mem_filter.2 ⟨Finset.mem_univ _, h3⟩
  exact le_trans (by decide) (Finset.card_le_card key)

/-- C172: so in a new ordered network at least so much of the attention in the first layer goes to the padding, in every sample of a
played round; with weights that make no vector longer by more than a fifth this is a twelfth. -/
theorem C172_round {s : RoundSt} (hs : PlayedRound s) {d c q : Batch}
    (h : buildTensors .ordered s s.halfturns s.encoding_tokens = .ok (d, c, q)) {r : Row}
    (hr : r.tokens ∈ d.encodings ++ c.encodings ++ q.encodings) {hn : HeadName} {X : Input .ordered hn 1} (hX : Enters r X)
    {p : Params .ordered} {emb : T3 1 150 embdSize} (he : embedAll p.fresh X = .ok emb) (e : EncoderBlock) (j : Fin nHeads) {rq rk : ℝ}
    (hq : Stretch (e.self_attention.heads j).query rq) (hk : Stretch (e.self_attention.heads j).key rk) (h1 : 0 ≤ rq) (h2 : 0 ≤ rk)
    (i : Fin 150) :
    let x : T3 1 150 embdSize := fun b t => e.fresh.ln1.fwd (emb b t)
    31 / (31 + 119 * Real.exp (23 * rq * rk)) ≤ paddingShare X (e.fresh.self_attention.heads j) x x 0 i ∧
    (rq ≤ 1 / 5 → rk ≤ 1 / 5 → 1 / 12 ≤ paddingShare X (e.fresh.self_attention.heads j) x x 0 i) := by
  intro x
  have h3 := (C172_size he e j hq hk h1 h2 0 i (C172_positions hs h hr hX) (by norm_num)).1
  norm_num at h3
  refine ⟨h3, fun h4 h5 => le_trans ?_ h3⟩
  have h6 : 23 * rq * rk ≤ 1 := by nlinarith
  have h7 := (Real.exp_le_exp.2 h6).trans Real.exp_one_lt_d9.le
  rw [div_le_div_iff₀ (by norm_num) (by positivity)]
  linarith

end MJ
