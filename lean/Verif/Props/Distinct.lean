import Verif.Props.Swapped
import Mathlib.Analysis.Calculus.MeanValue
import Mathlib.LinearAlgebra.LinearIndependent.Basic
/-!
C176: which samples a network can tell apart.  (`C129_run`: those with different states.  Here: those with different events.)
-/
namespace MJ.Net
open MJ.Spec

/-! ### attention with arbitrary scores -/

/-- a head whose scores and whose values are linear functions of what it looks at -/
noncomputable def linearHead (lam mu : Fin embdSize → ℝ) : Head :=
  ⟨⟨fun m i => if m = 0 then lam i else 0, 0⟩, ⟨0, single 0 1⟩, ⟨fun m i => if m = 0 then mu i else 0, 0⟩⟩

/-- a decoder block with this head -/
noncomputable def linearBlock (lam mu : Fin embdSize → ℝ) (g : ℝ) : DecoderBlock :=
  ⟨zMHA, ⟨fun _ => linearHead lam mu, pt 0 0 1 (single 0 g)⟩, zFF, zLN, zLN, zLN⟩

/-- the exponent of a vector -/
noncomputable def expo (lam x : Fin embdSize → ℝ) : ℝ := (∑ i, lam i * x i) / Real.sqrt 8

/-- the mean with weights that the head computes -/
noncomputable def attended (lam mu : Fin embdSize → ℝ) (F : Fin 150 → Fin embdSize → ℝ) : ℝ :=
  ∑ t, Real.exp (expo lam (F t)) / (∑ u, Real.exp (expo lam (F u))) * ∑ i, mu i * F t i

theorem linear_step_from (v : Variant) (gelu : ℝ → ℝ) (F : Fin 150 → Fin embdSize → ℝ) (lam mu : Fin embdSize → ℝ) (g : ℝ)
    (x : Fin embdSize → ℝ) : decStep v gelu F x (linearBlock lam mu g) = x + single 0 (attended lam mu F + g) := by
  have hsc : ∀ (q : Fin embdSize → ℝ) (t : Fin 150), score (linearHead lam mu) (fun _ : Fin 1 => F) (fun _ (_ : Fin 1) => q) 0 0 t =
      expo lam (F t) := by
    intro q t
    unfold score expo
    congr 1
    rw [Finset.sum_eq_single 0]
    · simp [linearHead, Linear.fwd]
    · intro m _ hm
      simp [linearHead, Linear.fwd, single, hm]
    · simp
  have e : ∀ q, attn1 (⟨fun _ => linearHead lam mu, pt 0 0 1 (single 0 g)⟩ : MultiHeadAttention) F q = single 0 (attended lam mu F + g) := by
    intro q
    unfold attn1 MultiHeadAttention.fwd
    funext o
    rw [pt_fwd]
    have h0 : (0 : Fin (nHeads * headSize)).modNat = 0 := rfl
    dsimp only
    rw [h0]
    unfold Head.fwd bmm
    simp only [wei_score, hsc]
    have hv : ∀ t, (linearHead lam mu).value.fwd (F t) 0 = ∑ i, mu i * F t i := by
      intro t
      simp [linearHead, Linear.fwd]
    simp only [hv]
    by_cases ho : o = 0
    · subst ho
      simp [attended]
    · simp [single, ho]
  cases v <;> simp [decStep, selfPart, linearBlock, e]

theorem linear_step (v : Variant) (gelu : ℝ → ℝ) (F : Fin 150 → Fin embdSize → ℝ) (lam mu : Fin embdSize → ℝ) (g : ℝ) :
    decStep v gelu F 0 (linearBlock lam mu g) = single 0 (attended lam mu F + g) := by
  rw [linear_step_from, zero_add]

/-- if all means are the same, so are the sums of the exponentials -/
theorem sums_same {E E' : Fin 150 → Fin embdSize → ℝ} (h : ∀ lam mu, attended lam mu E = attended lam mu E') (lam : Fin embdSize → ℝ) :
    ∑ t, Real.exp (expo lam (E t)) = ∑ t, Real.exp (expo lam (E' t)) := by
  have pos : ∀ (F : Fin 150 → Fin embdSize → ℝ) (x : ℝ), 0 < ∑ t, Real.exp (x * expo lam (F t)) :=
    fun F x => Finset.sum_pos (fun _ _ => Real.exp_pos _) ⟨0, Finset.mem_univ _⟩
  have der : ∀ (F : Fin 150 → Fin embdSize → ℝ) (x : ℝ), HasDerivAt (fun x => ∑ t, Real.exp (x * expo lam (F t)))
      (∑ t, Real.exp (x * expo lam (F t)) * expo lam (F t)) x := by
    intro F x
    refine HasDerivAt.fun_sum fun t _ => ?_
    exact (hasDerivAt_mul_const (expo lam (F t))).exp
  have h8 : Real.sqrt 8 ≠ 0 := by positivity
  have key : ∀ (F : Fin 150 → Fin embdSize → ℝ) (x : ℝ), attended (fun i => x * lam i) lam F =
      Real.sqrt 8 * (∑ t, Real.exp (x * expo lam (F t)) * expo lam (F t)) / ∑ t, Real.exp (x * expo lam (F t)) := by
    intro F x
    have e1 : ∀ t, expo (fun i => x * lam i) (F t) = x * expo lam (F t) := by
      intro t
      unfold expo
      rw [mul_div_assoc', Finset.mul_sum]
      simp only [mul_assoc]
    have e2 : ∀ t, ∑ i, lam i * F t i = Real.sqrt 8 * expo lam (F t) := by
      intro t
      unfold expo
      field_simp
    unfold attended
    simp only [e1, e2]
    rw [Finset.mul_sum, Finset.sum_div]
    refine Finset.sum_congr rfl fun t _ => ?_
    ring
  have hq : ∀ x, HasDerivAt (fun x => (∑ t, Real.exp (x * expo lam (E t))) / ∑ t, Real.exp (x * expo lam (E' t))) 0 x := by
    intro x
    have h1 := (der E x).fun_div (der E' x) (pos E' x).ne'
    have h2 := h (fun i => x * lam i) lam
    rw [key, key, div_eq_div_iff (pos E x).ne' (pos E' x).ne'] at h2
    have h3 : (∑ t, Real.exp (x * expo lam (E t)) * expo lam (E t)) * ∑ t, Real.exp (x * expo lam (E' t)) =
        (∑ t, Real.exp (x * expo lam (E' t)) * expo lam (E' t)) * ∑ t, Real.exp (x * expo lam (E t)) := by
      apply mul_left_cancel₀ h8
      linarith
    have e0 : ((∑ t, Real.exp (x * expo lam (E t)) * expo lam (E t)) * ∑ t, Real.exp (x * expo lam (E' t)) -
        (∑ t, Real.exp (x * expo lam (E t))) * ∑ t, Real.exp (x * expo lam (E' t)) * expo lam (E' t)) /
      (∑ t, Real.exp (x * expo lam (E' t))) ^ 2 = 0 := by
      rw [h3]
      ring
    rw [e0] at h1
    exact h1
  have hc := is_const_of_deriv_eq_zero (fun x => (hq x).differentiableAt) (fun x => (hq x).deriv) 1 0
  simp only [one_mul, zero_mul, Real.exp_zero, Finset.sum_const] at hc
  have h1 := pos E' 1
  simp only [one_mul] at h1
  rw [div_self (by simp), div_eq_one_iff_eq h1.ne'] at hc
  exact hc

/-- the exponential of a vector as a character -/
noncomputable def character (x : Fin embdSize → ℝ) : Multiplicative (Fin embdSize → ℝ) →* ℝ where
  toFun lam := Real.exp (expo (Multiplicative.toAdd lam) x)
  map_one' := by simp [expo]
  map_mul' a b := by
    rw [← Real.exp_add]
    congr 1
    unfold expo
    rw [← add_div, ← Finset.sum_add_distrib]
    congr 1
    refine Finset.sum_congr rfl fun i _ => ?_
    rw [toAdd_mul, Pi.add_apply]
    ring

theorem character_injective : Function.Injective character := by
  intro x y h
  funext j
  have h1 := DFunLike.congr_fun h (Multiplicative.ofAdd (fun i => if i = j then 1 else 0))
  have h2 := Real.exp_injective h1
  have h8 : Real.sqrt 8 ≠ 0 := by positivity
  unfold expo at h2
  simpa [h8] using h2

/-- a vector that occurs in one of two sequences that no attention can tell apart occurs in the other -/
theorem occurs {E E' : Fin 150 → Fin embdSize → ℝ} (h : ∀ lam mu, attended lam mu E = attended lam mu E') (t₀ : Fin 150) :
    ∃ t, E' t = E t₀ := by
  have li := (linearIndependent_monoidHom (Multiplicative (Fin embdSize → ℝ)) ℝ).comp character character_injective
  let l : (Fin 150 → Fin embdSize → ℝ) → ((Fin embdSize → ℝ) →₀ ℝ) := fun F => ∑ t, Finsupp.single (F t) 1
  have hl : l E = l E' := by
    apply li
    simp only [l, map_sum, Finsupp.linearCombination_single, one_smul, Function.comp]
    funext lam
    have := sums_same h (Multiplicative.toAdd lam)
    simpa [Finset.sum_apply, character] using this
  by_contra hno
  push Not at hno
  have h1 := DFunLike.congr_fun hl (E t₀)
  simp only [l, Finsupp.finsetSum_apply] at h1
  rw [Finset.sum_eq_zero (s := Finset.univ) (f := fun t => (Finsupp.single (E' t) (1 : ℝ)) (E t₀))
    (fun t _ => Finsupp.single_eq_of_ne (hno t).symm)] at h1
  have h2 : (1 : ℝ) ≤ ∑ t, (Finsupp.single (E t) (1 : ℝ)) (E t₀) := by
    refine le_trans ?_ (Finset.single_le_sum (f := fun t => (Finsupp.single (E t) (1 : ℝ)) (E t₀)) (fun t _ => ?_) (Finset.mem_univ t₀))
    · simp
    · rw [Finsupp.single_apply]
      split <;> norm_num
  linarith

/-! ### what the networks can and cannot tell apart -/

/-- if an embedded event of one sample does not occur in the other, the logits tell the samples apart for some parameters -/
theorem tells_of {v : Variant} (gelu : ℝ → ℝ) (nEnc : ℕ) {nDec : ℕ} (hn : 0 < nDec) {h : HeadName} {B B' : ℕ} (X : Input v h B)
    (Y : Input v h B') (hX : X.Good) (hY : Y.Good) (b : Fin B) (b' : Fin B') (a : Fin (actionDim h)) (ha : X.mask b a ≠ 0)
    (ha' : Y.mask b' a ≠ 0) (T : Tables (Fin embdSize → ℝ)) (hT : FixedTables T) (x : Fin embdSize → ℝ) (t₀ : Fin 150)
    (hx : embed v T (X.player b) t₀.val (X.tokens b t₀) = .ok x)
    (hno : ∀ t : Fin 150, embed v T (Y.player b') t.val (Y.tokens b' t) ≠ .ok x) :
    ∃ (p : Params v) (o : Output h B) (o' : Output h B'), p.encoder.length = nEnc ∧ p.decoder.length = nDec ∧ FixedTables p.tables ∧
      run gelu p X = .ok o ∧ run gelu p Y = .ok o' ∧ o.logits b a ≠ o'.logits b' a := by
  have hE : ∀ b t, ∃ x, embed v T (X.player b) t.val (X.tokens b t) = .ok x := fun b t => embed_total v T _ t.val t.isLt _ (hX.types b t)
  choose E hE using hE
  have hE' : ∀ b t, ∃ x, embed v T (Y.player b) t.val (Y.tokens b t) = .ok x := fun b t => embed_total v T _ t.val t.isLt _ (hY.types b t)
  choose E' hE' using hE'
  obtain ⟨lam, mu, hlm⟩ : ∃ lam mu, attended lam mu (E b) ≠ attended lam mu (E' b') := by
    by_contra hall
    push Not at hall
    obtain ⟨t, ht⟩ := occurs hall t₀
    refine hno t ?_
    rw [hE' b' t, ht, ← hE b t₀, hx]
  obtain ⟨s, hs⟩ := state_zero v
  let p : Params v := ⟨T, List.replicate nEnc zEnc, s, decList nDec 0 (linearBlock lam mu (-attended lam mu (E b))), readLN,
    fun h' => if hh : h' = h then hh ▸ pt a 0 1 0 else ⟨0, 0⟩⟩
  have hh : p.heads h = pt a 0 1 0 := by simp [p]
  have run_of : ∀ {C : ℕ} (Z : Input v h C) (F : T3 C 150 embdSize), Z.Good →
      (∀ b t, embed v T (Z.player b) t.val (Z.tokens b t) = .ok (F b t)) → ∀ c : Fin C, Z.mask c a ≠ 0 →
      ∃ o, run gelu p Z = .ok o ∧ o.logits c a = normz (single (0 : Fin embdSize) (attended lam mu (F c) + -attended lam mu (E b))) 0 := by
    intro C Z F hZ hF c hc
    have e1 : (fun b (t : Fin 150) => ((embed v p.tables (Z.player b) t.val (Z.tokens b t)).toOption).getD 0) = F := by
      funext b t
      rw [show p.tables = T from rfl, hF b t]
      rfl
    refine ⟨⟨fun b => maskedLogits (Z.mask b) (rawLogits gelu p Z F b),
      (∑ b, crossEntropy (maskedLogits (Z.mask b) (rawLogits gelu p Z F b)) (Z.y b)) / C⟩,
      run_ok.2 ⟨fun b t => ⟨F b t, hF b t⟩, hZ.binary, hZ.allows, by rw [e1], rfl⟩, ?_⟩
    unfold maskedLogits
    dsimp only
    rw [if_neg hc]
    unfold rawLogits
    rw [hh, dec_row, enc_row, pt_fwd]
    dsimp only [p]
    rw [hs, decList_fold, linear_step, zEnc_fold]
    unfold readLN
    rw [norm_fwd]
    simp
  obtain ⟨o, ho, h1⟩ := run_of X E hX hE b ha
  obtain ⟨o', ho', h2⟩ := run_of Y E' hY hE' b' ha'
  refine ⟨p, o, o', by simp [p], decList_length hn _, hT, ho, ho', ?_⟩
  rw [h1, h2, add_neg_cancel, single_zero, normz_zero]
  refine (normz_single_ne ?_).symm
  intro h3
  apply hlm
  linarith

/-- the token is padding or that of an event -/
def Written (u : BitVec 64) : Prop :=
  u = BitVec.ofNat 64 padId ∨ ∃ (e : TokenEvent) (n : Nat), e.Real ∧ e.token = .ok n ∧ u = BitVec.ofNat 64 n

/-- the samples have the same state -/
def SameState {v : Variant} {h : HeadName} {B B' : ℕ} (X : Input v h B) (Y : Input v h B') (b : Fin B) (b' : Fin B') : Prop :=
  X.x1 b = Y.x1 b' ∧ X.x2 b = Y.x2 b' ∧ X.x3 b = Y.x3 b'

/-- for some parameters the logits of this action differ -/
def TellsApart {v : Variant} (gelu : ℝ → ℝ) (nEnc nDec : ℕ) {h : HeadName} {B B' : ℕ} (X : Input v h B) (Y : Input v h B') (b : Fin B)
    (b' : Fin B') (a : Fin (actionDim h)) : Prop :=
  ∃ (p : Params v) (o : Output h B) (o' : Output h B'), p.encoder.length = nEnc ∧ p.decoder.length = nDec ∧ FixedTables p.tables ∧
      run gelu p X = .ok o ∧ run gelu p Y = .ok o' ∧ o.logits b a ≠ o'.logits b' a

theorem TellsApart.symm {v : Variant} {gelu : ℝ → ℝ} {nEnc nDec : ℕ} {h : HeadName} {B B' : ℕ} {X : Input v h B} {Y : Input v h B'}
    {b : Fin B} {b' : Fin B'} {a : Fin (actionDim h)} : TellsApart gelu nEnc nDec X Y b b' a → TellsApart gelu nEnc nDec Y X b' b a := by
  rintro ⟨p, o, o', h1, h2, h3, h4, h5, h6⟩
  exact ⟨p, o', o, h1, h2, h3, h5, h4, h6.symm⟩

/-- samples with the same state and the same embeddings are not told apart -/
theorem not_tellsApart {v : Variant} {gelu : ℝ → ℝ} {nEnc nDec : ℕ} {h : HeadName} {B B' : ℕ} {X : Input v h B} {Y : Input v h B'}
    {b : Fin B} {b' : Fin B'} {a : Fin (actionDim h)} (ha : X.mask b a ≠ 0) (ha' : Y.mask b' a ≠ 0) (hs : SameState X Y b b')
    (he : ∀ (T : Tables (Fin embdSize → ℝ)) (t : Fin 150), embed v T (X.player b) t.val (X.tokens b t) = embed v T (Y.player b') t.val (Y.tokens b' t)) :
    ¬ TellsApart gelu nEnc nDec X Y b b' a := by
  rintro ⟨p, o, o', -, -, -, h4, h5, h6⟩
  obtain ⟨-, -, -, e1, -⟩ := run_ok.1 h4
  obtain ⟨-, -, -, e2, -⟩ := run_ok.1 h5
  apply h6
  rw [e1, e2]
  unfold maskedLogits
  dsimp only
  rw [if_neg ha, if_neg ha']
  unfold rawLogits
  rw [dec_row, dec_row, enc_row, enc_row, hs.1, hs.2.1, hs.2.2]
  simp only [he]

theorem bare_second (pl : Int) (s y p n : Nat) :
    bare pl s y p n 2 = (restCode s y n : ℝ) + (if s ≤ 3 then playerTable embdSize (seen pl p) 2 else 0) := by
  unfold bare
  rw [if_pos rfl]
  rfl

theorem masked_code (m r : Nat) : |(if m ≤ 3 then playerTable embdSize r 2 else 0)| ≤ 1 := by
  split
  · exact (C87_bounded embdSize r 2).2
  · simp

/-- events at different positions, and different events, have different embeddings -/
theorem apart_all (pl : Int) {e e' : TokenEvent} (hr : e.Real) (hr' : e'.Real) {n n' : Nat} (he : e.token = .ok n) (he' : e'.token = .ok n')
    {t t' : ℕ} (ht : t < 150) (ht' : t' < 150)
    (h : embedOrdered apartTables pl t (BitVec.ofNat 64 n) = embedOrdered apartTables pl t' (BitVec.ofNat 64 n')) : t = t' ∧ n = n' := by
  obtain ⟨s, y, p, k, rfl, hp, hk, hf⟩ := token_form_real e hr n he
  obtain ⟨s', y', p', k', rfl, hp', hk', hf'⟩ := token_form_real e' hr' n' he'
  rw [apart_embedding pl (by omega) (by omega) (by omega) hp hk ht, apart_embedding pl (by omega) (by omega) (by omega) hp' hk' ht',
    Except.ok.injEq] at h
  have hc := fun j => congrFun h j
  have z : ∀ m y r k, bare pl m y r k 0 = ((if m ≤ 3 then quarter 0 (seen pl r) else 0 : ℤ) : ℝ) :=
    fun m y r k => bare_first _ m y r k (c := 0) (by omega)
  have o : ∀ m y r k, bare pl m y r k 1 = ((if m ≤ 3 then quarter 1 (seen pl r) else 0 : ℤ) : ℝ) :=
    fun m y r k => bare_first _ m y r k (c := 1) (by omega)
  have ps : ∀ t : ℕ, positionTable embdSize t (0 : Fin embdSize).val = Real.sin t ∧ positionTable embdSize t (1 : Fin embdSize).val = Real.cos t := by
    intro t
    constructor <;> simp [positionTable]
  have htt : t = t' := by
    by_contra hne
    obtain ⟨d, hdir⟩ := players_agree (decide (s ≤ 3)) (decide (s' ≤ 3)) _ (seen_lt pl p) _ (seen_lt pl p')
    have agree : ((direction d).1 : ℝ) * bare pl s' y' p' k' 0 + (direction d).2 * bare pl s' y' p' k' 1 =
        (direction d).1 * bare pl s y p k 0 + (direction d).2 * bare pl s y p k 1 := by
      rw [z, z, o, o]
      simp only [decide_eq_true_eq] at hdir
      exact_mod_cast hdir.symm
    apply positions_apart hne d
    have h0 := hc 0
    have h1 := hc 1
    rw [(ps t).1, (ps t').1] at h0
    rw [(ps t).2, (ps t').2] at h1
    rw [show Real.sin t = bare pl s' y' p' k' 0 + Real.sin t' - bare pl s y p k 0 by linarith,
      show Real.cos t = bare pl s' y' p' k' 1 + Real.cos t' - bare pl s y p k 1 by linarith]
    linarith
  refine ⟨htt, ?_⟩
  subst htt
  by_contra hl
  obtain ⟨c, hc2, hne⟩ := parts_differ pl hp hp' hf hf' hk hk' hl
  have hb : ∀ j, bare pl s y p k j = bare pl s' y' p' k' j := fun j => add_right_cancel (hc j)
  by_cases hcode : restCode s y k = restCode s' y' k'
  · apply hne
    rw [hcode]
    congr 1
    have h2 := hb ⟨c, by unfold embdSize; omega⟩
    rw [bare_first _ _ _ _ _ hc2, bare_first _ _ _ _ _ hc2] at h2
    exact_mod_cast h2
  · have m1 := rest_tens s y k
    have m2 := rest_tens s' y' k'
    have b1 := abs_le.1 (masked_code s (seen pl p))
    have b2 := abs_le.1 (masked_code s' (seen pl p'))
    have h3 := hb 2
    rw [bare_second, bare_second] at h3
    generalize restCode s y k = r at *
    generalize restCode s' y' k' = r' at *
    rcases (by omega : r + 10 ≤ r' ∨ r' + 10 ≤ r) with h4 | h4
    · have : (r : ℝ) + 10 ≤ r' := by exact_mod_cast h4
      linarith [b1.1, b1.2, b2.1, b2.2]
    · have : (r' : ℝ) + 10 ≤ r := by exact_mod_cast h4
      linarith [b1.1, b1.2, b2.1, b2.2]

/-- no event is embedded as padding is -/
theorem apart_padding (pl : Int) {e : TokenEvent} (hr : e.Real) {n : Nat} (he : e.token = .ok n) {t t' : ℕ} (ht : t < 150) (ht' : t' < 150) :
    embedOrdered apartTables pl t (BitVec.ofNat 64 n) ≠ embedOrdered apartTables pl t' (BitVec.ofNat 64 padId) := by
  obtain ⟨s, y, p, k, rfl, hp, hk, hf⟩ := token_form_real e hr n he
  rw [apart_embedding pl (by omega) (by omega) (by omega) hp hk ht, C69_padding_zero (add_zero 0) apartTables rfl pl _ ht']
  intro h
  rw [Except.ok.injEq] at h
  have h2 := congrFun h 2
  rw [bare_second, Pi.zero_apply] at h2
  have b1 := abs_le.1 (masked_code s (seen pl p))
  have b2 : -1 ≤ positionTable embdSize t (2 : Fin embdSize).val := by
    unfold positionTable
    split
    · exact Real.neg_one_le_sin _
    · exact Real.neg_one_le_cos _
  have h1 : (10 : Int) ≤ restCode s y k := by
    have hy : 2 ≤ y := by omega
    unfold restCode
    split <;> split <;> split <;> split <;> omega
  have h3 : (10 : ℝ) ≤ (restCode s y k : ℝ) := by exact_mod_cast h1
  linarith [b1.1]

/-- C176: the ordered network can tell two samples apart exactly if they are different: for samples of the same player in batches of
any size, an action that both allow gets different logits for some parameters iff the states differ or the tokens differ somewhere. -/
theorem C176_ordered (gelu : ℝ → ℝ) (nEnc : ℕ) {nDec : ℕ} (hn : 0 < nDec) {h : HeadName} {B B' : ℕ} (X : Input .ordered h B)
    (Y : Input .ordered h B') (hX : X.Good) (hY : Y.Good) (b : Fin B) (b' : Fin B') (hpl : X.player b = Y.player b')
    (hw : ∀ t, Written (X.tokens b t)) (hw' : ∀ t, Written (Y.tokens b' t)) (a : Fin (actionDim h)) (ha : X.mask b a ≠ 0)
    (ha' : Y.mask b' a ≠ 0) :
    TellsApart gelu nEnc nDec X Y b b' a ↔ ¬ (SameState X Y b b' ∧ X.tokens b = Y.tokens b') := by
  constructor
  · rintro ht ⟨hs, hk⟩
    exact not_tellsApart ha ha' hs (fun T t => by rw [hpl, hk]) ht
  · intro hne
    by_cases hs : SameState X Y b b'
    · obtain ⟨t₀, h0⟩ := Function.ne_iff.1 (fun e => hne ⟨hs, e⟩)
      have key : ∀ {C C' : ℕ} (V : Input .ordered h C) (W : Input .ordered h C'), V.Good → W.Good → ∀ (c : Fin C) (c' : Fin C'),
          V.player c = W.player c' → (∀ t, Written (W.tokens c' t)) → V.mask c a ≠ 0 → W.mask c' a ≠ 0 →
          V.tokens c t₀ ≠ W.tokens c' t₀ → (∃ (e : TokenEvent) (n : Nat), e.Real ∧ e.token = .ok n ∧ V.tokens c t₀ = BitVec.ofNat 64 n) →
          TellsApart gelu nEnc nDec V W c c' a := by
        rintro C C' V W hV hW c c' hp hww hm hm' hd ⟨e, n, hr, he, hu⟩
        obtain ⟨x, hx⟩ := embed_total .ordered apartTables (V.player c) t₀.val t₀.isLt _ (hV.types c t₀)
        refine tells_of gelu nEnc hn V W hV hW c c' a hm hm' apartTables ⟨rfl, fun _ _ => rfl, fun _ _ => rfl⟩ x t₀ hx ?_
        intro t
        rw [← hx, ← hp, hu]
        rcases hww t with h1 | ⟨e', n', hr', he', h1⟩
        · rw [h1]
          exact (apart_padding _ hr he t₀.isLt t.isLt).symm
        · intro h2
          rw [h1] at h2
          obtain ⟨h3, h4⟩ := apart_all _ hr' hr he' he t.isLt t₀.isLt h2
          rw [Fin.ext h3] at h1
          exact hd (by rw [hu, h1, h4])
      rcases hw t₀ with h1 | h1
      · rcases hw' t₀ with h2 | h2
        · exact absurd (h1.trans h2.symm) h0
        · exact (key Y X hY hX b' b hpl.symm hw ha' ha (Ne.symm h0) h2).symm
      · exact key X Y hX hY b b' hpl hw' ha ha' h0 h1
    · refine C129_run gelu nEnc nDec X Y hX hY b b' a ha ha' ?_
      unfold SameState at hs
      tauto

/-- looks at different positions, and different looks, have different embeddings -/
theorem apart_looks {e e' : TokenEvent} (hr : e.Real) (hr' : e'.Real) {n n' : Nat} (he : e.token = .ok n) (he' : e'.token = .ok n')
    {t t' : ℕ} (ht : t < 150) (ht' : t' < 150)
    (h : embedBasic apartLooks t (BitVec.ofNat 64 n) = embedBasic apartLooks t' (BitVec.ofNat 64 n')) : t = t' ∧ e.look = e'.look := by
  rw [C173_embedding _ _ ht e hr n he, C173_embedding _ _ ht' e' hr' n' he', Except.ok.injEq] at h
  have htt : t = t' := by
    by_contra hne
    have h0 := congrFun h 0
    rw [apart_look_zero, apart_look_zero] at h0
    exact positions_apart hne 0 (by simpa [direction] using h0)
  refine ⟨htt, ?_⟩
  subst htt
  have h3 := congrFun h 3
  rw [apart_look_code, apart_look_code, add_left_inj] at h3
  refine (C173_exact e e' hr hr' he he' ht).2 ?_
  rw [C173_embedding _ _ ht e hr n he, C173_embedding _ _ ht e' hr' n' he', Except.ok.injEq]
  exact_mod_cast h3

/-- no look is embedded as padding is -/
theorem looks_padding {e : TokenEvent} (hr : e.Real) {n : Nat} (he : e.token = .ok n) {t t' : ℕ} (ht : t < 150) (ht' : t' < 150) :
    embedBasic apartLooks t (BitVec.ofNat 64 n) ≠ embedBasic apartLooks t' (BitVec.ofNat 64 padId) := by
  rw [C173_embedding _ _ ht e hr n he, C173_padding _ _ ht']
  intro h
  rw [Except.ok.injEq] at h
  have h3 := congrFun h 3
  rw [apart_look_code] at h3
  have hp : playerTable embdSize 0 3 = 1 := by simp [playerTable]
  have hP : (apartLooks.empty + apartLooks.type 0 + apartLooks.tile 0 + apartLooks.player 0 + apartLooks.tsumogiri 0 + 0 +
      apartLooks.during_naki 0 + apartLooks.post_naki 0) 3 = 1010010011 := by
    simp [apartLooks, partTables, show 3 % embdSize = 3 from rfl, hp]
    norm_num
  rw [hP] at h3
  have b : |positionTable embdSize t 3| ≤ 1 := by
    unfold positionTable
    split
    · exact Real.abs_sin_le_one _
    · exact Real.abs_cos_le_one _
  have hi : e.look.embedding partTables t + 2 ≤ 1010010011 ∨ 1010010013 ≤ e.look.embedding partTables t := by
    obtain ⟨s, y, p, m, -, -, -, hf⟩ := look_token e hr n he
    rcases hf with ⟨-, -, a, l⟩ | ⟨-, -, a, c, l⟩ | ⟨-, -, a, c, l⟩ | ⟨-, -, a, c, l⟩ | ⟨-, -, -, l⟩ | ⟨-, -, -, a, l⟩ <;>
      rw [l] <;> simp only [Look.embedding, partTables] <;> (try split) <;> omega
  have b' := abs_le.1 b
  rcases hi with h1 | h1
  · have h2 : ((e.look.embedding partTables t : ℤ) : ℝ) + 2 ≤ 1010010011 := by exact_mod_cast h1
    linarith [b'.1, b'.2]
  · have h2 : (1010010013 : ℝ) ≤ ((e.look.embedding partTables t : ℤ) : ℝ) := by exact_mod_cast h1
    linarith [b'.1, b'.2]

/-- C176: the basic and the convolutional networks can tell two samples apart exactly if their states differ or if somewhere the events
look different; whose point of view it is does not matter. -/
theorem C176_basic {v : Variant} (hv : v ≠ .ordered) (gelu : ℝ → ℝ) (nEnc : ℕ) {nDec : ℕ} (hn : 0 < nDec) {h : HeadName} {B B' : ℕ}
    (X : Input v h B) (Y : Input v h B') (hX : X.Good) (hY : Y.Good) (b : Fin B) (b' : Fin B')
    (hw : ∀ t, Written (X.tokens b t)) (hw' : ∀ t, Written (Y.tokens b' t)) (a : Fin (actionDim h)) (ha : X.mask b a ≠ 0)
    (ha' : Y.mask b' a ≠ 0) :
    TellsApart gelu nEnc nDec X Y b b' a ↔ ¬ (SameState X Y b b' ∧ ∀ t, LooksSame (X.tokens b t) (Y.tokens b' t)) := by
  have hb : ∀ (T : Tables (Fin embdSize → ℝ)) (pl : Int) (t : ℕ) (u : BitVec 64), embed v T pl t u = embedBasic T t u := by
    intro T pl t u
    cases v
    · rfl
    · rfl
    · exact absurd rfl hv
  constructor
  · rintro ht ⟨hs, hk⟩
    refine not_tellsApart ha ha' hs (fun T t => ?_) ht
    rw [hb, hb]
    rcases hk t with h1 | ⟨e, e', n, n', r, r', h1, h2, h3, h4, h5⟩
    · rw [h1]
    · rw [h3, h4, C173_embedding _ _ t.isLt e r n h1, C173_embedding _ _ t.isLt e' r' n' h2, h5]
  · intro hne
    by_cases hs : SameState X Y b b'
    · obtain ⟨t₀, h0⟩ := not_forall.1 (fun e => hne ⟨hs, e⟩)
      have key : ∀ {C C' : ℕ} (V : Input v h C) (W : Input v h C'), V.Good → W.Good → ∀ (c : Fin C) (c' : Fin C'),
          (∀ t, Written (W.tokens c' t)) → V.mask c a ≠ 0 → W.mask c' a ≠ 0 →
          ¬ LooksSame (W.tokens c' t₀) (V.tokens c t₀) →
          (∃ (e : TokenEvent) (n : Nat), e.Real ∧ e.token = .ok n ∧ V.tokens c t₀ = BitVec.ofNat 64 n) →
          TellsApart gelu nEnc nDec V W c c' a := by
        rintro C C' V W hV hW c c' hww hm hm' hd ⟨e, n, hr, he, hu⟩
        obtain ⟨x, hx⟩ := embed_total v apartLooks (V.player c) t₀.val t₀.isLt _ (hV.types c t₀)
        refine tells_of gelu nEnc hn V W hV hW c c' a hm hm' apartLooks ⟨rfl, fun _ _ => rfl, fun _ _ => rfl⟩ x t₀ hx ?_
        intro t
        rw [← hx, hb, hb, hu]
        rcases hww t with h1 | ⟨e', n', hr', he', h1⟩
        · rw [h1]
          exact (looks_padding hr he t₀.isLt t.isLt).symm
        · intro h2
          rw [h1] at h2
          obtain ⟨h3, h4⟩ := apart_looks hr' hr he' he t.isLt t₀.isLt h2
          rw [Fin.ext h3] at h1
          exact hd (.inr ⟨e', e, n', n, hr', hr, he', he, h1, hu, h4⟩)
      have flip : ∀ u u', LooksSame u u' → LooksSame u' u := by
        rintro u u' (h1 | ⟨e, e', n, n', r, r', h1, h2, h3, h4, h5⟩)
        · exact .inl h1.symm
        · exact .inr ⟨e', e, n', n, r', r, h2, h1, h4, h3, h5.symm⟩
      rcases hw t₀ with h1 | h1
      · rcases hw' t₀ with h2 | h2
        · exact absurd (.inl (h1.trans h2.symm)) h0
        · exact (key Y X hY hX b' b hw ha' ha h0 h2).symm
      · exact key X Y hX hY b b' hw' ha ha' (fun h2 => h0 (flip _ _ h2)) h1
    · refine C129_run gelu nEnc nDec X Y hX hY b b' a ha ha' ?_
      unfold SameState at hs
      tauto

/-- padding is `Written`, and so is a discard -/
example : Written (BitVec.ofNat 64 padId) ∧ Written (BitVec.ofNat 64 0x2801) :=
  ⟨.inl rfl, .inr ⟨.discard 0 1 false, 0x2801, ⟨by simp [TokenEvent.Valid], by simp⟩, by decide, rfl⟩⟩

end MJ.Net
