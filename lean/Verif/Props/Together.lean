import Verif.Props.Seats
import Mathlib.Analysis.Analytic.IsolatedZeros
import Mathlib.Analysis.Analytic.Uniqueness
import Mathlib.Analysis.SpecialFunctions.ExpDeriv
/-!
C177: one network tells all samples apart that can be told apart.
-/
namespace MJ.Net
open Spec
open scoped Topology

/-- finitely many functions that are analytic along lines, none of them zero everywhere: somewhere none of them is zero -/
theorem common_nonzero {P ι : Type} [AddCommGroup P] [Module ℝ P] (f : ι → P → ℝ)
    (han : ∀ i x d (θ : ℝ), AnalyticAt ℝ (fun θ : ℝ => f i (x + θ • d)) θ) (S : Finset ι) (hne : ∀ i ∈ S, ∃ x, f i x ≠ 0) :
    ∃ x, ∀ i ∈ S, f i x ≠ 0 := by
  classical
  induction S using Finset.induction_on with
  | empty => exact ⟨0, by simp⟩
  | insert j S hj ih =>
    obtain ⟨x, hx⟩ := ih (fun i hi => hne i (Finset.mem_insert_of_mem hi))
    obtain ⟨y, hy⟩ := hne j (Finset.mem_insert_self j S)
    have h1 : ∀ᶠ θ in 𝓝[≠] (0 : ℝ), f j (x + θ • (y - x)) ≠ 0 := by
      rcases (han j x (y - x) 0).eventually_eq_zero_or_eventually_ne_zero with h | h
      · exfalso
        have := AnalyticOnNhd.eqOn_zero_of_preconnected_of_eventuallyEq_zero (fun θ _ => han j x (y - x) θ) isPreconnected_univ
          (Set.mem_univ 0) h (Set.mem_univ 1)
        apply hy
        simpa using this
      · exact h
    have h2 : ∀ i ∈ S, ∀ᶠ θ in 𝓝[≠] (0 : ℝ), f i (x + θ • (y - x)) ≠ 0 := by
      intro i hi
      refine eventually_nhdsWithin_of_eventually_nhds ((han i x (y - x) 0).continuousAt.eventually_ne ?_)
      simpa using hx i hi
    have h3 := (Finset.eventually_all S).2 h2
    obtain ⟨θ, h4, h5⟩ := (h1.and h3).exists
    refine ⟨x + θ • (y - x), fun i hi => ?_⟩
    rcases Finset.mem_insert.1 hi with rfl | hi
    · exact h4
    · exact h5 i hi

theorem attended_analytic (F : Fin 150 → Fin embdSize → ℝ) (x d : (Fin embdSize → ℝ) × (Fin embdSize → ℝ)) (θ : ℝ) :
    AnalyticAt ℝ (fun θ : ℝ => attended (x + θ • d).1 (x + θ • d).2 F) θ := by
  have lin : ∀ a b : ℝ, AnalyticAt ℝ (fun θ : ℝ => a + θ * b) θ := by
    intro a b
    fun_prop
  have he : ∀ t, AnalyticAt ℝ (fun θ : ℝ => Real.exp (expo (x + θ • d).1 (F t))) θ := by
    intro t
    have : (fun θ : ℝ => Real.exp (expo (x + θ • d).1 (F t))) = fun θ : ℝ => Real.exp (expo x.1 (F t) + θ * expo d.1 (F t)) := by
      funext θ
      congr 1
      unfold expo
      rw [mul_div_assoc', ← add_div, Finset.mul_sum, ← Finset.sum_add_distrib]
      congr 1
      refine Finset.sum_congr rfl fun i _ => ?_
      simp only [Prod.fst_add, Prod.smul_fst, Pi.add_apply, Pi.smul_apply, smul_eq_mul]
      ring
    rw [this]
    exact (lin _ _).rexp'
  unfold attended
  refine Finset.analyticAt_fun_sum _ fun t _ => ?_
  refine AnalyticAt.fun_mul ((he t).fun_div (Finset.analyticAt_fun_sum _ fun u _ => he u) ?_) ?_
  · exact (Finset.sum_pos (fun _ _ => Real.exp_pos _) ⟨t, Finset.mem_univ _⟩).ne'
  · refine Finset.analyticAt_fun_sum _ fun i _ => ?_
    simp only [Prod.snd_add, Prod.smul_snd, Pi.add_apply, Pi.smul_apply, smul_eq_mul]
    fun_prop

theorem normz_single_value (r : ℝ) : normz (single (0 : Fin embdSize) r) 0 = 63 / 64 * r / Real.sqrt (63 / 4096 * r ^ 2 + 1 / 100000) := by
  have hm : mean (single (0 : Fin embdSize) r) = r / 64 := by simp [mean, single, embdSize]
  have hv : variance (single (0 : Fin embdSize) r) = 63 / 4096 * r ^ 2 := by
    unfold variance
    rw [hm, ← Finset.add_sum_erase _ _ (Finset.mem_univ 0), Finset.sum_congr rfl (g := fun _ => (r / 64) ^ 2)]
    · rw [Finset.sum_const, Finset.card_erase_of_mem (Finset.mem_univ _), single_self]
      simp [embdSize]
      ring
    · intro i hi
      simp [single, (Finset.mem_erase.1 hi).1]
  unfold normz
  rw [hm, hv, single_self]
  congr 1
  ring

theorem normz_single_injective {r r' : ℝ} (h : normz (single (0 : Fin embdSize) r) 0 = normz (single (0 : Fin embdSize) r') 0) : r = r' := by
  rw [normz_single_value, normz_single_value] at h
  have p : ∀ r : ℝ, 0 < Real.sqrt (63 / 4096 * r ^ 2 + 1 / 100000) := fun r => Real.sqrt_pos.2 (by positivity)
  have q : ∀ r : ℝ, Real.sqrt (63 / 4096 * r ^ 2 + 1 / 100000) ^ 2 = 63 / 4096 * r ^ 2 + 1 / 100000 := fun r => Real.sq_sqrt (by positivity)
  rw [div_eq_div_iff (p r).ne' (p r').ne'] at h
  have h1 : r * Real.sqrt (63 / 4096 * r' ^ 2 + 1 / 100000) = r' * Real.sqrt (63 / 4096 * r ^ 2 + 1 / 100000) := by linarith
  have h2 : r ^ 2 = r' ^ 2 := by
    have := congrArg (· ^ 2) h1
    simp only [mul_pow, q] at this
    nlinarith
  rw [h2] at h1
  exact mul_right_cancel₀ (p r').ne' h1

/-- a sum of two parts of a vector -/
theorem sum_cat {a b : ℕ} (w : Fin (a + b) → ℝ) (x : Fin a → ℝ) (y : Fin b → ℝ) :
    ∑ i, w i * cat x y i = ∑ i, w (Fin.castAdd b i) * x i + ∑ i, w (Fin.natAdd a i) * y i := by
  unfold cat
  rw [Fin.sum_univ_add]
  simp only [Fin.append_left, Fin.append_right]

/-- finitely many numbers become positive if something is added -/
theorem lift {B : ℕ} (f : Fin B → ℝ) : ∃ K : ℝ, ∀ b, 0 ≤ f b + K := by
  refine ⟨∑ b, |f b|, fun b => ?_⟩
  have h1 := Finset.single_le_sum (f := fun b => |f b|) (fun _ _ => abs_nonneg _) (Finset.mem_univ b)
  have h2 := neg_abs_le (f b)
  linarith

/-- on finitely many samples the last part of the state network can compute any linear function -/
theorem tail_linear {n B : ℕ} (y : Fin B → Fin n → ℝ) (x2 : Fin B → T2 7 4) (x3 : Fin B → Fin 4 → ℝ) (w : Fin (n + 7 * 4 + 4) → ℝ) :
    ∃ (s : StateTail n) (K : ℝ), ∀ b, s.fwd (y b) (x2 b) (x3 b) = single 0 (∑ i, w i * cat (cat (y b) (flatten (x2 b))) (x3 b) i + K) := by
  let w1 : Fin n → ℝ := fun i => w (Fin.castAdd 4 (Fin.castAdd (7 * 4) i))
  let w2 : Fin (7 * 4) → ℝ := fun i => w (Fin.castAdd 4 (Fin.natAdd n i))
  let w3 : Fin 4 → ℝ := fun i => w (Fin.natAdd (n + 7 * 4) i)
  have hw : ∀ b, ∑ i, w i * cat (cat (y b) (flatten (x2 b))) (x3 b) i =
      ∑ i, w1 i * y b i + ∑ i, w2 i * flatten (x2 b) i + ∑ i, w3 i * x3 b i := by
    intro b
    rw [sum_cat, sum_cat]
  obtain ⟨K1, h1⟩ := lift fun b => ∑ i, w1 i * y b i
  obtain ⟨K2, h2⟩ := lift fun b => ∑ i, w i * cat (cat (y b) (flatten (x2 b))) (x3 b) i + K1
  refine ⟨⟨⟨fun m i => if m = 0 then w1 i else 0, single 0 K1⟩, ⟨fun m i => if m = 0 then cat (cat (single 0 1) w2) w3 i else 0, single 0 K2⟩,
    pt 0 0 1 0⟩, K1 + K2, fun b => ?_⟩
  have e1 : (fun i => relu ((⟨fun m i => if m = 0 then w1 i else 0, single 0 K1⟩ : Linear n 64).fwd (y b) i)) =
      single 0 (∑ i, w1 i * y b i + K1) := by
    funext i
    by_cases hi : i = 0
    · subst hi
      simp only [Linear.fwd, if_true, single_self]
      exact relu_of_nonneg (h1 b)
    · simp [Linear.fwd, hi, single]
  have e2 : (fun i => relu ((⟨fun m i => if m = 0 then cat (cat (single 0 1) w2) w3 i else 0, single 0 K2⟩ : Linear (64 + 7 * 4 + 4) embdSize).fwd
      (cat (cat (single 0 (∑ i, w1 i * y b i + K1)) (flatten (x2 b))) (x3 b)) i)) =
      single 0 (∑ i, w i * cat (cat (y b) (flatten (x2 b))) (x3 b) i + K1 + K2) := by
    funext i
    by_cases hi : i = 0
    · subst hi
      have e3 : ∑ i, cat (cat (single (0 : Fin 64) 1) w2) w3 i * cat (cat (single (0 : Fin 64) (∑ i, w1 i * y b i + K1)) (flatten (x2 b))) (x3 b) i =
          ∑ i, w i * cat (cat (y b) (flatten (x2 b))) (x3 b) i + K1 := by
        rw [sum_cat, sum_cat, hw]
        unfold cat
        simp only [Fin.append_left, Fin.append_right]
        simp [single]
        ring
      simp only [Linear.fwd, if_true, single_self]
      rw [e3]
      exact relu_of_nonneg (h2 b)
    · simp [Linear.fwd, hi, single]
  unfold StateTail.fwd
  dsimp only
  rw [e1, e2]
  funext i
  rw [pt_fwd]
  by_cases hi : i = 0
  · subst hi
    rw [if_pos rfl, single_self, single_self, one_mul, Pi.zero_apply, add_zero, add_assoc]
    refine relu_of_nonneg ?_
    have := h2 b
    linarith
  · simp [hi, single]

/-- the states of a batch as vectors, of which the state network can compute any linear function -/
theorem state_linear {v : Variant} {h : HeadName} {B : ℕ} (X : Input v h B) :
    ∃ (m : ℕ) (z : Fin B → Fin m → ℝ), (∀ b b', z b = z b' → SameState X X b b') ∧
      ∀ w : Fin m → ℝ, ∃ (s : StateNet v) (K : ℝ), ∀ b, stateNet v s (X.x1 b) (X.x2 b) (X.x3 b) = single 0 (∑ i, w i * z b i + K) := by
  have parts : ∀ {n : ℕ} (y : Fin B → Fin n → ℝ), (∀ b b', y b = y b' → X.x1 b = X.x1 b') →
      ∀ b b', cat (cat (y b) (flatten (X.x2 b))) (X.x3 b) = cat (cat (y b') (flatten (X.x2 b'))) (X.x3 b') → SameState X X b b' := by
    intro n y hy b b' e
    unfold cat at e
    refine ⟨hy b b' (funext fun j => ?_), ?_, funext fun j => ?_⟩
    · have := congrFun e (Fin.castAdd 4 (Fin.castAdd (7 * 4) j))
      rwa [Fin.append_left, Fin.append_left, Fin.append_left, Fin.append_left] at this
    · by_contra hne
      apply flatten_ne hne
      funext j
      have := congrFun e (Fin.castAdd 4 (Fin.natAdd n j))
      rwa [Fin.append_left, Fin.append_left, Fin.append_right, Fin.append_right] at this
    · have := congrFun e (Fin.natAdd (n + 7 * 4) j)
      rwa [Fin.append_right, Fin.append_right] at this
  have two : ∀ {c o : ℕ} (x1 : Fin B → T3 c 37 4), (∀ b b', x1 b = x1 b' → X.x1 b = X.x1 b') →
      ∃ (m : ℕ) (z : Fin B → Fin m → ℝ), (∀ b b', z b = z b' → SameState X X b b') ∧
      ∀ w : Fin m → ℝ, ∃ (s : StateNet2 c o) (K : ℝ), ∀ b, s.fwd (x1 b) (X.x2 b) (X.x3 b) = single 0 (∑ i, w i * z b i + K) := by
    intro c o x1 h1
    let c1 : Conv2d c 8 := ⟨0, 0⟩
    let c2 : Conv2d 8 o := ⟨0, 0⟩
    let y : Fin B → Fin (o * (37 * 4) + c * (37 * 4)) → ℝ := fun b =>
      cat (flatten (fun m => flatten (fun p r => relu (c2.fwd (fun m p r => relu (c1.fwd (x1 b) m p r)) m p r)))) (flatten (fun m => flatten (x1 b m)))
    refine ⟨_, fun b => cat (cat (y b) (flatten (X.x2 b))) (X.x3 b), parts y fun b b' e => h1 b b' ?_, fun w => ?_⟩
    · by_contra hne
      apply flatten2_ne hne
      funext j
      have := congrFun e (Fin.natAdd _ j)
      dsimp only [y] at this
      unfold cat at this
      rwa [Fin.append_right, Fin.append_right] at this
    · obtain ⟨s, K, hs⟩ := tail_linear y X.x2 X.x3 w
      exact ⟨⟨c1, c2, s⟩, K, hs⟩
  cases v with
  | conv => exact two X.x1 fun _ _ e => e
  | ordered => exact two X.x1 fun _ _ e => e
  | basic =>
    let c1 : Conv1d 3 8 := ⟨0, 0⟩
    let c2 : Conv1d 8 16 := ⟨0, 0⟩
    let y : Fin B → Fin (16 * 37 + 3 * 37) → ℝ := fun b =>
      cat (flatten (fun m p => relu (c2.fwd (fun m p => relu (c1.fwd (fun c k => X.x1 b c k 0) m p)) m p))) (flatten (fun c k => X.x1 b c k 0))
    refine ⟨_, fun b => cat (cat (y b) (flatten (X.x2 b))) (X.x3 b), parts y fun b b' e => ?_, fun w => ?_⟩
    · have h1 : (fun (c : Fin 3) (k : Fin 37) => X.x1 b c k 0) = fun c k => X.x1 b' c k 0 := by
        by_contra hne
        apply flatten_ne hne
        funext j
        have := congrFun e (Fin.natAdd _ j)
        dsimp only [y] at this
        unfold cat at this
        rwa [Fin.append_right, Fin.append_right] at this
      funext c k r
      rw [show r = 0 from Subsingleton.elim (α := Fin 1) _ _]
      exact congrFun (congrFun h1 c) k
    · obtain ⟨s, K, hs⟩ := tail_linear y X.x2 X.x3 w
      exact ⟨⟨c1, c2, s⟩, K, hs⟩

/-- one choice of the parameters tells apart all samples whose states differ and all of which an embedded event of one does not occur in
the other -/
theorem together {v : Variant} (gelu : ℝ → ℝ) (nEnc : ℕ) {nDec : ℕ} (hn : 0 < nDec) {h : HeadName} {B : ℕ} (X : Input v h B)
    (hX : X.Good) (T : Tables (Fin embdSize → ℝ)) (hT : FixedTables T) :
    ∃ (p : Params v) (o : Output h B), p.encoder.length = nEnc ∧ p.decoder.length = nDec ∧ FixedTables p.tables ∧ run gelu p X = .ok o ∧
      ∀ a b b', X.mask b a ≠ 0 → X.mask b' a ≠ 0 →
        (¬ SameState X X b b' ∨
          ∃ t₀ : Fin 150, ∀ t : Fin 150, embed v T (X.player b') t.val (X.tokens b' t) ≠ embed v T (X.player b) t₀.val (X.tokens b t₀)) →
        o.logits b a ≠ o.logits b' a := by
  classical
  have hE : ∀ b t, ∃ x, embed v T (X.player b) t.val (X.tokens b t) = .ok x := fun b t => embed_total v T _ t.val t.isLt _ (hX.types b t)
  choose E hE using hE
  obtain ⟨m, z, hz, hlin⟩ := state_linear X
  let S : Finset (Fin B × Fin B) := Finset.univ.filter fun q => z q.1 ≠ z q.2 ∨ ∃ lam mu, attended lam mu (E q.1) ≠ attended lam mu (E q.2)
  have lin : ∀ (w d : Fin m → ℝ) (u : Fin m → ℝ) (θ : ℝ), AnalyticAt ℝ (fun θ : ℝ => ∑ i, (w + θ • d) i * u i) θ := by
    intro w d u θ
    refine Finset.analyticAt_fun_sum _ fun i _ => ?_
    simp only [Pi.add_apply, Pi.smul_apply, smul_eq_mul]
    fun_prop
  obtain ⟨⟨w, lam, mu⟩, hlm⟩ := common_nonzero (P := (Fin m → ℝ) × (Fin embdSize → ℝ) × (Fin embdSize → ℝ))
    (fun (q : Fin B × Fin B) x => (∑ i, x.1 i * z q.1 i + attended x.2.1 x.2.2 (E q.1)) - (∑ i, x.1 i * z q.2 i + attended x.2.1 x.2.2 (E q.2)))
    (fun q x d θ => ((lin x.1 d.1 _ θ).fun_add (attended_analytic _ x.2 d.2 θ)).fun_sub ((lin x.1 d.1 _ θ).fun_add (attended_analytic _ x.2 d.2 θ))) S (by
      intro q hq
      rcases (Finset.mem_filter.1 hq).2 with h1 | ⟨lam, mu, h1⟩
      · obtain ⟨j, hj⟩ := Function.ne_iff.1 h1
        refine ⟨(single j 1, 0, 0), ?_⟩
        have := sub_ne_zero.2 hj
        simpa [single, attended] using this
      · refine ⟨(0, lam, mu), ?_⟩
        have := sub_ne_zero.2 h1
        simpa using this)
  obtain ⟨s, K, hs⟩ := hlin w
  let p : Params v := ⟨T, List.replicate nEnc zEnc, s, decList nDec 0 (linearBlock lam mu 0), readLN,
    fun _ => ⟨fun _ i => if i = 0 then 1 else 0, 0⟩⟩
  have e1 : (fun b (t : Fin 150) => ((embed v p.tables (X.player b) t.val (X.tokens b t)).toOption).getD 0) = E := by
    funext b t
    rw [show p.tables = T from rfl, hE b t]
    rfl
  have hl : ∀ a b, X.mask b a ≠ 0 → maskedLogits (X.mask b) (rawLogits gelu p X E b) a =
      normz (single (0 : Fin embdSize) ((∑ i, w i * z b i + attended lam mu (E b)) + K)) 0 := by
    intro a b hb
    have e2 : ∀ r r' : ℝ, single (0 : Fin embdSize) r + single 0 r' = single 0 (r + r') := by
      intro r r'
      funext i
      by_cases hi : i = 0 <;> simp [single, hi]
    unfold maskedLogits
    rw [if_neg hb]
    unfold rawLogits
    rw [dec_row, enc_row]
    unfold Linear.fwd
    dsimp only [p]
    rw [hs, decList_fold, linear_step_from, zEnc_fold, e2]
    unfold readLN
    simp only [norm_fwd]
    rw [show ∑ i, w i * z b i + K + (attended lam mu (E b) + 0) = ∑ i, w i * z b i + attended lam mu (E b) + K by ring]
    simp
  refine ⟨p, ⟨fun b => maskedLogits (X.mask b) (rawLogits gelu p X E b),
      (∑ b, crossEntropy (maskedLogits (X.mask b) (rawLogits gelu p X E b)) (X.y b)) / B⟩, by simp [p], decList_length hn _, hT,
      run_ok.2 ⟨fun b t => ⟨E b t, hE b t⟩, hX.binary, hX.allows, by rw [e1], rfl⟩, ?_⟩
  intro a b b' hb hb' hd
  dsimp only
  rw [hl a b hb, hl a b' hb']
  intro h1
  have h2 := add_right_cancel (normz_single_injective h1)
  have hmem : (b, b') ∈ S := by
    refine Finset.mem_filter.2 ⟨Finset.mem_univ _, ?_⟩
    rcases hd with hd | ⟨t₀, ht⟩
    · exact .inl fun e => hd (hz b b' e)
    · right
      by_contra hall
      push Not at hall
      obtain ⟨t, h3⟩ := occurs hall t₀
      apply ht t
      rw [hE, hE, h3]
  exact sub_ne_zero.1 (hlm (b, b') hmem) h2

/-- C177: one ordered network tells all samples apart that can be told apart at all.  For every batch, of any size, there
are parameters for which any two samples have the same logit for an action that both allow only if their states are the same and their
events are the same, each seen from its player. -/
theorem C177_ordered (gelu : ℝ → ℝ) (nEnc : ℕ) {nDec : ℕ} (hn : 0 < nDec) {h : HeadName} {B : ℕ} (X : Input .ordered h B)
    (hX : X.Good) (hw : ∀ b t, Written (X.tokens b t)) :
    ∃ (p : Params .ordered) (o : Output h B), p.encoder.length = nEnc ∧ p.decoder.length = nDec ∧ FixedTables p.tables ∧ run gelu p X = .ok o ∧
      ∀ a b b', X.mask b a ≠ 0 → X.mask b' a ≠ 0 →
        (o.logits b a = o.logits b' a ↔
          SameState X X b b' ∧ ∀ t, SeenSame (X.player b) (X.player b') (X.tokens b t) (X.tokens b' t)) := by
  obtain ⟨p, o, h1, h2, h3, h4, h5⟩ := together gelu nEnc hn X hX apartTables ⟨rfl, fun _ _ => rfl, fun _ _ => rfl⟩
  refine ⟨p, o, h1, h2, h3, h4, fun a b b' hb hb' => ⟨fun heq => ?_, fun hsame => ?_⟩⟩
  swap
  · by_contra hne
    exact (C176_seats gelu nEnc hn X X hX hX b b' (hw b) (hw b') a hb hb').1 ⟨p, o, o, h1, h2, h3, h4, h4, hne⟩ hsame
  by_contra hne
  rcases not_and_or.1 hne with hst | hne
  · exact h5 a b b' hb hb' (.inl hst) heq
  obtain ⟨t₀, h0⟩ := not_forall.1 hne
  have key : ∀ c c', ¬ SeenSame (X.player c) (X.player c') (X.tokens c t₀) (X.tokens c' t₀) →
      (∃ (e : TokenEvent) (n : Nat), e.Real ∧ e.token = .ok n ∧ X.tokens c t₀ = BitVec.ofNat 64 n) →
      ∀ t : Fin 150, embed .ordered apartTables (X.player c') t.val (X.tokens c' t) ≠ embed .ordered apartTables (X.player c) t₀.val (X.tokens c t₀) := by
    rintro c c' hd ⟨e, n, hr, he, hu⟩ t
    show embedOrdered _ _ _ _ ≠ embedOrdered _ _ _ _
    rw [hu]
    rcases hw c' t with h1 | ⟨e', n', hr', he', h1⟩
    · rw [h1, padding_any apartTables (X.player c') (X.player c) t.isLt]
      exact (apart_padding _ hr he t₀.isLt t.isLt).symm
    · intro h2
      obtain ⟨m, e1, e2⟩ := seenFrom_embedding apartTables (X.player c) hr he
      obtain ⟨m', e1', e2'⟩ := seenFrom_embedding apartTables (X.player c') hr' he'
      rw [h1, e2 _ t₀.isLt, e2' _ t.isLt] at h2
      obtain ⟨h3, h4⟩ := apart_all _ (seenFrom_real _ hr') (seenFrom_real _ hr) e1' e1 t.isLt t₀.isLt h2
      rw [Fin.ext h3] at h1
      exact hd (.inr ⟨e, e', n, n', hr, hr', he, he', hu, h1, by rw [e1, e1', h4]⟩)
  rcases hw b t₀ with g1 | g1
  · rcases hw b' t₀ with g2 | g2
    · exact absurd (.inl ⟨g1, g2⟩) h0
    · refine h5 a b' b hb' hb (.inr ⟨t₀, key b' b (fun h3 => h0 ?_) g2⟩) heq.symm
      rcases h3 with ⟨h1, h2⟩ | ⟨e, e', n, n', hr, hr', he, he', h1, h2, h3⟩
      · exact .inl ⟨h2, h1⟩
      · exact .inr ⟨e', e, n', n, hr', hr, he', he, h2, h1, h3.symm⟩
  · exact h5 a b b' hb hb' (.inr ⟨t₀, key b b' h0 g1⟩) heq

/-- C177: the same for the basic and the convolutional networks, for events that look the same. -/
theorem C177_basic {v : Variant} (hv : v ≠ .ordered) (gelu : ℝ → ℝ) (nEnc : ℕ) {nDec : ℕ} (hn : 0 < nDec) {h : HeadName} {B : ℕ}
    (X : Input v h B) (hX : X.Good) (hw : ∀ b t, Written (X.tokens b t)) :
    ∃ (p : Params v) (o : Output h B), p.encoder.length = nEnc ∧ p.decoder.length = nDec ∧ FixedTables p.tables ∧ run gelu p X = .ok o ∧
      ∀ a b b', X.mask b a ≠ 0 → X.mask b' a ≠ 0 →
        (o.logits b a = o.logits b' a ↔ SameState X X b b' ∧ ∀ t, LooksSame (X.tokens b t) (X.tokens b' t)) := by
  have hb : ∀ (T : Tables (Fin embdSize → ℝ)) (pl : Int) (t : ℕ) (u : BitVec 64), embed v T pl t u = embedBasic T t u := by
    intro T pl t u
    cases v
    · rfl
    · rfl
    · exact absurd rfl hv
  obtain ⟨p, o, h1, h2, h3, h4, h5⟩ := together gelu nEnc hn X hX apartLooks ⟨rfl, fun _ _ => rfl, fun _ _ => rfl⟩
  refine ⟨p, o, h1, h2, h3, h4, fun a b b' hm hm' => ⟨fun heq => ?_, fun hsame => ?_⟩⟩
  swap
  · by_contra hne
    exact (C176_basic hv gelu nEnc hn X X hX hX b b' (hw b) (hw b') a hm hm').1 ⟨p, o, o, h1, h2, h3, h4, h4, hne⟩ hsame
  by_contra hne
  rcases not_and_or.1 hne with hst | hne
  · exact h5 a b b' hm hm' (.inl hst) heq
  obtain ⟨t₀, h0⟩ := not_forall.1 hne
  have key : ∀ c c', ¬ LooksSame (X.tokens c' t₀) (X.tokens c t₀) →
      (∃ (e : TokenEvent) (n : Nat), e.Real ∧ e.token = .ok n ∧ X.tokens c t₀ = BitVec.ofNat 64 n) →
      ∀ t : Fin 150, embed v apartLooks (X.player c') t.val (X.tokens c' t) ≠ embed v apartLooks (X.player c) t₀.val (X.tokens c t₀) := by
    rintro c c' hd ⟨e, n, hr, he, hu⟩ t
    rw [hb, hb, hu]
    rcases hw c' t with h1 | ⟨e', n', hr', he', h1⟩
    · rw [h1]
      exact (looks_padding hr he t₀.isLt t.isLt).symm
    · intro h2
      rw [h1] at h2
      obtain ⟨h3, h4⟩ := apart_looks hr' hr he' he t.isLt t₀.isLt h2
      rw [Fin.ext h3] at h1
      exact hd (.inr ⟨e', e, n', n, hr', hr, he', he, h1, hu, h4⟩)
  have flip : ∀ u u', LooksSame u u' → LooksSame u' u := by
    rintro u u' (h1 | ⟨e, e', n, n', r, r', h1, h2, h3, h4, h5⟩)
    · exact .inl h1.symm
    · exact .inr ⟨e', e, n', n, r', r, h2, h1, h4, h3, h5.symm⟩
  rcases hw b t₀ with g1 | g1
  · rcases hw b' t₀ with g2 | g2
    · exact absurd (.inl (g1.trans g2.symm)) h0
    · exact h5 a b' b hm' hm (.inr ⟨t₀, key b' b h0 g2⟩) heq.symm
  · exact h5 a b b' hm hm' (.inr ⟨t₀, key b b' (fun h3 => h0 (flip _ _ h3)) g1⟩) heq

/-- a batch to which the theorem applies: in the first sample nothing has happened, in the second there is a discard, and one ordered
network tells them apart -/
example (gelu : ℝ → ℝ) : ∃ (p : Params .ordered) (X : Input .ordered .during 2) (o : Output .during 2), X.x1 0 = X.x1 1 ∧ X.x2 0 = X.x2 1 ∧
    X.x3 0 = X.x3 1 ∧ run gelu p X = .ok o ∧ o.logits 0 0 ≠ o.logits 1 0 := by
  let X : Input .ordered .during 2 := ⟨fun b t => if b = 1 ∧ t = 0 then BitVec.ofNat 64 0x2801 else BitVec.ofNat 64 padId, fun _ _ _ _ => 1,
    fun _ _ _ => 1, fun _ _ => 1, fun _ _ => 1, fun _ => 0, fun _ => 0⟩
  have hX : X.Good := by
    refine ⟨fun b t => ?_, fun _ _ => .inr rfl, fun _ => ⟨0, one_ne_zero⟩⟩
    dsimp only [X]
    split <;> unfold TypeOk <;> decide
  have hw : ∀ b t, Written (X.tokens b t) := by
    intro b t
    dsimp only [X]
    split
    · exact .inr ⟨.discard 0 1 false, 0x2801, ⟨by simp [TokenEvent.Valid], by simp⟩, by decide, rfl⟩
    · exact .inl rfl
  obtain ⟨p, o, -, -, -, h4, h5⟩ := C177_ordered gelu 1 (nDec := 1) one_pos X hX hw
  refine ⟨p, X, o, rfl, rfl, rfl, h4, fun e => ?_⟩
  have hk := ((h5 0 0 1 one_ne_zero one_ne_zero).1 e).2 0
  have t0 : X.tokens 0 0 = BitVec.ofNat 64 padId := rfl
  have t1 : X.tokens 1 0 = BitVec.ofNat 64 0x2801 := rfl
  rcases hk with ⟨-, h2⟩ | ⟨e, e', n, n', hr, hr', he, he', h1, h2, h3⟩
  · rw [t1] at h2
    exact absurd h2 (by decide)
  · rw [t0] at h1
    exact apart_padding 0 hr he (t := 0) (t' := 0) (by omega) (by omega) (by rw [h1])

end MJ.Net
