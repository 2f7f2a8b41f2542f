import Verif.Props.StateBatch
import Verif.Props.Share
/-!
C175: the order of the events can count.
-/
namespace MJ.Net
open MJ.Spec

/-! ### one block that looks more at some positions than at others -/

/-- a head whose scores are a linear function of what it looks at, and that hands on one number -/
noncomputable def leaning (lam : Fin embdSize → ℝ) (c : Fin embdSize) : Head :=
  ⟨⟨fun m i => if m = 0 then lam i else 0, 0⟩, ⟨0, single 0 1⟩, pt 0 c 1 0⟩

/-- a decoder block with this head -/
noncomputable def leaner (lam : Fin embdSize → ℝ) (c : Fin embdSize) (g : ℝ) : DecoderBlock :=
  ⟨zMHA, ⟨fun _ => leaning lam c, pt c 0 1 (single c g)⟩, zFF, zLN, zLN, zLN⟩

/-- the mean with weights that the head computes -/
noncomputable def leant (lam : Fin embdSize → ℝ) (c : Fin embdSize) (F : Fin 150 → Fin embdSize → ℝ) : ℝ :=
  ∑ t, Real.exp ((∑ i, lam i * F t i) / Real.sqrt 8) / (∑ u, Real.exp ((∑ i, lam i * F u i) / Real.sqrt 8)) * F t c

theorem leaner_step (v : Variant) (gelu : ℝ → ℝ) (F : Fin 150 → Fin embdSize → ℝ) (lam : Fin embdSize → ℝ) (c : Fin embdSize) (g : ℝ) :
    decStep v gelu F 0 (leaner lam c g) = single c (leant lam c F + g) := by
  have hsc : ∀ (q : Fin embdSize → ℝ) (t : Fin 150), score (leaning lam c) (fun _ : Fin 1 => F) (fun _ (_ : Fin 1) => q) 0 0 t =
      (∑ i, lam i * F t i) / Real.sqrt 8 := by
    intro q t
    unfold score
    congr 1
    rw [Finset.sum_eq_single 0]
    · simp [leaning, Linear.fwd]
    · intro m _ hm
      simp [leaning, Linear.fwd, single, hm]
    · simp
  have e : ∀ q, attn1 (⟨fun _ => leaning lam c, pt c 0 1 (single c g)⟩ : MultiHeadAttention) F q = single c (leant lam c F + g) := by
    intro q
    unfold attn1 MultiHeadAttention.fwd
    funext o
    rw [pt_fwd]
    have h0 : (0 : Fin (nHeads * headSize)).modNat = 0 := rfl
    dsimp only
    rw [h0]
    unfold Head.fwd bmm
    simp only [wei_score, hsc]
    have hv : ∀ t, (leaning lam c).value.fwd (F t) 0 = F t c := by
      intro t
      simp [leaning, pt_fwd]
    simp only [hv]
    by_cases ho : o = c
    · subst ho
      simp [leant]
    · simp [single, ho]
  cases v <;> simp [decStep, selfPart, leaner, e]

/-- the input with two tokens of one sample exchanged -/
def Input.swap {v : Variant} {h : HeadName} {B : ℕ} (X : Input v h B) (b₀ : Fin B) (t₀ t₁ : Fin 150) : Input v h B :=
  { X with tokens := Function.update X.tokens b₀ (fun t => X.tokens b₀ (Equiv.swap t₀ t₁ t)) }

/-- exchanging two events changes a logit if some linear function of the embeddings sees the positions but not the events, and some
number sees the events -/
theorem swaps_of {v : Variant} (gelu : ℝ → ℝ) (nEnc : ℕ) {nDec : ℕ} (hn : 0 < nDec) {h : HeadName} {B : ℕ} (X : Input v h B)
    (hX : X.Good) (b₀ : Fin B) {t₀ t₁ : Fin 150} (ht : t₀ ≠ t₁) (a : Fin (actionDim h)) (ha : X.mask b₀ a ≠ 0)
    (T : Tables (Fin embdSize → ℝ)) (hT : FixedTables T) {x00 x01 x10 x11 : Fin embdSize → ℝ}
    (h00 : embed v T (X.player b₀) t₀.val (X.tokens b₀ t₀) = .ok x00) (h01 : embed v T (X.player b₀) t₀.val (X.tokens b₀ t₁) = .ok x01)
    (h10 : embed v T (X.player b₀) t₁.val (X.tokens b₀ t₀) = .ok x10) (h11 : embed v T (X.player b₀) t₁.val (X.tokens b₀ t₁) = .ok x11)
    (lam : Fin embdSize → ℝ) (c : Fin embdSize) (hl0 : ∑ i, lam i * x01 i = ∑ i, lam i * x00 i)
    (hl1 : ∑ i, lam i * x10 i = ∑ i, lam i * x11 i) (hls : ∑ i, lam i * x00 i ≠ ∑ i, lam i * x11 i)
    (hd : x01 c - x00 c = -(x10 c - x11 c)) (hd0 : x01 c - x00 c ≠ 0) :
    ∃ (p : Params v) (o o' : Output h B), p.encoder.length = nEnc ∧ p.decoder.length = nDec ∧ FixedTables p.tables ∧
      run gelu p X = .ok o ∧ run gelu p (X.swap b₀ t₀ t₁) = .ok o' ∧ o.logits b₀ a ≠ o'.logits b₀ a := by
  have hE : ∀ b t, ∃ x, embed v T (X.player b) t.val (X.tokens b t) = .ok x := fun b t => embed_total v T _ t.val t.isLt _ (hX.types b t)
  choose E hE using hE
  have e00 : E b₀ t₀ = x00 := by
    have := hE b₀ t₀
    rw [h00] at this
    exact (Except.ok.inj this).symm
  have e11 : E b₀ t₁ = x11 := by
    have := hE b₀ t₁
    rw [h11] at this
    exact (Except.ok.inj this).symm
  let G : Fin 150 → Fin embdSize → ℝ := Function.update (Function.update (E b₀) t₀ x01) t₁ x10
  have g0 : G t₀ = x01 := by simp [G, Function.update_of_ne ht]
  have g1 : G t₁ = x10 := by simp [G]
  have gt : ∀ t, t ≠ t₀ → t ≠ t₁ → G t = E b₀ t := by
    intro t h1 h2
    simp only [G]
    rw [Function.update_of_ne h2, Function.update_of_ne h1]
  have hE' : ∀ b (t : Fin 150), embed v T (X.player b) t.val ((X.swap b₀ t₀ t₁).tokens b t) = .ok (Function.update E b₀ G b t) := by
    intro b t
    unfold Input.swap
    dsimp only
    by_cases h2 : b = b₀
    · subst h2
      rw [Function.update_self, Function.update_self]
      by_cases h1 : t = t₀
      · subst h1
        rw [Equiv.swap_apply_left, h01, g0]
      · by_cases h3 : t = t₁
        · subst h3
          rw [Equiv.swap_apply_right, h10, g1]
        · rw [Equiv.swap_apply_of_ne_of_ne h1 h3, hE b t, gt t h1 h3]
    · rw [Function.update_of_ne h2, Function.update_of_ne h2, hE b t]
  have hsc : ∀ t, ∑ i, lam i * G t i = ∑ i, lam i * E b₀ t i := by
    intro t
    by_cases h1 : t = t₀
    · subst h1
      rw [g0, e00, hl0]
    · by_cases h3 : t = t₁
      · subst h3
        rw [g1, e11, hl1]
      · rw [gt t h1 h3]
  have hD : leant lam c G + -leant lam c (E b₀) ≠ 0 := by
    have hpos : 0 < ∑ u, Real.exp ((∑ i, lam i * E b₀ u i) / Real.sqrt 8) := Finset.sum_pos (fun _ _ => Real.exp_pos _) ⟨t₀, Finset.mem_univ _⟩
    have hz : ∀ f : Fin 150 → ℝ, (∀ t, t ≠ t₀ → t ≠ t₁ → f t = 0) → ∑ t, f t = f t₀ + f t₁ := by
      intro f hf
      rw [← Finset.add_sum_erase _ _ (Finset.mem_univ t₀),
        ← Finset.add_sum_erase _ _ (Finset.mem_erase.2 ⟨ht.symm, Finset.mem_univ t₁⟩), Finset.sum_eq_zero, add_zero]
      intro t hm
      simp only [Finset.mem_erase] at hm
      exact hf t hm.2.1 hm.1
    have hdiff : leant lam c G + -leant lam c (E b₀) =
        (Real.exp ((∑ i, lam i * x00 i) / Real.sqrt 8) - Real.exp ((∑ i, lam i * x11 i) / Real.sqrt 8)) /
          (∑ u, Real.exp ((∑ i, lam i * E b₀ u i) / Real.sqrt 8)) * (x01 c - x00 c) := by
      unfold leant
      simp only [hsc]
      rw [← sub_eq_add_neg, ← Finset.sum_sub_distrib]
      rw [hz _ (fun t h1 h2 => by rw [gt t h1 h2, sub_self]), g0, g1, e00, e11]
      rw [show x10 c = x11 c - (x01 c - x00 c) by linarith]
      ring
    rw [hdiff]
    refine mul_ne_zero (div_ne_zero ?_ hpos.ne') hd0
    rw [sub_ne_zero]
    intro e
    apply hls
    have e1 := Real.exp_injective e
    have h8 : Real.sqrt 8 ≠ 0 := by positivity
    exact (div_left_inj' h8).1 e1
  obtain ⟨s, hs⟩ := state_zero v
  let p : Params v := ⟨T, List.replicate nEnc zEnc, s, decList nDec 0 (leaner lam c (-leant lam c (E b₀))), readLN,
    fun h' => if hh : h' = h then hh ▸ pt a c 1 0 else ⟨0, 0⟩⟩
  have hh : p.heads h = pt a c 1 0 := by simp [p]
  have raw : ∀ (Y : Input v h B) (F : T3 B 150 embdSize), rawLogits gelu p Y F b₀ a =
      normz (single c (leant lam c (F b₀) + -leant lam c (E b₀))) c := by
    intro Y F
    unfold rawLogits
    rw [hh, dec_row, enc_row, pt_fwd]
    dsimp only [p]
    rw [hs, decList_fold, leaner_step, zEnc_fold]
    unfold readLN
    rw [norm_fwd]
    simp
  have run_of : ∀ (Y : Input v h B) (F : T3 B 150 embdSize), (∀ b t, embed v T (Y.player b) t.val (Y.tokens b t) = .ok (F b t)) →
      Y.mask = X.mask → ∃ o, run gelu p Y = .ok o ∧ o.logits b₀ a = rawLogits gelu p Y F b₀ a := by
    intro Y F hF hm
    have e1 : (fun b (t : Fin 150) => ((embed v p.tables (Y.player b) t.val (Y.tokens b t)).toOption).getD 0) = F := by
      funext b t
      rw [show p.tables = T from rfl, hF b t]
      rfl
    refine ⟨⟨fun b => maskedLogits (Y.mask b) (rawLogits gelu p Y F b),
      (∑ b, crossEntropy (maskedLogits (Y.mask b) (rawLogits gelu p Y F b)) (Y.y b)) / B⟩,
      run_ok.2 ⟨fun b t => ⟨F b t, hF b t⟩, fun b a => by rw [hm]; exact hX.binary b a, fun b => by rw [hm]; exact hX.allows b, by rw [e1], rfl⟩, ?_⟩
    unfold maskedLogits
    dsimp only
    rw [hm, if_neg ha]
  obtain ⟨o, ho, h1⟩ := run_of X E hE rfl
  obtain ⟨o', ho', h2⟩ := run_of (X.swap b₀ t₀ t₁) (Function.update E b₀ G) hE' rfl
  refine ⟨p, o, o', by simp [p], decList_length hn _, hT, ho, ho', ?_⟩
  rw [h1, h2, raw, raw, Function.update_self, add_neg_cancel, single_zero, normz_zero]
  exact (normz_single_ne hD).symm

/-! ### positions -/

theorem sin_int_ne {n : ℤ} (hn : n ≠ 0) : Real.sin (n : ℝ) ≠ 0 := by
  intro h
  obtain ⟨k, hk⟩ := Real.sin_eq_zero_iff.1 h
  have hk0 : (k : ℝ) ≠ 0 := by
    intro h0
    rw [h0, zero_mul] at hk
    exact hn (by exact_mod_cast hk.symm)
  refine irrational_pi ⟨((n : ℚ) / k), ?_⟩
  push_cast
  rw [div_eq_iff hk0]
  linarith

/-- the four directions -/
def direction : Fin 4 → Int × Int
  | 0 => (1, 0)
  | 1 => (0, 1)
  | 2 => (1, 1)
  | 3 => (1, -1)

/-- different positions are told apart along each direction -/
theorem positions_apart {p q : ℕ} (h : p ≠ q) (d : Fin 4) :
    ((direction d).1 : ℝ) * Real.sin p + ((direction d).2 : ℝ) * Real.cos p ≠ ((direction d).1 : ℝ) * Real.sin q + ((direction d).2 : ℝ) * Real.cos q := by
  set u : ℝ := ((p : ℝ) + q) / 2 with hu
  set w : ℝ := ((p : ℝ) - q) / 2 with hw
  have e1 : (p : ℝ) = u + w := by rw [hu, hw]; ring
  have e2 : (q : ℝ) = u - w := by rw [hu, hw]; ring
  have s1 : Real.sin w ≠ 0 := by
    intro h0
    refine sin_int_ne (n := (p : ℤ) - q) (by omega) ?_
    push_cast
    rw [show (p : ℝ) - q = 2 * w by rw [hw]; ring, Real.sin_two_mul, h0]
    ring
  have s2 : Real.sin (2 * (2 * u)) ≠ 0 := by
    have := sin_int_ne (n := 2 * ((p : ℤ) + q)) (by omega)
    push_cast at this
    rwa [show 2 * ((p : ℝ) + q) = 2 * (2 * u) by rw [hu]; ring] at this
  rw [Real.sin_two_mul, Real.sin_two_mul, Real.cos_two_mul'] at s2
  intro e
  rw [e1, e2, Real.sin_add, Real.sin_sub, Real.cos_add, Real.cos_sub] at e
  have e3 : Real.sin w * (((direction d).1 : ℝ) * Real.cos u - ((direction d).2 : ℝ) * Real.sin u) = 0 := by linarith
  rcases mul_eq_zero.1 e3 with h0 | h0
  · exact s1 h0
  · apply s2
    match d with
    | 0 =>
      have : Real.cos u = 0 := by simpa [direction] using h0
      rw [this]
      ring
    | 1 =>
      have : Real.sin u = 0 := by simpa [direction] using h0
      rw [this]
      ring
    | 2 =>
      have : Real.cos u = Real.sin u := by simp [direction] at h0; linarith
      rw [this]
      ring
    | 3 =>
      have : Real.cos u = -Real.sin u := by simp [direction] at h0; linarith
      rw [this]
      ring

/-! ### the ordered network -/

/-- tables with the numbers of the events in one coordinate -/
noncomputable def apartTables : Tables (Fin embdSize → ℝ) :=
  { empty := 0
    position := fun i j => positionTable embdSize i j
    player := fun i j => playerTable embdSize i j
    type := fun i j => if j = 2 then (restTables.type i : ℝ) else 0
    tile := fun i j => if j = 2 then (restTables.tile i : ℝ) else 0
    tsumogiri := fun i j => if j = 2 then (restTables.tsumogiri i : ℝ) else 0
    during_naki := fun i j => if j = 2 then (restTables.during_naki i : ℝ) else 0
    post_naki := fun i j => if j = 2 then (restTables.post_naki i : ℝ) else 0 }

/-- what an event adds to a coordinate, without its position -/
noncomputable def bare (pl : Int) (s y p n : Nat) (j : Fin embdSize) : ℝ :=
  (if j = 2 then (restCode s y n : ℝ) else 0) + (if s ≤ 3 then playerTable embdSize (seen pl p) j else 0)

theorem apart_embedding (pl : Int) {s y p n pos : Nat} (hs : 1 ≤ s) (hs4 : s ≤ 4) (hy : y ≤ 4) (hp : p < 4) (hn : n < 256) (hpos : pos < 150) :
    embedOrdered apartTables pl pos (BitVec.ofNat 64 (s * 8192 + y * 1024 + p * 256 + n)) =
      .ok fun j => bare pl s y p n j + positionTable embdSize pos j := by
  have t1 := tokenFields_parts s y p n (by omega) (by omega) hp hn
  rw [embedOrdered_eq _ pl pos _ hpos (by rw [t1]; exact hy), t1]
  dsimp only
  rw [Except.ok.injEq]
  funext j
  rw [show (((p : Int) - pl) % 4).toNat = seen pl p from rfl]
  unfold bare restCode
  rcases (by omega : s = 1 ∨ s = 2 ∨ s = 3 ∨ s = 4) with rfl | rfl | rfl | rfl <;> by_cases hj : j = 2
  · subst hj
    generalize min (n % 128) 36 = m
    by_cases h1 : n / 128 = 0
    · simp [masked, apartTables, restTables, h1]
      try ring
    · generalize n / 128 = d at *
      simp [masked, apartTables, restTables, h1]
      try ring
  · by_cases h1 : n / 128 = 0 <;> simp [masked, apartTables, h1, hj] <;> try ring
  · subst hj
    generalize min n 70 = m
    by_cases h1 : 3 ≤ n <;> simp [masked, apartTables, restTables, h1] <;> try ring
  · by_cases h1 : 3 ≤ n <;> simp [masked, apartTables, h1, hj] <;> try ring
  · subst hj
    generalize min n 153 = m
    by_cases h1 : 2 ≤ n <;> simp [masked, apartTables, restTables, h1] <;> try ring
  · by_cases h1 : 2 ≤ n <;> simp [masked, apartTables, h1, hj] <;> try ring
  · subst hj
    generalize min (n % 128) 36 = m
    simp [masked, apartTables, restTables]
    try ring
  · simp [masked, apartTables, hj]
    try ring

/-- for any two players, or none, there is a direction along which their codes agree -/
theorem players_agree : ∀ (m m' : Bool), ∀ r < 4, ∀ r' < 4, ∃ d : Fin 4,
    (direction d).1 * (if m then quarter 0 r else 0) + (direction d).2 * (if m then quarter 1 r else 0) =
      (direction d).1 * (if m' then quarter 0 r' else 0) + (direction d).2 * (if m' then quarter 1 r' else 0) := by
  decide

theorem rest_tens (s y n : Nat) : restCode s y n % 10 = 0 := by
  unfold restCode
  split <;> split <;> split <;> split <;> omega

theorem bare_first (pl : Int) (s y p n : Nat) {c : Nat} (hc : c < 2) :
    bare pl s y p n ⟨c, by unfold embdSize; omega⟩ = ((if s ≤ 3 then quarter c (seen pl p) else 0 : ℤ) : ℝ) := by
  have h2 : (⟨c, by unfold embdSize; omega⟩ : Fin embdSize) ≠ 2 := by
    intro h
    have := congrArg Fin.val h
    change c = 2 at this
    omega
  unfold bare
  rw [if_neg h2, player_quarter c _ hc (seen_lt pl p)]
  split <;> simp

/-- the linear function along a direction -/
def along (d : Int × Int) : Fin embdSize → ℝ := fun i => if i = 0 then d.1 else if i = 1 then d.2 else 0

theorem along_sum (d : Int × Int) (x : Fin embdSize → ℝ) : ∑ i, along d i * x i = d.1 * x 0 + d.2 * x 1 := by
  rw [← Finset.add_sum_erase _ _ (Finset.mem_univ 0),
    ← Finset.add_sum_erase _ _ (Finset.mem_erase.2 ⟨(by decide : (1 : Fin embdSize) ≠ 0), Finset.mem_univ 1⟩), Finset.sum_eq_zero, add_zero]
  · rfl
  · intro i hi
    simp only [Finset.mem_erase] at hi
    simp [along, hi.1, hi.2.1]

/-- C175: in the ordered network there are parameters, with any number of blocks and with the fixed codes of positions and players, for
which exchanging two different events changes the logit of any given allowed action, whatever the rest of the batch is. -/
theorem C175_order (gelu : ℝ → ℝ) (nEnc : ℕ) {nDec : ℕ} (hn : 0 < nDec) {h : HeadName} {B : ℕ} (X : Input .ordered h B) (hX : X.Good)
    (b₀ : Fin B) {t₀ t₁ : Fin 150} (ht : t₀ ≠ t₁) (a : Fin (actionDim h)) (ha : X.mask b₀ a ≠ 0) {e e' : TokenEvent} (hr : e.Real)
    (hr' : e'.Real) {n n' : Nat} (he : e.token = .ok n) (he' : e'.token = .ok n') (h0 : X.tokens b₀ t₀ = BitVec.ofNat 64 n)
    (h1 : X.tokens b₀ t₁ = BitVec.ofNat 64 n') (hl : n ≠ n') :
    ∃ (p : Params .ordered) (o o' : Output h B), p.encoder.length = nEnc ∧ p.decoder.length = nDec ∧ FixedTables p.tables ∧
      run gelu p X = .ok o ∧ run gelu p (X.swap b₀ t₀ t₁) = .ok o' ∧ o.logits b₀ a ≠ o'.logits b₀ a := by
  obtain ⟨s, y, p, k, rfl, hp, hk, hf⟩ := token_form_real e hr n he
  obtain ⟨s', y', p', k', rfl, hp', hk', hf'⟩ := token_form_real e' hr' n' he'
  have key := parts_differ (X.player b₀) hp hp' hf hf' hk hk' hl
  have emb : ∀ t : Fin 150, embed .ordered apartTables (X.player b₀) t.val (BitVec.ofNat 64 (s * 8192 + y * 1024 + p * 256 + k)) = _ :=
    fun t => apart_embedding (X.player b₀) (by omega) (by omega) (by omega) hp hk t.isLt
  have emb' : ∀ t : Fin 150, embed .ordered apartTables (X.player b₀) t.val (BitVec.ofNat 64 (s' * 8192 + y' * 1024 + p' * 256 + k')) = _ :=
    fun t => apart_embedding (X.player b₀) (by omega) (by omega) (by omega) hp' hk' t.isLt
  obtain ⟨d, hdir⟩ := players_agree (decide (s ≤ 3)) (decide (s' ≤ 3)) _ (seen_lt (X.player b₀) p) _ (seen_lt (X.player b₀) p')
  obtain ⟨c, hc⟩ : ∃ c : Fin embdSize, bare (X.player b₀) s' y' p' k' c - bare (X.player b₀) s y p k c ≠ 0 := by
    by_cases hcode : restCode s y k = restCode s' y' k'
    · obtain ⟨c, hc, hne⟩ := key
      refine ⟨⟨c, by unfold embdSize; omega⟩, fun h2 => hne ?_⟩
      rw [hcode]
      congr 1
      rw [bare_first _ _ _ _ _ hc, bare_first _ _ _ _ _ hc, sub_eq_zero] at h2
      exact_mod_cast h2.symm
    · refine ⟨2, fun h2 => ?_⟩
      have m1 := rest_tens s y k
      have m2 := rest_tens s' y' k'
      have hb : ∀ (m r : Nat), |(if m ≤ 3 then playerTable embdSize r 2 else 0)| ≤ 1 := by
        intro m r
        split
        · exact (C87_bounded embdSize r 2).2
        · simp
      have b1 := abs_le.1 (hb s (seen (X.player b₀) p))
      have b2 := abs_le.1 (hb s' (seen (X.player b₀) p'))
      have h3 : bare (X.player b₀) s' y' p' k' 2 - bare (X.player b₀) s y p k 2 =
          (restCode s' y' k' : ℝ) + (if s' ≤ 3 then playerTable embdSize (seen (X.player b₀) p') 2 else 0) -
          ((restCode s y k : ℝ) + (if s ≤ 3 then playerTable embdSize (seen (X.player b₀) p) 2 else 0)) := by
        unfold bare
        rw [if_pos rfl, if_pos rfl]
        rfl
      rw [h3] at h2
      generalize restCode s y k = r at *
      generalize restCode s' y' k' = r' at *
      rcases (by omega : r + 10 ≤ r' ∨ r' + 10 ≤ r) with h4 | h4
      · have : (r : ℝ) + 10 ≤ r' := by exact_mod_cast h4
        linarith [b1.1, b1.2, b2.1, b2.2]
      · have : (r' : ℝ) + 10 ≤ r := by exact_mod_cast h4
        linarith [b1.1, b1.2, b2.1, b2.2]
  have agree : ((direction d).1 : ℝ) * bare (X.player b₀) s' y' p' k' 0 + (direction d).2 * bare (X.player b₀) s' y' p' k' 1 =
      (direction d).1 * bare (X.player b₀) s y p k 0 + (direction d).2 * bare (X.player b₀) s y p k 1 := by
    have z : ∀ m y r k, bare (X.player b₀) m y r k 0 = ((if m ≤ 3 then quarter 0 (seen (X.player b₀) r) else 0 : ℤ) : ℝ) :=
      fun m y r k => bare_first _ m y r k (c := 0) (by omega)
    have o : ∀ m y r k, bare (X.player b₀) m y r k 1 = ((if m ≤ 3 then quarter 1 (seen (X.player b₀) r) else 0 : ℤ) : ℝ) :=
      fun m y r k => bare_first _ m y r k (c := 1) (by omega)
    rw [z, z, o, o]
    simp only [decide_eq_true_eq] at hdir
    exact_mod_cast hdir.symm
  have apart := positions_apart (fun e => ht (Fin.ext e)) d (p := t₀.val) (q := t₁.val)
  have ps : ∀ t : ℕ, positionTable embdSize t (0 : Fin embdSize).val = Real.sin t ∧ positionTable embdSize t (1 : Fin embdSize).val = Real.cos t := by
    intro t
    constructor <;> simp [positionTable]
  refine swaps_of gelu nEnc hn X hX b₀ ht a ha apartTables ⟨rfl, fun _ _ => rfl, fun _ _ => rfl⟩ (by rw [h0]; exact emb t₀) (by rw [h1]; exact emb' t₀)
    (by rw [h0]; exact emb t₁) (by rw [h1]; exact emb' t₁) (along (direction d)) c ?_ ?_ ?_ ?_ ?_
  · rw [along_sum, along_sum]
    linarith
  · rw [along_sum, along_sum]
    linarith
  · rw [along_sum, along_sum, (ps t₀).1, (ps t₀).2, (ps t₁).1, (ps t₁).2]
    intro h2
    apply apart
    linarith
  · ring
  · intro h2
    apply hc
    linarith

/-! ### the basic and the convolutional networks -/

/-- tables with the numbers of the looks in one coordinate -/
noncomputable def apartLooks : Tables (Fin embdSize → ℝ) :=
  { empty := 0
    position := fun i j => positionTable embdSize i j
    player := fun i j => playerTable embdSize i j
    type := fun i j => if j = 3 then (partTables.type i : ℝ) else 0
    tile := fun i j => if j = 3 then (partTables.tile i : ℝ) else 0
    tsumogiri := fun i j => if j = 3 then (partTables.tsumogiri i : ℝ) else 0
    during_naki := fun i j => if j = 3 then (partTables.during_naki i : ℝ) else 0
    post_naki := fun i j => if j = 3 then (partTables.post_naki i : ℝ) else 0 }

theorem apart_look_code (l : Look) (pos : Nat) :
    l.embedding apartLooks pos 3 = (l.embedding partTables pos : ℤ) + positionTable embdSize pos 3 := by
  have h : playerTable 64 0 3 = 1 := by simp [playerTable]
  cases l
  case call n =>
    simp only [Look.embedding, apartLooks, partTables]
    generalize min (n % 128) 36 = a
    generalize min n 70 = b
    simp
    ring
  case indicator k =>
    simp [Look.embedding, apartLooks, partTables]
    rw [show 3 % embdSize = 3 from rfl, show playerTable embdSize 0 3 = 1 from h]
    ring
  all_goals
    simp [Look.embedding, apartLooks, partTables, show 3 % embdSize = 3 from rfl]
    try ring

theorem apart_look_zero (l : Look) (pos : Nat) : l.embedding apartLooks pos 0 = Real.sin pos := by
  have h : playerTable embdSize 0 0 = 0 := by simp [playerTable]
  have h3 : ¬ (0 : Fin embdSize) = 3 := by decide
  have hp : positionTable embdSize pos 0 = Real.sin pos := by simp [positionTable]
  cases l <;> simp [Look.embedding, apartLooks, h, h3, hp]

/-- C175: in the basic and the convolutional networks exchanging two events that look different changes the logit of any given allowed
action for some parameters.  (For events that look the same it changes nothing, `C173_network`.) -/
theorem C175_basic {v : Variant} (hv : v ≠ .ordered) (gelu : ℝ → ℝ) (nEnc : ℕ) {nDec : ℕ} (hn : 0 < nDec) {h : HeadName} {B : ℕ}
    (X : Input v h B) (hX : X.Good) (b₀ : Fin B) {t₀ t₁ : Fin 150} (ht : t₀ ≠ t₁) (a : Fin (actionDim h)) (ha : X.mask b₀ a ≠ 0)
    {e e' : TokenEvent} (hr : e.Real) (hr' : e'.Real) {n n' : Nat} (he : e.token = .ok n) (he' : e'.token = .ok n')
    (h0 : X.tokens b₀ t₀ = BitVec.ofNat 64 n) (h1 : X.tokens b₀ t₁ = BitVec.ofNat 64 n') (hl : e.look ≠ e'.look) :
    ∃ (p : Params v) (o o' : Output h B), p.encoder.length = nEnc ∧ p.decoder.length = nDec ∧ FixedTables p.tables ∧
      run gelu p X = .ok o ∧ run gelu p (X.swap b₀ t₀ t₁) = .ok o' ∧ o.logits b₀ a ≠ o'.logits b₀ a := by
  have hb : ∀ (t : Fin 150) (u : BitVec 64), embed v apartLooks (X.player b₀) t.val u = embedBasic apartLooks t.val u := by
    intro t u
    cases v
    · rfl
    · rfl
    · exact absurd rfl hv
  have emb : ∀ t : Fin 150, embed v apartLooks (X.player b₀) t.val (BitVec.ofNat 64 n) = _ :=
    fun t => (hb t _).trans (C173_embedding _ _ t.isLt e hr n he)
  have emb' : ∀ t : Fin 150, embed v apartLooks (X.player b₀) t.val (BitVec.ofNat 64 n') = _ :=
    fun t => (hb t _).trans (C173_embedding _ _ t.isLt e' hr' n' he')
  have hne : ∀ t : Fin 150, e.look.embedding partTables t.val ≠ e'.look.embedding partTables t.val := by
    intro t h2
    refine hl ((C173_exact e e' hr hr' he he' t.isLt).2 ?_)
    rw [C173_embedding _ _ t.isLt e hr n he, C173_embedding _ _ t.isLt e' hr' n' he', h2]
  have nopos : ∀ (l : Look) (s t : Nat), l.embedding partTables s = l.embedding partTables t := by
    intro l s t
    cases l <;> rfl
  have apart := positions_apart (fun e => ht (Fin.ext e)) 0 (p := t₀.val) (q := t₁.val)
  refine swaps_of gelu nEnc hn X hX b₀ ht a ha apartLooks ⟨rfl, fun _ _ => rfl, fun _ _ => rfl⟩ (by rw [h0]; exact emb t₀) (by rw [h1]; exact emb' t₀)
    (by rw [h0]; exact emb t₁) (by rw [h1]; exact emb' t₁) (along (direction 0)) 3 ?_ ?_ ?_ ?_ ?_
  · rw [along_sum, along_sum, apart_look_zero, apart_look_zero]
    simp [direction]
  · rw [along_sum, along_sum, apart_look_zero, apart_look_zero]
    simp [direction]
  · rw [along_sum, along_sum, apart_look_zero, apart_look_zero]
    simpa [direction] using apart
  · simp only [apart_look_code, nopos _ t₁.val t₀.val]
    ring
  · simp only [apart_look_code]
    intro h2
    apply hne t₀
    have h3 : ((e'.look.embedding partTables t₀.val : ℤ) : ℝ) = (e.look.embedding partTables t₀.val : ℤ) := by linarith
    exact_mod_cast h3.symm

/-- inputs to which these theorems apply: only padding but for a discard and a call -/
example : (onesInput .ordered .during (Function.update (Function.update (fun _ => BitVec.ofNat 64 padId) 0 (BitVec.ofNat 64 0x2801)) 1
    (BitVec.ofNat 64 0x6977)) 0).Good := by
  refine ⟨fun b t => ?_, fun _ _ => .inr rfl, fun _ => ⟨0, one_ne_zero⟩⟩
  unfold onesInput
  dsimp only
  by_cases h1 : t = 1
  · subst h1
    rw [Function.update_self]
    unfold TypeOk; decide
  · rw [Function.update_of_ne h1]
    by_cases h2 : t = 0
    · subst h2
      rw [Function.update_self]
      unfold TypeOk; decide
    · rw [Function.update_of_ne h2]
      unfold TypeOk; decide

end MJ.Net
