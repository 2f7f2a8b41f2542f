import Verif.Props.RoundSuits
import Verif.Spec.Honours
/-!
C155: the honours are treated alike.  Exchanging them in a log exchanges them in the recorded decisions, tokens and samples —
except that the offers of added kans look up the number of a kind in a table of tiles.
-/
namespace MJ
open Code Spec Spec.Suits

theorem honours_proper {f : Nat → Nat} (h : Exchanges f) : (ofHonours f).Proper := ⟨by simp [ofHonours], h.1, h.2⟩

theorem honours_on (f : Nat → Nat) (x : Nat) : (ofHonours f).on x = x := by
  unfold Suits.on ofHonours
  dsimp only
  split
  · omega
  · split
    · omega
    · split <;> omega

theorem honours_slot (f : Nat → Nat) {k : Nat} (hk : k < 27 ∨ 34 ≤ k) : (ofHonours f).slot k = k := by
  unfold Suits.slot
  rw [honours_on, honours_on]
  split
  · omega
  · rw [if_neg (by omega)]; omega

theorem honours_tile (f : Nat → Nat) {t : Nat} (ht : t < 108) : (ofHonours f).tile t = t := by
  unfold Suits.tile
  rw [honours_on, if_pos ht]
  omega

/-- a kind is kept unless it is an honour that becomes another one -/
theorem honours_kept (f : Nat → Nat) {k : Nat} (hk : k < 34) :
    (ofHonours f).Kept k ↔ (27 ≤ k → f (k - 27) = k - 27) := by
  unfold Suits.Kept
  rw [honours_tile f (by omega)]
  by_cases h : k < 27
  · rw [honours_slot f (.inl h)]
    exact ⟨fun _ h' => by omega, fun _ => rfl⟩
  · obtain ⟨x, rfl⟩ : ∃ x, k = 27 + x := ⟨k - 27, by omega⟩
    rw [slot_honour _ (by omega), show 27 + x - 27 = x by omega]
    show 27 + x = 27 + f x ↔ _
    omega

theorem NoMovedPon.kept {f : Nat → Nat} {acts : List Act} (hw : ∀ p c, Act.call p c ∈ acts → WellFormed c)
    (h : NoMovedPon f acts) : PonsKept (ofHonours f) acts := by
  intro p c hc hp
  have h0 : is_chi c = false := by
    unfold is_pon at hp
    simp at hp
    exact hp.1
  obtain ⟨_, _, _, hk⟩ := wf_pon c h0 hp (hw p c hc)
  have e1 := pattern_pon_color c
  have e2 := pattern_pon_number c
  have h3 := h p c hc hp
  generalize (pattern_pon c).color = col at *
  generalize (pattern_pon c).number = num at *
  have hlt : col * 9 + num < 34 := by omega
  rw [honours_kept f hlt]
  intro h27
  have : col = 3 := by omega
  subst this
  rw [show 3 * 9 + num - 27 = num by omega]
  exact h3 rfl

/-! ### the action numbers of the calls -/

theorem called_same (f : Nat → Nat) {n : Nat} (h : n < 113 ∨ (120 ≤ n ∧ n < 147)) : calledHonour f n = n := by
  unfold calledHonour
  rw [if_neg (by omega), if_neg (by omega)]

theorem called_honours {f : Nat → Nat} (hf : Exchanges f) {c : Nat} (w : WellFormed c) {i : Int}
    (h : get_post_turn_filter_idx c = .ok i) :
    ∃ n : Nat, n < 154 ∧ i = n ∧ get_post_turn_filter_idx ((ofHonours f).code c) = .ok (calledHonour f n : Nat) := by
  have hσ := honours_proper hf
  have same : (ofHonours f).code c = c → 0 ≤ i → i < 113 → ∃ n : Nat, n < 154 ∧ i = n ∧
      get_post_turn_filter_idx ((ofHonours f).code c) = .ok (calledHonour f n : Nat) := by
    intro e h0 h1
    refine ⟨i.toNat, by omega, by omega, ?_⟩
    rw [e, called_same f (.inl (by omega)), h]
    congr 1
    omega
  have hb := post_bounds c i h
  rcases wf_cases w with h0 | ⟨h0, h1⟩ | ⟨h0, h1, h2⟩ | ⟨h0, h1, h2, h3⟩ | ⟨h0, h1, h2, h3, _⟩
  · obtain ⟨_, _, w3⟩ := wf_chi c h0 w
    refine same ?_ (by omega) ?_
    · rw [code_chi _ h0, honours_on]; omega
    · by_cases hr : redHandChi c
      · rw [post_chi_red c hr] at h
        simp only [Except.ok.injEq] at h
        have p1 := pattern_chi_color c
        have p2 : (pattern_chi c).number < 7 := by rw [pattern_chi_number]; omega
        have p3 : (pattern_chi c).which < 3 := by rw [pattern_chi_which]; omega
        omega
      · rw [post_chi_plain c h0 hr] at h
        simp only [Except.ok.injEq] at h
        omega
  · obtain ⟨_, _, _, hk⟩ := wf_pon c h0 h1 w
    have e1 := pattern_pon_color c
    have hc := code_pon (ofHonours f) h0 h1
    by_cases hs : c / 512 / 3 < 27
    · refine same ?_ (by omega) ?_
      · rw [hc, honours_slot f (.inl hs)]; omega
      · rcases post_pon c h0 h1 with h' | ⟨_, h'⟩ <;> rw [h'] at h <;> simp only [Except.ok.injEq] at h
        · split at h <;> omega
        · omega
    · obtain ⟨x, hx⟩ : ∃ x, c / 512 / 3 = 27 + x := ⟨c / 512 / 3 - 27, by omega⟩
      have hx7 : x < 7 := by omega
      have hz : f x < 7 := hf.1 x hx7
      rw [hx, slot_honour _ hx7] at hc
      change _ = c % 512 + 512 * (3 * (27 + f x) + _) at hc
      have hcol : (pattern_pon c).color = 3 := by omega
      have hnum : (pattern_pon c).number = x := by
        have := pattern_pon_number c
        omega
      have k' : is_chi ((ofHonours f).code c) = false := by rw [code_is_chi]; exact h0
      have p' : is_pon ((ofHonours f).code c) = true := by rw [code_is_pon]; exact h1
      have e2 := pattern_pon_color ((ofHonours f).code c)
      have e3 := pattern_pon_number ((ofHonours f).code c)
      generalize hzz : f x = z at *
      generalize hd : (ofHonours f).code c = d at *
      have hk' : d / 512 % 128 / 3 = 27 + z := by omega
      have hcol' : (pattern_pon d).color = 3 := by omega
      have hnum' : (pattern_pon d).number = z := by omega
      have g : ∀ d, is_chi d = false → is_pon d = true → (pattern_pon d).color = 3 →
          get_post_turn_filter_idx d = .ok (83 + 30 + ((pattern_pon d).number : Int)) := by
        intro d a1 a2 a3
        simp [get_post_turn_filter_idx, a1, a2, a3]
      rw [g c h0 h1 hcol, hnum] at h
      simp only [Except.ok.injEq] at h
      refine ⟨113 + x, by omega, by omega, ?_⟩
      rw [g d k' p' hcol', hnum']
      unfold calledHonour
      rw [if_pos (by omega), show 113 + x - 113 = x by omega, hzz]
      congr 1
  · have hm : is_minkan c = false := by
      rw [is_kakan_iff] at h2
      rw [is_minkan_false]
      omega
    rw [post_other c h0 h1 hm] at h
    simp at h
  · obtain ⟨_, _, hk⟩ := wf_minkan c h0 h1 h2 h3 w
    have hc := code_kan (ofHonours f) h0 h1 h2 (.inl h3)
    rw [post_minkan c h0 h1 h3] at h
    simp only [Except.ok.injEq] at h
    refine ⟨120 + c / 256 / 4, by omega, by omega, ?_⟩
    have hlt := (slot_lt34 hσ).2 hk
    have hv : calledHonour f (120 + c / 256 / 4) = 120 + (ofHonours f).slot (c / 256 / 4) := by
      by_cases hs : c / 256 / 4 < 27
      · rw [called_same f (.inr (by omega)), honours_slot f (.inl hs)]
      · obtain ⟨x, hx⟩ : ∃ x, c / 256 / 4 = 27 + x := ⟨c / 256 / 4 - 27, by omega⟩
        rw [hx, slot_honour _ (by omega)]
        unfold calledHonour
        rw [if_neg (by omega), if_pos (by omega), show 120 + (27 + x) - 147 = x by omega]
        show _ = 120 + (27 + f x)
        omega
    rw [hv, post_minkan _ (by rw [code_is_chi]; exact h0) (by rw [code_is_pon]; exact h1) (by rw [code_is_minkan]; exact h3), hc]
    generalize (ofHonours f).slot (c / 256 / 4) = z at *
    congr 1
    omega
  · rw [post_other c h0 h1 h3] at h
    simp at h

theorem called_lt {f : Nat → Nat} (hf : Exchanges f) {i : Nat} (hi : i < 154) : calledHonour f i < 154 := by
  unfold calledHonour
  split
  · have := hf.1 (i - 113) (by omega); omega
  · split
    · have := hf.1 (i - 147) (by omega); omega
    · exact hi

theorem called_inj {f : Nat → Nat} (hf : Exchanges f) {i j : Nat} (hi : i < 154) (hj : j < 154) :
    calledHonour f i = calledHonour f j ↔ i = j := by
  constructor
  · intro e
    have a1 := hf.1 (i - 113)
    have a2 := hf.1 (i - 147)
    have b1 := hf.1 (j - 113)
    have b2 := hf.1 (j - 147)
    have c1 := hf.2 (i - 113)
    have c1 := fun h => hf.2 (i - 113) h (j - 113)
    have c2 := fun h => hf.2 (i - 147) h (j - 147)
    unfold calledHonour at e
    generalize f (i - 113) = p at *
    generalize f (i - 147) = q at *
    generalize f (j - 113) = r at *
    generalize f (j - 147) = t at *
    split at e
    · split at e
      · have := c1 (by omega) (by omega) (by omega); omega
      · split at e <;> omega
    · split at e
      · split at e
        · omega
        · split at e
          · have := c2 (by omega) (by omega) (by omega); omega
          · omega
      · split at e
        · omega
        · split at e <;> omega
  · rintro rfl; rfl

theorem call_row {f : Nat → Nat} (hf : Exchanges f) {row row' : Row} (h : CallRowSuits (ofHonours f) row row') : CallRowHonours f row row' := by
  obtain ⟨hb, wins, calls, hw, m1, y1, m2, y2⟩ := h
  have hnum : ∀ d ∈ calls, ∀ i : Int, Spec.callAction d i → ∃ n : Nat, n < 154 ∧ i = n ∧
      Spec.callAction ((ofHonours f).call d) (calledHonour f n : Nat) := fun d hd i hi => called_honours hf (hw d hd) hi
  have hback : ∀ d ∈ calls, ∀ i : Int, Spec.callAction ((ofHonours f).call d) i → ∃ n : Nat, n < 154 ∧ i = calledHonour f n ∧ Spec.callAction d n := by
    intro d hd i hi
    have hwd := hw d hd
    unfold Spec.callAction at hi
    have : ∃ j, get_post_turn_filter_idx d.naki.naki_code = .ok j := by
      change get_post_turn_filter_idx ((ofHonours f).code d.naki.naki_code) = .ok i at hi
      generalize d.naki.naki_code = c at hwd hi
      rcases wf_cases hwd with h0 | ⟨h0, h1⟩ | ⟨h0, h1, h2⟩ | ⟨h0, h1, h2, h3⟩ | ⟨h0, h1, h2, h3, _⟩
      · by_cases hr : redHandChi c
        · exact ⟨_, post_chi_red c hr⟩
        · exact ⟨_, post_chi_plain c h0 hr⟩
      · rcases post_pon c h0 h1 with h' | ⟨_, h'⟩ <;> exact ⟨_, h'⟩
      · have hm : is_minkan c = false := by
          rw [is_kakan_iff] at h2
          rw [is_minkan_false]
          omega
        rw [post_other _ (by rw [code_is_chi]; exact h0) (by rw [code_is_pon]; exact h1) (by rw [code_is_minkan]; exact hm)] at hi
        simp at hi
      · exact ⟨_, post_minkan c h0 h1 h3⟩
      · rw [post_other _ (by rw [code_is_chi]; exact h0) (by rw [code_is_pon]; exact h1) (by rw [code_is_minkan]; exact h3)] at hi
        simp at hi
    obtain ⟨j, hj⟩ := this
    obtain ⟨n, n1, n2, n3⟩ := hnum d hd j hj
    unfold Spec.callAction at n3
    rw [hi] at n3
    refine ⟨n, n1, Except.ok.inj n3, ?_⟩
    rw [← n2]
    exact hj
  have hsmall : ∀ j < 113, ∀ i < 154, (calledHonour f i = j ↔ i = j) := by
    intro j hj i hi
    have h' := called_inj hf (i := i) (j := j) hi (by omega)
    rwa [called_same f (.inl hj)] at h'
  refine ⟨hb, ?_, ?_⟩
  · intro i hi
    have key : CallAllowed wins (calls.map (ofHonours f).call) (calledHonour f i) ↔ CallAllowed wins calls i := by
      unfold CallAllowed
      rw [hsmall 0 (by omega) i hi, hsmall 1 (by omega) i hi]
      refine or_congr Iff.rfl (or_congr Iff.rfl ?_)
      constructor
      · rintro ⟨d, hd, hx⟩
        obtain ⟨d0, hd0, rfl⟩ := List.mem_map.1 hd
        obtain ⟨n, n1, n2, n3⟩ := hback d0 hd0 _ hx
        have := (called_inj hf hi n1).1 (Int.ofNat.inj n2)
        rw [this]
        exact ⟨d0, hd0, n3⟩
      · rintro ⟨d0, hd0, hx⟩
        obtain ⟨n, n1, n2, n3⟩ := hnum d0 hd0 _ hx
        refine ⟨_, List.mem_map_of_mem hd0, ?_⟩
        rw [Int.ofNat.inj n2]
        exact n3
    by_cases ha : CallAllowed wins calls i
    · rw [(m1.2.1 i ha).2, (m2.2.1 _ (key.2 ha)).2]
    · rw [m1.2.2 i hi ha, m2.2.2 _ (called_lt hf hi) (fun e => ha (key.1 e))]
  · have hdef : ∃ i : Nat, i < 154 ∧ (if winTaken wins then (1 : Int) else 0) = i ∧ (if winTaken wins then (1 : Int) else 0) = calledHonour f i := by
      cases winTaken wins
      · exact ⟨0, by omega, rfl, by rw [called_same f (.inl (by omega))]; rfl⟩
      · exact ⟨1, by omega, rfl, by rw [called_same f (.inl (by omega))]; rfl⟩
    rcases y1 with ⟨l1, d, l2, e1, e2, e3, e4⟩ | ⟨e1, e2⟩
    · have hd : d ∈ calls := by rw [e1]; simp
      obtain ⟨n, n1, n2, n3⟩ := hnum d hd _ e4
      refine ⟨n, n1, n2, ?_⟩
      rcases y2 with ⟨k1, d', k2, g1, g2, g3, g4⟩ | ⟨g1, _⟩
      · have : d' = (ofHonours f).call d := by
          rw [e1, List.map_append, List.map_cons] at g1
          have key : ∀ (a : List NakiDecision) (a' b b' : List NakiDecision) (u v : NakiDecision), a ++ u :: b = a' ++ v :: b' → u.executed = true →
              v.executed = true → (∀ x ∈ b, x.executed = false) → (∀ x ∈ b', x.executed = false) → v = u := by
            intro a a' b b' u v h hu hv hb hb'
            have h := congrArg List.reverse h
            simp only [List.reverse_append, List.reverse_cons, List.append_assoc, List.singleton_append] at h
            have hb : ∀ x ∈ b.reverse, x.executed = false := fun x hx => hb x (List.mem_reverse.1 hx)
            have hb' : ∀ x ∈ b'.reverse, x.executed = false := fun x hx => hb' x (List.mem_reverse.1 hx)
            generalize b.reverse = b at h hb
            generalize b'.reverse = b' at h hb'
            induction b generalizing b' with
            | nil =>
              cases b' with
              | nil => simp only [List.nil_append, List.cons.injEq] at h; exact h.1.symm
              | cons y b' =>
                simp only [List.nil_append, List.cons_append, List.cons.injEq] at h
                have := hb' y (by simp)
                rw [← h.1, hu] at this
                simp at this
            | cons x b ih =>
              cases b' with
              | nil =>
                simp only [List.nil_append, List.cons_append, List.cons.injEq] at h
                have := hb x (by simp)
                rw [h.1, hv] at this
                simp at this
              | cons y b' =>
                simp only [List.cons_append, List.cons.injEq] at h
                exact ih (fun x hx => hb x (by simp [hx])) b' h.2 (fun x hx => hb' x (by simp [hx]))
          refine key _ _ _ _ _ _ g1 e2 g2 ?_ g3
          intro x hx
          obtain ⟨x0, hx0, rfl⟩ := List.mem_map.1 hx
          exact e3 x0 hx0
        subst this
        unfold Spec.callAction at n3 g4
        rw [n3] at g4
        exact (Except.ok.inj g4).symm
      · have := g1 _ (List.mem_map_of_mem hd)
        change d.executed = false at this
        rw [e2] at this
        simp at this
    · rcases y2 with ⟨k1, d', k2, g1, g2, g3, g4⟩ | ⟨_, g2⟩
      · have hd' : d' ∈ calls.map (ofHonours f).call := by rw [g1]; simp
        obtain ⟨d0, hd0, rfl⟩ := List.mem_map.1 hd'
        have := e1 d0 hd0
        change d0.executed = true at g2
        rw [g2] at this
        simp at this
      · rw [e2, g2]
        exact hdef

/-! ### rounds -/

theorem pairs_mono {α β : Type} {R S : α → β → Prop} (h : ∀ a b, R a b → S a b) {l : List α} {l' : List β} (hp : AllPairs R l l') :
    AllPairs S l l' := by
  induction hp with
  | nil => exact .nil
  | cons h1 _ ih => exact .cons (h _ _ h1) ih

theorem TurnSuits.weaken {Q Q' : Prop} (hq : Q' → Q) {σ : Suits} {t t' : HalfTurn} (h : TurnSuits Q σ t t') : TurnSuits Q' σ t t' := by
  cases h with
  | during ho hn =>
    obtain ⟨A, K, A', K', e1, e2, e3, e4, e5, e6, e7⟩ := hn
    exact .during ho ⟨A, K, A', K', e1, e2, e3, e4, e5, fun h => e6 (hq h), e7⟩
  | discard h1 h2 => exact .discard h1 h2
  | post h1 h2 h3 => exact .post h1 h2 h3

/-- two accepted rounds, the second with the honours exchanged -/
def SameHonours (f : Nat → Nat) (est est' : Estimate) (sh sh' : List Int → Except PyErr Int) (g : GameInfo) (a a' : InitAttr)
    (acts : List Act) (s s' : RoundSt) : Prop := Exchanges f ∧ SameSuits (ofHonours f) est est' sh sh' g a a' acts s s'

/-- C155: the tokens and the half-turns with their wins, riichi and calls are those of the first round with the honours
exchanged; so are the kans of the own turns if there is no pon of an honour that becomes another one. -/
theorem C155_decisions {f : Nat → Nat} {est est' : Estimate} {sh sh' : List Int → Except PyErr Int} {g : GameInfo} {a a' : InitAttr}
    {acts : List Act} {s s' : RoundSt} (h : SameHonours f est est' sh sh' g a a' acts s s') :
    AllPairs (TokenSuits (ofHonours f)) s.encoding_tokens s'.encoding_tokens ∧
    AllPairs (TurnSuits (NoMovedPon f acts) (ofHonours f)) s.halfturns s'.halfturns := by
  obtain ⟨h1, h2⟩ := C153_decisions h.2
  refine ⟨h1, pairs_mono ?_ h2⟩
  intro t t' ht
  exact TurnSuits.weaken (NoMovedPon.kept h.2.calls) ht

/-- C155: the samples of the three heads are in the same order those of the first round with the honours exchanged, number for
number; those of the own-turn head if there is no pon of an honour that becomes another one. -/
theorem C155_samples_partial {f : Nat → Nat} {est est' : Estimate} {sh sh' : List Int → Except PyErr Int} {g : GameInfo} {a a' : InitAttr}
    {acts : List Act} {s s' : RoundSt} (h : SameHonours f est est' sh sh' g a a' acts s s')
    {v : Variant} {d cc b d' cc' b' : Batch} (hb : buildTensors v s s.halfturns s.encoding_tokens = .ok (d, cc, b))
    (hb' : buildTensors v s' s'.halfturns s'.encoding_tokens = .ok (d', cc', b')) :
    (NoMovedPon f acts → ∃ rows rows', d = ofRows rows ∧ d' = ofRows rows' ∧ AllPairs (OwnRowSuits (ofHonours f)) rows rows') ∧
    (∃ rows rows', cc = ofRows rows ∧ cc' = ofRows rows' ∧ AllPairs (DiscardRowSuits (ofHonours f)) rows rows') ∧
    (∃ rows rows', b = ofRows rows ∧ b' = ofRows rows' ∧ AllPairs (CallRowHonours f) rows rows') := by
  obtain ⟨h1, h2, rows, rows', h3, h4, h5⟩ := C153_samples_partial h.2 hb hb'
  exact ⟨fun hn => h1 (NoMovedPon.kept h.2.calls hn), h2, rows, rows', h3, h4, pairs_mono (fun _ _ => call_row h.1) h5⟩

/-! ### added kans -/

/-- East and South exchanged -/
def eastSouth (x : Nat) : Nat := if x = 0 then 1 else if x = 1 then 0 else x

theorem eastSouth_exchanges : Exchanges eastSouth := by
  unfold Exchanges
  decide

/-- Player 0 is dealt tile 108 (East) and copies 0 of the kinds 0..11; player 1 the tiles 109, 110 (East) and 27 (kind 6) and
copies 1 of the kinds 0..9; player 2 copies 2 of the kinds 0..12; player 3 copies 3 of the kinds 0..5 and 7..13. -/
def dealtEast (p : Nat) : List Nat :=
  if p = 0 then 108 :: (List.range 12).map (4 * ·)
  else if p = 1 then [109, 110, 27] ++ (List.range 10).map (fun i => 4 * i + 1)
  else if p = 2 then (List.range 13).map (fun i => 4 * i + 2)
  else [0, 1, 2, 3, 4, 5, 7, 8, 9, 10, 11, 12, 13].map (fun i => 4 * i + 3)

def dealEast : InitAttr :=
  { ten := .ok [250, 250, 250, 250], oya := .ok 0, seed := .ok [0, 0, 0, 0, 0, 132], hai := fun p => .ok (dealtEast p) }

/-- the deal with East and South exchanged -/
def dealSouth : InitAttr := { dealEast with hai := fun p => .ok ((dealtEast p).map (ofHonours eastSouth).tile) }

theorem deal_south : DealSuits (ofHonours eastSouth) dealEast dealSouth where
  seed := by
    intro r h k x y d e
    cases e; rfl
  oya := rfl
  hai := by
    intro p _ l e
    cases e; rfl
  ten := rfl

/-- the pon of East by player 1, with tile 111 to come -/
def eastPon : Nat := (LogMeld.pon 3 27 3 0).encode

/-- Player 0 discards East, player 1 makes a pon, then everyone discards the drawn tile, and player 1 draws. -/
def eastActs : List Act :=
  [.draw 0 120, .discard 0 108, .call 1 eastPon, .discard 1 1, .draw 2 121, .discard 2 121, .draw 3 122, .discard 3 122,
   .draw 0 123, .discard 0 123, .draw 1 124]

theorem east_accepted : accepts (processRound noWin farAway ⟨0⟩ dealEast (logOf eastActs ++ [.result true (.ok [0, 0, 0, 0])]))
    (fun s => s.halfturns.map kansOffered == [0, 0, 0, 0, 0, 0, 0, 0, 0, 0, 0, 0, 0, 0, 1]) = true := by decide +kernel

theorem south_accepted : accepts (processRound noWin farAway ⟨0⟩ dealSouth
    (logOf (eastActs.map (Act.suits (ofHonours eastSouth))) ++ [.result true (.ok [0, 0, 0, 0])]))
    (fun s => s.halfturns.map kansOffered == [0, 0, 0, 0, 0, 0, 0, 0, 0, 0, 0, 0, 0, 0, 0]) = true := by decide +kernel

theorem east_calls (p c : Nat) (h : Act.call p c ∈ eastActs) : WellFormed c := by
  simp only [eastActs, List.mem_cons, reduceCtorEq, Act.call.injEq, List.not_mem_nil, or_false, false_or] at h
  rw [h.2]
  exact (C93_covers _).2 ⟨_, by simp [LogMeld.Valid], rfl⟩

/-- C155 is violated: whether an added kan of an honour is offered depends on whether the player holds a certain tile of the
characters (27 for East, 28 for South, ...), in neither case on whether they hold the fourth tile. -/
theorem C155_addedKan_violated : ¬ ∀ (f : Nat → Nat) (est est' : Estimate) (sh sh' : List Int → Except PyErr Int) (g : GameInfo)
    (a a' : InitAttr) (acts : List Act) (s s' : RoundSt), SameHonours f est est' sh sh' g a a' acts s s' →
    s'.halfturns.map kansOffered = s.halfturns.map kansOffered := by
  intro h
  obtain ⟨s, h1, h2⟩ := accepts_ok east_accepted
  obtain ⟨s', h1', h2'⟩ := accepts_ok south_accepted
  have := h eastSouth noWin noWin farAway farAway ⟨0⟩ dealEast dealSouth eastActs s s'
    ⟨eastSouth_exchanges, honours_proper eastSouth_exchanges, noWin_suits _, farAway_suits _, deal_south, east_calls,
      accepted_exact h1 rfl, accepted_exact h1' rfl⟩
  rw [beq_iff_eq.1 h2, beq_iff_eq.1 h2'] at this
  simp at this

/-- without a pon of an honour that becomes another one, the number of offered kans is the same -/
theorem C155_kans_offered {f : Nat → Nat} {est est' : Estimate} {sh sh' : List Int → Except PyErr Int} {g : GameInfo} {a a' : InitAttr}
    {acts : List Act} {s s' : RoundSt} (h : SameHonours f est est' sh sh' g a a' acts s s') (hn : NoMovedPon f acts) :
    s'.halfturns.map kansOffered = s.halfturns.map kansOffered := C153_kans_offered h.2 (NoMovedPon.kept h.2.calls hn)

/-- the call sample of the pon of East, and of South -/
theorem honours_example (v : Variant) :
    okAnd (processRound noWin farAway ⟨0⟩ dealEast (logOf (eastActs.take 3) ++ [.result true (.ok [0, 0, 0, 0])]))
      (fun s => okAnd (buildTensors v s s.halfturns s.encoding_tokens) (fun b => b.2.2.player == [1] && b.2.2.y == [113])) = true ∧
    okAnd (processRound noWin farAway ⟨0⟩ dealSouth
        (logOf ((eastActs.take 3).map (Act.suits (ofHonours eastSouth))) ++ [.result true (.ok [0, 0, 0, 0])]))
      (fun s => okAnd (buildTensors v s s.halfturns s.encoding_tokens) (fun b => b.2.2.player == [1] && b.2.2.y == [114])) = true := by
  cases v <;> decide +kernel

/-- rounds as in the theorems, with samples, exist -/
example (v : Variant) : ∃ s s' d cc b d' cc' b', SameHonours eastSouth noWin noWin farAway farAway ⟨0⟩ dealEast dealSouth (eastActs.take 3) s s' ∧
    buildTensors v s s.halfturns s.encoding_tokens = .ok (d, cc, b) ∧
    buildTensors v s' s'.halfturns s'.encoding_tokens = .ok (d', cc', b') ∧ b.y = [113] ∧ b'.y = [114] := by
  obtain ⟨s, hs, h1⟩ := okAnd_ok (honours_example v).1
  obtain ⟨⟨d, cc, b⟩, hb, h2⟩ := okAnd_ok h1
  obtain ⟨s', hs', h1'⟩ := okAnd_ok (honours_example v).2
  obtain ⟨⟨d', cc', b'⟩, hb', h2'⟩ := okAnd_ok h1'
  simp only [Bool.and_eq_true, beq_iff_eq] at h2 h2'
  exact ⟨s, s', d, cc, b, d', cc', b', ⟨eastSouth_exchanges, honours_proper eastSouth_exchanges, noWin_suits _, farAway_suits _,
    deal_south, fun p c hc => east_calls p c (List.mem_of_mem_take hc), accepted_exact hs rfl, accepted_exact hs' rfl⟩,
    hb, hb', h2.2, h2'.2⟩

/-- there are such rounds without a moved pon, too -/
example : NoMovedPon eastSouth (chiActs 120) ∧ calledHonour eastSouth 113 = 114 ∧ calledHonour eastSouth 148 = 147 :=
  ⟨by simp [NoMovedPon, chiActs], by decide, by decide⟩

end MJ
