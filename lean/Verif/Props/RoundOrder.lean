import Verif.Proofs.Phase
/-!
C35, C42-C46: order of events, half-turns and tokens.
-/
namespace MJ
open Code Spec

/-! ### Sizes of calls -/

theorem length_eraseIdx3 (l : List Nat) (n w : Nat) (hl : l.length = n + 1) (hw : w < n + 1) :
    (l.eraseIdx w).length = n ∧ ∃ a, l[w]? = some a := by
  refine ⟨?_, ⟨l[w]'(by omega), List.getElem?_eq_getElem (by omega)⟩⟩
  rw [List.length_eraseIdx, if_pos (by omega)]
  omega

theorem chi_size (c : Nat) (h : is_chi c = true) :
    ∃ ex a, get_exposed c = .ok (ex, some a) ∧ ex.length = 2 := by
  have hl : (chiTiles c).length = 3 := by simp [chiTiles]
  have hw : (pattern_chi c).which < 3 := by rw [pattern_chi_which]; omega
  obtain ⟨h1, a, h2⟩ := length_eraseIdx3 _ 2 _ hl hw
  refine ⟨_, a, ?_, h1⟩
  rw [get_exposed, if_pos h, (pattern_chi_tiles c).1, (pattern_chi_tiles c).2, h2]

theorem pon_size (c : Nat) (h : is_pon c = true) :
    ∃ ex a, get_exposed c = .ok (ex, some a) ∧ ex.length = 2 := by
  have hl : (ponTiles c).length = 3 := by
    unfold ponTiles
    rw [List.length_map]
    have : c / 32 % 4 < 4 := by omega
    rcases ponCopies_cases (c / 32 % 4) this with ⟨_, e⟩ | ⟨_, e⟩ | ⟨_, e⟩ | ⟨_, e⟩ <;> rw [e] <;> rfl
  have hw : (pattern_pon c).which < 3 := by rw [pattern_pon_which]; omega
  obtain ⟨h1, a, h2⟩ := length_eraseIdx3 _ 2 _ hl hw
  refine ⟨_, a, ?_, h1⟩
  have hc : is_chi c = false := by
    unfold is_pon at h; simp at h; simpa using h.1
  rw [get_exposed, if_neg (by simp [hc]), if_pos h, (pattern_pon_tiles c).1, (pattern_pon_tiles c).2, h2]

/-- the number of exposed tiles of a call that can be read -/
theorem exposed_size {c : Nat} {ex : List Nat} {acq : Option Nat} (h : get_exposed c = .ok (ex, acq)) :
    ((is_chi c = true ∨ is_pon c = true) ∧ ex.length = 2 ∧ acq.isSome = true) ∨
    (is_chi c = false ∧ is_pon c = false ∧ is_kakan c = true ∧ ex.length = 1) ∨
    (is_chi c = false ∧ is_pon c = false ∧ is_kakan c = false ∧ is_minkan c = true ∧ is_ankan c = false ∧ ex.length = 3) ∨
    (is_chi c = false ∧ is_pon c = false ∧ is_kakan c = false ∧ is_minkan c = false ∧ is_ankan c = true ∧ ex.length = 4) := by
  by_cases h1 : is_chi c = true
  · obtain ⟨ex', a, h2, h3⟩ := chi_size c h1
    rw [h] at h2; cases h2
    exact .inl ⟨.inl h1, h3, rfl⟩
  · have h1 : is_chi c = false := by simpa using h1
    by_cases h2 : is_pon c = true
    · obtain ⟨ex', a, h4, h3⟩ := pon_size c h2
      rw [h] at h4; cases h4
      exact .inl ⟨.inr h2, h3, rfl⟩
    · have h2 : is_pon c = false := by simpa using h2
      by_cases h3 : is_kakan c = true
      · rw [get_exposed, if_neg (by simp [h1]), if_neg (by simp [h2]), if_pos h3] at h
        cases h
        exact .inr (.inl ⟨h1, h2, h3, rfl⟩)
      · have h3 : is_kakan c = false := by simpa using h3
        by_cases h4 : is_minkan c = true
        · rw [get_exposed, if_neg (by simp [h1]), if_neg (by simp [h2]), if_neg (by simp [h3]), if_pos h4] at h
          cases h
          refine .inr (.inr (.inl ⟨h1, h2, h3, h4, ?_, ?_⟩))
          · unfold is_minkan at h4; unfold is_ankan; simp at h4 ⊢; exact fun _ => h4.2
          · have hw : (pattern_minkan c).which < 4 := by rw [pattern_minkan_which]; omega
            rw [(pattern_minkan_tiles c).1]
            exact (length_eraseIdx3 _ 3 _ (by simp [kanTiles]) hw).1
        · have h4 : is_minkan c = false := by simpa using h4
          by_cases h5 : is_ankan c = true
          · rw [get_exposed, if_neg (by simp [h1]), if_neg (by simp [h2]), if_neg (by simp [h3]), if_neg (by simp [h4]),
              if_pos h5] at h
            cases h
            exact .inr (.inr (.inr ⟨h1, h2, h3, h4, h5, by simp [pattern_ankan]⟩))
          · rw [get_exposed, if_neg (by simp [h1]), if_neg (by simp [h2]), if_neg (by simp [h3]), if_neg (by simp [h4]),
              if_neg h5] at h
            cases h

/-- a chi is never a kan of any sort -/
theorem chi_not_kan {c : Nat} (h : is_chi c = true) : is_kakan c = false ∧ is_minkan c = false ∧ is_ankan c = false := by
  have h2 : ¬ (c &&& 0b111100) = 0 := by
    intro h0
    unfold is_chi at h
    have : c &&& 4 = (c &&& 0b111100) &&& 4 := by rw [Nat.and_assoc]; rfl
    rw [this, h0] at h
    simp at h
  refine ⟨?_, ?_, ?_⟩
  · unfold is_kakan; simp [h]
  · unfold is_minkan; simp [h2]
  · unfold is_ankan; simp [h2]

theorem pon_not_kan {c : Nat} (h : is_pon c = true) : is_minkan c = false ∧ is_ankan c = false := by
  have h2 : ¬ (c &&& 0b111100) = 0 := by
    intro h0
    unfold is_pon at h
    have : c &&& 8 = (c &&& 0b111100) &&& 8 := by rw [Nat.and_assoc]; rfl
    rw [this, h0] at h
    simp at h
  refine ⟨?_, ?_⟩
  · unfold is_minkan; simp [h2]
  · unfold is_ankan; simp [h2]

theorem sum34_sub_cnt (f : Nat → Int) (l : List Nat) (hl : ∀ t ∈ l, t < 136) :
    sum34 (fun k => f k - cnt l k) = sum34 f - l.length := by
  have : (fun k => f k - (cnt l k : Int)) = countTiles l f (-1) := by
    funext k; rw [countTiles_eq]; omega
  rw [this, sum34_countTiles _ _ _ hl]
  omega

/-! ### C35 -/

structure Residues (acts : List Act) (s : RoundSt) : Prop where
  other : ∀ q, holderOf (lastMove acts) ≠ some q → sum34 (s.hand_tensors q) % 3 ≠ 2
  drew : ∀ p t, lastMove acts = some (.draw p t) → sum34 (s.hand_tensors p) % 3 = 2

theorem KansByDrawer.init {acts : List Act} {a : Act} (h : KansByDrawer (acts ++ [a])) : KansByDrawer acts := by
  intro pre p c post he hk
  exact h pre p c (post ++ [a]) (by simp [he]) hk

theorem sum34_addRow_ne (f : Nat → Nat → Int) (p q : Nat) (l : List Nat) (d : Int) (h : q ≠ p) :
    sum34 (addRow f p l d q) = sum34 (f q) := by
  unfold addRow; rw [setAt_ne _ _ _ _ h]

theorem sum34_addRow_same (f : Nat → Nat → Int) (p t : Nat) (d : Int) (ht : t < 136) :
    sum34 (addRow f p (tile2idx t) d p) = sum34 (f p) + d := by
  unfold addRow; rw [setAt_same, sum34_addAt _ _ _ ht]

theorem sum34_init (l : List Nat) (hl : ∀ t ∈ l, t < 136) : sum34 (countTiles l (fun _ => 0) 1) = l.length := by
  rw [sum34_countTiles _ _ _ hl]
  have : sum34 (fun _ => 0) = 0 := by decide
  rw [this]
  omega

theorem residues_reached {est : Estimate} {sh : List Int → Except PyErr Int} {g : GameInfo} {a : InitAttr}
    {c : RoundCfg} {s0 : RoundSt} (hi : initRound est sh g a = .ok (c, s0))
    {acts : List Act} {s : RoundSt} (hr : Reached c s0 acts s) (hk : KansByDrawer acts) : Residues acts s := by
  obtain ⟨d⟩ := initRound_ok hi
  revert hk
  refine hr.induct (P := fun acts s => KansByDrawer acts → Residues acts s) ?_ ?_
  · intro _
    refine ⟨?_, ?_⟩
    · intro q _
      rw [congrArg RoundSt.hand_tensors d.state_eq]
      show sum34 (countTiles (d.hai q) (fun _ => 0) 1) % 3 ≠ 2
      rw [sum34_init _ (d.hai_lt q)]
      by_cases hq : q < 4
      · rw [d.hai_len q hq]; decide
      · rw [d.hai_none q (by omega)]; decide
    · intro p t h; simp [lastMove] at h
  · intro acts s act s' hr ih he hk
    have ih := ih (KansByDrawer.init hk)
    have ph := phase_reached hi hr
    cases he with
    | dora =>
      refine ⟨?_, ?_⟩
      · intro q hq; rw [lastMove_snoc] at hq; exact ih.other q hq
      · intro p t h; rw [lastMove_snoc] at h; exact ih.drew p t h
    | declare =>
      refine ⟨?_, ?_⟩
      · intro q hq; rw [lastMove_snoc] at hq; exact ih.other q hq
      · intro p t h; rw [lastMove_snoc] at h; exact ih.drew p t h
    | accept =>
      refine ⟨?_, ?_⟩
      · intro q hq; rw [lastMove_snoc] at hq; exact ih.other q hq
      · intro p t h; rw [lastMove_snoc] at h; exact ih.drew p t h
    | @draw p t _ hp e =>
      have hnone : ∀ q, holderOf (lastMove acts) ≠ some q := by
        intro q hq
        have h1 := ph.acq
        rw [e.acquired_none] at h1
        cases hl : lastMove acts with
        | none => rw [hl] at hq; simp [holderOf] at hq
        | some m =>
          rw [hl] at h1 hq
          cases m with
          | draw p' t' => simp [acquiredOf] at h1
          | call p' c' =>
            obtain ⟨pre, post, rfl, _, _⟩ := lastMove_split acts _ hl
            obtain ⟨s1, s2, _, he, _, _⟩ := hr.at
            cases he with
            | call e' =>
              simp only [acquiredOf, holderOf] at h1 hq
              split at hq
              · simp at hq
              · rename_i hnk
                rw [if_neg hnk, e'.called] at h1
                rcases exposed_size e'.exposed_eq with ⟨_, _, h3⟩ | ⟨_, _, h3, _⟩ | ⟨_, _, _, h3, _⟩ | ⟨_, _, _, _, h3, _⟩
                · rw [← h1] at h3; simp at h3
                · simp [h3] at hnk
                · simp [h3] at hnk
                · simp [h3] at hnk
          | discard => simp [holderOf] at hq
          | dora => simp [holderOf] at hq
          | declare => simp [holderOf] at hq
          | accept => simp [holderOf] at hq
      rw [e.state_eq]
      refine ⟨?_, ?_⟩
      · intro q hq
        rw [lastMove_snoc] at hq
        simp only [Act.isMove, if_true, holderOf, ne_eq, Option.some.injEq] at hq
        show sum34 (addRow _ _ _ _ q) % 3 ≠ 2
        rw [sum34_addRow_ne _ _ _ _ _ (fun h => hq h.symm)]
        exact ih.other q (hnone q)
      · intro p' t' h
        rw [lastMove_snoc] at h
        simp only [Act.isMove, if_true, Option.some.injEq, Act.draw.injEq] at h
        obtain ⟨rfl, rfl⟩ := h
        exact e.sum_eq
    | @discard p t _ hp e =>
      have hsum := e.sum_eq
      have h2 : sum34 ((discardTile s p t).hand_tensors p) = sum34 (s.hand_tensors p) + -1 :=
        sum34_addRow_same _ _ _ _ e.tile_lt
      have hp2 : holderOf (lastMove acts) = some p := by
        apply Classical.byContradiction
        intro hne
        have := ih.other p hne
        omega
      rw [e.state_eq]
      refine ⟨?_, ?_⟩
      · intro q _
        by_cases hq : q = p
        · subst hq
          show sum34 ((discardTile s q t).hand_tensors q) % 3 ≠ 2
          omega
        · show sum34 (addRow s.hand_tensors p _ _ q) % 3 ≠ 2
          rw [sum34_addRow_ne _ _ _ _ _ hq]
          apply ih.other
          rw [hp2]
          simpa using fun h => hq h.symm
      · intro p' t' h
        rw [lastMove_snoc] at h
        simp [Act.isMove] at h
    | @call p code _ e =>
      obtain ⟨_, _, _, h4⟩ := expose_ok e.expose_eq
      have hself : sum34 (e.ht' p) = sum34 (s.hand_tensors p) - e.ex.length := by
        have : e.ht' p = fun k => s.hand_tensors p k - cnt e.ex k := by
          funext k; rw [h4 p k, if_pos rfl]
        rw [this, sum34_sub_cnt _ _ e.ex_lt]
      have hoth : ∀ q, q ≠ p → sum34 (e.ht' q) = sum34 (s.hand_tensors q) := by
        intro q hq
        have : e.ht' q = s.hand_tensors q := by
          funext k; rw [h4 q k, if_neg hq]
        rw [this]
      have hdraw : ∀ p' t', ¬ lastMove (acts ++ [Act.call p code]) = some (.draw p' t') := by
        intro p' t' h
        rw [lastMove_snoc] at h
        simp [Act.isMove] at h
      have hkind := e.kind_eq
      rw [e.state_eq]
      by_cases hown : (is_ankan code || is_kakan code) = true
      · -- a kan in the own turn
        obtain ⟨t, hlm⟩ := hk acts p code [] rfl hown
        have h2 := ih.drew p t hlm
        refine ⟨?_, fun p' t' h => absurd h (hdraw p' t')⟩
        intro q _
        show sum34 (e.ht' q) % 3 ≠ 2
        by_cases hq : q = p
        · subst hq
          rw [hself]
          rcases exposed_size e.exposed_eq with ⟨_, h3, _⟩ | ⟨_, _, _, h3⟩ | ⟨_, _, h6, _, h7, h3⟩ | ⟨_, _, _, _, _, h3⟩
          · omega
          · omega
          · simp [h6, h7] at hown
          · omega
        · rw [hoth q hq]
          apply ih.other
          rw [hlm]
          simpa [holderOf] using fun h => hq h.symm
      · -- a call on a discard
        rw [if_neg hown] at hkind
        obtain ⟨q0, u0, hlm, _, _⟩ := ph.post e.curr_eq e.turn_eq hkind
        have hall : ∀ q, sum34 (s.hand_tensors q) % 3 ≠ 2 := by
          intro q
          apply ih.other
          rw [hlm]
          simp [holderOf]
        simp only [Bool.or_eq_true, not_or, Bool.not_eq_true] at hown
        refine ⟨?_, fun p' t' h => absurd h (hdraw p' t')⟩
        intro q hq
        rw [lastMove_snoc] at hq
        simp only [Act.isMove, if_true, holderOf, hown.1, hown.2, Bool.or_false] at hq
        show sum34 (e.ht' q) % 3 ≠ 2
        by_cases hqp : q = p
        · subst hqp
          rw [hself]
          have := hall q
          rcases exposed_size e.exposed_eq with ⟨hcp, h3, _⟩ | ⟨_, _, h6, _⟩ | ⟨_, _, _, _, _, h3⟩ | ⟨_, _, _, _, h6, _⟩
          · have hm : is_minkan code = false := by
              rcases hcp with h | h
              · exact (chi_not_kan h).2.1
              · exact (pon_not_kan h).1
            simp [hm] at hq
          · rw [hown.2] at h6; cases h6
          · omega
          · rw [hown.1] at h6; cases h6
        · rw [hoth q hqp]
          exact hall q

/-- C35: provided closed and added kans are made by the player who has just drawn, every discard in
a processed log is made by the player of the last move, which is a draw or a chi or pon. -/
theorem C35_discarder {est : Estimate} {sh : List Int → Except PyErr Int} {g : GameInfo} {a : InitAttr}
    {c : RoundCfg} {s0 : RoundSt} (hi : initRound est sh g a = .ok (c, s0)) {pre post : List Act} {p t : Nat} {s : RoundSt}
    (hr : Reached c s0 (pre ++ .discard p t :: post) s) (hk : KansByDrawer (pre ++ .discard p t :: post)) :
    (∃ u, lastMove pre = some (.draw p u)) ∨
    (∃ code, lastMove pre = some (.call p code) ∧ (is_chi code = true ∨ is_pon code = true)) := by
  obtain ⟨s1, s2, h1, h2, _, _⟩ := hr.at
  have hk' : KansByDrawer pre := by
    intro pre' p' c' post' he hc
    exact hk pre' p' c' (post' ++ .discard p t :: post) (by simp [he]) hc
  have hres := residues_reached hi h1 hk'
  cases h2 with
  | discard hp e =>
    have hsum := e.sum_eq
    have h2 : sum34 ((discardTile s1 p t).hand_tensors p) = sum34 (s1.hand_tensors p) + -1 :=
      sum34_addRow_same _ _ _ _ e.tile_lt
    have hp2 : holderOf (lastMove pre) = some p := by
      apply Classical.byContradiction
      intro hne
      have := hres.other p hne
      omega
    cases hl : lastMove pre with
    | none => rw [hl] at hp2; simp [holderOf] at hp2
    | some m =>
      rw [hl] at hp2
      cases m with
      | draw q u =>
        simp [holderOf] at hp2
        subst hp2
        exact .inl ⟨u, rfl⟩
      | call q code =>
        simp only [holderOf] at hp2
        split at hp2
        · simp at hp2
        · rename_i hnk
          simp at hp2
          subst hp2
          refine .inr ⟨code, rfl, ?_⟩
          obtain ⟨pre', post', rfl, _, _⟩ := lastMove_split pre _ hl
          obtain ⟨s3, s4, _, he, _, _⟩ := h1.at
          cases he with
          | call e' =>
            rcases exposed_size e'.exposed_eq with ⟨h3, _⟩ | ⟨_, _, h3, _⟩ | ⟨_, _, _, h3, _⟩ | ⟨_, _, _, _, h3, _⟩
            · exact h3
            · simp [h3] at hnk
            · simp [h3] at hnk
            · simp [h3] at hnk
      | discard => simp [holderOf] at hp2
      | dora => simp [holderOf] at hp2
      | declare => simp [holderOf] at hp2
      | accept => simp [holderOf] at hp2

/-- an accepted draw, discard or call leaves a state object behind -/
theorem stateObj_some {c : RoundCfg} {s0 : RoundSt} {acts : List Act} {s : RoundSt} (hr : Reached c s0 acts s)
    (hl : (lastMove acts).isSome = true) : s.stateObj.isSome = true := by
  revert hl
  refine hr.induct (P := fun acts s => (lastMove acts).isSome = true → s.stateObj.isSome = true) ?_ ?_
  · intro h; simp [lastMove] at h
  · intro acts s act s' hr ih he
    rw [lastMove_snoc]
    cases he with
    | dora => exact ih
    | declare => exact ih
    | accept => exact ih
    | call e => intro _; rw [e.state_eq]; rfl
    | draw hp e => intro _; rw [e.state_eq]; rfl
    | discard hp e =>
      intro _
      rw [e.state_eq]
      show s.stateObj.isSome = true
      rw [e.obj_eq]; rfl

/-- C35: a discard by anybody else raises AssertionError. -/
theorem C35_others_rejected {est : Estimate} {sh : List Int → Except PyErr Int} {g : GameInfo} {a : InitAttr}
    {c : RoundCfg} {s0 : RoundSt} (hi : initRound est sh g a = .ok (c, s0)) {acts : List Act} {s : RoundSt}
    (hr : Reached c s0 acts s) (hk : KansByDrawer acts) (p : Fin 4) (t : Nat) (ht : t < 136)
    (hp : holderOf (lastMove acts) ≠ some p.val) : step c s (.discard p (.ok t)) = .error .assertion := by
  have hres := (residues_reached hi hr hk).other p hp
  show stepDiscard c s p (.ok t) = _
  unfold stepDiscard
  cases ha : s.acquired with
  | none => simp [pyAssert, bind, Except.bind]
  | some x =>
    have ph := phase_reached hi hr
    have hlm : (lastMove acts).isSome = true := by
      have := ph.acq
      rw [ha] at this
      cases hl : lastMove acts with
      | none => rw [hl] at this; simp [acquiredOf] at this
      | some m => rfl
    obtain ⟨o, ho⟩ := Option.isSome_iff_exists.1 (stateObj_some hr hlm)
    cases hc : currDuringOrNone s with
    | false => simp [pyAssert, bind, Except.bind]
    | true =>
      by_cases hh : s.hands p t = 1
      · have h3 : ∀ s' : RoundSt, s'.hand_tensors = s.hand_tensors →
            ¬ sum34 ((discardTile s' p t).hand_tensors p) % 3 = 1 := by
          intro s' hs
          have h2 : sum34 ((discardTile s' p t).hand_tensors p) = sum34 (s'.hand_tensors p) + -1 :=
            sum34_addRow_same _ _ _ _ ht
          rw [hs] at h2
          omega
        simp [pyAssert, bind, Except.bind, checkTile, ht, hh, ho, h3]
      · have hh : (s.hands p t == 1) = false := by simpa using hh
        simp [pyAssert, bind, Except.bind, checkTile, ht, hh]

/-- Player 1 draws, player 0 makes a closed kan out of turn, player 2 draws and player 1 discards. -/
def strayKanLog : List Ev :=
  [.draw 1 (.ok 120), .naki (.ok 0) (.ok 0), .draw 2 (.ok 121), .discard 1 (.ok 120)]

def strayKanActs : List Act := [.draw 1 120, .call 0 0, .draw 2 121, .discard 1 120]

theorem strayKan_accepted : accepts (processRound noWin farAway ⟨0⟩ dealKan (strayKanLog ++ [.result false (.ok [])]))
    (fun _ => true) = true := by
  decide +kernel

/-- C35: the proviso is needed. The seat of a closed kan is not checked, and after a kan by somebody
else a player who has not just drawn can discard. -/
theorem C35_proviso_needed :
    ¬ ∀ (est : Estimate) (sh : List Int → Except PyErr Int) (g : GameInfo) (a : InitAttr) (c : RoundCfg) (s0 : RoundSt)
      (pre post : List Act) (p t : Nat) (s : RoundSt),
      initRound est sh g a = .ok (c, s0) → Reached c s0 (pre ++ .discard p t :: post) s →
      holderOf (lastMove pre) = some p := by
  intro h
  obtain ⟨s, h1, _⟩ := accepts_ok strayKan_accepted
  obtain ⟨c, s0, h3, h4⟩ := accepted_exact (acts := strayKanActs) h1 rfl
  have := h _ _ _ _ c s0 [.draw 1 120, .call 0 0, .draw 2 121] [] 1 120 s h3 h4
  revert this
  decide

/-- the proviso can be met -/
theorem kanActs_byDrawer : KansByDrawer kanActs := by
  intro pre p c post he hk
  have : pre = [.draw 0 120] ∧ Act.call p c = .call 0 0 := by
    rcases pre with _ | ⟨x, _ | ⟨y, _ | ⟨z, _ | ⟨w, _ | ⟨v, pre⟩⟩⟩⟩⟩ <;> simp [kanActs] at he ⊢
    · obtain ⟨h1, ⟨h2, h3⟩, _⟩ := he; exact ⟨h1.symm, h2.symm, h3.symm⟩
  obtain ⟨rfl, h2⟩ := this
  cases h2
  exact ⟨120, rfl⟩

example : ∃ c s0 s, initRound noWin farAway ⟨0⟩ dealKan = .ok (c, s0) ∧ Reached c s0 kanActs s ∧ KansByDrawer kanActs := by
  obtain ⟨s, h1, _⟩ := accepts_ok kanLog_accepted
  obtain ⟨c, s0, h3, h4⟩ := accepted_exact (acts := kanActs) h1 rfl
  exact ⟨c, s0, s, h3, h4, kanActs_byDrawer⟩

/-! ### C42 -/

theorem lastMove_isSome (pre mid : List Act) (d : Act) (hd : d.isMove = true) :
    ∃ m, lastMove (pre ++ d :: mid) = some m := by
  unfold lastMove
  rw [List.filter_append, List.filter_cons_of_pos hd]
  exact ⟨_, List.getLast?_eq_some_getLast (by simp)⟩

/-- an accepted call that is not a kan is a chi or pon and takes a tile -/
theorem call_chiPon {c : RoundCfg} {s s' : RoundSt} {p code : Nat} (e : NakiDone c s s' code p)
    (hk : (is_minkan code || is_ankan code || is_kakan code) = false) :
    (is_chi code || is_pon code) = true ∧ (calledTile code).isSome = true := by
  rw [e.called]
  rcases exposed_size e.exposed_eq with ⟨h1, _, h2⟩ | ⟨_, _, h3, _⟩ | ⟨_, _, _, h3, _⟩ | ⟨_, _, _, _, h3, _⟩
  · exact ⟨by simpa using h1, h2⟩
  · simp [h3] at hk
  · simp [h3] at hk
  · simp [h3] at hk

/-- C42: between two draws there is a discard or a kan. -/
theorem C42_draws {est : Estimate} {sh : List Int → Except PyErr Int} {g : GameInfo} {a : InitAttr}
    {c : RoundCfg} {s0 : RoundSt} (hi : initRound est sh g a = .ok (c, s0)) {pre mid post : List Act} {p t q u : Nat}
    {s : RoundSt} (hr : Reached c s0 (pre ++ .draw p t :: mid ++ .draw q u :: post) s) :
    ∃ m ∈ mid, m.isDiscard = true ∨ m.isKan = true := by
  obtain ⟨s1, s2, h1, h2, _, _⟩ := hr.at
  have ph := (phase_reached hi h1).acq
  cases h2 with
  | draw hp e =>
    rw [e.acquired_none] at ph
    obtain ⟨m, hm⟩ := lastMove_isSome pre mid (.draw p t) rfl
    rw [hm] at ph
    rcases lastMove_mid pre mid _ m rfl hm with rfl | hmem
    · simp [acquiredOf] at ph
    · refine ⟨m, hmem, ?_⟩
      obtain ⟨pre', post', he, hmv, _⟩ := lastMove_split _ _ hm
      cases m with
      | discard => exact .inl rfl
      | draw => simp [acquiredOf] at ph
      | call q' code =>
        right
        show (is_minkan code || is_ankan code || is_kakan code) = true
        cases hk : (is_minkan code || is_ankan code || is_kakan code) with
        | true => rfl
        | false =>
          rw [he] at h1
          obtain ⟨s3, s4, _, he', _, _⟩ := h1.at
          cases he' with
          | call e' =>
            have := (call_chiPon e' hk).2
            simp only [acquiredOf, hk, Bool.false_eq_true, if_false] at ph
            rw [← ph] at this
            simp at this
      | dora => simp [Act.isMove] at hmv
      | declare => simp [Act.isMove] at hmv
      | accept => simp [Act.isMove] at hmv

/-- C42: every discard comes after a draw or a chi or pon, with no draw, discard or call in between. -/
theorem C42_discards {est : Estimate} {sh : List Int → Except PyErr Int} {g : GameInfo} {a : InitAttr}
    {c : RoundCfg} {s0 : RoundSt} (hi : initRound est sh g a = .ok (c, s0)) {pre post : List Act} {p t : Nat}
    {s : RoundSt} (hr : Reached c s0 (pre ++ .discard p t :: post) s) :
    ∃ pre' m mid, pre = pre' ++ m :: mid ∧ (m.isDraw = true ∨ m.isChiPon = true) ∧ ∀ b ∈ mid, b.isMove = false := by
  obtain ⟨s1, s2, h1, h2, _, _⟩ := hr.at
  have ph := (phase_reached hi h1).acq
  cases h2 with
  | discard hp e =>
    rw [e.acquired_eq] at ph
    cases hm : lastMove pre with
    | none => rw [hm] at ph; simp [acquiredOf] at ph
    | some m =>
      rw [hm] at ph
      obtain ⟨pre', mid, he, hmv, hmid⟩ := lastMove_split _ _ hm
      refine ⟨pre', m, mid, he, ?_, hmid⟩
      cases m with
      | draw => exact .inl rfl
      | call q' code =>
        right
        simp only [acquiredOf] at ph
        split at ph
        · simp at ph
        · rename_i hk
          rw [he] at h1
          obtain ⟨s3, s4, _, he', _, _⟩ := h1.at
          cases he' with
          | call e' => exact (call_chiPon e' (by simpa using hk)).1
      | discard => simp [acquiredOf] at ph
      | dora => simp [Act.isMove] at hmv
      | declare => simp [Act.isMove] at hmv
      | accept => simp [Act.isMove] at hmv

/-! ### C43, C44 -/

/-- number of tokens of a list of events -/
def tokensOf (acts : List Act) : Nat := (acts.map Act.tokenCount).sum

theorem turnsFrom_append (n : Nat) (l l' : List Act) :
    turnsFrom n (l ++ l') = turnsFrom n l ++ turnsFrom (n + tokensOf l) l' := by
  induction l generalizing n with
  | nil => simp [turnsFrom, tokensOf]
  | cons a as ih =>
    simp only [List.cons_append, turnsFrom, ih, List.append_assoc, tokensOf, List.map_cons, List.sum_cons]
    rw [Nat.add_assoc]

theorem tokensOf_append (l l' : List Act) : tokensOf (l ++ l') = tokensOf l + tokensOf l' := by
  simp [tokensOf]

theorem map_turn_set {l : List HalfTurn} {i : Nat} {t t' : HalfTurn} (h : l[i]? = some t) (ht : t'.turn = t.turn) :
    (l.set i t').map HalfTurn.turn = l.map HalfTurn.turn := by
  rw [List.map_set, ht]
  apply List.ext_getElem?
  intro j
  by_cases hj : j = i
  · subst hj
    have hlt : j < l.length := (List.getElem?_eq_some_iff.1 h).1
    rw [List.getElem?_set_self (by simpa using hlt), List.getElem?_map, h]
    rfl
  · rw [List.getElem?_set_ne (by omega)]

theorem turns_reached {c : RoundCfg} {s0 : RoundSt} (h0 : s0.halfturns = []) (h0' : s0.encoding_tokens = [])
    {acts : List Act} {s : RoundSt} (hr : Reached c s0 acts s) :
    s.halfturns.map HalfTurn.turn = turnsFrom 0 acts ∧ s.encoding_tokens.length = tokensOf acts := by
  refine hr.induct (P := fun acts s => s.halfturns.map HalfTurn.turn = turnsFrom 0 acts ∧
    s.encoding_tokens.length = tokensOf acts) ?_ ?_
  · simp [h0, h0', turnsFrom, tokensOf]
  · rintro acts s act s' hr ⟨ih1, ih2⟩ he
    rw [turnsFrom_append, tokensOf_append, ← ih1, ← ih2, Nat.zero_add]
    cases he with
    | dora => simp [turnsFrom, Act.turns, tokensOf, Act.tokenCount]
    | declare hp h1 h2 h3 h4 =>
      refine ⟨?_, ?_⟩
      · show (s.halfturns.set _ _).map _ = _
        rw [map_turn_set h2 (turn_markReach _)]
        simp [turnsFrom, Act.turns]
      · simp [tokensOf, Act.tokenCount]
    | accept => simp [turnsFrom, Act.turns, tokensOf, Act.tokenCount]
    | @draw p t _ hp e =>
      rw [e.state_eq]
      refine ⟨?_, ?_⟩
      · show (s.halfturns ++ [_]).map _ = _
        simp [turnsFrom, Act.turns, HalfTurn.turn]
      · show s.encoding_tokens.length = _
        simp [tokensOf, Act.tokenCount]
    | @discard p t _ hp e =>
      rw [e.state_eq]
      refine ⟨?_, ?_⟩
      · show (s.halfturns ++ [_, _]).map _ = _
        simp [turnsFrom, Act.turns, HalfTurn.turn]
      · show (s.encoding_tokens ++ [_]).length = _
        simp [tokensOf, Act.tokenCount]
    | @call p code _ e =>
      rw [e.state_eq]
      refine ⟨?_, ?_⟩
      · show (s.halfturns.set _ _ ++ _).map _ = _
        rw [List.map_append, map_turn_set e.turn_eq (turn_mark _ _)]
        unfold chankanTurn
        by_cases hk : is_kakan code = true <;> simp [turnsFrom, Act.turns, hk, HalfTurn.turn]
      · show (s.encoding_tokens ++ [_]).length = _
        simp [tokensOf, Act.tokenCount]

/-- C43: the half-turns of a round, up to the attached state and decisions, are exactly those the
events call for, in log order. -/
theorem C43_halfturns {est : Estimate} {sh : List Int → Except PyErr Int} {g : GameInfo} {a : InitAttr}
    {c : RoundCfg} {s0 : RoundSt} (hi : initRound est sh g a = .ok (c, s0)) {acts : List Act} {s : RoundSt}
    (hr : Reached c s0 acts s) : s.halfturns.map HalfTurn.turn = turnsFrom 0 acts := by
  obtain ⟨d⟩ := initRound_ok hi
  exact (turns_reached (congrArg RoundSt.halfturns d.state_eq) (congrArg RoundSt.encoding_tokens d.state_eq) hr).1

/-- the token of an event, given the last move before it -/
def tokenOf (last : Option Act) : Act → List (Except PyErr Nat)
  | .dora t => [new_dora2idx (t / 4)]
  | .accept p => [reach2idx p]
  | .call p c => [naki2idx p c]
  | .discard p t => [discard2idx p (t / 4) (acquiredOf last == some t)]
  | _ => []

/-- the tokens of a list of events -/
def tokenStream (last : Option Act) : List Act → List (Except PyErr Nat)
  | [] => []
  | a :: as => tokenOf last a ++ tokenStream (if a.isMove then some a else last) as

theorem tokenStream_snoc (last : Option Act) (l : List Act) (a : Act) :
    tokenStream last (l ++ [a]) = tokenStream last l ++ tokenOf ((lastMove l).or last) a := by
  induction l generalizing last with
  | nil => simp [tokenStream, lastMove]
  | cons b bs ih =>
    rw [List.cons_append, tokenStream, ih, tokenStream, List.append_assoc]
    congr 3
    unfold lastMove
    by_cases hb : b.isMove = true
    · rw [List.filter_cons_of_pos hb, if_pos hb, List.getLast?_cons]
      cases (bs.filter Act.isMove).getLast? <;> simp
    · rw [List.filter_cons_of_neg hb, if_neg hb]

/-- C44: the token list is, in order, the tokens of the discards, calls, accepted riichi and dora
events; draws and riichi announcements contribute none. -/
theorem C44_tokens {est : Estimate} {sh : List Int → Except PyErr Int} {g : GameInfo} {a : InitAttr}
    {c : RoundCfg} {s0 : RoundSt} (hi : initRound est sh g a = .ok (c, s0)) {acts : List Act} {s : RoundSt}
    (hr : Reached c s0 acts s) : s.encoding_tokens.map Except.ok = tokenStream none acts := by
  obtain ⟨d⟩ := initRound_ok hi
  refine hr.induct (P := fun acts s => s.encoding_tokens.map Except.ok = tokenStream none acts) ?_ ?_
  · rw [congrArg RoundSt.encoding_tokens d.state_eq]; rfl
  · intro acts s act s' hr ih he
    have ph := (phase_reached hi hr).acq
    rw [tokenStream_snoc, ← ih]
    simp only [Option.or_none]
    cases he with
    | dora h1 h2 => simp [tokenOf, h2]
    | declare => simp [tokenOf]
    | accept h1 h2 h3 h4 h5 h6 => simp [tokenOf, h6]
    | draw hp e =>
      rw [e.state_eq]
      show s.encoding_tokens.map _ = _
      simp [tokenOf]
    | @discard p t _ hp e =>
      rw [e.state_eq]
      show (s.encoding_tokens ++ [_]).map _ = _
      rw [e.acquired_eq] at ph
      have : (acquiredOf (lastMove acts) == some t) = (e.a == t) := by rw [← ph]; rfl
      simp [tokenOf, this, e.token_eq]
    | call e =>
      rw [e.state_eq]
      show (s.encoding_tokens ++ [_]).map _ = _
      simp [tokenOf, e.token_eq]

/-- C44: as many tokens as there are discards, calls, accepted riichi and dora events -/
theorem C44_count {est : Estimate} {sh : List Int → Except PyErr Int} {g : GameInfo} {a : InitAttr}
    {c : RoundCfg} {s0 : RoundSt} (hi : initRound est sh g a = .ok (c, s0)) {acts : List Act} {s : RoundSt}
    (hr : Reached c s0 acts s) : s.encoding_tokens.length = (acts.map Act.tokenCount).sum := by
  obtain ⟨d⟩ := initRound_ok hi
  exact (turns_reached (congrArg RoundSt.halfturns d.state_eq) (congrArg RoundSt.encoding_tokens d.state_eq) hr).2

/-! ### C45, C46 -/

def Spec.Turn.position : Turn → Nat
  | .during _ n => n
  | .discard _ n _ => n
  | .post _ n => n

theorem position_turn (t : HalfTurn) : t.turn.position = t.position := by cases t <;> rfl

theorem turnsFrom_sorted (n : Nat) (acts : List Act) :
    (turnsFrom n acts).Pairwise (fun x y => x.position ≤ y.position) ∧
    ∀ x ∈ turnsFrom n acts, n ≤ x.position ∧ x.position ≤ n + tokensOf acts := by
  induction acts generalizing n with
  | nil => simp [turnsFrom]
  | cons a as ih =>
    obtain ⟨h1, h2⟩ := ih (n + a.tokenCount)
    have ha : (a.turns n).Pairwise (fun x y => x.position ≤ y.position) ∧
        ∀ x ∈ a.turns n, n ≤ x.position ∧ x.position ≤ n + a.tokenCount := by
      cases a with
      | draw => simp [Act.turns, Turn.position]
      | discard => simp [Act.turns, Turn.position]
      | call p c =>
        by_cases hk : is_kakan c = true <;> simp [Act.turns, hk, Turn.position, Act.tokenCount]
      | dora => simp [Act.turns]
      | declare => simp [Act.turns]
      | accept => simp [Act.turns]
    have ht : tokensOf (a :: as) = a.tokenCount + tokensOf as := by simp [tokensOf]
    rw [turnsFrom]
    refine ⟨?_, ?_⟩
    · rw [List.pairwise_append]
      refine ⟨ha.1, h1, ?_⟩
      intro x hx y hy
      have := ha.2 x hx
      have := h2 y hy
      omega
    · intro x hx
      rcases List.mem_append.1 hx with hx | hx
      · have := ha.2 x hx
        omega
      · have := h2 x hx
        omega

/-- C45: positions are non-decreasing along the half-turns and at most the number of tokens. -/
theorem C45_positions {est : Estimate} {sh : List Int → Except PyErr Int} {g : GameInfo} {a : InitAttr}
    {c : RoundCfg} {s0 : RoundSt} (hi : initRound est sh g a = .ok (c, s0)) {acts : List Act} {s : RoundSt}
    (hr : Reached c s0 acts s) :
    (s.halfturns.map HalfTurn.position).Pairwise (· ≤ ·) ∧
    ∀ h ∈ s.halfturns, h.position ≤ s.encoding_tokens.length := by
  obtain ⟨h1, h2⟩ := turnsFrom_sorted 0 acts
  have he := C43_halfturns hi hr
  rw [← he] at h1 h2
  refine ⟨?_, ?_⟩
  · rw [List.pairwise_map] at h1
    rw [List.pairwise_map]
    exact h1.imp (fun h => by rw [position_turn, position_turn] at h; exact h)
  · intro h hh
    have := (h2 h.turn (List.mem_map_of_mem hh)).2
    rw [C44_count hi hr]
    rw [position_turn] at this
    unfold tokensOf at this
    omega

theorem tokenOf_length (last : Option Act) (a : Act) : (tokenOf last a).length = a.tokenCount := by cases a <;> rfl

theorem tokenStream_length (last : Option Act) (l : List Act) : (tokenStream last l).length = tokensOf l := by
  induction l generalizing last with
  | nil => rfl
  | cons a as ih => simp [tokenStream, ih, tokenOf_length, tokensOf]

theorem tokenStream_append (last : Option Act) (l l' : List Act) :
    ∃ last', tokenStream last (l ++ l') = tokenStream last l ++ tokenStream last' l' := by
  induction l generalizing last with
  | nil => exact ⟨last, rfl⟩
  | cons a as ih =>
    obtain ⟨x, hx⟩ := ih (if a.isMove then some a else last)
    exact ⟨x, by rw [List.cons_append, tokenStream, hx, tokenStream, List.append_assoc]⟩

/-- C46, what holds: let `a` be a discard or call with `n` tokens before it.  Its token is at index
`n`.  The post-turn of a discard has position `n`, so the prefix it selects ends just before the
discard; the post-turn of an added kan has position `n + 1`, so the kan is the last token it
selects. -/
theorem C46_sees_event_partial {est : Estimate} {sh : List Int → Except PyErr Int} {g : GameInfo} {a : InitAttr}
    {c : RoundCfg} {s0 : RoundSt} (hi : initRound est sh g a = .ok (c, s0)) {pre post : List Act} {s : RoundSt}
    {act : Act} (hr : Reached c s0 (pre ++ act :: post) s) :
    s.halfturns.map HalfTurn.turn = turnsFrom 0 pre ++ act.turns (tokensOf pre) ++
      turnsFrom (tokensOf pre + act.tokenCount) post ∧
    (∀ p t, act = .discard p t → act.turns (tokensOf pre) = [.discard p (tokensOf pre) t, .post p (tokensOf pre)] ∧
      ∃ tok x, discard2idx p (t / 4) x = .ok tok ∧ s.encoding_tokens[tokensOf pre]? = some tok) ∧
    (∀ p code, act = .call p code → is_kakan code = true → act.turns (tokensOf pre) = [.post p (tokensOf pre + 1)] ∧
      ∃ tok, naki2idx p code = .ok tok ∧ s.encoding_tokens[tokensOf pre]? = some tok) := by
  refine ⟨?_, ?_, ?_⟩
  · rw [C43_halfturns hi hr, turnsFrom_append, turnsFrom, Nat.zero_add, List.append_assoc]
  · rintro p t rfl
    refine ⟨rfl, ?_⟩
    have he := C44_tokens hi hr
    obtain ⟨last, hl⟩ := tokenStream_append none pre (.discard p t :: post)
    rw [hl] at he
    have h1 := congrArg (fun l => l[tokensOf pre]?) he
    simp only [List.getElem?_map] at h1
    rw [List.getElem?_append_right (by rw [tokenStream_length]; omega), tokenStream_length, Nat.sub_self] at h1
    simp only [tokenStream, tokenOf, List.cons_append, List.getElem?_cons_zero, Option.map_eq_some_iff] at h1
    obtain ⟨tok, h2, h3⟩ := h1
    exact ⟨tok, _, h3.symm, h2⟩
  · rintro p code rfl hk
    refine ⟨by simp [Act.turns, hk], ?_⟩
    have he := C44_tokens hi hr
    obtain ⟨last, hl⟩ := tokenStream_append none pre (.call p code :: post)
    rw [hl] at he
    have h1 := congrArg (fun l => l[tokensOf pre]?) he
    simp only [List.getElem?_map] at h1
    rw [List.getElem?_append_right (by rw [tokenStream_length]; omega), tokenStream_length, Nat.sub_self] at h1
    simp only [tokenStream, tokenOf, List.cons_append, List.getElem?_cons_zero, Option.map_eq_some_iff] at h1
    obtain ⟨tok, h2, h3⟩ := h1
    exact ⟨tok, h3.symm, h2⟩

/-- C46 does not hold, for any discard in any log: the position of the post-turn is at most the
index of the token of the discard. -/
theorem C46_sees_event_violated {est : Estimate} {sh : List Int → Except PyErr Int} {g : GameInfo} {a : InitAttr}
    {c : RoundCfg} {s0 : RoundSt} (hi : initRound est sh g a = .ok (c, s0)) {pre post : List Act} {s : RoundSt}
    {p t : Nat} (hr : Reached c s0 (pre ++ .discard p t :: post) s) :
    ∃ h, s.halfturns[(turnsFrom 0 pre).length + 1]? = some h ∧ h.isPost = true ∧ h.player = p ∧
      h.position = tokensOf pre := by
  have h1 := (C46_sees_event_partial hi hr).1
  have h2 := congrArg (fun l => l[(turnsFrom 0 pre).length + 1]?) h1
  simp only [List.getElem?_map, List.append_assoc] at h2
  rw [List.getElem?_append_right (by omega)] at h2
  simp only [Nat.add_sub_cancel_left, Act.turns, List.cons_append, List.getElem?_cons_succ, List.getElem?_cons_zero,
    Option.map_eq_some_iff] at h2
  obtain ⟨h, h3, h4⟩ := h2
  cases h with
  | during => simp [HalfTurn.turn] at h4
  | discard => simp [HalfTurn.turn] at h4
  | post p' o e ag ns =>
    simp [HalfTurn.turn] at h4
    exact ⟨_, h3, rfl, h4.1, h4.2⟩

/-- the hypotheses can be met, with a kan, a new indicator and a discard in the log -/
example : ∃ c s0 s, initRound noWin farAway ⟨0⟩ dealKan = .ok (c, s0) ∧
    Reached c s0 ([.draw 0 120, .call 0 0, .dora 88, .draw 0 121] ++ .discard 0 121 :: []) s ∧
    turnsFrom 0 kanActs = [.during 0 0, .during 0 2, .discard 0 2 121, .post 0 2] := by
  obtain ⟨s, h1, _⟩ := accepts_ok kanLog_accepted
  obtain ⟨c, s0, h3, h4⟩ := accepted_exact (acts := kanActs) h1 rfl
  exact ⟨c, s0, s, h3, h4, by decide⟩

end MJ
