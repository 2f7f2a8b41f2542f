import Verif.Props.RoundWins
import Verif.Props.RoundOffers
import Verif.Spec.Moment
/-!
C113, C114: the special circumstances of a win that the evaluator is told of, and furiten; and concrete rounds for
C110-C112.
-/
namespace MJ
open Code Spec

/-- the last half-turn is player `p`'s own turn, and its win decision is the answer to a question of which `P` holds -/
def DrawAsked (est : Estimate) (s : RoundSt) (p : Nat) (P : Query → Prop) : Prop :=
  ∃ q o e ag r n, s.halfturns.getLast? = some (.during p o e ag r n) ∧
    ((est q = .ok true ∧ ag = [⟨p, false⟩]) ∨ (est q = .ok false ∧ ag = [])) ∧ P q

/-- the last half-turn follows a tile of player `p`, and the win decision of `w` is the answer to a question of which `P` holds -/
def RonAsked (est : Estimate) (s : RoundSt) (p w : Nat) (P : Query → Prop) : Prop :=
  ∃ q o e ag n, s.halfturns.getLast? = some (.post p o e ag n) ∧
    ((est q = .ok true ∧ ag[w]? = some [⟨w, false⟩]) ∨ (est q = .ok false ∧ ag[w]? = some [])) ∧ P q

/-- the win decision of the last half-turn, if that is an own turn -/
def drawWins (s : RoundSt) : Option (Nat × List AgariDecision) :=
  match s.halfturns.getLast? with
  | some (.during p _ _ a _ _) => some (p, a)
  | _ => none

/-- the win decisions of the last half-turn, if that follows a tile -/
def ronWins (s : RoundSt) : Option (Nat × List (List AgariDecision)) :=
  match s.halfturns.getLast? with
  | some (.post p _ _ a _) => some (p, a)
  | _ => none

theorem not_drawAsked {f : Query → Bool} {s : RoundSt} {p : Nat} (h : drawWins s = some (p, [])) {P : Query → Prop}
    (hP : ∀ q, P q → f q = true) : ¬ DrawAsked (fun q => .ok (f q)) s p P := by
  rintro ⟨q, o, e, ag, r, n, h1, h2, h3⟩
  simp only [drawWins, h1, Option.some.injEq, Prod.mk.injEq] at h
  obtain ⟨_, rfl⟩ := h
  have := hP q h3
  simp [this] at h2

theorem not_ronAsked {f : Query → Bool} {s : RoundSt} {p w : Nat} {ags : List (List AgariDecision)}
    (h : ronWins s = some (p, ags)) (hw : ags[w]? = some []) {P : Query → Prop}
    (hP : ∀ q, P q → f q = true) : ¬ RonAsked (fun q => .ok (f q)) s p w P := by
  rintro ⟨q, o, e, ag, n, h1, h2, h3⟩
  simp only [ronWins, h1, Option.some.injEq, Prod.mk.injEq] at h
  obtain ⟨_, rfl⟩ := h
  have := hP q h3
  simp [this, hw] at h2

theorem not_drawAsked_of_win {f : Query → Bool} {s : RoundSt} {p : Nat} {d : AgariDecision} {l : List AgariDecision}
    (h : drawWins s = some (p, d :: l)) {P : Query → Prop}
    (hP : ∀ q, P q → f q = false) : ¬ DrawAsked (fun q => .ok (f q)) s p P := by
  rintro ⟨q, o, e, ag, r, n, h1, h2, h3⟩
  simp only [drawWins, h1, Option.some.injEq, Prod.mk.injEq] at h
  obtain ⟨_, rfl⟩ := h
  have := hP q h3
  simp [this] at h2

/-! ### C113 -/

/-- C113, what holds: without kans and new indicators a win by drawing is announced as one with the last tile exactly
when it is the seventieth draw. -/
theorem C113_last_tile_partial {est : Estimate} {sh : List Int → Except PyErr Int} {g : GameInfo} {a : InitAttr}
    {c : RoundCfg} {s0 : RoundSt} (hi : initRound est sh g a = .ok (c, s0)) {acts : List Act} {p t : Nat} {s s' : RoundSt}
    (hr : Reached c s0 acts s) (hr' : Reached c s0 (acts ++ [.draw p t]) s')
    (hkan : ∀ b ∈ acts, b.isOtherCall = false) (hdora : collect Act.doras acts = []) :
    DrawAsked est s' p (fun q => q.config.is_haitei = true ↔ acts.countP Act.isDraw = 69) := by
  obtain ⟨s1, s2, h1, he, h3, h4⟩ := Reached.at (post := []) hr'
  have := h1.det hr
  subst this
  have : s2 = s' := h3.det hr'
  subst this
  have hest : c.estimate = est := by
    obtain ⟨d⟩ := initRound_ok hi
    rw [congrArg RoundCfg.estimate d.cfg_eq]
  cases he with
  | draw hp e =>
    obtain ⟨q, hq, hans⟩ := C24_tsumo _ _ _ _ _ _ _ _ _ e.agari_eq
    obtain ⟨k1, k2, k3, k4, k5⟩ := hq
    refine ⟨q, mkStateObj c (drawTile s1 p t) p, s1.encoding_tokens.length, e.agari, e.reach,
      ankanOffers (drawTile s1 p t) p ++ e.kakan, ?_, by rw [← hest]; exact hans, ?_⟩
    · rw [congrArg RoundSt.halfturns e.state_eq]
      show (s1.halfturns ++ [_]).getLast? = _
      rw [List.getLast?_append, List.getLast?_singleton, Option.some_or]
    · show q.config.is_haitei = true ↔ _
      rw [k5]
      show ((drawTile s1 p t).remaining_tsumo == 0) = true ↔ _
      have hw := wall_told hi h3
      rw [congrArg RoundSt.remaining_tsumo e.state_eq] at hw
      rw [beq_iff_eq]
      refine Iff.trans hw ?_
      unfold wallCount
      rw [collect_snoc, hdora, List.countP_append, List.countP_append, List.countP_eq_zero (p := Act.isOtherCall).2 (fun b hb => by rw [hkan b hb]; simp)]
      simp [Act.isDraw, Act.isOtherCall, Act.doras]

/-- an evaluator that accepts exactly what it is told to be a win after a kan, with the last tile and so on -/
def onRinshan : Estimate := fun q => .ok q.config.is_rinshan
def onHaitei : Estimate := fun q => .ok q.config.is_haitei
def onHoutei : Estimate := fun q => .ok q.config.is_houtei
def onRenhou : Estimate := fun q => .ok q.config.is_renhou
def onChankan : Estimate := fun q => .ok q.config.is_chankan

theorem rinshan_accepted : accepts (processRound onRinshan farAway ⟨0⟩ dealKan
    ([.draw 0 (.ok 120), .naki (.ok 0) (.ok 0), .dora (.ok 88), .draw 0 (.ok 121)] ++ [.result false (.ok [])]))
    (fun s => decide (drawWins s = some (0, []))) = true := by decide +kernel

/-- C113 is violated: the evaluator is not told that the winning tile is drawn after a kan. -/
theorem C113_rinshan_violated :
    ¬ ∀ (est : Estimate) (sh : List Int → Except PyErr Int) (g : GameInfo) (a : InitAttr) (c : RoundCfg) (s0 s' : RoundSt)
      (acts : List Act) (p t : Nat), initRound est sh g a = .ok (c, s0) →
      Reached c s0 (acts ++ [.draw p t]) s' → (∃ code, lastMove acts = some (.call p code) ∧ is_ankan code = true) →
      DrawAsked est s' p (fun q => q.config.is_rinshan = true) := by
  intro h
  obtain ⟨s, h1, h2⟩ := accepts_ok rinshan_accepted
  obtain ⟨c, s0, h3, h4⟩ := accepted_exact (acts := [.draw 0 120, .call 0 0, .dora 88] ++ [.draw 0 121]) h1 rfl
  exact not_drawAsked (of_decide_eq_true h2) (fun _ h => h)
    (h onRinshan farAway ⟨0⟩ dealKan c s0 s _ 0 121 h3 h4 ⟨0, rfl, by decide⟩)

/-- the log entry of an event -/
def Spec.Act.entry : Act → Ev
  | .dora t => .dora (.ok t)
  | .declare p => .reach (.ok p) (.ok true)
  | .accept p => .reach (.ok p) (.ok false)
  | .call p c => .naki (.ok c) (.ok p)
  | .draw p t => .draw (Fin.ofNat 4 p) (.ok t)
  | .discard p t => .discard (Fin.ofNat 4 p) (.ok t)

def logOf (acts : List Act) : List Ev := acts.map Act.entry

theorem map_ev {acts : List Act} (h : acts.all (fun b => decide (b.who < 4)) = true) :
    (logOf acts).map Ev.act = acts.map some := by
  unfold logOf
  rw [List.map_map]
  apply List.map_congr_left
  intro b hb
  have := of_decide_eq_true (List.all_eq_true.1 h b hb)
  cases b <;> simp_all [Act.entry, Ev.act, Act.who, Fin.ofNat, Nat.mod_eq_of_lt]

/-- everyone in turn draws and discards the tiles `l`, beginning with player `i % 4` -/
def goRound : Nat → List Nat → List Act
  | _, [] => []
  | i, t :: l => [.draw (i % 4) t, .discard (i % 4) t] ++ goRound (i + 1) l

/-- the free tiles of the deal `dealKan` -/
def kanWall : List Nat :=
  (List.range 11).map (· + 121) ++ (List.range 3).map (· + 133) ++ (List.range 28).map (· + 92) ++
    (List.range 36).filterMap (fun i => if i % 4 = 0 then none else some (i + 4))

/-- Player 0 makes a closed kan with the first draw; then everyone discards the tile drawn, up to the draw number 68. -/
def kanRoundActs : List Act :=
  [.draw 0 120, .call 0 0, .dora 88] ++ goRound 0 (kanWall.take 66)

set_option maxRecDepth 100000 in
theorem haitei_accepted : accepts (processRound onHaitei farAway ⟨0⟩ dealKan
    (logOf (kanRoundActs ++ [.draw 2 37]) ++ [.result false (.ok [])]))
    (fun s => decide (drawWins s = some (2, [⟨2, false⟩]))) = true := by decide +kernel

/-- C113 is violated: after a kan and a new indicator the evaluator is told of the last tile two draws too early. -/
theorem C113_haitei_violated :
    ¬ ∀ (est : Estimate) (sh : List Int → Except PyErr Int) (g : GameInfo) (a : InitAttr) (c : RoundCfg) (s0 s' : RoundSt)
      (acts : List Act) (p t : Nat), initRound est sh g a = .ok (c, s0) → Reached c s0 (acts ++ [.draw p t]) s' →
      DrawAsked est s' p (fun q => q.config.is_haitei = true ↔ acts.countP Act.isDraw = 69) := by
  intro h
  obtain ⟨s, h1, h2⟩ := accepts_ok haitei_accepted
  obtain ⟨c, s0, h3, h4⟩ := accepted_exact h1 (map_ev (by decide +kernel))
  refine not_drawAsked_of_win (f := fun q => q.config.is_haitei) (of_decide_eq_true h2) (fun q h => ?_)
    (h onHaitei farAway ⟨0⟩ dealKan c s0 s _ 2 37 h3 h4)
  have : kanRoundActs.countP Act.isDraw = 67 := by decide +kernel
  rw [this] at h
  simpa using h

set_option maxRecDepth 100000 in
theorem houtei_accepted : accepts (processRound onHoutei farAway ⟨0⟩ deal
    (logOf (goRound 0 ((List.range 69).map (· + 52)) ++ [.draw 1 121] ++ [.discard 1 121]) ++ [.result false (.ok [])]))
    (fun s => decide (ronWins s = some (1, [[], [], [], []]))) = true := by decide +kernel

/-- C113 is violated: the evaluator is not told that the winning tile is the last discard. -/
theorem C113_houtei_violated :
    ¬ ∀ (est : Estimate) (sh : List Int → Except PyErr Int) (g : GameInfo) (a : InitAttr) (c : RoundCfg) (s0 s' : RoundSt)
      (acts : List Act) (p t w : Nat), initRound est sh g a = .ok (c, s0) → Reached c s0 (acts ++ [.discard p t]) s' →
      w < 4 → w ≠ p → ¬ Threw acts w (t / 4) → acts.countP Act.isDraw = 70 →
      RonAsked est s' p w (fun q => q.config.is_houtei = true) := by
  intro h
  obtain ⟨s, h1, h2⟩ := accepts_ok houtei_accepted
  obtain ⟨c, s0, h3, h4⟩ := accepted_exact h1 (map_ev (by decide +kernel))
  exact not_ronAsked (of_decide_eq_true h2) rfl (fun _ h => h)
    (h onHoutei farAway ⟨0⟩ deal c s0 s (goRound 0 ((List.range 69).map (· + 52)) ++ [.draw 1 121]) 1 121 3 h3 h4 (by decide) (by decide) (by unfold Threw; decide +kernel)
      (by decide +kernel))

theorem renhou_accepted : accepts (processRound onRenhou farAway ⟨0⟩ deal
    (logOf ([.draw 0 120] ++ [.discard 0 120]) ++ [.result false (.ok [])]))
    (fun s => decide (ronWins s = some (0, [[], [], [], []]))) = true := by decide +kernel

/-- C113 is violated: the evaluator is not told that the very first discard can be won by a player who has not drawn yet. -/
theorem C113_renhou_missed_violated :
    ¬ ∀ (est : Estimate) (sh : List Int → Except PyErr Int) (g : GameInfo) (a : InitAttr) (c : RoundCfg) (s0 s' : RoundSt)
      (acts : List Act) (p t w : Nat), initRound est sh g a = .ok (c, s0) → Reached c s0 (acts ++ [.discard p t]) s' →
      w < 4 → w ≠ p → (∀ b ∈ acts, b.isCall = false) → w ∉ acts.flatMap Act.drawer →
      RonAsked est s' p w (fun q => q.config.is_renhou = true) := by
  intro h
  obtain ⟨s, h1, h2⟩ := accepts_ok renhou_accepted
  obtain ⟨c, s0, h3, h4⟩ := accepted_exact h1 (map_ev (by decide +kernel))
  exact not_ronAsked (of_decide_eq_true h2) rfl (fun _ h => h)
    (h onRenhou farAway ⟨0⟩ deal c s0 s [.draw 0 120] 0 120 3 h3 h4 (by decide) (by decide) (by decide) (by decide))

/-- the deal `deal` with player 1 as dealer -/
def deal1 : InitAttr := { deal with oya := .ok 1 }

theorem renhou1_accepted : accepts (processRound onRenhou farAway ⟨0⟩ deal1
    (logOf ([.draw 1 120, .discard 1 120, .draw 2 124] ++ [.discard 2 124]) ++ [.result false (.ok [])]))
    (fun s => decide (ronWins s = some (2, [[⟨0, false⟩], [⟨1, false⟩], [], [⟨3, false⟩]]))) = true := by decide +kernel

/-- C113 is violated: the evaluator is told of a win before the first draw for a dealer who has drawn and discarded. -/
theorem C113_renhou_wrong_violated :
    ¬ ∀ (est : Estimate) (sh : List Int → Except PyErr Int) (g : GameInfo) (a : InitAttr) (c : RoundCfg) (s0 s' : RoundSt)
      (acts : List Act) (p t w : Nat), initRound est sh g a = .ok (c, s0) → Reached c s0 (acts ++ [.discard p t]) s' →
      w < 4 → w ≠ p → w ∈ acts.flatMap Act.drawer → RonAsked est s' p w (fun q => q.config.is_renhou = false) := by
  intro h
  obtain ⟨s, h1, h2⟩ := accepts_ok renhou1_accepted
  obtain ⟨c, s0, h3, h4⟩ := accepted_exact h1 (map_ev (by decide +kernel))
  obtain ⟨q, o, e, ag, n, k1, k2, k3⟩ := h onRenhou farAway ⟨0⟩ deal1 c s0 s [.draw 1 120, .discard 1 120, .draw 2 124] 2 124 1 h3 h4 (by decide) (by decide) (by decide)
  have h2 := of_decide_eq_true h2
  simp only [ronWins, k1, Option.some.injEq, Prod.mk.injEq] at h2
  obtain ⟨_, rfl⟩ := h2
  simp [onRenhou, k3] at k2

/-! ### C114 -/

/-- Player 1 is dealt 2m to 9m, 1p to 4p and a second 4p, and waits for 1m, 4m and 7m; player `p` of the others copies
`p` of the kinds 13..25. -/
def dealtWait (p : Nat) : List Nat :=
  if p = 1 then (List.range 12).map (fun i => 4 * i + 5) ++ [50] else (List.range 13).map (fun i => 4 * i + 52 + p)

def dealWait : InitAttr :=
  { ten := .ok [250, 250, 250, 250], oya := .ok 0, seed := .ok [0, 0, 0, 0, 0, 132], hai := fun p => .ok (dealtWait p) }

/-- an evaluator that knows two complete hands of player 1: with 1m and with 4m -/
def twoHands (q : Query) : Bool :=
  (q.man == [1, 2, 3, 4, 5, 6, 7, 8, 9] || q.man == [2, 3, 4, 4, 5, 6, 7, 8, 9]) && q.pin == [1, 2, 3, 4, 4] && q.sou == [] &&
    q.honors == []

/-- kind `k` would complete the hand of player `w`, by the evaluator -/
def Completes (est : Estimate) (hai : Nat → List Nat) (acts : List Act) (w k : Nat) : Prop :=
  ∃ q, HandStrings q.man q.pin q.sou q.honors (fun j => owned hai acts w j + if j = k then 1 else 0) ∧
    q.win_tile / 4 = k ∧ q.config.is_tsumo = false ∧ est q = .ok true

/-- Player 1 draws and discards 1m, player 2 draws and discards 4m. -/
def furitenActs : List Act := [.draw 0 120, .discard 0 120, .draw 1 0, .discard 1 0, .draw 2 12]

theorem furiten_accepted : accepts (processRound (fun q => .ok (twoHands q)) farAway ⟨0⟩ dealWait
    (logOf (furitenActs ++ [.discard 2 12]) ++ [.result false (.ok [])]))
    (fun s => decide (ronWins s = some (2, [[], [⟨1, false⟩], [], []]))) = true := by decide +kernel

/-- C114, what holds: nobody is offered a win on a tile of a kind they have discarded. -/
theorem C114_same_kind_partial {est : Estimate} {sh : List Int → Except PyErr Int} {g : GameInfo} {a : InitAttr}
    {c : RoundCfg} {s0 : RoundSt} (hi : initRound est sh g a = .ok (c, s0)) {acts : List Act} {p t : Nat} {s : RoundSt}
    (hr : Reached c s0 (acts ++ [.discard p t]) s) :
    ∃ ag, ronWins s = some (p, ag) ∧ ∀ w < 4, Threw acts w (t / 4) → ag[w]? = some [] := by
  obtain ⟨s1, s2, h1, he, h3, h4⟩ := Reached.at (post := []) hr
  have : s2 = s := h3.det hr
  subst this
  cases he with
  | discard hp e =>
    refine ⟨spread e.rons, ?_, ?_⟩
    · unfold ronWins
      rw [congrArg RoundSt.halfturns e.state_eq]
      simp
    · intro w hw ht
      apply (ron_seats e.rons_eq w hw).1
      by_cases hwp : w = p
      · exact .inl hwp
      · right
        rw [show (discardTile s1 p t).sutehai_tensors w = s1.sutehai_tensors w from setAt_ne _ _ _ _ hwp]
        exact (threw_iff hi h1 w _ (by have := e.tile_lt; omega)).2 ht

/-- C114 is violated: a player who has discarded a tile that completes the hand is offered a win on another tile. -/
theorem C114_furiten_violated :
    ¬ ∀ (est : Estimate) (sh : List Int → Except PyErr Int) (g : GameInfo) (a : InitAttr) (hai : Nat → List Nat)
      (c : RoundCfg) (s0 s' : RoundSt) (acts : List Act) (p t w k : Nat) (ag : List (List AgariDecision)),
      initRound est sh g a = .ok (c, s0) → (∀ p < 4, a.hai p = .ok (hai p)) → Reached c s0 (acts ++ [.discard p t]) s' →
      ronWins s' = some (p, ag) → w < 4 → Threw acts w k → Completes est hai acts w k → ag[w]? = some [] := by
  intro h
  obtain ⟨s, h1, h2⟩ := accepts_ok furiten_accepted
  obtain ⟨c, s0, h3, h4⟩ := accepted_exact h1 (map_ev (by decide +kernel))
  have := h (fun q => .ok (twoHands q)) farAway ⟨0⟩ dealWait dealtWait c s0 s furitenActs 2 12 1 0 _ h3 (fun _ _ => rfl) h4
    (of_decide_eq_true h2) (by decide) ⟨0, by decide, rfl⟩
    ⟨⟨[1, 2, 3, 4, 5, 6, 7, 8, 9], [1, 2, 3, 4, 4], [], [], 0, [], [132],
      ⟨false, false, false, false, false, false, false, false, false, false, false, 0, 0, 0, 0⟩⟩, ?_, rfl, rfl, rfl⟩
  · simp at this
  · exact (C27_strings (fun j => owned dealtWait furitenActs 1 j + if j = 0 then 1 else 0)).1

/-- Player 2 discards 1m, which player 1 lets pass, and player 3 discards 4m. -/
def passActs : List Act := [.draw 0 120, .discard 0 120, .draw 1 121, .discard 1 121, .draw 2 0]

theorem passed_accepted : accepts (processRound (fun q => .ok (twoHands q)) farAway ⟨0⟩ dealWait
    (logOf (passActs ++ [.discard 2 0]) ++ [.result false (.ok [])]))
    (fun s => decide (ronWins s = some (2, [[], [⟨1, false⟩], [], []]))) = true := by decide +kernel

theorem again_accepted : accepts (processRound (fun q => .ok (twoHands q)) farAway ⟨0⟩ dealWait
    (logOf (passActs ++ .discard 2 0 :: ([.draw 3 12] ++ [.discard 3 12])) ++ [.result false (.ok [])]))
    (fun s => decide (ronWins s = some (3, [[], [⟨1, false⟩], [], []]))) = true := by decide +kernel

/-- C114 is violated: a player who has let a winning discard pass is offered a win again before the next own draw. -/
theorem C114_passed_violated :
    ¬ ∀ (est : Estimate) (sh : List Int → Except PyErr Int) (g : GameInfo) (a : InitAttr)
      (c : RoundCfg) (s0 s1 s2 : RoundSt) (pre mid : List Act) (p t p' t' w : Nat) (ag ag' : List (List AgariDecision)),
      initRound est sh g a = .ok (c, s0) → Reached c s0 (pre ++ [.discard p t]) s1 → ronWins s1 = some (p, ag) →
      ag[w]? = some [⟨w, false⟩] → Reached c s0 (pre ++ .discard p t :: (mid ++ [.discard p' t'])) s2 →
      w ∉ mid.flatMap Act.drawer → ronWins s2 = some (p', ag') → ag'[w]? = some [] := by
  intro h
  obtain ⟨s1, h1, h2⟩ := accepts_ok passed_accepted
  obtain ⟨c, s0, h3, h4⟩ := accepted_exact h1 (map_ev (by decide +kernel))
  obtain ⟨s2, k1, k2⟩ := accepts_ok again_accepted
  obtain ⟨c', s0', k3, k4⟩ := accepted_exact k1 (map_ev (by decide +kernel))
  rw [h3] at k3
  obtain ⟨rfl, rfl⟩ := Prod.mk.inj (Except.ok.inj k3)
  have := h _ farAway ⟨0⟩ dealWait c s0 s1 s2 passActs [.draw 3 12] 2 0 3 12 1 _ _ h3 h4 (of_decide_eq_true h2) rfl k4
    (by decide) (of_decide_eq_true k2)
  simp at this

/-! ### Concrete rounds for C110-C112 -/

example : CallsOf furitenActs 1 [] := ⟨rfl, by simp, by simp [LogMeld.PonOnce]⟩

/-- player 1 draws the winning tile, and the win is offered -/
example : accepts (processRound (fun q => .ok (twoHands q && q.config.is_tsumo && q.win_tile == 0)) farAway ⟨0⟩ dealWait
    (logOf [.draw 0 120, .discard 0 120, .draw 1 0] ++ [.result false (.ok [])]))
    (fun s => decide (drawWins s = some (1, [⟨1, false⟩]))) = true := by decide +kernel

/-- the added kan of kind 20 by player 1 -/
def addKanCode : Nat := (LogMeld.kakan 3 20 3 2).encode

/-- an evaluator that accepts robbing a kan with the tile 83; player 0 has discarded a tile of the kind -/
example : accepts (processRound (fun q => .ok (q.config.is_chankan && q.win_tile == 83)) farAway ⟨0⟩ dealAdd
    (logOf (addActs 20 83 ++ [.call 1 addKanCode]) ++ [.result false (.ok [])]))
    (fun s => decide (ronWins s = some (1, [[], [], [⟨2, false⟩], [⟨3, false⟩]]))) = true := by decide +kernel

example : (LogMeld.kakan 3 20 3 2).Valid ∧ CallsOf (addActs 20 83) 1 [.pon 3 20 3 2] := by
  refine ⟨by simp [LogMeld.Valid], rfl, by simp [LogMeld.Valid], fun k => ?_⟩
  rw [List.countP_singleton]
  split <;> omega

end MJ
