import Verif.Props.RoundOrder
/-!
C39, C40, C41, C52: scores, riichi flags, the closed-hand flag, tenhou and chiihou.
-/
namespace MJ
open Code Spec

/-! ### C39 -/

/-- the state object of a half-turn -/
def HalfTurn.obj : HalfTurn → StateObj
  | .during _ o .. => o
  | .discard _ o .. => o
  | .post _ o .. => o

theorem obj_mark (k : Nat) (t : HalfTurn) : (t.mark k).obj = t.obj := by cases t <;> rfl
theorem obj_markReach (t : HalfTurn) : t.markReach.obj = t.obj := by cases t <;> rfl

theorem sum_set_sub (l : List Int) (p : Nat) (v d : Int) (h : l[p]? = some v) : (l.set p (v - d)).sum = l.sum - d := by
  induction l generalizing p with
  | nil => simp at h
  | cons x xs ih =>
    cases p with
    | zero =>
      simp at h
      subst h
      simp only [List.set_cons_zero, List.sum_cons]
      omega
    | succ p =>
      simp only [List.getElem?_cons_succ] at h
      simp only [List.set_cons_succ, List.sum_cons, ih p h]
      omega

/-- half-turns with the same state objects satisfy the same statements about them -/
theorem forall_obj_set {l : List HalfTurn} {i : Nat} {t t' : HalfTurn} {P : StateObj → Prop} (h : l[i]? = some t)
    (ht : t'.obj = t.obj) (hl : ∀ x ∈ l, P x.obj) : ∀ x ∈ l.set i t', P x.obj := by
  intro x hx
  rcases List.mem_or_eq_of_mem_set hx with hx | rfl
  · exact hl x hx
  · rw [ht]; exact hl t (List.mem_of_getElem? h)

structure Points (total : Int) (s : RoundSt) : Prop where
  now : s.scores.sum + 10 * s.kyotaku = total
  kept : ∀ o, s.stateObj = some o → o.scores.sum + 10 * o.kyotaku = total
  turns : ∀ h ∈ s.halfturns, h.obj.scores.sum + 10 * h.obj.kyotaku = total

theorem points_reached {c : RoundCfg} {s0 : RoundSt} (h0 : Points (s0.scores.sum + 10 * s0.kyotaku) s0)
    {acts : List Act} {s : RoundSt} (hr : Reached c s0 acts s) : Points (s0.scores.sum + 10 * s0.kyotaku) s := by
  refine hr.induct (P := fun _ s => Points (s0.scores.sum + 10 * s0.kyotaku) s) h0 ?_
  intro acts s act s' hr ih he
  cases he with
  | dora => exact ⟨ih.now, ih.kept, ih.turns⟩
  | declare h1 h2 h3 h4 h5 => exact ⟨ih.now, ih.kept, forall_obj_set (P := fun o => o.scores.sum + 10 * o.kyotaku = _) h3 (obj_markReach _) ih.turns⟩
  | accept h1 h2 h3 h4 h5 h6 =>
    refine ⟨?_, ih.kept, ih.turns⟩
    show (s.scores.set _ _).sum + 10 * (s.kyotaku + 1) = _
    rw [sum_set_sub _ _ _ _ h5]
    have := ih.now
    omega
  | @draw p t _ hp e =>
    rw [e.state_eq]
    refine ⟨ih.now, ?_, ?_⟩
    · intro o ho
      have : o = mkStateObj c (drawTile s p t) p := (Option.some.inj ho).symm
      subst this
      exact ih.now
    · intro h hh
      rcases List.mem_append.1 hh with hh | hh
      · exact ih.turns h hh
      · simp only [List.mem_singleton] at hh
        subst hh
        exact ih.now
  | @discard p t _ hp e =>
    rw [e.state_eq]
    refine ⟨ih.now, ih.kept, ?_⟩
    intro h hh
    rcases List.mem_append.1 hh with hh | hh
    · exact ih.turns h hh
    · simp only [List.mem_cons, List.not_mem_nil, or_false] at hh
      rcases hh with rfl | rfl <;> exact ih.kept e.o e.obj_eq
  | @call p code _ e =>
    rw [e.state_eq]
    refine ⟨ih.now, ?_, ?_⟩
    · intro o ho
      have : o = nakiObj c s code p := (Option.some.inj ho).symm
      subst this
      exact ih.now
    · intro h hh
      rcases List.mem_append.1 hh with hh | hh
      · exact forall_obj_set (P := fun o => o.scores.sum + 10 * o.kyotaku = _) e.turn_eq (obj_mark _ _) ih.turns h hh
      · unfold chankanTurn at hh
        split at hh
        · simp only [List.mem_singleton] at hh
          subst hh
          exact ih.now
        · simp at hh

/-- C39: the points of the players and the sticks on the table add up to what they were at the start,
now and in every half-turn. -/
theorem C39_points {est : Estimate} {sh : List Int → Except PyErr Int} {g : GameInfo} {a : InitAttr}
    {c : RoundCfg} {s0 : RoundSt} (hi : initRound est sh g a = .ok (c, s0)) {acts : List Act} {s : RoundSt}
    (hr : Reached c s0 acts s) :
    s.scores.sum + 10 * s.kyotaku = s0.scores.sum + 10 * s0.kyotaku ∧
    ∀ h ∈ s.halfturns, h.obj.scores.sum + 10 * h.obj.kyotaku = s0.scores.sum + 10 * s0.kyotaku := by
  obtain ⟨d⟩ := initRound_ok hi
  have h := points_reached (c := c) (s0 := s0) ⟨rfl, by rw [congrArg RoundSt.stateObj d.state_eq]; simp,
    by rw [congrArg RoundSt.halfturns d.state_eq]; simp⟩ hr
  exact ⟨h.now, h.turns⟩

/-- An accepted riichi moves 10 from the declarer to the table and touches nobody else's points;
no other event changes points or sticks. -/
def StickRule (s s' : RoundSt) : Act → Prop
  | .accept p => s'.kyotaku = s.kyotaku + 1 ∧ s'.scores.length = s.scores.length ∧
      ∀ q, s'.scores[q]? = if q = p then s.scores[q]?.map (· - 10) else s.scores[q]?
  | _ => s'.scores = s.scores ∧ s'.kyotaku = s.kyotaku

/-- C39: every event obeys `StickRule`. -/
theorem C39_stick {c : RoundCfg} {s s' : RoundSt} {act : Act} (he : Effect c s act s') : StickRule s s' act := by
  cases he with
  | dora => exact ⟨rfl, rfl⟩
  | declare => exact ⟨rfl, rfl⟩
  | @accept p i token t v h1 h2 h3 h4 h5 h6 =>
    refine ⟨rfl, by simp, fun q => ?_⟩
    show (s.scores.set p (v - 10))[q]? = _
    by_cases hq : q = p
    · subst hq
      rw [if_pos rfl, List.getElem?_set_self (List.getElem?_eq_some_iff.1 h5).1, h5]
      rfl
    · rw [if_neg hq, List.getElem?_set_ne (fun h => hq h.symm)]
  | draw hp e => rw [e.state_eq]; exact ⟨rfl, rfl⟩
  | discard hp e => rw [e.state_eq]; exact ⟨rfl, rfl⟩
  | call e => rw [e.state_eq]; exact ⟨rfl, rfl⟩

/-! ### C40 -/

theorem reaches_effect {c : RoundCfg} {s s' : RoundSt} {act : Act} (he : Effect c s act s') :
    (∀ p, s'.reaches p = if act = .accept p then 1 else s.reaches p) ∧
    (∀ p, s'.double_reaches p = if act = .accept p ∧ s.cycles ≤ 4 ∧ allMenzen s.is_menzen = true then 1
      else s.double_reaches p) := by
  cases he with
  | dora => simp
  | declare => simp
  | @accept p i token t v h1 h2 h3 h4 h5 h6 =>
    refine ⟨fun q => ?_, fun q => ?_⟩
    · show setAt s.reaches p 1 q = _
      by_cases hq : q = p
      · subst hq; simp [setAt]
      · have : ¬ p = q := fun h => hq h.symm
        simp [setAt, hq, this]
    · show (if decide (s.cycles ≤ 4) && allMenzen s.is_menzen then setAt s.double_reaches p 1 else s.double_reaches) q = _
      by_cases hq : q = p
      · subst hq
        by_cases h : (decide (s.cycles ≤ 4) && allMenzen s.is_menzen) = true
        · rw [if_pos h]
          simp only [Bool.and_eq_true, decide_eq_true_eq] at h
          rw [if_pos ⟨rfl, h⟩, setAt_same]
        · rw [if_neg h]
          simp only [Bool.and_eq_true, decide_eq_true_eq] at h
          rw [if_neg (fun x => h x.2)]
      · have : ¬ p = q := fun h => hq h.symm
        simp only [Act.accept.injEq, this, false_and, if_false]
        split
        · rw [setAt_ne _ _ _ _ hq]
        · rfl
  | draw hp e => rw [e.state_eq]; exact ⟨fun _ => by simp [drawTile], fun _ => by simp [drawTile]⟩
  | discard hp e => rw [e.state_eq]; exact ⟨fun _ => by simp [discardTile], fun _ => by simp [discardTile]⟩
  | call e => rw [e.state_eq]; exact ⟨fun _ => by simp, fun _ => by simp⟩

/-- C40: `reaches[p]` is 1 exactly from the moment player `p`'s riichi was accepted, otherwise 0;
`double_reaches[p]` is 0 or 1, and 1 only with `reaches[p]`. -/
theorem C40_riichi {est : Estimate} {sh : List Int → Except PyErr Int} {g : GameInfo} {a : InitAttr}
    {c : RoundCfg} {s0 : RoundSt} (hi : initRound est sh g a = .ok (c, s0)) {acts : List Act} {s : RoundSt}
    (hr : Reached c s0 acts s) (p : Nat) :
    s.reaches p = (if Act.accept p ∈ acts then 1 else 0) ∧
    (s.double_reaches p = 0 ∨ s.double_reaches p = 1) ∧
    (s.double_reaches p = 1 → s.reaches p = 1) := by
  obtain ⟨d⟩ := initRound_ok hi
  have key : s.reaches p = (if Act.accept p ∈ acts then 1 else 0) ∧
      (s.double_reaches p = 0 ∨ (s.double_reaches p = 1 ∧ Act.accept p ∈ acts)) := by
    refine hr.induct (P := fun acts s => s.reaches p = (if Act.accept p ∈ acts then 1 else 0) ∧
      (s.double_reaches p = 0 ∨ (s.double_reaches p = 1 ∧ Act.accept p ∈ acts))) ?_ ?_
    · rw [congrArg RoundSt.reaches d.state_eq, congrArg RoundSt.double_reaches d.state_eq]; simp
    · rintro acts s act s' hr ⟨ih1, ih2⟩ he
      obtain ⟨h1, h2⟩ := reaches_effect he
      rw [h1, h2, ih1]
      by_cases ha : act = .accept p
      · subst ha
        simp only [if_true, List.mem_append, List.mem_singleton, or_true, true_and]
        split
        · simp
        · rcases ih2 with h | h
          · exact .inl h
          · exact .inr ⟨h.1, trivial⟩
      · have : ¬ Act.accept p = act := fun h => ha h.symm
        simp only [ha, if_false, List.mem_append, List.mem_singleton, this, or_false, false_and]
        exact ⟨trivial, ih2⟩
  refine ⟨key.1, ?_, ?_⟩
  · rcases key.2 with h | h
    · exact .inl h
    · exact .inr h.1
  · intro h
    rcases key.2 with h' | h'
    · omega
    · rw [key.1, if_pos h'.2]

/-- C40: riichi once accepted stays for the rest of the round. -/
theorem C40_permanent {est : Estimate} {sh : List Int → Except PyErr Int} {g : GameInfo} {a : InitAttr}
    {c : RoundCfg} {s0 : RoundSt} (hi : initRound est sh g a = .ok (c, s0)) {acts more : List Act} {s s' : RoundSt}
    (hr : Reached c s0 acts s) (hr' : Reached c s more s') (p : Nat) :
    (s.reaches p = 1 → s'.reaches p = 1) ∧ (s.double_reaches p = 1 → s'.double_reaches p = 1) := by
  refine ⟨?_, ?_⟩
  · rw [(C40_riichi hi hr p).1, (C40_riichi hi (hr.trans hr') p).1]
    intro h
    by_cases hm : Act.accept p ∈ acts
    · simp [hm]
    · simp [hm] at h
  · intro h
    refine hr'.induct (P := fun _ s' => s'.double_reaches p = 1) h ?_
    intro acts s1 act s2 _ ih he
    rw [(reaches_effect he).2, ih]
    simp

/-! ### C41 -/

/-- a call from another player -/
def openCallBy (p : Nat) : Act → Bool
  | .call q c => q == p && from_who c != 0
  | _ => false

/-- C41: the closed-hand flag of player `p` is 0 iff `p` made a call with a non-zero source seat,
otherwise 1. -/
theorem C41_menzen {est : Estimate} {sh : List Int → Except PyErr Int} {g : GameInfo} {a : InitAttr}
    {c : RoundCfg} {s0 : RoundSt} (hi : initRound est sh g a = .ok (c, s0)) {acts : List Act} {s : RoundSt}
    (hr : Reached c s0 acts s) (p : Nat) :
    s.is_menzen p = if acts.any (openCallBy p) then 0 else 1 := by
  obtain ⟨d⟩ := initRound_ok hi
  refine hr.induct (P := fun acts s => s.is_menzen p = if acts.any (openCallBy p) then 0 else 1) ?_ ?_
  · rw [congrArg RoundSt.is_menzen d.state_eq]; rfl
  · intro acts s act s' hr ih he
    rw [List.any_append]
    simp only [List.any_cons, List.any_nil, Bool.or_false]
    cases he with
    | dora => simpa [openCallBy] using ih
    | declare => simpa [openCallBy] using ih
    | accept => simpa [openCallBy] using ih
    | draw hp e => rw [e.state_eq]; show s.is_menzen p = _; rw [ih]; simp [openCallBy]
    | discard hp e => rw [e.state_eq]; show s.is_menzen p = _; rw [ih]; simp [openCallBy]
    | @call q code _ e =>
      rw [e.state_eq]
      show (if from_who code ≠ 0 then setAt s.is_menzen q 0 else s.is_menzen) p = _
      by_cases hf : from_who code = 0
      · rw [if_neg (by simp [hf]), ih]; simp [openCallBy, hf]
      · rw [if_pos hf]
        by_cases hq : p = q
        · subst hq; rw [setAt_same]; simp [openCallBy, hf]
        · rw [setAt_ne _ _ _ _ hq, ih]
          have : ¬ q = p := fun h => hq h.symm
          simp [openCallBy, this]

/-! ### C52 -/

/-- the counter of cycles is at least the number of draws -/
theorem cycles_draws {c : RoundCfg} {s0 : RoundSt} {acts : List Act} {s : RoundSt} (hr : Reached c s0 acts s) :
    acts.countP Act.isDraw ≤ s.cycles := by
  refine hr.induct (P := fun acts s => acts.countP Act.isDraw ≤ s.cycles) ?_ ?_
  · simp
  · intro acts s act s' hr ih he
    rw [List.countP_append]
    cases he with
    | dora => simpa [Act.isDraw] using ih
    | declare => simpa [Act.isDraw] using ih
    | accept => simpa [Act.isDraw] using ih
    | draw hp e => rw [e.state_eq]; show _ ≤ s.cycles + 1; simp [Act.isDraw]; exact ih
    | discard hp e => rw [e.state_eq]; show _ ≤ s.cycles; simpa [Act.isDraw] using ih
    | @call q code _ e =>
      rw [e.state_eq]
      show _ ≤ s.cycles + _ + _
      simp [Act.isDraw]
      omega

/-- without a draw nothing is moved -/
theorem no_draw_no_move {est : Estimate} {sh : List Int → Except PyErr Int} {g : GameInfo} {a : InitAttr}
    {c : RoundCfg} {s0 : RoundSt} (hi : initRound est sh g a = .ok (c, s0)) {acts : List Act} {s : RoundSt}
    (hr : Reached c s0 acts s) (h : acts.countP Act.isDraw = 0) : ∀ b ∈ acts, b.isMove = false := by
  revert h
  refine hr.induct (P := fun acts _ => acts.countP Act.isDraw = 0 → ∀ b ∈ acts, b.isMove = false) (by simp) ?_
  intro acts s act s' hr ih he h0
  rw [List.countP_append] at h0
  have ih := ih (by omega)
  have hlm : lastMove acts = none := by
    unfold lastMove
    rw [List.filter_eq_nil_iff.2 (fun b hb => by simp [ih b hb])]
    rfl
  have ph := phase_reached hi hr
  intro b hb
  rcases List.mem_append.1 hb with hb | hb
  · exact ih b hb
  · simp only [List.mem_singleton] at hb
    subst hb
    cases he with
    | dora => rfl
    | declare => rfl
    | accept => rfl
    | draw => simp [Act.isDraw] at h0
    | discard hp e =>
      have := ph.acq
      rw [hlm, e.acquired_eq] at this
      simp [acquiredOf] at this
    | call e =>
      have := ph.cur
      rw [hlm] at this
      simp [CurrOk, e.curr_eq] at this

theorem allMenzen_iff (f : Nat → Nat) : allMenzen f = true ↔ ∀ p, p < 4 → f p ≠ 0 := by
  unfold allMenzen
  simp only [Bool.and_eq_true, bne_iff_ne]
  constructor
  · intro h p hp
    have : p = 0 ∨ p = 1 ∨ p = 2 ∨ p = 3 := by omega
    rcases this with rfl | rfl | rfl | rfl
    · exact h.1.1.1
    · exact h.1.1.2
    · exact h.1.2
    · exact h.2
  · intro h
    exact ⟨⟨⟨h 0 (by omega), h 1 (by omega)⟩, h 2 (by omega)⟩, h 3 (by omega)⟩

/-- C52: at a draw the evaluator is asked one question `q`; the decision list of the during-turn is
its answer; tenhou is set only for the first draw, with no draw, discard or call before; chiihou is
never set for the first or for a fifth or later draw, nor after an open call. -/
theorem C52_tenhou_chiihou {est : Estimate} {sh : List Int → Except PyErr Int} {g : GameInfo} {a : InitAttr}
    {c : RoundCfg} {s0 : RoundSt} (hi : initRound est sh g a = .ok (c, s0)) {pre post : List Act} {p t : Nat} {s : RoundSt}
    (hr : Reached c s0 (pre ++ .draw p t :: post) s) :
    ∃ s1 s2 q o e ag r n, Reached c s0 pre s1 ∧ Reached c s0 (pre ++ [.draw p t]) s2 ∧
      s2.halfturns = s1.halfturns ++ [.during p o e ag r n] ∧
      ((est q = .ok true ∧ ag = [⟨p, false⟩]) ∨ (est q = .ok false ∧ ag = [])) ∧
      q.win_tile = t ∧ q.config.is_tsumo = true ∧
      (q.config.is_tenhou = true → ∀ b ∈ pre, b.isMove = false) ∧
      (q.config.is_chiihou = true → pre.countP Act.isDraw ≤ 3 ∧ q.config.is_tenhou = false ∧
        ∀ q, q < 4 → pre.any (openCallBy q) = false) := by
  obtain ⟨s1, s2, h1, h2, h3, _⟩ := hr.at
  have hest : c.estimate = est := by
    obtain ⟨d⟩ := initRound_ok hi
    rw [congrArg RoundCfg.estimate d.cfg_eq]
  cases h2 with
  | draw hp e =>
    obtain ⟨q, hq, hans⟩ := C24_tsumo _ _ _ _ _ _ _ _ _ e.agari_eq
    obtain ⟨_, hw, _, _, hcfg⟩ := hq
    have hcyc : (drawTile s1 p t).cycles = s1.cycles + 1 := rfl
    have hdr := cycles_draws h1
    refine ⟨s1, s2, q, mkStateObj c (drawTile s1 p t) p, s1.encoding_tokens.length, e.agari, e.reach,
      ankanOffers (drawTile s1 p t) p ++ e.kakan, h1, h3, congrArg RoundSt.halfturns e.state_eq, by rw [← hest]; exact hans,
      hw, by rw [hcfg], ?_, ?_⟩
    · intro ht
      rw [hcfg] at ht
      simp only [hcyc, beq_iff_eq] at ht
      exact no_draw_no_move hi h1 (by omega)
    · intro ht
      rw [hcfg] at ht
      simp only [hcyc, Bool.and_eq_true, decide_eq_true_eq] at ht
      refine ⟨by omega, ?_, ?_⟩
      · rw [hcfg]
        simp only [hcyc, beq_eq_false_iff_ne]
        omega
      · intro q' hq'
        have hm := (allMenzen_iff _).1 ht.2 q' hq'
        have := C41_menzen hi h1 q'
        rw [show (drawTile s1 p t).is_menzen q' = s1.is_menzen q' from rfl, this] at hm
        cases hx : pre.any (openCallBy q') with
        | false => rfl
        | true => simp [hx] at hm

/-- the flags are set at all: an evaluator that says yes exactly when told about tenhou gives the
dealer a decision on the first draw -/
example : accepts (processRound (fun q => .ok q.config.is_tenhou) farAway ⟨0⟩ deal
    [.draw 0 (.ok 120), .discard 0 (.ok 120), .draw 1 (.ok 121), .discard 1 (.ok 121), .result false (.ok [])])
    (fun s => s.halfturns.map (fun h => match h with
      | .during _ _ _ ag _ _ => ag.length
      | _ => 0) == [1, 0, 0, 0, 0, 0]) = true := by
  decide +kernel

/-- and one that says yes exactly when told about chiihou gives the second player one -/
example : accepts (processRound (fun q => .ok q.config.is_chiihou) farAway ⟨0⟩ deal
    [.draw 0 (.ok 120), .discard 0 (.ok 120), .draw 1 (.ok 121), .discard 1 (.ok 121), .result false (.ok [])])
    (fun s => s.halfturns.map (fun h => match h with
      | .during _ _ _ ag _ _ => ag.length
      | _ => 0) == [0, 0, 0, 1, 0, 0]) = true := by
  decide +kernel

/-! ### Witness: a riichi -/

/-- Player 0 draws, announces riichi, discards, the riichi is accepted; player 1 draws and discards. -/
def riichiLog : List Ev :=
  [.draw 0 (.ok 120), .reach (.ok 0) (.ok true), .discard 0 (.ok 120), .reach (.ok 0) (.ok false),
   .draw 1 (.ok 124), .discard 1 (.ok 124)]

def riichiActs : List Act := [.draw 0 120, .declare 0, .discard 0 120, .accept 0, .draw 1 124, .discard 1 124]

theorem riichiLog_accepted : accepts (processRound noWin farAway ⟨0⟩ deal (riichiLog ++ [.result false (.ok [])]))
    (fun s => s.reaches 0 == 1 && s.double_reaches 0 == 1 && s.kyotaku == 1 && s.scores == [240, 250, 250, 250]) = true := by
  decide +kernel

example : ∃ c s0 s, initRound noWin farAway ⟨0⟩ deal = .ok (c, s0) ∧ Reached c s0 riichiActs s ∧ s.reaches 0 = 1 := by
  obtain ⟨s, h1, h2⟩ := accepts_ok riichiLog_accepted
  obtain ⟨c, s0, h3, h4⟩ := accepted_exact (acts := riichiActs) h1 rfl
  simp only [Bool.and_eq_true, beq_iff_eq] at h2
  exact ⟨c, s0, s, h3, h4, h2.1.1.1⟩

end MJ
