import Verif.Spec.FirstRound
import Verif.Props.RoundFlags
import Verif.Props.RoundOffers
/-!
C109: double riichi, tenhou and chiihou belong to the uninterrupted first go-around.
-/
namespace MJ
open Code Spec

/-- without calls the counter of cycles is the number of draws -/
theorem cycles_exact {est : Estimate} {sh : List Int → Except PyErr Int} {g : GameInfo} {a : InitAttr}
    {c : RoundCfg} {s0 : RoundSt} (hi : initRound est sh g a = .ok (c, s0)) {acts : List Act} {s : RoundSt}
    (hr : Reached c s0 acts s) (hno : ∀ b ∈ acts, b.isCall = false) : s.cycles = (acts.flatMap Act.drawer).length := by
  obtain ⟨d⟩ := initRound_ok hi
  revert hno
  refine hr.induct (P := fun acts s => (∀ b ∈ acts, b.isCall = false) → s.cycles = (acts.flatMap Act.drawer).length) ?_ ?_
  · intro _; rw [congrArg RoundSt.cycles d.state_eq]; rfl
  intro acts s act s' _ ih he hno
  have ih := ih (fun b hb => hno b (by simp [hb]))
  have hact := hno act (by simp)
  rw [List.flatMap_append, List.flatMap_singleton, List.length_append]
  cases he with
  | dora => simpa [Act.drawer] using ih
  | declare => simpa [Act.drawer] using ih
  | accept => simpa [Act.drawer] using ih
  | draw hp e => rw [congrArg RoundSt.cycles e.state_eq]; show s.cycles + 1 = _; rw [ih]; rfl
  | discard hp e => rw [congrArg RoundSt.cycles e.state_eq]; show s.cycles = _; rw [ih]; rfl
  | call e => simp [Act.isCall] at hact

/-- the closed-hand flags of all four as one statement -/
theorem allMenzen_reached {est : Estimate} {sh : List Int → Except PyErr Int} {g : GameInfo} {a : InitAttr}
    {c : RoundCfg} {s0 : RoundSt} (hi : initRound est sh g a = .ok (c, s0)) {acts : List Act} {s : RoundSt}
    (hr : Reached c s0 acts s) : allMenzen s.is_menzen = true ↔ ∀ p < 4, acts.any (openCallBy p) = false := by
  rw [allMenzen_iff]
  constructor
  · intro h p hp
    have := h p hp
    rw [C41_menzen hi hr p] at this
    cases hx : acts.any (openCallBy p) with
    | false => rfl
    | true => simp [hx] at this
  · intro h p hp
    rw [C41_menzen hi hr p, h p hp]
    simp

theorem no_calls_menzen {acts : List Act} (hno : ∀ b ∈ acts, b.isCall = false) (p : Nat) : acts.any (openCallBy p) = false := by
  rw [List.any_eq_false]
  intro b hb
  have := hno b hb
  cases b <;> simp_all [openCallBy, Act.isCall]

/-- when the draws go round, the player who drew last has drawn only once iff there were at most four draws -/
theorem inTurn_once {dealer : Nat} {l : List Nat} {p : Nat} (hl : ∀ i q, l[i]? = some q → q = (dealer + i) % 4)
    (hlast : l.getLast? = some p) : l.count p ≤ 1 ↔ l.length ≤ 4 := by
  have e : l = (List.range l.length).map (fun i => (dealer + i) % 4) := by
    apply List.ext_getElem?
    intro i
    by_cases hi : i < l.length
    · rw [List.getElem?_map, List.getElem?_range hi, List.getElem?_eq_getElem hi]
      have := hl i l[i] (List.getElem?_eq_getElem hi)
      simp [← this]
    · rw [List.getElem?_eq_none (by omega), List.getElem?_eq_none (by simp; omega)]
  have hne : l.length ≠ 0 := by
    intro h
    rw [List.eq_nil_of_length_eq_zero h] at hlast
    simp at hlast
  rw [List.getLast?_eq_getElem?] at hlast
  have hp := hl _ _ hlast
  generalize l.length = n at e hp hne
  subst e
  obtain ⟨m, rfl⟩ : ∃ m, n = m + 1 := ⟨n - 1, by omega⟩
  rw [Nat.add_sub_cancel] at hp
  rw [List.range_succ, List.map_append, List.count_append, List.map_singleton, ← hp, List.count_singleton_self]
  constructor
  · intro h
    have h0 : List.count p ((List.range m).map (fun i => (dealer + i) % 4)) = 0 := by omega
    rw [List.count_eq_zero] at h0
    refine Classical.byContradiction fun hm => h0 ?_
    refine List.mem_map.2 ⟨m - 4, List.mem_range.2 (by omega), ?_⟩
    omega
  · intro h
    have h0 : List.count p ((List.range m).map (fun i => (dealer + i) % 4)) = 0 := by
      rw [List.count_eq_zero]
      intro hm
      obtain ⟨i, hi', he⟩ := List.mem_map.1 hm
      have := List.mem_range.1 hi'
      omega
    omega

/-- C109: a riichi in the first go-around is always a double riichi: nobody has called, the draws went round the table,
and the player who declares has drawn once. -/
theorem C109_double_complete {est : Estimate} {sh : List Int → Except PyErr Int} {g : GameInfo} {a : InitAttr}
    {c : RoundCfg} {s0 : RoundSt} (hi : initRound est sh g a = .ok (c, s0)) {pre post : List Act} {p dealer : Nat}
    {s : RoundSt} (hr : Reached c s0 (pre ++ .accept p :: post) s) (hturn : InTurn dealer pre)
    (hlast : (pre.flatMap Act.drawer).getLast? = some p) (hfirst : FirstTurn pre p) : s.double_reaches p = 1 := by
  obtain ⟨s1, s2, h1, he, h2, h3⟩ := hr.at
  refine (C40_permanent hi h2 h3 p).2 ?_
  rw [(reaches_effect he).2]
  have hc := cycles_exact hi h1 hfirst.1
  have := (inTurn_once hturn hlast).1 hfirst.2
  rw [if_pos]
  refine ⟨rfl, by omega, ?_⟩
  rw [allMenzen_reached hi h1]
  exact fun q _ => no_calls_menzen hfirst.1 q

/-- C109, what holds of the converse: behind a double riichi there is an accepted riichi before which nobody had called
from another player and at most four tiles had been drawn; if nobody had made a closed kan either, the player was
in the first go-around. -/
theorem C109_double_sound_partial {est : Estimate} {sh : List Int → Except PyErr Int} {g : GameInfo} {a : InitAttr}
    {c : RoundCfg} {s0 : RoundSt} (hi : initRound est sh g a = .ok (c, s0)) {acts : List Act} {p : Nat}
    {s : RoundSt} (hr : Reached c s0 acts s) (hd : s.double_reaches p = 1) :
    ∃ pre post, acts = pre ++ .accept p :: post ∧ (∀ q < 4, pre.any (openCallBy q) = false) ∧
      pre.countP Act.isDraw ≤ 4 ∧
      ((∀ b ∈ pre, b.isCall = false) → ∀ dealer, InTurn dealer pre → (pre.flatMap Act.drawer).getLast? = some p →
        FirstTurn pre p) := by
  revert hd
  obtain ⟨d⟩ := initRound_ok hi
  refine hr.induct (P := fun acts s => s.double_reaches p = 1 → ∃ pre post, acts = pre ++ .accept p :: post ∧
    (∀ q < 4, pre.any (openCallBy q) = false) ∧ pre.countP Act.isDraw ≤ 4 ∧
      ((∀ b ∈ pre, b.isCall = false) → ∀ dealer, InTurn dealer pre → (pre.flatMap Act.drawer).getLast? = some p →
        FirstTurn pre p)) ?_ ?_
  · intro h; rw [congrArg RoundSt.double_reaches d.state_eq] at h; simp at h
  intro acts s act s' hr ih he h
  rw [(reaches_effect he).2] at h
  by_cases hc : act = .accept p ∧ s.cycles ≤ 4 ∧ allMenzen s.is_menzen = true
  · obtain ⟨rfl, h1, h2⟩ := hc
    refine ⟨acts, [], rfl, (allMenzen_reached hi hr).1 h2, ?_, ?_⟩
    · have := cycles_draws hr; omega
    · intro hno dealer ht hl
      have := cycles_exact hi hr hno
      exact ⟨hno, (inTurn_once ht hl).2 (by omega)⟩
  · rw [if_neg hc] at h
    obtain ⟨pre, post, rfl, h1⟩ := ih h
    exact ⟨pre, post ++ [act], by simp, h1⟩

/-- as long as nobody has called from another player, the program counts the turns of the log -/
theorem cycles_counted {est : Estimate} {sh : List Int → Except PyErr Int} {g : GameInfo} {a : InitAttr}
    {c : RoundCfg} {s0 : RoundSt} (hi : initRound est sh g a = .ok (c, s0)) {acts : List Act} {s : RoundSt}
    (hr : Reached c s0 acts s) (hno : ∀ r < 4, ¬ HasOpened acts r) : s.cycles = (acts.map Act.turnsCounted).sum := by
  obtain ⟨d⟩ := initRound_ok hi
  revert hno
  refine hr.induct (P := fun acts s => (∀ r < 4, ¬ HasOpened acts r) → s.cycles = (acts.map Act.turnsCounted).sum) ?_ ?_
  · intro _; rw [congrArg RoundSt.cycles d.state_eq]; rfl
  intro acts s act s' _ ih he hno
  have ih := ih (fun r hr ⟨code, h1, h2⟩ => hno r hr ⟨code, by simp [h1], h2⟩)
  rw [List.map_append, List.sum_append, ← ih]
  cases he with
  | dora => simp [Act.turnsCounted]
  | declare => simp [Act.turnsCounted]
  | accept => simp [Act.turnsCounted]
  | draw hp e => rw [congrArg RoundSt.cycles e.state_eq]; rfl
  | discard hp e => rw [congrArg RoundSt.cycles e.state_eq]; rfl
  | @call p code _ e =>
    rw [congrArg RoundSt.cycles e.state_eq]
    have hp := e.player_lt
    have h0 : from_who code = 0 := by
      refine Classical.byContradiction fun h => hno p hp ⟨code, by simp, h⟩
    have hm : (((p : Int) - (from_who code : Nat)) % 4).toNat = p := by rw [h0]; omega
    show s.cycles + _ + _ = s.cycles + (p + _ + 0)
    rw [hm]
    omega

/-- C109, exactly: who is marked as having declared a double riichi. -/
theorem C109_double_exact {est : Estimate} {sh : List Int → Except PyErr Int} {g : GameInfo} {a : InitAttr}
    {c : RoundCfg} {s0 : RoundSt} (hi : initRound est sh g a = .ok (c, s0)) {acts : List Act} {s : RoundSt}
    (hr : Reached c s0 acts s) (q : Nat) :
    (s.double_reaches q = 0 ∨ s.double_reaches q = 1) ∧ (s.double_reaches q = 1 ↔ DoubleMarked acts q) := by
  obtain ⟨d⟩ := initRound_ok hi
  refine hr.induct (P := fun acts s => (s.double_reaches q = 0 ∨ s.double_reaches q = 1) ∧
    (s.double_reaches q = 1 ↔ DoubleMarked acts q)) ?_ ?_
  · rw [congrArg RoundSt.double_reaches d.state_eq]
    refine ⟨.inl rfl, by simp, ?_⟩
    rintro ⟨pre, post, h, _⟩
    simp at h
  intro acts s act s' hr ih he
  have keep : DoubleMarked acts q → DoubleMarked (acts ++ [act]) q := by
    rintro ⟨pre, post, rfl, h⟩
    exact ⟨pre, post ++ [act], by simp, h⟩
  have hmen : allMenzen s.is_menzen = true ↔ ∀ r < 4, ¬ HasOpened acts r := by
    rw [allMenzen_reached hi hr]
    refine forall_congr' fun r => forall_congr' fun _ => ?_
    rw [← any_open]
    simp
  rw [(reaches_effect he).2]
  by_cases hc : act = .accept q ∧ s.cycles ≤ 4 ∧ allMenzen s.is_menzen = true
  · rw [if_pos hc]
    obtain ⟨rfl, h1, h2⟩ := hc
    have h3 := hmen.1 h2
    exact ⟨.inr rfl, fun _ => ⟨acts, [], rfl, h3, by rw [← cycles_counted hi hr h3]; exact h1⟩, fun _ => rfl⟩
  · rw [if_neg hc]
    refine ⟨ih.1, fun h => keep (ih.2.1 h), ?_⟩
    rintro ⟨pre, post, h1, h2, h3⟩
    rcases List.eq_nil_or_concat post with rfl | ⟨l, y, rfl⟩
    · obtain ⟨rfl, h4⟩ := List.append_inj' h1 rfl
      simp only [List.cons.injEq, and_true] at h4
      refine absurd ⟨h4, ?_, hmen.2 h2⟩ hc
      rw [cycles_counted hi hr h2]
      exact h3
    · rw [List.concat_eq_append] at h1
      have h4 : acts ++ [act] = (pre ++ .accept q :: l) ++ [y] := by rw [h1]; simp
      obtain ⟨rfl, _⟩ := List.append_inj' h4 rfl
      exact ih.2.2 ⟨pre, l, rfl, h2, h3⟩

/-- Player 0 draws, makes a closed kan, draws again and declares riichi. -/
def kanRiichiLog : List Ev :=
  [.draw 0 (.ok 120), .naki (.ok 0) (.ok 0), .dora (.ok 88), .draw 0 (.ok 121), .reach (.ok 0) (.ok true),
   .discard 0 (.ok 121), .reach (.ok 0) (.ok false)]

def kanRiichiActs : List Act :=
  [.draw 0 120, .call 0 0, .dora 88, .draw 0 121, .declare 0, .discard 0 121, .accept 0]

theorem kanRiichi_accepted : accepts (processRound noWin farAway ⟨0⟩ dealKan (kanRiichiLog ++ [.result false (.ok [])]))
    (fun s => s.double_reaches 0 == 1) = true := by decide +kernel

/-- C109 is violated: a riichi after a closed kan is taken for a double riichi. -/
theorem C109_double_violated :
    ¬ ∀ (est : Estimate) (sh : List Int → Except PyErr Int) (g : GameInfo) (a : InitAttr) (c : RoundCfg) (s0 s : RoundSt)
      (acts : List Act) (p : Nat), initRound est sh g a = .ok (c, s0) → Reached c s0 acts s → s.double_reaches p = 1 →
      ∃ pre post, acts = pre ++ .accept p :: post ∧ FirstTurn pre p := by
  intro h
  obtain ⟨s, h1, h2⟩ := accepts_ok kanRiichi_accepted
  obtain ⟨c, s0, h3, h4⟩ := accepted_exact (acts := kanRiichiActs) h1 rfl
  obtain ⟨pre, post, he, hf, _⟩ := h noWin farAway ⟨0⟩ dealKan c s0 s kanRiichiActs 0 h3 h4 (by simpa using h2)
  have hmem : Act.call 0 0 ∈ pre := by
    have hm : Act.call 0 0 ∈ kanRiichiActs.take pre.length := by
      have hlen : 6 ≤ pre.length := by
        refine Classical.byContradiction fun hlt => ?_
        have hx : kanRiichiActs[pre.length]? = some (.accept 0) := by rw [he]; simp
        have : pre.length = 0 ∨ pre.length = 1 ∨ pre.length = 2 ∨ pre.length = 3 ∨ pre.length = 4 ∨ pre.length = 5 := by omega
        rcases this with h | h | h | h | h | h <;> rw [h] at hx <;> simp [kanRiichiActs] at hx
      rw [List.mem_take_iff_getElem]
      exact ⟨1, by simp [kanRiichiActs]; omega, rfl⟩
    rw [he, List.take_left] at hm
    exact hm
  have := hf _ hmem
  simp [Act.isCall] at this

/-- C109: the evaluator is told of tenhou exactly for the very first draw, and of chiihou whenever one, two or three
tiles were drawn before and nobody has called. -/
theorem C109_first_draw {est : Estimate} {sh : List Int → Except PyErr Int} {g : GameInfo} {a : InitAttr}
    {c : RoundCfg} {s0 : RoundSt} (hi : initRound est sh g a = .ok (c, s0)) {pre post : List Act} {p t : Nat} {s : RoundSt}
    (hr : Reached c s0 (pre ++ .draw p t :: post) s) :
    ∃ s1 s2 q o e ag r n, Reached c s0 pre s1 ∧ Reached c s0 (pre ++ [.draw p t]) s2 ∧
      s2.halfturns = s1.halfturns ++ [.during p o e ag r n] ∧
      ((est q = .ok true ∧ ag = [⟨p, false⟩]) ∨ (est q = .ok false ∧ ag = [])) ∧
      (q.config.is_tenhou = true ↔ ∀ b ∈ pre, b.isMove = false) ∧
      ((∀ b ∈ pre, b.isCall = false) →
        (q.config.is_chiihou = true ↔ 1 ≤ (pre.flatMap Act.drawer).length ∧ (pre.flatMap Act.drawer).length ≤ 3)) := by
  obtain ⟨s1, s2, h1, h2, h3, _⟩ := hr.at
  have hest : c.estimate = est := by
    obtain ⟨d⟩ := initRound_ok hi
    rw [congrArg RoundCfg.estimate d.cfg_eq]
  cases h2 with
  | draw hp e =>
    obtain ⟨q, hq, hans⟩ := C24_tsumo _ _ _ _ _ _ _ _ _ e.agari_eq
    obtain ⟨_, hw, _, _, hcfg⟩ := hq
    have hcyc : (drawTile s1 p t).cycles = s1.cycles + 1 := rfl
    have hdr := cycles_draws h1
    refine ⟨s1, s2, q, mkStateObj c (drawTile s1 p t) p, s1.encoding_tokens.length, e.agari, e.reach,
      ankanOffers (drawTile s1 p t) p ++ e.kakan, h1, h3, congrArg RoundSt.halfturns e.state_eq, by rw [← hest]; exact hans,
      ?_, ?_⟩
    · rw [hcfg]
      simp only [hcyc, beq_iff_eq]
      constructor
      · intro ht
        exact no_draw_no_move hi h1 (by omega)
      · intro hno
        have hc := cycles_exact hi h1 (fun b hb => by have := hno b hb; cases b <;> simp_all [Act.isMove, Act.isCall])
        have : pre.flatMap Act.drawer = [] := by
          rw [List.flatMap_eq_nil_iff]
          intro b hb
          have := hno b hb
          cases b <;> simp_all [Act.isMove, Act.drawer]
        rw [this] at hc
        simp at hc
        omega
    · intro hno
      have hc := cycles_exact hi h1 hno
      rw [hcfg]
      simp only [hcyc, Bool.and_eq_true, decide_eq_true_eq]
      have hm : allMenzen (drawTile s1 p t).is_menzen = true := by
        rw [show (drawTile s1 p t).is_menzen = s1.is_menzen from rfl, allMenzen_reached hi h1]
        exact fun q _ => no_calls_menzen hno q
      simp only [hm, and_true]
      omega

/-- the win decisions of the last half-turn, if that is an own turn -/
def lastWins (s : RoundSt) : Option (Nat × List AgariDecision) :=
  match s.halfturns.getLast? with
  | some (.during p _ _ ag _ _) => some (p, ag)
  | _ => none

theorem kanChiihou_accepted : accepts (processRound (fun q => .ok q.config.is_chiihou) farAway ⟨0⟩ dealKan
      (kanRiichiLog.take 4 ++ [.result false (.ok [])]))
    (fun s => decide (lastWins s = some (0, [⟨0, false⟩]))) = true := by decide +kernel

/-- C109 is violated: the dealer, after a closed kan, draws again, and the evaluator is told of chiihou.  (It is asked
for its opinion on the flag alone here, so that the decision list shows what it was told.) -/
theorem C109_chiihou_violated :
    ¬ ∀ (sh : List Int → Except PyErr Int) (g : GameInfo) (a : InitAttr) (c : RoundCfg) (s0 s : RoundSt)
      (pre : List Act) (p t : Nat) (ag : List AgariDecision),
      initRound (fun q => .ok q.config.is_chiihou) sh g a = .ok (c, s0) → Reached c s0 (pre ++ [.draw p t]) s →
      lastWins s = some (p, ag) → ag ≠ [] → FirstTurn pre p := by
  intro h
  obtain ⟨s, h1, h2⟩ := accepts_ok kanChiihou_accepted
  obtain ⟨c, s0, h3, h4⟩ := accepted_exact (acts := kanRiichiActs.take 4) h1 rfl
  obtain ⟨hf, _⟩ := h farAway ⟨0⟩ dealKan c s0 s (kanRiichiActs.take 3) 0 121 [⟨0, false⟩] h3 h4 (by simpa using h2) (by simp)
  have := hf (.call 0 0) (by simp [kanRiichiActs])
  simp [Act.isCall] at this

/-- the hypotheses of `C109_double_complete` can be met -/
example : InTurn 0 [Act.draw 0 120, .declare 0, .discard 0 120] ∧
    ([Act.draw 0 120, .declare 0, .discard 0 120].flatMap Act.drawer).getLast? = some 0 ∧
    FirstTurn [Act.draw 0 120, .declare 0, .discard 0 120] 0 := by
  refine ⟨?_, rfl, ?_, by decide⟩
  · intro i p h
    have : i = 0 ∨ 1 ≤ i := by omega
    rcases this with rfl | h'
    · simp [Act.drawer] at h; omega
    · have : ([Act.draw 0 120, .declare 0, .discard 0 120].flatMap Act.drawer)[i]? = none :=
        List.getElem?_eq_none (by simp [Act.drawer]; omega)
      rw [this] at h; simp at h
  · intro a ha
    simp at ha
    rcases ha with rfl | rfl | rfl <;> rfl

end MJ
