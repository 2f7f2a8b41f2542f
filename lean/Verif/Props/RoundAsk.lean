import Verif.Props.RoundFlags
/-!
C51, C53: what the hand evaluator is never told.
-/
namespace MJ
open Code Spec

/-! ### Which questions an event can ask -/

/-- a question an event can put to the evaluator, as far as the seat wind and ippatsu go -/
def Asked (c : RoundCfg) (s : RoundSt) (e : Ev) (q : Query) : Prop :=
  q.config.player_wind = c.player_wind ∧
  (q.config.is_ippatsu = true → ∃ pl t, e = .discard pl t ∧ ∃ p, p < 4 ∧ p ≠ pl.val ∧ s.ippatsu p ≠ 0)

theorem ronLoop_congr {est est' : Estimate} {player : Nat} {a : WinArgs} {sut : Nat → Nat → Int} {tile idx : Nat}
    {ck : Bool} {rh : Nat → Bool} (ps : List Nat) (hps : ∀ p ∈ ps, p < 4)
    (h : ∀ q, q.config.player_wind = a.player_wind →
      (∃ p, p < 4 ∧ p ≠ player ∧ q.config.is_ippatsu = (a.ippatsu p != 0)) → est' q = est q)
    (st : (Nat → Nat → Int) × List (Option AgariDecision)) :
    ronLoop est' player a sut tile idx ck rh ps st = ronLoop est player a sut tile idx ck rh ps st := by
  induction ps generalizing st with
  | nil => rfl
  | cons p ps ih =>
    have hp : ronStep est' player a sut tile idx ck rh p st = ronStep est player a sut tile idx ck rh p st := by
      unfold ronStep
      by_cases h1 : p = player
      · simp only [if_pos h1]
      · simp only [if_neg h1]
        by_cases h2 : sut p idx ≠ 0
        · simp only [if_pos h2]
        · simp only [if_neg h2]
          cases nakisToMelds (a.naki_list p) with
          | error e => rfl
          | ok ms =>
            simp only
            rw [h _ ?_ ?_]
            · rfl
            · exact ⟨p, hps p (by simp), h1, rfl⟩
    rw [ronLoop, ronLoop, hp]
    cases ronStep est player a sut tile idx ck rh p st with
    | error e => rfl
    | ok st' => exact ih (fun q hq => hps q (by simp [hq])) st'

theorem evaluate_ron_congr {est est' : Estimate} {player : Nat} {hands : Nat → Nat → Int} {a : WinArgs}
    {sut : Nat → Nat → Int} {tile : Nat} {ck : Bool} {rh : Nat → Bool}
    (h : ∀ q, q.config.player_wind = a.player_wind →
      (∃ p, p < 4 ∧ p ≠ player ∧ q.config.is_ippatsu = (a.ippatsu p != 0)) → est' q = est q) :
    evaluate_ron est' player hands a sut tile ck rh = evaluate_ron est player hands a sut tile ck rh := by
  unfold evaluate_ron
  rw [ronLoop_congr [0, 1, 2, 3] (by decide) h]

theorem evaluate_tsumo_congr {est est' : Estimate} {player : Nat} {hands : Nat → Nat → Int} {a : WinArgs}
    {tile : Nat} {ri te ci : Bool}
    (h : ∀ q, q.config.player_wind = a.player_wind → q.config.is_ippatsu = (a.ippatsu player != 0) → est' q = est q) :
    evaluate_tsumo est' player hands a tile ri te ci = evaluate_tsumo est player hands a tile ri te ci := by
  unfold evaluate_tsumo
  cases nakisToMelds (a.naki_list player) with
  | error e => rfl
  | ok ms =>
    simp only
    rw [h _ ?_ ?_]
    · rfl
    · rfl

/-- the round with another evaluator -/
def RoundCfg.asking (c : RoundCfg) (est : Estimate) : RoundCfg := { c with estimate := est }

theorem clearIppatsu_zero (f : Nat → Nat) (p : Nat) (hp : p < 4) : clearIppatsu f p = 0 := by
  unfold clearIppatsu
  split
  · rfl
  · rename_i h
    have : p = 0 ∨ p = 1 ∨ p = 2 ∨ p = 3 := by omega
    rcases this with rfl | rfl | rfl | rfl <;> omega

theorem chankan_congr {c : RoundCfg} {est : Estimate} {s : RoundSt} {p : Nat} {ex : List Nat} {o : StateObj}
    (hs : ∀ p, p < 4 → s.ippatsu p = 0)
    (h : ∀ q, q.config.player_wind = c.player_wind → q.config.is_ippatsu = false → est q = c.estimate q) :
    chankan (c.asking est) s p ex o = chankan c s p ex o := by
  unfold chankan
  simp only
  rw [evaluate_ron_congr (est := c.estimate) (est' := (c.asking est).estimate)]
  · rfl
  · rintro q h1 ⟨p', hp', _, h2⟩
    apply h q h1
    rw [h2]
    show (s.ippatsu p' != 0) = false
    rw [hs p' hp']
    rfl

theorem bind_congr' {α β : Type} {x : Except PyErr α} {f g : α → Except PyErr β} (h : ∀ a, f a = g a) :
    (x >>= f) = (x >>= g) := by
  cases x with
  | error e => rfl
  | ok a => exact h a

/-- Two evaluators that agree on the questions an event can ask lead to the same state. -/
theorem step_congr {c : RoundCfg} {est : Estimate} {s : RoundSt} {e : Ev}
    (h : ∀ q, Asked c s e q → est q = c.estimate q) : step (c.asking est) s e = step c s e := by
  have hno : ∀ q, q.config.player_wind = c.player_wind → q.config.is_ippatsu = false → est q = c.estimate q :=
    fun q h1 h2 => h q ⟨h1, fun h3 => by rw [h2] at h3; cases h3⟩
  cases e with
  | dora => rfl
  | reach => rfl
  | result => rfl
  | other => rfl
  | naki m who =>
    show stepNaki _ s m who = stepNaki _ s m who
    unfold stepNaki
    refine bind_congr' fun _ => bind_congr' fun code => bind_congr' fun naki => bind_congr' fun p =>
      bind_congr' fun _ => bind_congr' fun token => bind_congr' fun s1 => bind_congr' fun x => ?_
    obtain ⟨ex, acq⟩ := x
    refine bind_congr' fun s2 => ?_
    by_cases hk : is_kakan code = true
    · simp only [hk, if_true]
      rw [show chankan (c.asking est) _ p ex _ = chankan c _ p ex _ from
        chankan_congr (fun p' hp' => clearIppatsu_zero _ _ hp') hno]
      rfl
    · simp only [hk, Bool.false_eq_true, if_false]
      rfl
  | draw p t =>
    show stepDraw _ s p t = stepDraw _ s p t
    unfold stepDraw
    refine bind_congr' fun _ => bind_congr' fun t => bind_congr' fun _ => bind_congr' fun _ => bind_congr' fun _ => ?_
    rw [evaluate_tsumo_congr (est := c.estimate) (est' := (c.asking est).estimate)]
    · rfl
    · intro q h1 h2
      apply hno q h1
      rw [h2]
      show (setAt s.ippatsu p 0 p != 0) = false
      rw [setAt_same]
      rfl
  | discard p t =>
    show stepDiscard _ s p t = stepDiscard _ s p t
    unfold stepDiscard
    refine bind_congr' fun _ => bind_congr' fun _ => bind_congr' fun t' => bind_congr' fun _ => bind_congr' fun _ =>
      bind_congr' fun o => bind_congr' fun _ => ?_
    rw [evaluate_ron_congr (est := c.estimate) (est' := (c.asking est).estimate)]
    · rfl
    · rintro q h1 ⟨p', hp', hne, h2⟩
      refine h q ⟨h1, fun h3 => ⟨p, t, rfl, p', hp', hne, ?_⟩⟩
      rw [h2] at h3
      have h4 : (s.ippatsu p' != 0) = true := h3
      simpa using h4

/-! ### C53 -/

/-- the evaluator with the seat wind replaced by a fixed one -/
def fixWind (w : Nat) (est : Estimate) : Estimate := fun q => est { q with config := { q.config with player_wind := w } }

theorem initRound_asking {est est' : Estimate} {sh : List Int → Except PyErr Int} {g : GameInfo} {a : InitAttr} :
    initRound est' sh g a = (initRound est sh g a).map (fun x => (x.1.asking est', x.2)) := by
  unfold initRound
  cases a.ten with
  | error e => rfl
  | ok scores =>
  cases a.oya with
  | error e => rfl
  | ok parent =>
  simp only [bind, Except.bind]
  cases checkSeat parent with
  | error e => rfl
  | ok _ =>
  simp only
  cases a.seed with
  | error e => rfl
  | ok seed =>
  simp only
  cases unpackSeed seed with
  | error e => rfl
  | ok x =>
  obtain ⟨cr, hb, ky, dora⟩ := x
  simp only
  cases a.hai 0 with
  | error e => rfl
  | ok h0 =>
  cases a.hai 1 with
  | error e => rfl
  | ok h1 =>
  cases a.hai 2 with
  | error e => rfl
  | ok h2 =>
  cases a.hai 3 with
  | error e => rfl
  | ok h3 =>
  simp only
  cases checkTiles (h0 ++ h1 ++ h2 ++ h3) with
  | error e => rfl
  | ok _ =>
  simp only
  cases checkTile dora with
  | error e => rfl
  | ok _ =>
  simp only
  by_cases hl : h0.length = h1.length ∧ h1.length = h2.length ∧ h2.length = h3.length
  · simp only [if_pos hl, pure, Except.pure]
    generalize pyAssert _ = x
    cases x with
    | error e => rfl
    | ok _ =>
    simp only
    generalize pyAssert _ = x
    cases x with
    | error e => rfl
    | ok _ => rfl
  · simp only [if_neg hl]; rfl

theorem runEvents_congr {c : RoundCfg} {est : Estimate} (evs : List Ev) (s : RoundSt)
    (h : ∀ (s : RoundSt) e q, Asked c s e q → est q = c.estimate q) :
    runEvents (c.asking est) evs s = runEvents c evs s := by
  induction evs generalizing s with
  | nil => rfl
  | cons e es ih =>
    by_cases hres : ∃ a sc, e = .result a sc
    · obtain ⟨a, sc, rfl⟩ := hres; rfl
    · have hne : ∀ a sc, e ≠ .result a sc := fun a sc he => hres ⟨a, sc, he⟩
      rw [runEvents_cons _ e es s hne, runEvents_cons _ e es s hne, step_congr (h s e)]
      cases step c s e with
      | error x => rfl
      | ok s' => exact ih s'

theorem init_wind {est : Estimate} {sh : List Int → Except PyErr Int} {g : GameInfo} {a : InitAttr}
    {c : RoundCfg} {s0 : RoundSt} (h : initRound est sh g a = .ok (c, s0)) :
    c.estimate = est ∧ ∃ r hb ky x y d, a.seed = .ok [r, hb, ky, x, y, d] ∧ c.player_wind = r % 4 := by
  obtain ⟨d⟩ := initRound_ok h
  refine ⟨by rw [congrArg RoundCfg.estimate d.cfg_eq], ?_⟩
  exact ⟨_, _, _, _, _, _, d.seed_eq, by rw [congrArg RoundCfg.player_wind d.cfg_eq]; rfl⟩

/-- C53 does not hold: the seat wind given to the evaluator is the number of the round modulo 4, for
whichever player's hand is evaluated.  For every round, whatever its events, replacing the seat wind
in each question by that number gives the same result. -/
theorem C53_seat_wind_violated (est : Estimate) (sh : List Int → Except PyErr Int) (g : GameInfo) (a : InitAttr)
    (evs : List Ev) (r hb ky x y d : Nat) (hseed : a.seed = .ok [r, hb, ky, x, y, d]) :
    processRound (fixWind (r % 4) est) sh g a evs = processRound est sh g a evs := by
  unfold processRound
  rw [initRound_asking (est := est) (est' := fixWind (r % 4) est)]
  cases hi : initRound est sh g a with
  | error e => rfl
  | ok cs =>
    obtain ⟨c, s0⟩ := cs
    obtain ⟨h1, r', hb', ky', x', y', d', h2, h3⟩ := init_wind hi
    rw [hseed] at h2
    simp only [Except.ok.injEq, List.cons.injEq] at h2
    obtain ⟨rfl, _⟩ := h2
    show (runEvents (c.asking _) evs s0 >>= _) = (runEvents c evs s0 >>= _)
    rw [runEvents_congr evs s0]
    intro s e q hq
    rw [h1]
    unfold fixWind
    rw [← h3, ← hq.1]

/-- C53, what holds: the question about a self-drawn win by player `p` carries the wind `r % 4`; this
is the seat wind `(p - dealer) mod 4` for one seat only. -/
theorem C53_seat_wind_partial {est : Estimate} {sh : List Int → Except PyErr Int} {g : GameInfo} {a : InitAttr}
    {c : RoundCfg} {s0 : RoundSt} (hi : initRound est sh g a = .ok (c, s0)) {r hb ky x y d : Nat}
    (hseed : a.seed = .ok [r, hb, ky, x, y, d]) {acts : List Act} {p t : Nat} {s s' : RoundSt}
    (_hr : Reached c s0 acts s) (he : Effect c s (.draw p t) s') :
    (∃ q o e ag rc n, s'.halfturns = s.halfturns ++ [.during p o e ag rc n] ∧
      ((est q = .ok true ∧ ag = [⟨p, false⟩]) ∨ (est q = .ok false ∧ ag = [])) ∧ q.config.player_wind = r % 4) ∧
    ∀ dealer p p' : Nat, p < 4 → p' < 4 → ((p : Int) - dealer) % 4 = (r % 4 : Nat) → ((p' : Int) - dealer) % 4 = (r % 4 : Nat) →
      p = p' := by
  obtain ⟨h1, r', hb', ky', x', y', d', h2, h3⟩ := init_wind hi
  rw [hseed] at h2
  simp only [Except.ok.injEq, List.cons.injEq] at h2
  obtain ⟨rfl, _⟩ := h2
  refine ⟨?_, by intro dealer p p' hp hp' e1 e2; omega⟩
  cases he with
  | draw hp e =>
    obtain ⟨q, hq, hans⟩ := C24_tsumo _ _ _ _ _ _ _ _ _ e.agari_eq
    refine ⟨q, mkStateObj c (drawTile s p t) p, s.encoding_tokens.length, e.agari, e.reach,
      ankanOffers (drawTile s p t) p ++ e.kakan, congrArg RoundSt.halfturns e.state_eq, by rw [← h1]; exact hans, ?_⟩
    obtain ⟨_, _, _, _, hcfg⟩ := hq
    rw [hcfg]
    exact h3

/-! ### C51 -/

/-- the evaluator that is not told about ippatsu -/
def noIppatsu (est : Estimate) : Estimate := fun q => est { q with config := { q.config with is_ippatsu := false } }

/-- riichi is announced by the player who has just drawn -/
def DeclaresByDrawer (acts : List Act) : Prop :=
  ∀ pre p post, acts = pre ++ .declare p :: post → ∃ t, lastMove pre = some (.draw p t)

theorem DeclaresByDrawer.init {acts : List Act} {a : Act} (h : DeclaresByDrawer (acts ++ [a])) : DeclaresByDrawer acts := by
  intro pre p post he
  exact h pre p (post ++ [a]) (by simp [he])

structure IppOk (acts : List Act) (s : RoundSt) : Prop where
  drew : ∀ p t, lastMove acts = some (.draw p t) → ∀ q, q < 4 → q ≠ p → s.ippatsu q = 0
  called : ∀ p code, lastMove acts = some (.call p code) → ∀ q, q < 4 → s.ippatsu q = 0

theorem ippOk_reached {est : Estimate} {sh : List Int → Except PyErr Int} {g : GameInfo} {a : InitAttr}
    {c : RoundCfg} {s0 : RoundSt} (hi : initRound est sh g a = .ok (c, s0)) {acts : List Act} {s : RoundSt}
    (hr : Reached c s0 acts s) (hd : DeclaresByDrawer acts) : IppOk acts s := by
  revert hd
  refine hr.induct (P := fun acts s => DeclaresByDrawer acts → IppOk acts s) ?_ ?_
  · intro _
    exact ⟨by intro p t h; simp [lastMove] at h, by intro p t h; simp [lastMove] at h⟩
  · intro acts s act s' hr ih he hd
    have ih := ih (DeclaresByDrawer.init hd)
    have ph := phase_reached hi hr
    refine ⟨?_, ?_⟩
    · intro p t h q hq hne
      rw [lastMove_snoc] at h
      cases he with
      | dora => exact ih.drew p t h q hq hne
      | @declare p' i tt h1 h2 h3 h4 h5 =>
        obtain ⟨t', ht'⟩ := hd acts p' [] rfl
        have : lastMove acts = some (.draw p t) := h
        rw [ht'] at this
        simp only [Option.some.injEq, Act.draw.injEq] at this
        obtain ⟨rfl, rfl⟩ := this
        show setAt s.ippatsu p' 1 q = 0
        rw [setAt_ne _ _ _ _ hne]
        exact ih.drew p' t' ht' q hq hne
      | accept h1 h2 h3 h4 h5 h6 =>
        obtain ⟨p', u, hl, _, _⟩ := ph.post h2 h3 h4
        have : lastMove acts = some (.draw p t) := h
        rw [hl] at this
        simp at this
      | draw hp e => rw [e.state_eq]; exact clearIppatsu_zero _ _ hq
      | discard hp e => simp [Act.isMove] at h
      | call e => simp [Act.isMove] at h
    · intro p code h q hq
      rw [lastMove_snoc] at h
      cases he with
      | dora => exact ih.called p code h q hq
      | declare h1 h2 h3 h4 h5 =>
        obtain ⟨p', u, hl, _, _⟩ := ph.during h2 h3 h4
        have : lastMove acts = some (.call p code) := h
        rw [hl] at this
        simp at this
      | accept h1 h2 h3 h4 h5 h6 =>
        obtain ⟨p', u, hl, _, _⟩ := ph.post h2 h3 h4
        have : lastMove acts = some (.call p code) := h
        rw [hl] at this
        simp at this
      | draw hp e => simp [Act.isMove] at h
      | discard hp e => simp [Act.isMove] at h
      | call e => rw [e.state_eq]; exact clearIppatsu_zero _ _ hq

/-- C51 does not hold: in a log in which riichi is announced, and closed and added kans are made, by
the player who has just drawn, the evaluator is never told about ippatsu; replacing the flag by
false in every question changes nothing. -/
theorem C51_ippatsu_violated {est : Estimate} {sh : List Int → Except PyErr Int} {g : GameInfo} {a : InitAttr}
    {c : RoundCfg} {s0 : RoundSt} (hi : initRound est sh g a = .ok (c, s0)) {acts : List Act} {s : RoundSt}
    (hr : Reached c s0 acts s) (hk : KansByDrawer acts) (hd : DeclaresByDrawer acts) :
    Reached (c.asking (noIppatsu est)) s0 acts s := by
  induction hr with
  | start => exact .start
  | @next acts s s' e act hr ha hs ih =>
    have hk' := KansByDrawer.init hk
    have hd' := DeclaresByDrawer.init hd
    refine .next (ih hk' hd') ha ?_
    rw [step_congr]
    · exact hs
    · intro q hq
      rw [(init_wind hi).1]
      unfold noIppatsu
      have hf : q.config.is_ippatsu = false := by
        cases hx : q.config.is_ippatsu with
        | false => rfl
        | true =>
          exfalso
          obtain ⟨pl, t, rfl, p, hp, hne, h0⟩ := hq.2 hx
          cases t with
          | error e => simp [Ev.act] at ha
          | ok t =>
          simp only [Ev.act, Option.some.injEq] at ha
          subst ha
          have hip := ippOk_reached hi hr hd'
          rcases C35_discarder hi (pre := acts) (post := []) (.next hr rfl hs) hk with ⟨u, hl⟩ | ⟨code, hl, _⟩
          · exact h0 (hip.drew _ _ hl p hp hne)
          · exact h0 (hip.called _ _ hl p hp)
      have : q = { q with config := { q.config with is_ippatsu := false } } := by
        rw [← hf]
      rw [← this]

/-- the hypotheses can be met by a log with a riichi followed at once by another player's discard,
where ippatsu should count -/
theorem riichiActs_ok : KansByDrawer riichiActs ∧ DeclaresByDrawer riichiActs := by
  refine ⟨?_, ?_⟩
  · intro pre p c post he hk
    have : Act.call p c ∈ riichiActs := by rw [he]; simp
    simp [riichiActs] at this
  · intro pre p post he
    have : pre = [.draw 0 120] ∧ Act.declare p = .declare 0 := by
      rcases pre with _ | ⟨x, _ | ⟨y, _ | ⟨z, _ | ⟨w, _ | ⟨v, _ | ⟨u, pre⟩⟩⟩⟩⟩⟩ <;> simp [riichiActs] at he ⊢
      · obtain ⟨h1, h2, _⟩ := he; exact ⟨h1.symm, h2.symm⟩
    obtain ⟨rfl, h2⟩ := this
    cases h2
    exact ⟨120, rfl⟩

/-- an evaluator that says yes exactly when told about ippatsu never gets to say yes -/
example : accepts (processRound (fun q => .ok q.config.is_ippatsu) farAway ⟨0⟩ deal (riichiLog ++ [.result false (.ok [])]))
    (fun s => s.halfturns.all (fun h => match h with
      | .during _ _ _ ag _ _ => ag.isEmpty
      | .post _ _ _ ag _ => ag.all List.isEmpty
      | .discard .. => true)) = true := by
  decide +kernel

/-- whereas it is told about the riichi itself -/
example : accepts (processRound (fun q => .ok q.config.is_riichi) farAway ⟨0⟩ deal (riichiLog ++ [.result false (.ok [])]))
    (fun s => s.halfturns.any (fun h => match h with
      | .post 1 _ _ ag _ => ag == [[⟨0, false⟩], [], [], []]
      | _ => false)) = true := by
  decide +kernel

end MJ
