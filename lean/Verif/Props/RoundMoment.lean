import Verif.Spec.Moment
import Verif.Props.RoundLegal
import Verif.Props.RoundAsk
import Verif.Props.RoundFirst
/-!
C116-C117: the snapshots of the table are those of the log.
-/
namespace MJ
open Code Spec

/-! ### the snapshots -/

theorem scores_reached {c : RoundCfg} {s0 : RoundSt} {acts : List Act} {s : RoundSt} (hr : Reached c s0 acts s) (q : Nat) :
    s.scores[q]? = s0.scores[q]?.map (fun v => v - 10 * (acts.count (Act.accept q) : Int)) := by
  refine hr.induct (P := fun acts s => s.scores[q]? = s0.scores[q]?.map (fun v => v - 10 * (acts.count (Act.accept q) : Int))) ?_ ?_
  · simp
  intro acts s act s' _ ih he
  have h := C39_stick he
  rw [List.count_append, List.count_singleton]
  cases act with
  | accept p =>
    obtain ⟨_, _, h⟩ := h
    rw [h q, ih]
    by_cases hq : q = p
    · subst hq
      rw [if_pos rfl, if_pos (by simp), Option.map_map]
      congr 1
      funext v
      simp only [Function.comp]
      omega
    · rw [if_neg hq, if_neg (by simp; exact fun h => hq h.symm)]
      rfl
  | _ =>
    rw [h.1, ih]
    simp

theorem mem_threw {q k : Nat} {acts : List Act} :
    (collect (Act.discarded q) acts).any (fun t => decide (InSlot t k)) = true ↔ Act.threwInto q k acts := by
  simp [Act.threwInto]

/-- the state of the program shows the table as it is -/
theorem recorded_reached {est : Estimate} {sh : List Int → Except PyErr Int} {g : GameInfo} {a : InitAttr}
    {c : RoundCfg} {s0 : RoundSt} (hi : initRound est sh g a = .ok (c, s0)) {ten : List Int} {round honba sticks x y first dealer : Nat}
    (hten : a.ten = .ok ten) (hseed : a.seed = .ok [round, honba, sticks, x, y, first]) (hoya : a.oya = .ok dealer)
    {acts : List Act} {s : RoundSt} (hr : Reached c s0 acts s) (p : Nat) :
    Recorded ten g.n_rounds round honba sticks first dealer acts p (mkStateObj c s p) := by
  obtain ⟨⟨r', h', k', x', y', f', e1, e2, e3, e4⟩, e5, _, e6⟩ := C108_table hi hr
  rw [hseed] at e1
  simp only [Except.ok.injEq, List.cons.injEq, and_true] at e1
  obtain ⟨rfl, rfl, rfl, rfl, rfl, rfl⟩ := e1
  rw [hoya] at e5
  simp only [Except.ok.injEq] at e5
  obtain ⟨d⟩ := initRound_ok hi
  have hd := d.seed_eq
  rw [hseed] at hd
  simp only [Except.ok.injEq, List.cons.injEq, and_true] at hd
  obtain ⟨hd1, _⟩ := hd
  have hs0 : s0.scores = ten := by
    have := d.scores_eq
    rw [hten] at this
    rw [congrArg RoundSt.scores d.state_eq]
    simpa using this.symm
  refine ⟨rfl, ?_, ?_, e3, e2, e5.symm, ?_, ?_, ?_, ?_, ?_, ?_⟩
  · intro q
    rw [← hs0]
    exact scores_reached hr q
  · refine e4.trans ?_
    rw [List.countP_eq_length_filter]
    congr 3
  · refine (C38_remaining_draws_partial hi hr).trans ?_
    have : acts.countP isDeadWallCall = acts.countP Act.isOtherCall := by
      congr 1
    unfold wallCount
    rw [this]
    omega
  · exact fun q => (C40_riichi hi hr q).1
  · exact fun q => C109_double_exact hi hr q
  · intro q k
    have h := e6 q k
    show (s.sutehai_tensors q k = 0 ∨ s.sutehai_tensors q k = 1) ∧ (s.sutehai_tensors q k = 1 ↔ _)
    rw [h, ← mem_threw]
    split
    · simp_all
    · simp_all
  · show c.rounds_remaining = _
    rw [congrArg RoundCfg.rounds_remaining d.cfg_eq, hd1]
  · show c.parent_rounds_remaining = _
    rw [congrArg RoundCfg.parent_rounds_remaining d.cfg_eq, hd1]

theorem ippatsu_effect {c : RoundCfg} {s s' : RoundSt} {act : Act} (he : Effect c s act s') (q : Nat) (hq : q < 4) :
    s'.ippatsu q = if act.isTake then 0 else if act = .declare q ∨ act = .accept q then 1 else s.ippatsu q := by
  cases he with
  | dora => simp [Act.isTake]
  | @declare p =>
    by_cases hp : p = q
    · subst hp; simp [Act.isTake, setAt]
    · have : ¬ q = p := fun h => hp h.symm
      simp [Act.isTake, setAt, hp, this]
  | @accept p =>
    by_cases hp : p = q
    · subst hp; simp [Act.isTake, setAt]
    · have : ¬ q = p := fun h => hp h.symm
      simp [Act.isTake, setAt, hp, this]
  | draw hp e => rw [congrArg RoundSt.ippatsu e.state_eq]; exact clearIppatsu_zero _ _ hq
  | discard hp e => rw [congrArg RoundSt.ippatsu e.state_eq]; simp [Act.isTake, discardTile]
  | call e => rw [congrArg RoundSt.ippatsu e.state_eq]; exact clearIppatsu_zero _ _ hq

theorem justDeclared_snoc {acts : List Act} {x : Act} {q : Nat} :
    JustDeclared (acts ++ [x]) q ↔ x.isTake = false ∧ (x = .declare q ∨ x = .accept q ∨ JustDeclared acts q) := by
  constructor
  · rintro ⟨pre, b, post, h1, h2, h3⟩
    rcases List.eq_nil_or_concat post with rfl | ⟨l, y, rfl⟩
    · obtain ⟨rfl, h4⟩ := List.append_inj' h1 rfl
      simp only [List.cons.injEq, and_true] at h4
      subst h4
      refine ⟨?_, ?_⟩
      · rcases h2 with rfl | rfl <;> rfl
      · rcases h2 with h | h
        · exact .inl h
        · exact .inr (.inl h)
    · rw [List.concat_eq_append] at h1 h3
      have h4 : acts ++ [x] = (pre ++ b :: l) ++ [y] := by rw [h1]; simp
      obtain ⟨rfl, h5⟩ := List.append_inj' h4 rfl
      simp only [List.cons.injEq, and_true] at h5
      subst h5
      exact ⟨h3 x (by simp), .inr (.inr ⟨pre, b, l, rfl, h2, fun b hb => h3 b (by simp [hb])⟩)⟩
  · rintro ⟨h0, h⟩
    have hx : x = .declare q ∨ x = .accept q → JustDeclared (acts ++ [x]) q := fun h => ⟨acts, x, [], rfl, h, by simp⟩
    rcases h with h | h | ⟨pre, b, post, rfl, h2, h3⟩
    · exact hx (.inl h)
    · exact hx (.inr h)
    · refine ⟨pre, b, post ++ [x], by simp, h2, ?_⟩
      intro b hb
      rcases List.mem_append.1 hb with hb | hb
      · exact h3 b hb
      · simp only [List.mem_singleton] at hb
        rw [hb]
        exact h0

theorem ippatsu_reached {est : Estimate} {sh : List Int → Except PyErr Int} {g : GameInfo} {a : InitAttr}
    {c : RoundCfg} {s0 : RoundSt} (hi : initRound est sh g a = .ok (c, s0)) {acts : List Act} {s : RoundSt}
    (hr : Reached c s0 acts s) (q : Nat) (hq : q < 4) :
    (s.ippatsu q = 0 ∨ s.ippatsu q = 1) ∧ (s.ippatsu q = 1 ↔ JustDeclared acts q) := by
  obtain ⟨d⟩ := initRound_ok hi
  refine hr.induct (P := fun acts s => (s.ippatsu q = 0 ∨ s.ippatsu q = 1) ∧ (s.ippatsu q = 1 ↔ JustDeclared acts q)) ?_ ?_
  · rw [congrArg RoundSt.ippatsu d.state_eq]
    refine ⟨.inl rfl, by simp, ?_⟩
    rintro ⟨pre, b, post, h, _⟩
    simp at h
  intro acts s act s' _ ih he
  rw [ippatsu_effect he q hq, justDeclared_snoc, ← ih.2]
  cases ht : act.isTake with
  | true => simp
  | false =>
    simp only [Bool.false_eq_true, if_false, true_and]
    by_cases h : act = .declare q ∨ act = .accept q
    · rw [if_pos h]
      rcases h with h | h <;> simp [h]
    · rw [if_neg h]
      refine ⟨ih.1, ?_⟩
      rw [not_or] at h
      simp [h.1, h.2]

/-- C116, own turns: the snapshot taken at a draw shows the table as it is after the draw. -/
theorem C116_draw {est : Estimate} {sh : List Int → Except PyErr Int} {g : GameInfo} {a : InitAttr}
    {c : RoundCfg} {s0 : RoundSt} (hi : initRound est sh g a = .ok (c, s0)) {ten : List Int} {round honba sticks x y first dealer : Nat}
    (hten : a.ten = .ok ten) (hseed : a.seed = .ok [round, honba, sticks, x, y, first]) (hoya : a.oya = .ok dealer)
    {pre post : List Act} {p t : Nat} {s : RoundSt} (hr : Reached c s0 (pre ++ .draw p t :: post) s) :
    ∃ s1 s2 o e ag r n, Reached c s0 pre s1 ∧ Reached c s0 (pre ++ [.draw p t]) s2 ∧
      s2.halfturns = s1.halfturns ++ [.during p o e ag r n] ∧
      Recorded ten g.n_rounds round honba sticks first dealer (pre ++ [.draw p t]) p o := by
  obtain ⟨s1, s2, h1, h2, _, hp, ⟨e⟩⟩ := draw_turn hr
  refine ⟨s1, s2, _, _, _, _, _, h1, h2, congrArg RoundSt.halfturns e.state_eq, ?_⟩
  have h := recorded_reached hi hten hseed hoya h2 p
  rw [e.state_eq] at h
  exact ⟨h.player, h.scores, h.sticks, h.honba, h.indicators, h.dealer, h.wall, h.riichi, h.double, h.discards, h.rounds,
    h.dealerships⟩

/-- the snapshot in force: the one taken at the last draw or call -/
def ObjTaken (ten : List Int) (length round honba sticks first dealer : Nat) (acts : List Act) (o : StateObj) : Prop :=
  ∃ pre b post, acts = pre ++ b :: post ∧ b.isTake = true ∧ (∀ d ∈ post, d.isTake = false) ∧
    Recorded ten length round honba sticks first dealer (pre ++ [b]) b.who o

theorem objTaken_snoc {ten : List Int} {length round honba sticks first dealer : Nat} {acts : List Act} {o : StateObj} {x : Act}
    (h : ObjTaken ten length round honba sticks first dealer acts o) (hx : x.isTake = false) :
    ObjTaken ten length round honba sticks first dealer (acts ++ [x]) o := by
  obtain ⟨pre, b, post, rfl, h1, h2, h3⟩ := h
  refine ⟨pre, b, post ++ [x], by simp, h1, ?_, h3⟩
  intro d hd
  rcases List.mem_append.1 hd with hd | hd
  · exact h2 d hd
  · simp only [List.mem_singleton] at hd
    rw [hd]
    exact hx

theorem naki_recorded {est : Estimate} {sh : List Int → Except PyErr Int} {g : GameInfo} {a : InitAttr}
    {c : RoundCfg} {s0 : RoundSt} (hi : initRound est sh g a = .ok (c, s0)) {ten : List Int} {round honba sticks x y first dealer : Nat}
    (hten : a.ten = .ok ten) (hseed : a.seed = .ok [round, honba, sticks, x, y, first]) (hoya : a.oya = .ok dealer)
    {acts : List Act} {p code : Nat} {s s' : RoundSt} (hr : Reached c s0 (acts ++ [.call p code]) s') (e : NakiDone c s s' code p) :
    Recorded ten g.n_rounds round honba sticks first dealer (acts ++ [.call p code]) p (nakiObj c s code p) := by
  have h := recorded_reached hi hten hseed hoya hr p
  rw [e.state_eq] at h
  exact ⟨h.player, h.scores, h.sticks, h.honba, h.indicators, h.dealer, h.wall, h.riichi, h.double, h.discards, h.rounds,
    h.dealerships⟩

/-- induction that also knows the state after the event -/
theorem Reached.induct_both {c : RoundCfg} {s0 : RoundSt} {P : List Act → RoundSt → Prop} (h0 : P [] s0)
    (hstep : ∀ acts s act s', Reached c s0 acts s → Reached c s0 (acts ++ [act]) s' → P acts s → Effect c s act s' →
      P (acts ++ [act]) s') {acts : List Act} {s : RoundSt} (h : Reached c s0 acts s) : P acts s := by
  induction h with
  | start => exact h0
  | next hr ha hs ih => exact hstep _ _ _ _ hr (.next hr ha hs) ih (Reached.effect ha hs)

theorem objTaken_reached {est : Estimate} {sh : List Int → Except PyErr Int} {g : GameInfo} {a : InitAttr}
    {c : RoundCfg} {s0 : RoundSt} (hi : initRound est sh g a = .ok (c, s0)) {ten : List Int} {round honba sticks x y first dealer : Nat}
    (hten : a.ten = .ok ten) (hseed : a.seed = .ok [round, honba, sticks, x, y, first]) (hoya : a.oya = .ok dealer)
    {acts : List Act} {s : RoundSt} (hr : Reached c s0 acts s) :
    ∀ o, s.stateObj = some o → ObjTaken ten g.n_rounds round honba sticks first dealer acts o := by
  obtain ⟨d⟩ := initRound_ok hi
  refine hr.induct_both (P := fun acts s => ∀ o, s.stateObj = some o →
    ObjTaken ten g.n_rounds round honba sticks first dealer acts o) ?_ ?_
  · rw [congrArg RoundSt.stateObj d.state_eq]; simp
  intro acts s act s' hr hr' ih he o ho
  cases he with
  | dora => exact objTaken_snoc (ih o ho) rfl
  | declare => exact objTaken_snoc (ih o ho) rfl
  | accept => exact objTaken_snoc (ih o ho) rfl
  | @draw p t _ hp e =>
    rw [congrArg RoundSt.stateObj e.state_eq] at ho
    refine ⟨acts, .draw p t, [], rfl, rfl, by simp, ?_⟩
    have h := recorded_reached hi hten hseed hoya hr' p
    rw [e.state_eq] at h
    cases ho
    exact ⟨h.player, h.scores, h.sticks, h.honba, h.indicators, h.dealer, h.wall, h.riichi, h.double, h.discards, h.rounds,
      h.dealerships⟩
  | @discard p t _ hp e =>
    rw [congrArg RoundSt.stateObj e.state_eq] at ho
    exact objTaken_snoc (ih o ho) rfl
  | @call p code _ e =>
    rw [congrArg RoundSt.stateObj e.state_eq] at ho
    cases ho
    exact ⟨acts, .call p code, [], rfl, rfl, by simp, naki_recorded hi hten hseed hoya hr' e⟩

theorem last_split {f : Act → Bool} : ∀ {pre pre' post post' : List Act} {b b' : Act}, pre ++ b :: post = pre' ++ b' :: post' →
    f b = true → f b' = true → (∀ d ∈ post, f d = false) → (∀ d ∈ post', f d = false) → pre = pre' ∧ b = b' ∧ post = post'
  | [], [], _, _, _, _, h, _, _, _, _ => by simpa using h
  | [], y :: l, _, post', _, b', h, _, h2, h3, _ => by
    simp only [List.nil_append, List.cons_append, List.cons.injEq] at h
    have := h3 b' (by rw [h.2]; simp)
    rw [h2] at this
    cases this
  | y :: l, [], post, _, b, _, h, h1, _, _, h4 => by
    simp only [List.nil_append, List.cons_append, List.cons.injEq] at h
    have := h4 b (by rw [← h.2]; simp)
    rw [h1] at this
    cases this
  | y :: l, z :: m, _, _, _, _, h, h1, h2, h3, h4 => by
    simp only [List.cons_append, List.cons.injEq] at h
    obtain ⟨e1, e2, e3⟩ := last_split h.2 h1 h2 h3 h4
    exact ⟨by rw [h.1, e1], e2, e3⟩

/-- C116, discards: the two half-turns of a discard show the table as it was after the draw, chi or pon of the player who
discards. -/
theorem C116_discard {est : Estimate} {sh : List Int → Except PyErr Int} {g : GameInfo} {a : InitAttr}
    {c : RoundCfg} {s0 : RoundSt} (hi : initRound est sh g a = .ok (c, s0)) {ten : List Int} {round honba sticks x y first dealer : Nat}
    (hten : a.ten = .ok ten) (hseed : a.seed = .ok [round, honba, sticks, x, y, first]) (hoya : a.oya = .ok dealer)
    {pre post : List Act} {p t : Nat} {s : RoundSt} (hr : Reached c s0 (pre ++ .discard p t :: post) s)
    (hk : KansByDrawer (pre ++ .discard p t :: post)) :
    ∃ s1 s2 o e ag n, ∃ mid b rest, Reached c s0 pre s1 ∧ Reached c s0 (pre ++ [.discard p t]) s2 ∧
      s2.halfturns = s1.halfturns ++ [.discard p o e t, .post p o e ag n] ∧
      pre = mid ++ b :: rest ∧ b.isTake = true ∧ b.who = p ∧ (∀ d ∈ rest, d.isMove = false) ∧
      Recorded ten g.n_rounds round honba sticks first dealer (mid ++ [b]) p o := by
  have hwho : ∃ m, lastMove pre = some m ∧ m.isTake = true ∧ m.who = p := by
    rcases C35_discarder hi hr hk with ⟨u, h⟩ | ⟨code, h, _⟩
    · exact ⟨_, h, rfl, rfl⟩
    · exact ⟨_, h, rfl, rfl⟩
  obtain ⟨s1, s2, h1, he, h2, _⟩ := hr.at
  obtain ⟨m, hm1, hm2, hm3⟩ := hwho
  obtain ⟨mid, rest, e1, _, e2⟩ := lastMove_split pre m hm1
  cases he with
  | discard hp e =>
    obtain ⟨mid', b', rest', e3, e4, e5, e6⟩ := objTaken_reached hi hten hseed hoya h1 e.o e.obj_eq
    have hnot : ∀ d ∈ rest, d.isTake = false := by
      intro d hd
      have := e2 d hd
      cases d <;> simp_all [Act.isMove, Act.isTake]
    obtain ⟨rfl, rfl, rfl⟩ := last_split (f := Act.isTake) (e1.symm.trans e3) hm2 e4 hnot e5
    refine ⟨s1, s2, e.o, _, _, _, mid, m, rest, h1, h2, congrArg RoundSt.halfturns e.state_eq, e1, hm2, hm3, e2, ?_⟩
    rw [hm3] at e6
    exact e6

/-- C116, added kans: the half-turn in which the kan may be robbed shows the table after the kan. -/
theorem C116_added_kan {est : Estimate} {sh : List Int → Except PyErr Int} {g : GameInfo} {a : InitAttr}
    {c : RoundCfg} {s0 : RoundSt} (hi : initRound est sh g a = .ok (c, s0)) {ten : List Int} {round honba sticks x y first dealer : Nat}
    (hten : a.ten = .ok ten) (hseed : a.seed = .ok [round, honba, sticks, x, y, first]) (hoya : a.oya = .ok dealer)
    {pre post : List Act} {p code : Nat} {s : RoundSt} (hr : Reached c s0 (pre ++ .call p code :: post) s)
    (hk : is_kakan code = true) :
    ∃ s1 s2 o e ag n l, Reached c s0 pre s1 ∧ Reached c s0 (pre ++ [.call p code]) s2 ∧
      l.length = s1.halfturns.length ∧ s2.halfturns = l ++ [.post p o e ag n] ∧
      Recorded ten g.n_rounds round honba sticks first dealer (pre ++ [.call p code]) p o := by
  obtain ⟨s1, s2, h1, he, h2, _⟩ := hr.at
  cases he with
  | call e =>
    refine ⟨s1, s2, nakiObj c s1 code p, s1.encoding_tokens.length + 1, spread e.rons, (List.range 4).map (fun _ => []),
      s1.halfturns.set e.i (e.t.mark e.naki.convenient_naki_code), h1, h2, by simp, ?_, naki_recorded hi hten hseed hoya h2 e⟩
    refine (congrArg RoundSt.halfturns e.state_eq).trans ?_
    show _ ++ chankanTurn c s1 code p e.rons = _
    unfold chankanTurn
    rw [if_pos hk]

/-- C117, exactly what the ippatsu inputs say: at a draw (call) the flag of player `q` is set iff `q` declared or paid for
riichi, nobody drew or called between that and this draw (call), and `q` does not draw. -/
theorem C117_ippatsu_input_partial {est : Estimate} {sh : List Int → Except PyErr Int} {g : GameInfo} {a : InitAttr}
    {c : RoundCfg} {s0 : RoundSt} (hi : initRound est sh g a = .ok (c, s0)) {pre post : List Act} {b : Act} {s : RoundSt}
    (hr : Reached c s0 (pre ++ b :: post) s) (hb : b.isTake = true) :
    ∃ s2 o, Reached c s0 (pre ++ [b]) s2 ∧ s2.stateObj = some o ∧ ∀ q < 4, (o.ippatsu q = 0 ∨ o.ippatsu q = 1) ∧
      (o.ippatsu q = 1 ↔ JustDeclared pre q ∧ (b.isDraw = true → b.who ≠ q)) := by
  obtain ⟨s1, s2, h1, he, h2, _⟩ := hr.at
  have h := fun q hq => ippatsu_reached hi h1 q hq
  cases he with
  | dora => simp [Act.isTake] at hb
  | declare => simp [Act.isTake] at hb
  | accept => simp [Act.isTake] at hb
  | discard => simp [Act.isTake] at hb
  | @draw p t _ hp e =>
    refine ⟨s2, _, h2, congrArg RoundSt.stateObj e.state_eq, ?_⟩
    intro q hq
    show (setAt s1.ippatsu p 0 q = 0 ∨ setAt s1.ippatsu p 0 q = 1) ∧ (setAt s1.ippatsu p 0 q = 1 ↔ _)
    by_cases hqp : q = p
    · subst hqp
      simp [setAt, Act.isDraw, Act.who]
    · have : setAt s1.ippatsu p 0 q = s1.ippatsu q := by simp [setAt, hqp]
      rw [this]
      refine ⟨(h q hq).1, ?_⟩
      have hne : ¬ p = q := fun h => hqp h.symm
      simp [Act.isDraw, Act.who, hne, (h q hq).2]
  | @call p code _ e =>
    refine ⟨s2, _, h2, congrArg RoundSt.stateObj e.state_eq, ?_⟩
    intro q hq
    refine ⟨(h q hq).1, ?_⟩
    show s1.ippatsu q = 1 ↔ _
    simp [Act.isDraw, (h q hq).2]

/-- player 0 declares riichi with the first discard; players 1 and 2 draw -/
def riichiOnceActs : List Act :=
  [.draw 0 120, .declare 0, .discard 0 120, .accept 0, .draw 1 121, .discard 1 121, .draw 2 122]

theorem riichiOnce_accepted : accepts (processRound noWin farAway ⟨0⟩ dealKan (logOf riichiOnceActs ++ [.result false (.ok [])]))
    (fun s => match s.stateObj with | some o => o.player == 2 && o.ippatsu 0 == 0 | none => false) = true := by
  decide +kernel

/-- C117 does not hold: player 0 is in riichi, nobody has called and player 0 has not drawn since, but at player 2's draw
the ippatsu flag of player 0 is off. -/
theorem C117_ippatsu_input_violated :
    ¬ ∀ (est : Estimate) (sh : List Int → Except PyErr Int) (g : GameInfo) (a : InitAttr) (c : RoundCfg) (s0 s : RoundSt)
      (pre mid : List Act) (p q t : Nat) (o : StateObj), initRound est sh g a = .ok (c, s0) → q < 4 → p ≠ q →
      Reached c s0 (pre ++ .accept q :: mid ++ [.draw p t]) s → (∀ d ∈ mid, d.isCall = false) →
      (∀ d ∈ mid, d.isDraw = true → d.who ≠ q) → s.stateObj = some o → o.ippatsu q = 1 := by
  intro h
  obtain ⟨s, h1, h2⟩ := accepts_ok riichiOnce_accepted
  obtain ⟨c, s0, h3, h4⟩ := accepted_exact (acts := riichiOnceActs) h1 rfl
  cases ho : s.stateObj with
  | none => rw [ho] at h2; cases h2
  | some o =>
    rw [ho] at h2
    simp only [Bool.and_eq_true, beq_iff_eq] at h2
    have := h noWin farAway ⟨0⟩ dealKan c s0 s [.draw 0 120, .declare 0, .discard 0 120] [.draw 1 121, .discard 1 121] 2 0 122 o
      h3 (by omega) (by omega) h4 (by decide) (by decide) ho
    rw [h2.2] at this
    cases this

/-- the hypotheses of C116 and C117 can be met -/
example : ∃ c s0 s, initRound noWin farAway ⟨0⟩ dealKan = .ok (c, s0) ∧ dealKan.ten = .ok [250, 250, 250, 250] ∧
    Reached c s0 ([.draw 0 120, .declare 0] ++ .discard 0 120 :: [.accept 0, .draw 1 121, .discard 1 121, .draw 2 122]) s ∧
    JustDeclared [.draw 0 120, .declare 0, .discard 0 120] 0 := by
  obtain ⟨s, h1, _⟩ := accepts_ok riichiOnce_accepted
  obtain ⟨c, s0, h3, h4⟩ := accepted_exact (acts := riichiOnceActs) h1 rfl
  exact ⟨c, s0, s, h3, rfl, h4, [.draw 0 120], .declare 0, [.discard 0 120], rfl, .inl rfl, by decide⟩

end MJ
