import Verif.Spec.Wins
import Verif.Props.RoundFirst
import Verif.Props.RoundTiles
import Verif.Props.RoundTable
import Verif.Props.MeldLog
/-!
C110-C112: the wins that are offered, and the questions behind them.
-/
namespace MJ
open Code Spec

/-! ### The hand -/

theorem slot_kind (l : List Nat) (hl : ∀ t ∈ l, t < 136) (k : Nat) (hk : k < 34) : cnt l k = kindCount l k := by
  rw [cnt_eq]
  unfold slotCount kindCount
  apply List.countP_congr
  intro t ht
  have := hl t ht
  rw [decide_eq_true_eq, beq_iff_eq]
  unfold InSlot
  constructor
  · rintro (h | ⟨_, h⟩ | ⟨_, h⟩ | ⟨_, h⟩) <;> omega
  · exact .inl

/-- the tensor handed to the evaluator counts the tiles the player has -/
theorem full_owned {est : Estimate} {sh : List Int → Except PyErr Int} {g : GameInfo} {a : InitAttr}
    {c : RoundCfg} {s0 : RoundSt} (hi : initRound est sh g a = .ok (c, s0)) {hai : Nat → List Nat} {first : Nat}
    (hd : a.Deals hai first) {acts : List Act} {s : RoundSt} (hr : Reached c s0 acts s) (p k : Nat) (hp : p < 4)
    (hk : k < 34) : s.hand_tensors_full p k = owned hai acts p k := by
  obtain ⟨d⟩ := initRound_ok hi
  have hh := (d.deals hd).1 p hp
  unfold owned
  refine hr.induct (P := fun acts s => s.hand_tensors_full p k =
    (kindCount (hai p ++ collect (Act.drawn p) acts ++ collect (Act.called p) acts) k : Nat) -
    (kindCount (collect (Act.discarded p) acts) k : Nat)) ?_ ?_
  · rw [congrArg RoundSt.hand_tensors_full d.state_eq]
    show countTiles (d.hai p) (fun _ => 0) 1 k = _
    rw [countTiles_eq, slot_kind _ (d.hai_lt p) k hk, hh]
    simp [collect, kindCount]
  · intro acts s act s' hr ih he
    simp only [collect_snoc, kindCount_append] at ih ⊢
    cases he with
    | dora => show s.hand_tensors_full p k = _; rw [ih]; simp [Act.drawn, Act.called, Act.discarded, kindCount]
    | declare => show s.hand_tensors_full p k = _; rw [ih]; simp [Act.drawn, Act.called, Act.discarded, kindCount]
    | accept => show s.hand_tensors_full p k = _; rw [ih]; simp [Act.drawn, Act.called, Act.discarded, kindCount]
    | @call q code _ e =>
      rw [congrArg RoundSt.hand_tensors_full e.state_eq]
      show gain s.hand_tensors_full q e.acq p k = _
      simp only [Act.drawn, Act.called, Act.discarded, e.called]
      have hlt := e.acq_lt
      cases hacq : e.acq with
      | none => simp [gain, ih, kindCount]
      | some x =>
        rw [hacq] at hlt
        simp only [gain, addRow, Option.toList_some]
        by_cases hq : q = p
        · subst hq
          rw [setAt_same, addAt_tile, ih, if_pos rfl, slot_kind [x] hlt k hk]
          simp only [kindCount, List.countP_nil]
          omega
        · have : ¬ p = q := fun h => hq h.symm
          rw [setAt_ne _ _ _ _ this, ih, if_neg hq]
          simp [kindCount]
    | @draw q t _ hq e =>
      rw [congrArg RoundSt.hand_tensors_full e.state_eq]
      show addRow _ _ _ _ p k = _
      simp only [addRow, Act.drawn, Act.called, Act.discarded]
      by_cases hq : q = p
      · subst hq
        rw [setAt_same, addAt_tile, ih, if_pos rfl, slot_kind [t] (by simpa using e.tile_lt) k hk]
        simp only [kindCount, List.countP_nil]
        omega
      · have : ¬ p = q := fun h => hq h.symm
        rw [setAt_ne _ _ _ _ this, ih, if_neg hq]
        simp [kindCount]
    | @discard q t _ hq e =>
      rw [congrArg RoundSt.hand_tensors_full e.state_eq]
      show addRow _ _ _ _ p k = _
      simp only [addRow, Act.drawn, Act.called, Act.discarded]
      by_cases hq : q = p
      · subst hq
        rw [setAt_same, addAt_tile, ih, if_pos rfl, slot_kind [t] (by simpa using e.tile_lt) k hk]
        simp only [kindCount, List.countP_nil]
        omega
      · have : ¬ p = q := fun h => hq h.symm
        rw [setAt_ne _ _ _ _ this, ih, if_neg hq]
        simp [kindCount]

theorem suitDigits_congr {ds : List Nat} {h h' : Nat → Int} {base n : Nat} (e : ∀ k, k < base + n → h k = h' k)
    (hs : SuitDigits ds h base n) : SuitDigits ds h' base n := by
  refine ⟨hs.1, fun d => ?_⟩
  rw [hs.2 d]
  by_cases hd : 1 ≤ d ∧ d ≤ n
  · rw [if_pos hd, if_pos hd, e _ (by omega)]
  · rw [if_neg hd, if_neg hd]

theorem handStrings_congr {m p s o : List Nat} {h h' : Nat → Int} (e : ∀ k < 34, h k = h' k)
    (hs : HandStrings m p s o h) : HandStrings m p s o h' :=
  ⟨suitDigits_congr (fun k hk => e k (by omega)) hs.1, suitDigits_congr (fun k hk => e k (by omega)) hs.2.1,
   suitDigits_congr (fun k hk => e k (by omega)) hs.2.2.1, suitDigits_congr (fun k hk => e k (by omega)) hs.2.2.2⟩

/-! ### The table -/

theorem onTable_mem {ms : List LogMeld} {m : LogMeld} (h : m ∈ LogMeld.onTable ms) : m ∈ ms := by
  induction ms with
  | nil => simp [LogMeld.onTable] at h
  | cons x xs ih =>
    cases x with
    | pon src k u w =>
      simp only [LogMeld.onTable] at h
      split at h
      · exact List.mem_cons_of_mem _ (ih h)
      · rcases List.mem_cons.1 h with rfl | h
        · simp
        · exact List.mem_cons_of_mem _ (ih h)
    | _ =>
      simp only [LogMeld.onTable] at h
      rcases List.mem_cons.1 h with rfl | h
      · simp
      · exact List.mem_cons_of_mem _ (ih h)

theorem laidOut {ms : List LogMeld} {args : List MeldArg} (hv : ∀ m ∈ ms, m.Valid)
    (h : args.map (Except.ok (ε := PyErr)) = ((LogMeld.onTable ms).map LogMeld.encode).map nakiToMeld) :
    LaidOut (LogMeld.onTable ms) args := by
  refine ⟨by simpa using congrArg List.length h, ?_⟩
  intro i m arg hm ha
  have h1 : (args.map (Except.ok (ε := PyErr)))[i]? = some (.ok arg) := by rw [List.getElem?_map, ha]; rfl
  rw [h, List.getElem?_map, List.getElem?_map, hm] at h1
  simp only [Option.map_some, Option.some.injEq] at h1
  have hval := hv m (onTable_mem (List.mem_of_getElem? hm))
  obtain ⟨x, hx, hdesc⟩ := C26_melds m.encode ((C93_covers m.encode).2 ⟨m, hval, rfl⟩)
  rw [hx] at h1
  simp only [Except.ok.injEq] at h1
  rw [← h1]
  exact hdesc

/-- the program's counter of draws left is used up -/
theorem wall_told {est : Estimate} {sh : List Int → Except PyErr Int} {g : GameInfo} {a : InitAttr}
    {c : RoundCfg} {s0 : RoundSt} (hi : initRound est sh g a = .ok (c, s0)) {acts : List Act} {s : RoundSt}
    (hr : Reached c s0 acts s) : s.remaining_tsumo = 0 ↔ wallCount acts = 70 := by
  rw [C38_remaining_draws_partial hi hr]
  unfold wallCount
  have e : isDeadWallCall = Act.isOtherCall := by
    funext b
    cases b <;> rfl
  rw [← e]
  omega

theorem draws_drawers (acts : List Act) : acts.countP Act.isDraw = (acts.flatMap Act.drawer).length := by
  induction acts with
  | nil => rfl
  | cons b l ih =>
    rw [List.countP_cons, List.flatMap_cons, List.length_append, ih]
    cases b <;> simp [Act.isDraw, Act.drawer, Nat.add_comm]

/-- the arguments of the evaluator that do not depend on the kind of win -/
theorem atTable {est : Estimate} {sh : List Int → Except PyErr Int} {g : GameInfo} {a : InitAttr}
    {c : RoundCfg} {s0 : RoundSt} (hi : initRound est sh g a = .ok (c, s0)) {first round honba sticks x y : Nat}
    (hseed : a.seed = .ok [round, honba, sticks, x, y, first])
    {acts : List Act} {s : RoundSt} (hr : Reached c s0 acts s) (p : Nat) {ms : List LogMeld} (hms : CallsOf acts p ms)
    {q : Query} (h1 : q.dora_indicators = s.doras)
    (h2 : q.melds.map (Except.ok (ε := PyErr)) = ((s.melds p).map (·.naki_code)).map nakiToMeld)
    (h3 : q.config.is_riichi = (s.reaches p != 0)) (h4 : q.config.is_daburu_riichi = (s.double_reaches p != 0))
    (h5 : q.config.round_wind = c.round_wind) (h6 : q.config.tsumi_number = c.honba)
    (h7 : q.config.kyoutaku_number = s.kyotaku) : AtTable first round honba sticks acts ms p q := by
  obtain ⟨⟨r', hb', st', x', y', f', hs', e1, e2, e3⟩, _⟩ := C108_table hi hr
  rw [hseed] at hs'
  simp only [Except.ok.injEq, List.cons.injEq] at hs'
  obtain ⟨rfl, rfl, rfl, rfl, rfl, rfl, _⟩ := hs'
  obtain ⟨f1, f2, f3⟩ := C40_riichi hi hr p
  obtain ⟨d⟩ := initRound_ok hi
  have hround : d.curr_round = round := by
    have := d.seed_eq
    rw [hseed] at this
    simp only [Except.ok.injEq, List.cons.injEq] at this
    exact this.1.symm
  refine ⟨h1.trans e1, ?_, ?_, ?_, ?_, h6.trans e2, ?_⟩
  · apply laidOut hms.valid
    rw [h2, C107_melds hi hr p ms hms.codes hms.valid hms.once]
  · rw [h3, f1]
    by_cases hm : Act.accept p ∈ acts <;> simp [hm]
  · rw [h3, h4]
    intro h
    have : s.double_reaches p = 1 := by
      rcases f2 with h0 | h0
      · rw [h0] at h; simp at h
      · exact h0
    rw [f3 this]
    rfl
  · rw [h5, congrArg RoundCfg.round_wind d.cfg_eq]
    show d.curr_round / 4 = _
    rw [hround]
  · rw [h7, e3, List.countP_eq_length_filter]
    have : ∀ f : Act → Bool, (∀ b, f b = b.isStick) → acts.filter f = acts.filter Act.isStick :=
      fun f hf => by rw [show f = Act.isStick from funext hf]
    rw [this _ (fun b => by cases b <;> rfl)]

/-! ### C110 -/

/-- C110: at every draw exactly one question is asked, about all tiles the player has, with the drawn tile as the
winning tile and the table as it is; the own turn holds the player's win decision if the answer is yes and none if it is no. -/
theorem C110_own_win {est : Estimate} {sh : List Int → Except PyErr Int} {g : GameInfo} {a : InitAttr}
    {c : RoundCfg} {s0 : RoundSt} (hi : initRound est sh g a = .ok (c, s0)) {hai : Nat → List Nat}
    {first round honba sticks x y : Nat} (hhai : ∀ p < 4, a.hai p = .ok (hai p))
    (hseed : a.seed = .ok [round, honba, sticks, x, y, first])
    {acts : List Act} {p t : Nat} {s s' : RoundSt} (hr : Reached c s0 acts s) (hr' : Reached c s0 (acts ++ [.draw p t]) s')
    {ms : List LogMeld} (hms : CallsOf acts p ms) :
    ∃ q o e ag r n, s'.halfturns = s.halfturns ++ [.during p o e ag r n] ∧
      ((est q = .ok true ∧ ag = [⟨p, false⟩]) ∨ (est q = .ok false ∧ ag = [])) ∧
      HandStrings q.man q.pin q.sou q.honors (owned hai (acts ++ [.draw p t]) p) ∧ q.win_tile = t ∧
      AtTable first round honba sticks acts ms p q ∧ q.config.is_tsumo = true ∧ q.config.is_chankan = false ∧
      q.config.is_rinshan = false ∧ q.config.is_houtei = false ∧ q.config.is_renhou = false ∧
      (q.config.is_haitei = true ↔ wallCount (acts ++ [.draw p t]) = 70) := by
  obtain ⟨s1, s2, h1, he, h3, h4⟩ := Reached.at (post := []) hr'
  have := h1.det hr
  subst this
  have : s2 = s' := h3.det hr'
  subst this
  have hest : c.estimate = est := by
    obtain ⟨d⟩ := initRound_ok hi
    rw [congrArg RoundCfg.estimate d.cfg_eq]
  cases he with
  | draw hp e =>
    obtain ⟨q, hq, hans⟩ := C24_tsumo _ _ _ _ _ _ _ _ _ e.agari_eq
    obtain ⟨k1, k2, k3, k4, k5⟩ := hq
    refine ⟨q, mkStateObj c (drawTile s1 p t) p, s1.encoding_tokens.length, e.agari, e.reach,
      ankanOffers (drawTile s1 p t) p ++ e.kakan, congrArg RoundSt.halfturns e.state_eq, by rw [← hest]; exact hans,
      ?_, k2, ?_, by rw [k5], by rw [k5], by rw [k5], by rw [k5], by rw [k5], ?_⟩
    · refine handStrings_congr (fun k hk => ?_) k1
      rw [← full_owned hi ⟨hhai, _, _, _, _, _, hseed⟩ h3 p k hp hk, congrArg RoundSt.hand_tensors_full e.state_eq]
    · exact atTable hi hseed h1 p hms k3 k4 (by rw [k5]; rfl) (by rw [k5]; rfl) (by rw [k5]; rfl) (by rw [k5]; rfl)
        (by rw [k5]; rfl)
    · rw [k5, ← wall_told hi h3]
      show ((drawTile s1 p t).remaining_tsumo == 0) = true ↔ _
      rw [congrArg RoundSt.remaining_tsumo e.state_eq]
      exact beq_iff_eq

/-! ### C111, C112 -/

theorem ronStep_asked {est : Estimate} {player : Nat} {a : WinArgs} {sutehai : Nat → Nat → Int} {tile idx : Nat}
    {ck : Bool} {rh : Nat → Bool} {p : Nat} {hands : Nat → Nat → Int} {l : List (Option AgariDecision)} {st' : _}
    (h : ronStep est player a sutehai tile idx ck rh p (hands, l) = .ok st') (hp : p ≠ player) (hs : sutehai p idx = 0) :
    ∃ q b, RonQuery q (hands p) a p tile idx ck (rh p) ∧ est q = .ok b := by
  unfold ronStep at h
  rw [if_neg hp, if_neg (by simpa using hs)] at h
  dsimp only at h
  have hhand : (setAt hands p (setAt (hands p) idx (hands p idx + 1))) p = (fun k => if k = idx then hands p k + 1 else hands p k) := by
    funext k
    simp only [setAt, if_true]
    by_cases hk : k = idx
    · subst hk; simp
    · simp [hk]
  rw [hhand] at h
  cases hm : nakisToMelds (a.naki_list p) with
  | error e => simp [hm] at h
  | ok ms =>
    simp only [hm] at h
    generalize hq : (Query.mk _ _ _ _ _ _ _ _) = q at h
    have hQ : RonQuery q (hands p) a p tile idx ck (rh p) := by
      subst hq
      exact ⟨(C27_strings (fun k => if k = idx then hands p k + 1 else hands p k)).1, rfl, rfl,
        nakisToMelds_ok _ _ hm, rfl⟩
    cases hest : est q with
    | error e => simp [hest] at h
    | ok r => exact ⟨q, r, hQ, hest⟩

theorem ronLoop_asked {est : Estimate} {player : Nat} {a : WinArgs} {sutehai : Nat → Nat → Int} {tile : Nat}
    {ck : Bool} {rh : Nat → Bool} {hands : Nat → Nat → Int} (ps : List Nat) {l : List (Option AgariDecision)} {st' : _}
    (h : ronLoop est player a sutehai tile (tile / 4) ck rh ps (hands, l) = .ok st') (p : Nat) (hm : p ∈ ps)
    (hp : p ≠ player) (hs : sutehai p (tile / 4) = 0) :
    ∃ q b, RonQuery q (hands p) a p tile (tile / 4) ck (rh p) ∧ est q = .ok b := by
  induction ps generalizing l with
  | nil => simp at hm
  | cons x xs ih =>
    unfold ronLoop at h
    cases hx : ronStep est player a sutehai tile (tile / 4) ck rh x (hands, l) with
    | error e => simp [hx] at h
    | ok st =>
      simp only [hx] at h
      rcases List.mem_cons.1 hm with rfl | hm
      · exact ronStep_asked hx hp hs
      · have e1 := (ronStep_ok est player a sutehai tile (tile / 4) ck rh x hands l st hx).1
        have hst : st = (hands, st.2) := by rw [← e1]
        rw [hst] at h
        exact ih h hm

theorem ronQuery_unique {q q' : Query} {h : Nat → Int} {a : WinArgs} {p tile idx : Nat} {ck rh : Bool}
    (hQ : RonQuery q h a p tile idx ck rh) (h' : RonQuery q' h a p tile idx ck rh) : q' = q := by
  obtain ⟨⟨a1, a2, a3, a4⟩, b, c, d, e⟩ := hQ
  obtain ⟨⟨a1', a2', a3', a4'⟩, b', c', d', e'⟩ := h'
  have sort : ∀ l l' : List Nat, ∀ g base n, SuitDigits l g base n → SuitDigits l' g base n → l = l' := by
    intro l l' g base n h h'
    have hp : l.Perm l' := List.perm_iff_count.2 (fun d => by rw [h.2 d, h'.2 d])
    exact hp.eq_of_pairwise (fun a b _ _ h1 h2 => Nat.le_antisymm h1 h2) h.1 h'.1
  have hmap : q'.melds = q.melds := by
    have : q'.melds.map Except.ok = q.melds.map (Except.ok (ε := PyErr)) := by rw [d', d]
    exact (List.map_inj_right (fun x y h => Except.ok.inj h)).1 this
  have i1 := sort _ _ _ _ _ a1' a1
  have i2 := sort _ _ _ _ _ a2' a2
  have i3 := sort _ _ _ _ _ a3' a3
  have i4 := sort _ _ _ _ _ a4' a4
  cases q; cases q'
  simp only at *
  simp only [Query.mk.injEq]
  exact ⟨i1, i2, i3, i4, by rw [b, b'], hmap, by rw [c, c'], by rw [e, e']⟩

/-- what the evaluation of a discard or an added kan makes of the seats -/
theorem ron_seats {est : Estimate} {player : Nat} {hands : Nat → Nat → Int} {a : WinArgs}
    {sutehai : Nat → Nat → Int} {tile : Nat} {ck : Bool} {rh : Nat → Bool} {hands' : Nat → Nat → Int}
    {rons : List (Option AgariDecision)} (h : evaluate_ron est player hands a sutehai tile ck rh = .ok (hands', rons))
    (p : Nat) (hp : p < 4) :
    (p = player ∨ sutehai p (tile / 4) ≠ 0 → (spread rons)[p]? = some []) ∧
    (p ≠ player → sutehai p (tile / 4) = 0 → ∃ q, RonQuery q (hands p) a p tile (tile / 4) ck (rh p) ∧
      ((est q = .ok true ∧ (spread rons)[p]? = some [⟨p, false⟩]) ∨ (est q = .ok false ∧ (spread rons)[p]? = some []))) := by
  obtain ⟨hlen, hc⟩ := C24_ron_players _ _ _ _ _ _ _ _ _ _ h
  have hslot : ∀ j, j < 4 → rons[j]? = some none ∨ rons[j]? = some (some ⟨j, false⟩) := by
    intro j hj
    by_cases ho : RonOffered est player hands a sutehai tile ck rh j
    · exact .inr ((hc j hj).1 ho)
    · exact .inl ((hc j hj).2 ho)
  have hspread : ∀ o, rons[p]? = some o → (spread rons)[p]? = some o.toList := by
    obtain ⟨a0, a1, a2, a3, rfl⟩ : ∃ a0 a1 a2 a3, rons = [a0, a1, a2, a3] := by
      match rons, hlen with
      | [a0, a1, a2, a3], _ => exact ⟨a0, a1, a2, a3, rfl⟩
    have e0 := hslot 0 (by omega)
    have e1 := hslot 1 (by omega)
    have e2 := hslot 2 (by omega)
    have e3 := hslot 3 (by omega)
    simp only [List.getElem?_cons_zero, List.getElem?_cons_succ, Option.some.injEq] at e0 e1 e2 e3
    have hp4 : p = 0 ∨ p = 1 ∨ p = 2 ∨ p = 3 := by omega
    intro o ho
    rcases e0 with rfl | rfl <;> rcases e1 with rfl | rfl <;> rcases e2 with rfl | rfl <;> rcases e3 with rfl | rfl <;>
      rcases hp4 with rfl | rfl | rfl | rfl <;> simp at ho <;> subst ho <;> rfl
  refine ⟨?_, ?_⟩
  · intro hno
    refine hspread none ((hc p hp).2 ?_)
    rintro ⟨h1, h2, _⟩
    rcases hno with h | h
    · exact h1 h
    · exact h h2
  · intro h1 h2
    unfold evaluate_ron at h
    split at h
    · rw [tile2idx_head] at h
      obtain ⟨q, b, hq, hb⟩ := ronLoop_asked [0, 1, 2, 3] h p (by simp; omega) h1 h2
      refine ⟨q, hq, ?_⟩
      cases b with
      | true => exact .inl ⟨hb, hspread (some ⟨p, false⟩) ((hc p hp).1 ⟨h1, h2, q, hq, hb⟩)⟩
      | false =>
        refine .inr ⟨hb, hspread none ((hc p hp).2 ?_)⟩
        rintro ⟨_, _, q', hq', hb'⟩
        rw [ronQuery_unique hq hq', hb] at hb'
        simp at hb'
    · simp at h

theorem threw_iff {est : Estimate} {sh : List Int → Except PyErr Int} {g : GameInfo} {a : InitAttr}
    {c : RoundCfg} {s0 : RoundSt} (hi : initRound est sh g a = .ok (c, s0)) {acts : List Act} {s : RoundSt}
    (hr : Reached c s0 acts s) (p k : Nat) (hk : k < 34) : s.sutehai_tensors p k ≠ 0 ↔ Threw acts p k := by
  obtain ⟨_, _, _, h⟩ := C108_table hi hr
  rw [h p k]
  have key : (collect (Act.discarded p) acts).any (fun t => decide (InSlot t k)) = true ↔ Threw acts p k := by
    rw [List.any_eq_true]
    unfold Threw
    constructor
    · rintro ⟨u, hu, h⟩
      refine ⟨u, hu, ?_⟩
      rw [decide_eq_true_eq] at h
      unfold InSlot at h
      rcases h with h | ⟨_, h⟩ | ⟨_, h⟩ | ⟨_, h⟩ <;> omega
    · rintro ⟨u, hu, h⟩
      exact ⟨u, hu, by rw [decide_eq_true_eq]; exact .inl h⟩
  rw [← key]
  split <;> simp_all

/-- C111: after every discard each other seat that has not discarded the kind itself is judged by one question, about
all tiles the player has and the discarded one; the decision list of that seat is the answer.  The others get no decision. -/
theorem C111_ron {est : Estimate} {sh : List Int → Except PyErr Int} {g : GameInfo} {a : InitAttr}
    {c : RoundCfg} {s0 : RoundSt} (hi : initRound est sh g a = .ok (c, s0)) {hai : Nat → List Nat}
    {first round honba sticks x y : Nat} (hhai : ∀ p < 4, a.hai p = .ok (hai p))
    (hseed : a.seed = .ok [round, honba, sticks, x, y, first])
    {acts : List Act} {p t : Nat} {s s' : RoundSt} (hr : Reached c s0 acts s)
    (hr' : Reached c s0 (acts ++ [.discard p t]) s') :
    ∃ o e ag n, s'.halfturns = s.halfturns ++ [.discard p o e t, .post p o e ag n] ∧ ∀ w < 4,
      (w = p ∨ Threw acts w (t / 4) → ag[w]? = some []) ∧
      (w ≠ p → ¬ Threw acts w (t / 4) → ∀ ms, CallsOf acts w ms → ∃ q,
        ((est q = .ok true ∧ ag[w]? = some [⟨w, false⟩]) ∨ (est q = .ok false ∧ ag[w]? = some [])) ∧
        HandStrings q.man q.pin q.sou q.honors (fun k => owned hai acts w k + if k = t / 4 then 1 else 0) ∧
        q.win_tile = t ∧ AtTable first round honba sticks acts ms w q ∧ q.config.is_tsumo = false ∧
        q.config.is_chankan = false ∧ q.config.is_rinshan = false ∧ q.config.is_houtei = false ∧
        q.config.is_tenhou = false ∧ q.config.is_chiihou = false ∧ (q.config.is_haitei = true ↔ wallCount acts = 70) ∧
        ((∀ b ∈ acts, b.isCall = false) →
          (q.config.is_renhou = true ↔ acts.countP Act.isDraw ≤ 3 ∧ acts.countP Act.isDraw ≤ p))) := by
  obtain ⟨s1, s2, h1, he, h3, h4⟩ := Reached.at (post := []) hr'
  have := h1.det hr
  subst this
  have : s2 = s' := h3.det hr'
  subst this
  have hest : c.estimate = est := by
    obtain ⟨d⟩ := initRound_ok hi
    rw [congrArg RoundCfg.estimate d.cfg_eq]
  cases he with
  | discard hp e =>
    refine ⟨e.o, s1.encoding_tokens.length, spread e.rons, e.offers, congrArg RoundSt.halfturns e.state_eq, ?_⟩
    intro w hw
    obtain ⟨r1, r2⟩ := ron_seats e.rons_eq w hw
    have hsut : w ≠ p → (discardTile s1 p t).sutehai_tensors w = s1.sutehai_tensors w := fun h => setAt_ne _ _ _ _ h
    have hfull : w ≠ p → (discardTile s1 p t).hand_tensors_full w = s1.hand_tensors_full w := fun h => setAt_ne _ _ _ _ h
    have hk : t / 4 < 34 := by have := e.tile_lt; omega
    refine ⟨?_, ?_⟩
    · intro h
      apply r1
      by_cases hwp : w = p
      · exact .inl hwp
      · right
        rw [hsut hwp]
        exact (threw_iff hi h1 w _ hk).2 (h.resolve_left hwp)
    · intro hwp hno ms hms
      have hz : (discardTile s1 p t).sutehai_tensors w (t / 4) = 0 := by
        rw [hsut hwp]
        exact Classical.byContradiction fun h => hno ((threw_iff hi h1 w _ hk).1 h)
      obtain ⟨q, ⟨k1, k2, k3, k4, k5⟩, hans⟩ := r2 hwp hz
      refine ⟨q, by rw [← hest]; exact hans, ?_, k2, ?_, by rw [k5], by rw [k5], by rw [k5], by rw [k5], by rw [k5],
        by rw [k5], ?_, ?_⟩
      · refine handStrings_congr (fun k hk => ?_) k1
        rw [hfull hwp, full_owned hi ⟨hhai, _, _, _, _, _, hseed⟩ h1 w k hw hk]
        by_cases hkt : k = t / 4
        · rw [if_pos hkt, if_pos hkt]
        · rw [if_neg hkt, if_neg hkt]; omega
      · exact atTable hi hseed h1 w hms k3 k4 (by rw [k5]; rfl) (by rw [k5]; rfl) (by rw [k5]; rfl) (by rw [k5]; rfl)
          (by rw [k5]; rfl)
      · rw [k5, ← wall_told hi h1]
        exact beq_iff_eq
      · intro hno
        rw [k5]
        show (decide (s1.cycles ≤ 3) && decide (s1.cycles ≤ p) && allMenzen s1.is_menzen) = true ↔ _
        rw [cycles_exact hi h1 hno, ← draws_drawers]
        have hm := (allMenzen_reached hi h1).2 (fun q _ => no_calls_menzen hno q)
        rw [hm, Bool.and_true, Bool.and_eq_true, decide_eq_true_eq, decide_eq_true_eq]

/-- C112: after every added kan of player `p` with tile `t` each other seat that has not discarded the kind itself is
judged by one question, about all tiles the player has and `t`, marked as robbing a kan. -/
theorem C112_robbing {est : Estimate} {sh : List Int → Except PyErr Int} {g : GameInfo} {a : InitAttr}
    {c : RoundCfg} {s0 : RoundSt} (hi : initRound est sh g a = .ok (c, s0)) {hai : Nat → List Nat}
    {first round honba sticks x y : Nat} (hhai : ∀ p < 4, a.hai p = .ok (hai p))
    (hseed : a.seed = .ok [round, honba, sticks, x, y, first])
    {acts : List Act} {p src k u w0 : Nat} (hv : (LogMeld.kakan src k u w0).Valid) {s s' : RoundSt} (hr : Reached c s0 acts s)
    (hr' : Reached c s0 (acts ++ [.call p (LogMeld.kakan src k u w0).encode]) s') :
    ∃ o e ag n, s'.halfturns.getLast? = some (.post p o e ag n) ∧ ∀ w < 4,
      (w = p ∨ Threw acts w k → ag[w]? = some []) ∧
      (w ≠ p → ¬ Threw acts w k → ∀ ms, CallsOf acts w ms → ∃ q,
        ((est q = .ok true ∧ ag[w]? = some [⟨w, false⟩]) ∨ (est q = .ok false ∧ ag[w]? = some [])) ∧
        HandStrings q.man q.pin q.sou q.honors (fun j => owned hai acts w j + if j = k then 1 else 0) ∧
        q.win_tile = 4 * k + u ∧ AtTable first round honba sticks acts ms w q ∧ q.config.is_tsumo = false ∧
        q.config.is_chankan = true ∧ q.config.is_rinshan = false ∧ q.config.is_haitei = false ∧
        q.config.is_houtei = false ∧ q.config.is_tenhou = false ∧ q.config.is_chiihou = false ∧
        q.config.is_renhou = false) := by
  obtain ⟨s1, s2, h1, he, h3, h4⟩ := Reached.at (post := []) hr'
  have := h1.det hr
  subst this
  have : s2 = s' := h3.det hr'
  subst this
  have hest : c.estimate = est := by
    obtain ⟨d⟩ := initRound_ok hi
    rw [congrArg RoundCfg.estimate d.cfg_eq]
  have hkk : is_kakan (LogMeld.kakan src k u w0).encode = true := (kakan_encode _ hv).2 ⟨_, _, _, _, rfl⟩
  cases he with
  | call e =>
    obtain ⟨hex, _⟩ := C93_tiles _ hv
    have hpair := Except.ok.inj (e.exposed_eq.symm.trans hex)
    have hex' : e.ex = [4 * k + u] := congrArg Prod.fst hpair
    have hacq : e.acq = none := congrArg Prod.snd hpair
    obtain ⟨hk, hu, _⟩ : k < 34 ∧ u < 4 ∧ True := by
      obtain ⟨x1, x2, x3⟩ := hv
      exact ⟨by omega, by omega, trivial⟩
    have hkind : (4 * k + u) / 4 = k := by omega
    have hro := e.rons_eq hkk
    rw [hacq, hex'] at hro
    simp only [List.headD_cons, gain] at hro
    refine ⟨nakiObj c s1 (LogMeld.kakan src k u w0).encode p, s1.encoding_tokens.length + 1, spread e.rons, (List.range 4).map (fun _ => []), ?_, ?_⟩
    · rw [congrArg RoundSt.halfturns e.state_eq]
      simp only [chankanTurn, hkk, if_true, List.getLast?_append, List.getLast?_singleton, Option.some_or]
    intro w hw
    obtain ⟨r1, r2⟩ := ron_seats hro w hw
    rw [hkind] at r1 r2
    refine ⟨?_, ?_⟩
    · intro h
      exact r1 (h.imp id (threw_iff hi h1 w _ hk).2)
    · intro hwp hno ms hms
      obtain ⟨q, ⟨k1, k2, k3, k4, k5⟩, hans⟩ := r2 hwp (Classical.byContradiction fun h => hno ((threw_iff hi h1 w _ hk).1 h))
      refine ⟨q, by rw [← hest]; exact hans, ?_, k2, ?_, by rw [k5], by rw [k5], by rw [k5], by rw [k5]; rfl, by rw [k5],
        by rw [k5], by rw [k5], by rw [k5]⟩
      · refine handStrings_congr (fun j hj => ?_) k1
        rw [full_owned hi ⟨hhai, _, _, _, _, _, hseed⟩ h1 w j hw hj]
        by_cases hkt : j = k
        · rw [if_pos hkt, if_pos hkt]
        · rw [if_neg hkt, if_neg hkt]; omega
      · refine atTable hi hseed h1 w hms k3 ?_ (by rw [k5]; rfl) (by rw [k5]; rfl) (by rw [k5]; rfl) (by rw [k5]; rfl)
          (by rw [k5]; rfl)
        rw [k4]
        show ((setAt s1.melds p _ w).map (·.naki_code)).map nakiToMeld = _
        rw [setAt_ne _ _ _ _ hwp]

end MJ
