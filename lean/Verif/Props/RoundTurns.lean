import Verif.Props.RoundFlags
import Verif.Props.Calls
/-!
C47-C50, C56: what half-turns record and what marks them.
-/
namespace MJ
open Code Spec

/-! ### C48 -/

/-- earlier half-turns that are not the current one are never touched again -/
theorem frozen {c : RoundCfg} {s : RoundSt} {more : List Act} {s' : RoundSt} (hr : Reached c s more s') (i : Nat)
    (hi : i < s.halfturns.length) (hc : s.curr_halfturn ≠ some i) :
    s'.halfturns[i]? = s.halfturns[i]? ∧ s'.curr_halfturn ≠ some i ∧ i < s'.halfturns.length := by
  refine hr.induct (P := fun _ s' => s'.halfturns[i]? = s.halfturns[i]? ∧ s'.curr_halfturn ≠ some i ∧
    i < s'.halfturns.length) ⟨rfl, hc, hi⟩ ?_
  rintro acts s1 act s2 _ ⟨ih1, ih2, ih3⟩ he
  cases he with
  | dora => exact ⟨ih1, ih2, ih3⟩
  | @declare p j t h1 h2 h3 h4 h5 =>
    have hji : j ≠ i := fun h => ih2 (by rw [h2, h])
    refine ⟨?_, ih2, by simpa using ih3⟩
    show (s1.halfturns.set j _)[i]? = _
    rw [List.getElem?_set_ne hji, ih1]
  | accept => exact ⟨ih1, ih2, ih3⟩
  | @draw p t _ hp e =>
    rw [e.state_eq]
    refine ⟨?_, ?_, ?_⟩
    · show (s1.halfturns ++ [_])[i]? = _
      rw [List.getElem?_append_left ih3, ih1]
    · show some s1.halfturns.length ≠ some i
      simp; omega
    · show i < (s1.halfturns ++ [_]).length
      simp; omega
  | @discard p t _ hp e =>
    rw [e.state_eq]
    refine ⟨?_, ?_, ?_⟩
    · show (s1.halfturns ++ [_, _])[i]? = _
      rw [List.getElem?_append_left ih3, ih1]
    · show some (s1.halfturns.length + 1) ≠ some i
      simp; omega
    · show i < (s1.halfturns ++ [_, _]).length
      simp; omega
  | @call p code _ e =>
    have hji : e.i ≠ i := fun h => ih2 (by rw [e.curr_eq, h])
    rw [e.state_eq]
    refine ⟨?_, by simp, ?_⟩
    · show (s1.halfturns.set _ _ ++ _)[i]? = _
      rw [List.getElem?_append_left (by simpa using ih3), List.getElem?_set_ne hji, ih1]
    · show i < (s1.halfturns.set _ _ ++ _).length
      simp; omega

/-- C48: take any reached state and any half-turn in it that is no longer the current one.  Whatever
comes after, the half-turn is the same in the end: two continuations give the same half-turn. -/
theorem C48_resolved {c : RoundCfg} {s sa sb : RoundSt} {as bs : List Act} (ha : Reached c s as sa)
    (hb : Reached c s bs sb) (i : Nat) (hi : i < s.halfturns.length) (hc : s.curr_halfturn ≠ some i) :
    sa.halfturns[i]? = s.halfturns[i]? ∧ sb.halfturns[i]? = s.halfturns[i]? :=
  ⟨(frozen ha i hi hc).1, (frozen hb i hi hc).1⟩

/-- forget which decisions were executed -/
def HalfTurn.unmarked : HalfTurn → HalfTurn
  | .during p o e a r n => .during p o e a (r.map (fun d => { d with executed := false }))
      (n.map (fun d => { d with executed := false }))
  | .discard p o e t => .discard p o e t
  | .post p o e a n => .post p o e a (n.map (fun l => l.map (fun d => { d with executed := false })))

theorem markNaki_unmarked (k : Nat) (l : List NakiDecision) :
    (markNaki k l).map (fun d => { d with executed := false }) = l.map (fun d => { d with executed := false }) := by
  induction l with
  | nil => rfl
  | cons d ds ih =>
    unfold markNaki
    split
    · rfl
    · simp only [List.map_cons, ih]

theorem unmarked_mark (k : Nat) (t : HalfTurn) : (t.mark k).unmarked = t.unmarked := by
  cases t with
  | during p o e a r n => simp only [HalfTurn.mark, HalfTurn.unmarked, markNaki_unmarked]
  | discard => rfl
  | post p o e a n =>
    simp only [HalfTurn.mark, HalfTurn.unmarked, List.map_map]
    congr 1
    apply List.map_congr_left
    intro l _
    exact markNaki_unmarked k l

theorem unmarked_markReach (t : HalfTurn) : t.markReach.unmarked = t.unmarked := by
  cases t with
  | during p o e a r n =>
    simp only [HalfTurn.markReach, HalfTurn.unmarked]
    congr 1
    cases r <;> rfl
  | discard => rfl
  | post => rfl

/-- C48: apart from the executed marks, no half-turn is ever changed. -/
theorem C48_unmarked {c : RoundCfg} {s s' : RoundSt} {more : List Act} (hr : Reached c s more s') :
    (s.halfturns.map HalfTurn.unmarked) <+: (s'.halfturns.map HalfTurn.unmarked) := by
  refine hr.induct (P := fun _ s' => (s.halfturns.map HalfTurn.unmarked) <+: (s'.halfturns.map HalfTurn.unmarked))
    (List.prefix_refl _) ?_
  have hset : ∀ (l : List HalfTurn) (i : Nat) (t t' : HalfTurn), l[i]? = some t → t'.unmarked = t.unmarked →
      (l.set i t').map HalfTurn.unmarked = l.map HalfTurn.unmarked := by
    intro l i t t' h ht
    rw [List.map_set, ht]
    apply List.ext_getElem?
    intro j
    by_cases hj : j = i
    · subst hj
      have hlt : j < l.length := (List.getElem?_eq_some_iff.1 h).1
      rw [List.getElem?_set_self (by simpa using hlt), List.getElem?_map, h]
      rfl
    · rw [List.getElem?_set_ne (by omega)]
  intro acts s1 act s2 _ ih he
  cases he with
  | dora => exact ih
  | declare h1 h2 h3 h4 h5 =>
    show _ <+: (s1.halfturns.set _ _).map _
    rw [hset _ _ _ _ h3 (unmarked_markReach _)]
    exact ih
  | accept => exact ih
  | draw hp e =>
    rw [e.state_eq]
    show _ <+: (s1.halfturns ++ [_]).map _
    rw [List.map_append]
    exact ih.trans (List.prefix_append _ _)
  | discard hp e =>
    rw [e.state_eq]
    show _ <+: (s1.halfturns ++ [_, _]).map _
    rw [List.map_append]
    exact ih.trans (List.prefix_append _ _)
  | call e =>
    rw [e.state_eq]
    show _ <+: (s1.halfturns.set _ _ ++ _).map _
    rw [List.map_append, hset _ _ _ _ e.turn_eq (unmarked_mark _ _)]
    exact ih.trans (List.prefix_append _ _)

/-- C48: after the next draw, discard or call a half-turn is no longer the current one. -/
theorem C48_move_resolves {c : RoundCfg} {s s' : RoundSt} {act : Act} (he : Effect c s act s') (hm : act.isMove = true)
    (i : Nat) (hi : i < s.halfturns.length) : i < s'.halfturns.length ∧ s'.curr_halfturn ≠ some i := by
  cases he with
  | dora => simp [Act.isMove] at hm
  | declare => simp [Act.isMove] at hm
  | accept => simp [Act.isMove] at hm
  | @draw p t _ hp e =>
    rw [e.state_eq]
    refine ⟨?_, ?_⟩
    · show i < (s.halfturns ++ [_]).length
      simp; omega
    · show some s.halfturns.length ≠ some i
      simp; omega
  | @discard p t _ hp e =>
    rw [e.state_eq]
    refine ⟨?_, ?_⟩
    · show i < (s.halfturns ++ [_, _]).length
      simp; omega
    · show some (s.halfturns.length + 1) ≠ some i
      simp; omega
  | @call p code _ e =>
    rw [e.state_eq]
    refine ⟨?_, by simp⟩
    show i < (s.halfturns.set _ _ ++ _).length
    simp; omega

/-! ### C47 -/

/-- events that change the concealed hand of player `p` -/
def touchesHand (p : Nat) : Act → Bool
  | .draw q _ | .discard q _ | .call q _ => q == p
  | _ => false

def isCall : Act → Bool
  | .call .. => true
  | _ => false

def isDrawOrDora : Act → Bool
  | .draw .. | .dora .. => true
  | _ => false

/-- C47, what holds: the state object of a half-turn read later shows the hand as it was as long as
its player has not drawn, discarded or called since; melds and closed flags as long as nobody called;
the unseen-tile counts as long as nobody drew and no indicator was turned. -/
theorem C47_snapshot_partial {c : RoundCfg} {s s' : RoundSt} {more : List Act} (hr : Reached c s more s') (o : StateObj) :
    ((∀ b ∈ more, touchesHand o.player b = false) → o.hand_tensor s' = o.hand_tensor s) ∧
    ((∀ b ∈ more, isCall b = false) → o.melds s' = o.melds s ∧ o.is_menzen s' = o.is_menzen s) ∧
    ((∀ b ∈ more, isDrawOrDora b = false) → o.remaining_tiles s' = o.remaining_tiles s) := by
  refine hr.induct (P := fun more s' => ((∀ b ∈ more, touchesHand o.player b = false) → o.hand_tensor s' = o.hand_tensor s) ∧
    ((∀ b ∈ more, isCall b = false) → o.melds s' = o.melds s ∧ o.is_menzen s' = o.is_menzen s) ∧
    ((∀ b ∈ more, isDrawOrDora b = false) → o.remaining_tiles s' = o.remaining_tiles s)) ?_ ?_
  · exact ⟨fun _ => rfl, fun _ => ⟨rfl, rfl⟩, fun _ => rfl⟩
  · rintro acts s1 act s2 _ ⟨ih1, ih2, ih3⟩ he
    have hmem : ∀ {f : Act → Bool}, (∀ b ∈ acts ++ [act], f b = false) → (∀ b ∈ acts, f b = false) ∧ f act = false := by
      intro f h
      exact ⟨fun b hb => h b (List.mem_append_left _ hb), h act (by simp)⟩
    cases he with
    | dora =>
      refine ⟨fun h => ih1 (hmem h).1, fun h => ih2 (hmem h).1, fun h => ?_⟩
      simpa [isDrawOrDora] using (hmem h).2
    | declare => exact ⟨fun h => ih1 (hmem h).1, fun h => ih2 (hmem h).1, fun h => ih3 (hmem h).1⟩
    | accept => exact ⟨fun h => ih1 (hmem h).1, fun h => ih2 (hmem h).1, fun h => ih3 (hmem h).1⟩
    | @draw p t _ hp e =>
      rw [e.state_eq]
      refine ⟨fun h => ?_, fun h => ih2 (hmem h).1, fun h => ?_⟩
      · have hne : o.player ≠ p := by
          have := (hmem h).2
          simp [touchesHand] at this
          exact fun h => this h.symm
        rw [← ih1 (hmem h).1]
        show addRow s1.hand_tensors p _ _ o.player = _
        unfold addRow
        rw [setAt_ne _ _ _ _ hne]
        rfl
      · simpa [isDrawOrDora] using (hmem h).2
    | @discard p t _ hp e =>
      rw [e.state_eq]
      refine ⟨fun h => ?_, fun h => ih2 (hmem h).1, fun h => ih3 (hmem h).1⟩
      have hne : o.player ≠ p := by
        have := (hmem h).2
        simp [touchesHand] at this
        exact fun h => this h.symm
      rw [← ih1 (hmem h).1]
      show addRow s1.hand_tensors p _ _ o.player = _
      unfold addRow
      rw [setAt_ne _ _ _ _ hne]
      rfl
    | @call p code _ e =>
      rw [e.state_eq]
      refine ⟨fun h => ?_, fun h => ?_, fun h => ih3 (hmem h).1⟩
      · have hne : o.player ≠ p := by
          have := (hmem h).2
          simp [touchesHand] at this
          exact fun h => this h.symm
        rw [← ih1 (hmem h).1]
        funext k
        show e.ht' o.player k = _
        obtain ⟨_, _, _, h4⟩ := expose_ok e.expose_eq
        rw [h4 o.player k, if_neg hne]
        rfl
      · simpa [isCall] using (hmem h).2

theorem afterDraw_facts :
    accepts (processRound noWin farAway ⟨0⟩ deal [.draw 0 (.ok 120), .result false (.ok [])])
      (fun s => s.hand_tensors 0 30 == 1 && s.remaining_tiles 31 == 4 && s.halfturns.length == 1 &&
        (s.halfturns.map HalfTurn.player == [0])) = true ∧
    accepts (processRound noWin farAway ⟨0⟩ deal [.draw 0 (.ok 120), .discard 0 (.ok 120), .draw 1 (.ok 124),
        .result false (.ok [])])
      (fun s => s.hand_tensors 0 30 == 0 && s.remaining_tiles 31 == 3) = true := by
  constructor <;> decide +kernel

/-- C47 does not hold: after player 0 draws tile 120 and discards it and player 1 draws tile 124, the
during-turn of player 0 shows no tile of kind 30 in the hand, and three unseen tiles of kind 31;
when the half-turn was made it was one and four. -/
theorem C47_snapshot_violated :
    ¬ ∀ (est : Estimate) (sh : List Int → Except PyErr Int) (g : GameInfo) (a : InitAttr) (c : RoundCfg)
      (s0 s1 s2 s : RoundSt) (pre post : List Act) (p t : Nat) (o : StateObj) (e : Nat) (ag : List AgariDecision)
      (rc : List ReachDecision) (n : List NakiDecision),
      initRound est sh g a = .ok (c, s0) → Reached c s0 pre s1 → Reached c s0 (pre ++ [.draw p t]) s2 →
      s2.halfturns = s1.halfturns ++ [.during p o e ag rc n] → Reached c s2 post s →
      o.hand_tensor s = o.hand_tensor s2 := by
  intro h
  obtain ⟨sa, h1, h2⟩ := accepts_ok afterDraw_facts.1
  obtain ⟨sb, h3, h4⟩ := accepts_ok afterDraw_facts.2
  obtain ⟨c, s0, h5, h6⟩ := accepted_exact (evs := [.draw 0 (.ok 120)]) (acts := [.draw 0 120]) h1 rfl
  obtain ⟨c', s0', h7, h8⟩ := accepted_exact (evs := [.draw 0 (.ok 120), .discard 0 (.ok 120), .draw 1 (.ok 124)])
    (acts := [.draw 0 120, .discard 0 120, .draw 1 124]) h3 rfl
  rw [h5] at h7
  simp only [Except.ok.injEq, Prod.mk.injEq] at h7
  obtain ⟨rfl, rfl⟩ := h7
  obtain ⟨s2, h9, h10⟩ := h8.split [.draw 0 120] [.discard 0 120, .draw 1 124] rfl
  have huniq : s2 = sa := h9.det h6
  subst huniq
  have h11 : ∃ s1, Reached c s0 [] s1 ∧ ∃ e : DrawDone c s1 s2 0 120, True := by
    obtain ⟨s1, s3, g1, g2, g3, g4⟩ := Reached.at (pre := []) (act := .draw 0 120) (post := []) h6
    have := h6.det g3
    subst this
    cases g2 with
    | draw hp e => exact ⟨s1, g1, e, trivial⟩
  obtain ⟨s1, g1, e, _⟩ := h11
  have := h _ _ _ _ c s0 s1 s2 sb [] [.discard 0 120, .draw 1 124] 0 120 _ _ _ _ _ h5 g1 h9
    (congrArg RoundSt.halfturns e.state_eq) h10
  have := congrFun this 30
  simp only [Bool.and_eq_true, beq_iff_eq] at h2 h4
  simp only [StateObj.hand_tensor, mkStateObj] at this
  rw [h4.1, h2.1.1.1] at this
  exact absurd this (by decide)

/-! ### C49 -/

/-- the win decisions of a half-turn -/
def HalfTurn.wins : HalfTurn → List AgariDecision
  | .during _ _ _ a _ _ => a
  | .discard .. => []
  | .post _ _ _ a _ => a.flatten

theorem wins_mark (k : Nat) (t : HalfTurn) : (t.mark k).wins = t.wins := by cases t <;> rfl
theorem wins_markReach (t : HalfTurn) : t.markReach.wins = t.wins := by cases t <;> rfl

theorem ron_not_executed {est : Estimate} {player : Nat} {hands : Nat → Nat → Int} {a : WinArgs}
    {sut : Nat → Nat → Int} {tile : Nat} {ck : Bool} {rh : Nat → Bool} {hands' : Nat → Nat → Int}
    {rons : List (Option AgariDecision)} (h : evaluate_ron est player hands a sut tile ck rh = .ok (hands', rons)) :
    ∀ d ∈ (spread rons).flatten, d.executed = false := by
  obtain ⟨hlen, hc⟩ := C24_ron_players _ _ _ _ _ _ _ _ _ _ h
  intro d hd
  simp only [spread, List.mem_flatten, List.mem_map] at hd
  obtain ⟨l, ⟨p, _, rfl⟩, hd⟩ := hd
  have hd := (List.mem_filter.1 hd).1
  simp only [List.mem_filterMap, id] at hd
  obtain ⟨x, hx, rfl⟩ := hd
  obtain ⟨j, hj, hj'⟩ := List.mem_iff_getElem.1 hx
  have hj4 : j < 4 := by omega
  have he : rons[j]? = some (some d) := by rw [List.getElem?_eq_getElem hj, hj']
  by_cases ho : RonOffered est player hands a sut tile ck rh j
  · rw [(hc j hj4).1 ho] at he
    simp at he
    rw [← he]
  · rw [(hc j hj4).2 ho] at he
    simp at he

theorem tsumo_not_executed {est : Estimate} {player : Nat} {hands : Nat → Nat → Int} {a : WinArgs} {tile : Nat}
    {r t c : Bool} {l : List AgariDecision} (h : evaluate_tsumo est player hands a tile r t c = .ok l) :
    ∀ d ∈ l, d.executed = false := by
  obtain ⟨q, _, h2⟩ := C24_tsumo _ _ _ _ _ _ _ _ _ h
  rcases h2 with ⟨_, rfl⟩ | ⟨_, rfl⟩ <;> simp

/-- C49 does not hold: no win decision is ever marked executed, in any reached state. -/
theorem C49_win_marked_violated {est : Estimate} {sh : List Int → Except PyErr Int} {g : GameInfo} {a : InitAttr}
    {c : RoundCfg} {s0 : RoundSt} (hi : initRound est sh g a = .ok (c, s0)) {acts : List Act} {s : RoundSt}
    (hr : Reached c s0 acts s) : ∀ h ∈ s.halfturns, ∀ d ∈ h.wins, d.executed = false := by
  obtain ⟨d⟩ := initRound_ok hi
  have hset : ∀ (l : List HalfTurn) (i : Nat) (t t' : HalfTurn), l[i]? = some t → t'.wins = t.wins →
      (∀ h ∈ l, ∀ d ∈ h.wins, d.executed = false) → ∀ h ∈ l.set i t', ∀ d ∈ h.wins, d.executed = false := by
    intro l i t t' h1 h2 h3 h hh
    rcases List.mem_or_eq_of_mem_set hh with hh | rfl
    · exact h3 h hh
    · rw [h2]; exact h3 t (List.mem_of_getElem? h1)
  refine hr.induct (P := fun _ s => ∀ h ∈ s.halfturns, ∀ d ∈ h.wins, d.executed = false) ?_ ?_
  · rw [congrArg RoundSt.halfturns d.state_eq]; simp
  · intro acts s act s' _ ih he
    cases he with
    | dora => exact ih
    | declare h1 h2 h3 h4 h5 => exact hset _ _ _ _ h3 (wins_markReach _) ih
    | accept => exact ih
    | draw hp e =>
      rw [e.state_eq]
      intro h hh
      rcases List.mem_append.1 hh with hh | hh
      · exact ih h hh
      · simp only [List.mem_singleton] at hh
        subst hh
        exact tsumo_not_executed e.agari_eq
    | discard hp e =>
      rw [e.state_eq]
      intro h hh
      rcases List.mem_append.1 hh with hh | hh
      · exact ih h hh
      · simp only [List.mem_cons, List.not_mem_nil, or_false] at hh
        rcases hh with rfl | rfl
        · simp [HalfTurn.wins]
        · exact ron_not_executed e.rons_eq
    | @call p code _ e =>
      rw [e.state_eq]
      intro h hh
      rcases List.mem_append.1 hh with hh | hh
      · exact hset _ _ _ _ e.turn_eq (wins_mark _ _) ih h hh
      · unfold chankanTurn at hh
        split at hh
        · rename_i hk
          simp only [List.mem_singleton] at hh
          subst hh
          exact ron_not_executed (e.rons_eq hk)
        · simp at hh

/-- a round that ends in an offered win: the decision is there and stays unmarked -/
example : accepts (processRound (fun q => .ok q.config.is_tsumo) farAway ⟨0⟩ deal
    [.draw 0 (.ok 120), .result true (.ok [0, 0, 0, 0])])
    (fun s => s.halfturns.map HalfTurn.wins == [[⟨0, false⟩]]) = true := by
  decide +kernel

/-! ### C50 -/

/-- `l'` is `l` with the first decision of canonical code `k`, if there is one, marked executed -/
def MarkedFirst (k : Nat) (l l' : List NakiDecision) : Prop :=
  (l' = l ∧ ∀ d ∈ l, d.naki.convenient_naki_code ≠ k) ∨
  ∃ l1 d l2, l = l1 ++ d :: l2 ∧ l' = l1 ++ { d with executed := true } :: l2 ∧
    d.naki.convenient_naki_code = k ∧ ∀ x ∈ l1, x.naki.convenient_naki_code ≠ k

theorem markNaki_first (k : Nat) (l : List NakiDecision) : MarkedFirst k l (markNaki k l) := by
  induction l with
  | nil => exact .inl ⟨rfl, by simp⟩
  | cons d ds ih =>
    unfold markNaki
    by_cases h : d.naki.convenient_naki_code = k
    · rw [if_pos h]
      exact .inr ⟨[], d, ds, rfl, rfl, h, by simp⟩
    · rw [if_neg h]
      rcases ih with ⟨h1, h2⟩ | ⟨l1, x, l2, h1, h2, h3, h4⟩
      · refine .inl ⟨by rw [h1], ?_⟩
        intro x hx
        rcases List.mem_cons.1 hx with rfl | hx
        · exact h
        · exact h2 x hx
      · refine .inr ⟨d :: l1, x, l2, by rw [h1]; rfl, by rw [h2]; rfl, h3, ?_⟩
        intro y hy
        rcases List.mem_cons.1 hy with rfl | hy
        · exact h
        · exact h4 y hy

/-- `t'` is `t` with decisions of code `k` marked as by `MarkedFirst`, in the own-turn list or in each
of the four lists -/
def TurnMarked (k : Nat) : HalfTurn → HalfTurn → Prop
  | .during p o e a r n, t' => ∃ n', t' = .during p o e a r n' ∧ MarkedFirst k n n'
  | .discard .., _ => False
  | .post p o e a n, t' => ∃ n', t' = .post p o e a n' ∧ n'.length = n.length ∧
      ∀ (j : Nat) l l', n[j]? = some l → n'[j]? = some l' → MarkedFirst k l l'

/-- the offers of a post-turn by player `q`: list `p` holds decisions of `p`, whose codes point from
`p` to `q` -/
def OffersPoint : HalfTurn → Prop
  | .post q _ _ _ n => n.length = 4 ∧ ∀ (p : Nat) l, n[p]? = some l → ∀ d ∈ l, d.player = p ∧
      (from_who d.naki.convenient_naki_code : Int) = ((q : Int) - p) % 4
  | _ => True

theorem offer_points {q : Nat} {hands : Nat → Hand} {t : Nat} {red : Bool} {ds : List (List NakiDecision)} (hq : q < 4)
    (ht : t < 34) (h : decisionMask q hands t red = .ok ds) :
    ds.length = 4 ∧ ∀ (p : Nat) l, ds[p]? = some l → ∀ d ∈ l, d.player = p ∧
      (from_who d.naki.convenient_naki_code : Int) = ((q : Int) - p) % 4 := by
  obtain ⟨ds', e, hlen, hm⟩ := decisionMask_spec q hands t red ht hq
  rw [h] at e
  cases e
  refine ⟨hlen, ?_⟩
  intro p l hl d hd
  have hp : p < 4 := by rw [← hlen]; exact (List.getElem?_eq_some_iff.1 hl).1
  obtain ⟨l', hl', hm⟩ := hm p hp
  rw [hl] at hl'
  cases hl'
  obtain ⟨hne, c, ho, rfl⟩ := (hm d).1 hd
  refine ⟨rfl, ?_⟩
  show (from_who c : Int) = _
  obtain ⟨_, hv⟩ := offered_view q p (hands p) t red c ht hp hq hne ho
  have hv : ∃ v, view c = some v := by
    rcases hv with ⟨_, n, w, r, _, _, _, _, _, h⟩ | ⟨w, r, _, _, _, _, h⟩ | ⟨w, _, _, _, h⟩ <;> exact ⟨_, h⟩
  obtain ⟨v, hv⟩ := hv
  have hsrc : v.source = from_who c := by
    unfold view at hv
    split at hv
    · simp only [Option.some.injEq] at hv
      rw [← hv]
      rfl
    · simp at hv
  rw [← hsrc]
  exact (C17_source q hands t red p v hq hp ht ⟨ds, l, _, h, hl, hd, hv⟩).1

theorem offersPoint_mark (k : Nat) (t : HalfTurn) (h : OffersPoint t) : OffersPoint (t.mark k) := by
  cases t with
  | during => trivial
  | discard => trivial
  | post q o e a n =>
    obtain ⟨h1, h2⟩ := h
    refine ⟨by simpa using h1, ?_⟩
    intro p l hl d hd
    rw [List.getElem?_map, Option.map_eq_some_iff] at hl
    obtain ⟨l0, hl0, rfl⟩ := hl
    have := h2 p l0 hl0
    rcases markNaki_first k l0 with ⟨e1, _⟩ | ⟨l1, x, l2, e1, e2, _, _⟩
    · rw [e1] at hd; exact this d hd
    · rw [e2] at hd
      subst e1
      rcases List.mem_append.1 hd with hd | hd
      · exact this d (List.mem_append_left _ hd)
      · rcases List.mem_cons.1 hd with rfl | hd
        · exact this x (by simp)
        · exact this d (by simp [hd])

theorem offersPoint_reached {est : Estimate} {sh : List Int → Except PyErr Int} {g : GameInfo} {a : InitAttr}
    {c : RoundCfg} {s0 : RoundSt} (hi : initRound est sh g a = .ok (c, s0)) {acts : List Act} {s : RoundSt}
    (hr : Reached c s0 acts s) : ∀ h ∈ s.halfturns, OffersPoint h := by
  obtain ⟨d⟩ := initRound_ok hi
  refine hr.induct (P := fun _ s => ∀ h ∈ s.halfturns, OffersPoint h) ?_ ?_
  · rw [congrArg RoundSt.halfturns d.state_eq]; simp
  · intro acts s act s' _ ih he
    cases he with
    | dora => exact ih
    | @declare p i t h1 h2 h3 h4 h5 =>
      intro h hh
      rcases List.mem_or_eq_of_mem_set hh with hh | rfl
      · exact ih h hh
      · have := ih t (List.mem_of_getElem? h3)
        cases t <;> first | trivial | exact this
    | accept => exact ih
    | draw hp e =>
      rw [e.state_eq]
      intro h hh
      rcases List.mem_append.1 hh with hh | hh
      · exact ih h hh
      · simp only [List.mem_singleton] at hh
        subst hh
        trivial
    | discard hp e =>
      rw [e.state_eq]
      intro h hh
      rcases List.mem_append.1 hh with hh | hh
      · exact ih h hh
      · simp only [List.mem_cons, List.not_mem_nil, or_false] at hh
        have := e.tile_lt
        rcases hh with rfl | rfl
        · trivial
        · exact offer_points hp (by omega) e.offers_eq
    | @call p code _ e =>
      rw [e.state_eq]
      intro h hh
      rcases List.mem_append.1 hh with hh | hh
      · rcases List.mem_or_eq_of_mem_set hh with hh | rfl
        · exact ih h hh
        · exact offersPoint_mark _ _ (ih e.t (List.mem_of_getElem? e.turn_eq))
      · unfold chankanTurn at hh
        split at hh
        · simp only [List.mem_singleton] at hh
          subst hh
          refine ⟨by simp, ?_⟩
          intro p l hl d hd
          rw [List.getElem?_map, Option.map_eq_some_iff] at hl
          obtain ⟨_, _, rfl⟩ := hl
          simp at hd
        · simp at hh

/-- C50: a call changes only the current half-turn (and appends one for an added kan); there it marks
executed the first decision with the canonical code of the call in each list and changes nothing else. -/
theorem C50_marks {c : RoundCfg} {s s' : RoundSt} {p code : Nat} (he : Effect c s (.call p code) s') :
    ∃ k i t t' app, clean code = .ok k ∧ s.curr_halfturn = some i ∧ s.halfturns[i]? = some t ∧
      s'.halfturns = s.halfturns.set i t' ++ app ∧ TurnMarked k t t' ∧ (is_kakan code = false → app = []) := by
  cases he with
  | call e =>
    refine ⟨e.naki.convenient_naki_code, e.i, e.t, e.t.mark e.naki.convenient_naki_code, chankanTurn c s code p e.rons,
      e.clean_eq, e.curr_eq, e.turn_eq, congrArg RoundSt.halfturns e.state_eq, ?_, ?_⟩
    · have hk := e.kind_eq
      generalize e.t = t at hk ⊢
      cases t with
      | during => exact ⟨_, rfl, markNaki_first _ _⟩
      | discard => split at hk <;> simp [HalfTurn.isDuring, HalfTurn.isPost] at hk
      | post =>
        refine ⟨_, rfl, by simp, ?_⟩
        intro j l l' h1 h2
        rw [List.getElem?_map, h1] at h2
        simp only [Option.map_some, Option.some.injEq] at h2
        subst h2
        exact markNaki_first _ _
    · intro hk
      simp [chankanTurn, hk]

/-- C50: in any post-turn of a reached state at most one player's list contains a decision with a
given code, namely the player the code points to the acting player from. -/
theorem C50_one_list {est : Estimate} {sh : List Int → Except PyErr Int} {g : GameInfo} {a : InitAttr}
    {c : RoundCfg} {s0 : RoundSt} (hi : initRound est sh g a = .ok (c, s0)) {acts : List Act} {s : RoundSt}
    (hr : Reached c s0 acts s) {q e : Nat} {o : StateObj} {ag : List (List AgariDecision)} {ns : List (List NakiDecision)}
    (hh : HalfTurn.post q o e ag ns ∈ s.halfturns) (k : Nat) :
    (∀ (p : Nat) l d, ns[p]? = some l → d ∈ l → d.naki.convenient_naki_code = k →
      d.player = p ∧ (from_who k : Int) = ((q : Int) - p) % 4) ∧
    ∀ (p p' : Nat) l l' d d', ns[p]? = some l → ns[p']? = some l' → d ∈ l → d' ∈ l' →
      d.naki.convenient_naki_code = k → d'.naki.convenient_naki_code = k → p = p' := by
  obtain ⟨hlen, h⟩ := offersPoint_reached hi hr _ hh
  have h1 : ∀ (p : Nat) l d, ns[p]? = some l → d ∈ l → d.naki.convenient_naki_code = k →
      d.player = p ∧ (from_who k : Int) = ((q : Int) - p) % 4 := by
    intro p l d hl hd hk
    rw [← hk]
    exact h p l hl d hd
  refine ⟨h1, ?_⟩
  intro p p' l l' d d' hl hl' hd hd' hk hk'
  have a1 := (h1 p l d hl hd hk).2
  have a2 := (h1 p' l' d' hl' hd' hk').2
  have b1 : p < 4 := by rw [← hlen]; exact (List.getElem?_eq_some_iff.1 hl).1
  have b2 : p' < 4 := by rw [← hlen]; exact (List.getElem?_eq_some_iff.1 hl').1
  omega

/-- who could call in a half-turn and whether they did -/
def HalfTurn.offerMarks : HalfTurn → List (List (Nat × Bool))
  | .during _ _ _ _ _ n => [n.map (fun d => (d.player, d.executed))]
  | .discard .. => []
  | .post _ _ _ _ n => n.map (fun l => l.map (fun d => (d.player, d.executed)))

/-- a pon is recognised and marked: player 1 holds two tiles of kind 0 and takes player 0's discard -/
def dealPon : InitAttr :=
  { ten := .ok [250, 250, 250, 250], oya := .ok 0, seed := .ok [0, 0, 0, 0, 0, 132]
    hai := fun p => .ok (if p = 0 then 0 :: (List.range 12).map (fun i => 4 * (i + 10))
      else if p = 1 then [1, 2] ++ (List.range 11).map (fun i => 4 * (i + 10) + 1)
      else (List.range 13).map (fun i => 4 * (i + 10) + p)) }

/-- kind 0, tiles 0, 1, 2 (copy 3 unused), tile 0 taken from seat 3 -/
def ponCode : Nat := 3 + 8 + 3 * 32

example : accepts (processRound noWin farAway ⟨0⟩ dealPon
    [.draw 0 (.ok 120), .discard 0 (.ok 0), .naki (.ok ponCode) (.ok 1), .discard 1 (.ok 41), .result false (.ok [])])
    (fun s => (s.halfturns.take 3).map HalfTurn.offerMarks == [[[]], [], [[], [(1, true)], [], []]]) = true := by
  decide +kernel

/-! ### C56 -/

def stolenLog : List Ev := [.draw 0 (.ok 120), .discard 0 (.ok 120), .draw 1 (.ok 4), .discard 1 (.ok 4)]

def stolenActs : List Act := [.draw 0 120, .discard 0 120, .draw 1 4, .discard 1 4]

theorem stolen_accepted : accepts (processRound noWin farAway ⟨0⟩ dealKan (stolenLog ++ [.result false (.ok [])]))
    (fun s => s.hands 0 4 == 1) = true := by
  decide +kernel

/-- C56 does not hold: a round in which player 1 draws a tile that player 0 holds is accepted. -/
theorem C56_impossible_violated :
    ¬ ∀ (est : Estimate) (sh : List Int → Except PyErr Int) (g : GameInfo) (a : InitAttr) (evs : List Ev) (s : RoundSt)
      (c : RoundCfg) (s0 s1 : RoundSt) (pre post : List Act) (p q t : Nat),
      processRound est sh g a evs = .ok s → initRound est sh g a = .ok (c, s0) →
      Reached c s0 (pre ++ .draw p t :: post) s → Reached c s0 pre s1 → q < 4 → q ≠ p → s1.hands q t = 0 := by
  intro h
  obtain ⟨s, h1, h2⟩ := accepts_ok stolen_accepted
  obtain ⟨c, s0, h3, h4⟩ := accepted_exact (acts := stolenActs) h1 rfl
  obtain ⟨s1, h5, h6⟩ := h4.split [.draw 0 120, .discard 0 120] [.draw 1 4, .discard 1 4] rfl
  have h7 := h _ _ _ _ _ s c s0 s1 [.draw 0 120, .discard 0 120] [.discard 1 4] 1 0 4 h1 h3 h4 h5 (by omega) (by omega)
  have h8 := (C34_concealed h3 (fun p hp => dealKan_deals.1 p hp) h5 0 4 (by omega)).2
    (.inl ⟨by decide, by decide⟩)
  rw [h7] at h8
  exact absurd h8 (by decide)

/-- C56, what is rejected: drawing a tile one holds oneself raises AssertionError; and in an accepted
round at most four tiles of each kind, and at most one red five per suit, are dealt, drawn or (for the
kinds) turned as indicators. -/
theorem C56_impossible_partial {est : Estimate} {sh : List Int → Except PyErr Int} {g : GameInfo} {a : InitAttr}
    {c : RoundCfg} {s0 : RoundSt} (hi : initRound est sh g a = .ok (c, s0)) {hai : Nat → List Nat} {dora0 : Nat}
    (hd : a.Deals hai dora0) {acts : List Act} {s : RoundSt} (hr : Reached c s0 acts s) :
    (∀ (p : Fin 4) t, Holds hai acts p t → step c s (.draw p (.ok t)) = .error .assertion) ∧
    (finalOk s = true →
      (∀ k < 34, kindCount (hai 0 ++ hai 1 ++ hai 2 ++ hai 3 ++ [dora0] ++
        collect Act.drawnByAny acts ++ collect Act.doras acts) k ≤ 4) ∧
      ∀ k, 34 ≤ k → k < 37 → slotCount (hai 0 ++ hai 1 ++ hai 2 ++ hai 3 ++ [dora0] ++
        collect Act.drawnByAny acts) k ≤ 1) := by
  refine ⟨?_, ?_⟩
  · intro p t ht
    have h1 := (C34_concealed hi hd.1 hr p t p.isLt).2 ht
    have hb := C33_hand_tensors hi hr p
    have hlt : t < 136 := by
      apply Classical.byContradiction
      intro hge
      have := hb.2.1 t (by omega)
      rw [this] at h1
      exact absurd h1 (by decide)
    show stepDraw c s p (.ok t) = _
    unfold stepDraw
    cases ha : s.acquired.isNone with
    | false => simp [pyAssert, bind, Except.bind]
    | true => simp [pyAssert, bind, Except.bind, checkTile, hlt, h1]
  · intro hf
    obtain ⟨h1, h2⟩ := C36_unseen_partial hi hd hr
    unfold finalOk at hf
    simp only [Bool.and_eq_true, List.all_eq_true, List.mem_range, decide_eq_true_eq] at hf
    refine ⟨?_, ?_⟩
    · intro k hk
      have := hf.1 k (by omega)
      rw [h1 k hk] at this
      omega
    · intro k hk1 hk2
      have := hf.1 k hk2
      rw [h2 k hk1 hk2] at this
      omega

end MJ
