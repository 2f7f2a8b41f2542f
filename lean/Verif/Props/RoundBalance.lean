import Verif.Spec.Balance
import Verif.Props.RoundSeats
import Verif.Props.RoundLegal
import Verif.Props.Builds
/-!
C156: what a player holds, what is unseen for them, and what lies face up on the table make up all the tiles; no sample
shows more tiles of a kind than there are.
-/
namespace MJ
open Code Spec

/-! ### hand, unseen tiles and the table -/

theorem balance_sum {est : Estimate} {sh : List Int → Except PyErr Int} {g : GameInfo} {a : InitAttr}
    {c : RoundCfg} {s0 : RoundSt} (hi : initRound est sh g a = .ok (c, s0)) {hai : Nat → List Nat} {first : Nat}
    (hd : a.Deals hai first) {acts : List Act} {s : RoundSt} (hr : Reached c s0 acts s) {p : Nat} (k : Nat) :
    s.hand_tensors p k + s.remaining_tiles_pov p k + cnt ([first] ++ collect Act.played acts) k +
      kindCount (collect Act.doras acts) k = supply k := by
  obtain ⟨d⟩ := initRound_ok hi
  obtain ⟨e1, e2⟩ := d.deals hd
  refine hr.induct (P := fun acts s => s.hand_tensors p k + s.remaining_tiles_pov p k +
    cnt ([first] ++ collect Act.played acts) k + kindCount (collect Act.doras acts) k = supply k) ?_ ?_
  · rw [congrArg RoundSt.remaining_tiles_pov d.state_eq, congrArg RoundSt.hand_tensors d.state_eq]
    show countTiles (d.hai p) (fun _ => 0) 1 k + addAt _ _ _ _ + _ + _ = _
    rw [addAt_tile, countTiles_eq, countTiles_eq, e2]
    simp only [collect, List.flatMap_nil, List.append_nil, kindCount, List.countP_nil]
    have : remainingTiles k = supply k := rfl
    omega
  · intro acts s act s' hr ih he
    simp only [collect_snoc, cnt_append, kindCount_append] at ih ⊢
    cases he with
    | dora =>
      show s.hand_tensors p k + addAt _ _ _ _ + _ + _ = _
      rw [addAt_kind]
      simp only [Act.played, Act.doras, cnt_nil]
      omega
    | declare => simpa [Act.played, Act.doras, cnt_nil, kindCount] using ih
    | accept => simpa [Act.played, Act.doras, cnt_nil, kindCount] using ih
    | @call q code _ e =>
      obtain ⟨_, _, _, h4⟩ := expose_ok e.expose_eq
      rw [e.state_eq]
      show e.ht' p k + (if p = q then s.remaining_tiles_pov p else seeExposed e.ex (s.remaining_tiles_pov p)) k + _ + _ = _
      simp only [Act.played, Act.doras, e.exposed, h4 p k]
      by_cases hq : p = q
      · rw [if_pos hq, if_pos hq]
        simp only [kindCount, List.countP_nil] at ih ⊢
        omega
      · rw [if_neg hq, if_neg hq, seeExposed_eq]
        simp only [kindCount, List.countP_nil] at ih ⊢
        omega
    | @draw q t _ hq e =>
      rw [e.state_eq]
      show addRow s.hand_tensors q (tile2idx t) 1 p k + addRow s.remaining_tiles_pov q (tile2idx t) (-1) p k + _ + _ = _
      simp only [addRow, Act.played, Act.doras, cnt_nil, kindCount, List.countP_nil] at ih ⊢
      by_cases hq : p = q
      · subst hq
        rw [setAt_same, setAt_same, addAt_tile, addAt_tile]
        omega
      · rw [setAt_ne _ _ _ _ hq, setAt_ne _ _ _ _ hq]
        omega
    | @discard q t _ hq e =>
      rw [e.state_eq]
      show addRow s.hand_tensors q (tile2idx t) (-1) p k +
        addRow (fun p => addAt (s.remaining_tiles_pov p) (tile2idx t) (-1)) q (tile2idx t) 1 p k + _ + _ = _
      simp only [addRow, Act.played, Act.doras, cnt_nil, kindCount, List.countP_nil] at ih ⊢
      by_cases hq : p = q
      · subst hq
        rw [setAt_same, setAt_same, addAt_tile, addAt_tile, addAt_tile]
        omega
      · rw [setAt_ne _ _ _ _ hq, setAt_ne _ _ _ _ hq, addAt_tile]
        omega

/-- C156: at every moment of every log that is processed, for every player: the tiles of a kind in their concealed hand,
the tiles of that kind they count as unseen, and the tiles of that kind lying face up on the table (all indicators, all
discards, all tiles exposed in calls) are four together.  For a red five they are one together, if the indicators turned
after the first are left out. -/
theorem C156_balance_partial {est : Estimate} {sh : List Int → Except PyErr Int} {g : GameInfo} {a : InitAttr}
    {c : RoundCfg} {s0 : RoundSt} (hi : initRound est sh g a = .ok (c, s0)) {hai : Nat → List Nat} {first : Nat}
    (hd : a.Deals hai first) {acts : List Act} {s : RoundSt} (hr : Reached c s0 acts s) (p : Nat) :
    (∀ k < 34, s.hand_tensors p k + s.remaining_tiles_pov p k +
      (kindCount ([first] ++ collect Act.played acts ++ collect Act.doras acts) k : Nat) = 4) ∧
    (∀ k, 34 ≤ k → k < 37 → s.hand_tensors p k + s.remaining_tiles_pov p k +
      (slotCount ([first] ++ collect Act.played acts) k : Nat) = 1) := by
  refine ⟨?_, ?_⟩
  · intro k hk
    have := balance_sum hi hd hr (p := p) k
    rw [cnt_eq, slotCount_kind _ _ hk, supply, if_pos hk] at this
    rw [kindCount_append _ (collect Act.doras acts)]
    omega
  · intro k h1 h2
    have := balance_sum hi hd hr (p := p) k
    have h5 : kindCount (collect Act.doras acts) k = 0 := by
      unfold kindCount
      rw [List.countP_eq_zero]
      intro t ht
      have := doras_lt hr t ht
      simp
      omega
    rw [cnt_eq, supply, if_neg (by omega), h5] at this
    omega

/-- C156: for the red fives the later indicators do have to be left out: a red five turned over after a kan is still counted
as unseen. -/
theorem C156_balance_violated :
    ¬ ∀ (est : Estimate) (sh : List Int → Except PyErr Int) (g : GameInfo) (a : InitAttr) (c : RoundCfg) (s0 : RoundSt)
      (hai : Nat → List Nat) (first : Nat) (acts : List Act) (s : RoundSt),
      initRound est sh g a = .ok (c, s0) → a.Deals hai first → Reached c s0 acts s →
      ∀ p < 4, ∀ k < 37, s.hand_tensors p k + s.remaining_tiles_pov p k +
        (slotCount ([first] ++ collect Act.played acts ++ collect Act.doras acts) k : Nat) = supply k := by
  intro h
  obtain ⟨s, h1, h2⟩ := accepts_ok kanLog_accepted
  obtain ⟨c, s0, h3, h4⟩ := accepted_exact (acts := kanActs) h1 rfl
  have := h _ _ _ _ c s0 dealtKan 132 kanActs s h3 dealKan_deals h4 1 (by omega) 36 (by omega)
  have h5 := hand_nonneg h3 h4 1 36 (by omega)
  simp only [Bool.and_eq_true, beq_iff_eq] at h2
  rw [h2.1.2] at this
  have h6 : slotCount ([132] ++ collect Act.played kanActs ++ collect Act.doras kanActs) 36 = 1 := by decide +kernel
  rw [h6, supply, if_neg (by omega)] at this
  omega

/-- C156: what a player holds and what is unseen for them is the same number of tiles for all four players, in every
slot, at every moment. -/
theorem C156_same_for_all {est : Estimate} {sh : List Int → Except PyErr Int} {g : GameInfo} {a : InitAttr}
    {c : RoundCfg} {s0 : RoundSt} (hi : initRound est sh g a = .ok (c, s0)) {acts : List Act} {s : RoundSt}
    (hr : Reached c s0 acts s) (p q k : Nat) :
    s.hand_tensors p k + s.remaining_tiles_pov p k = s.hand_tensors q k + s.remaining_tiles_pov q k := by
  obtain ⟨hai, first, hd⟩ : ∃ hai first, a.Deals hai first := by
    obtain ⟨d⟩ := initRound_ok hi
    exact ⟨d.hai, d.dora0, d.hai_eq, _, _, _, _, _, d.seed_eq⟩
  have h1 := balance_sum hi hd hr (p := p) k
  have h2 := balance_sum hi hd hr (p := q) k
  omega

/-! ### discards -/

/-- the discards shown have been made -/
def ThrownBy (acts : List Act) (f : Nat → Nat → Int) : Prop := ∀ q k, 0 ≤ f q k ∧ f q k ≤ cnt (collect (Act.discarded q) acts) k

theorem ThrownBy.more {acts : List Act} {f : Nat → Nat → Int} (h : ThrownBy acts f) (b : Act) : ThrownBy (acts ++ [b]) f := by
  intro q k
  have := h q k
  rw [collect_snoc, cnt_append]
  omega

theorem thrown_reached {c : RoundCfg} {s0 : RoundSt} (h0 : s0.stateObj = none ∧ s0.halfturns = [] ∧ ThrownBy [] s0.sutehai_tensors)
    {acts : List Act} {s : RoundSt} (hr : Reached c s0 acts s) :
    ThrownBy acts s.sutehai_tensors ∧ (∀ o, s.stateObj = some o → ThrownBy acts o.sutehai_tensors) ∧
    ∀ h ∈ s.halfturns, ThrownBy acts h.obj.sutehai_tensors := by
  refine hr.induct (P := fun acts s => ThrownBy acts s.sutehai_tensors ∧
    (∀ o, s.stateObj = some o → ThrownBy acts o.sutehai_tensors) ∧ ∀ h ∈ s.halfturns, ThrownBy acts h.obj.sutehai_tensors)
    ⟨h0.2.2, by simp [h0.1], by simp [h0.2.1]⟩ ?_
  intro acts s act s' hr ih he
  have ih0 := ih.1
  replace ih : ThrownBy (acts ++ [act]) s.sutehai_tensors ∧
    (∀ o, s.stateObj = some o → ThrownBy (acts ++ [act]) o.sutehai_tensors) ∧
    (∀ h ∈ s.halfturns, ThrownBy (acts ++ [act]) h.obj.sutehai_tensors) :=
    ⟨ih.1.more _, fun o ho => (ih.2.1 o ho).more _, fun h hh => (ih.2.2 h hh).more _⟩
  cases he with
  | dora => exact ih
  | declare h1 h2 h3 h4 h5 =>
    exact ⟨ih.1, ih.2.1, forall_obj_set (P := fun o => ThrownBy _ o.sutehai_tensors) h3 (obj_markReach _) ih.2.2⟩
  | accept => exact ih
  | @draw p t _ hp e =>
    rw [e.state_eq]
    refine ⟨ih.1, ?_, ?_⟩
    · intro o ho
      have : o = mkStateObj c (drawTile s p t) p := (Option.some.inj ho).symm
      subst this
      exact ih.1
    · intro h hh
      rcases List.mem_append.1 hh with hh | hh
      · exact ih.2.2 h hh
      · simp only [List.mem_singleton] at hh
        subst hh
        exact ih.1
  | @discard p t _ hp e =>
    rw [e.state_eq]
    refine ⟨?_, ih.2.1, ?_⟩
    · intro q k
      have h1 := ih0 q k
      show 0 ≤ setAt s.sutehai_tensors p (fun k => if k ∈ tile2idx t then 1 else s.sutehai_tensors p k) q k ∧
        setAt s.sutehai_tensors p (fun k => if k ∈ tile2idx t then 1 else s.sutehai_tensors p k) q k ≤ _
      rw [collect_snoc, cnt_append]
      by_cases hq : q = p
      · subst hq
        rw [setAt_same]
        simp only [Act.discarded, if_true, cnt_one]
        split <;> omega
      · rw [setAt_ne _ _ _ _ hq]
        omega
    · intro h hh
      rcases List.mem_append.1 hh with hh | hh
      · exact ih.2.2 h hh
      · simp only [List.mem_cons, List.not_mem_nil, or_false] at hh
        rcases hh with rfl | rfl <;> exact ih.2.1 e.o e.obj_eq
  | @call p code _ e =>
    rw [e.state_eq]
    refine ⟨ih.1, ?_, ?_⟩
    · intro o ho
      have : o = nakiObj c s code p := (Option.some.inj ho).symm
      subst this
      exact ih.1
    · intro h hh
      rcases List.mem_append.1 hh with hh | hh
      · exact forall_obj_set (P := fun o => ThrownBy _ o.sutehai_tensors) e.turn_eq (obj_mark _ _) ih.2.2 h hh
      · unfold chankanTurn at hh
        split at hh
        · simp only [List.mem_singleton] at hh
          subst hh
          exact ih.1
        · simp at hh

theorem discarded_played (acts : List Act) (k : Nat) : cnt (collect (Act.discarded 0) acts) k +
    cnt (collect (Act.discarded 1) acts) k + cnt (collect (Act.discarded 2) acts) k + cnt (collect (Act.discarded 3) acts) k ≤
    cnt (collect Act.played acts) k := by
  induction acts with
  | nil => simp [collect, cnt]
  | cons b acts ih =>
    have e : ∀ f : Act → List Nat, cnt (collect f (b :: acts)) k = cnt (f b) k + cnt (collect f acts) k := by
      intro f
      simp only [collect, List.flatMap_cons, cnt_append]
    simp only [e]
    cases b with
    | discard p t =>
      simp only [Act.discarded, Act.played]
      have : p = 0 ∨ p = 1 ∨ p = 2 ∨ p = 3 ∨ 4 ≤ p := by omega
      rcases this with rfl | rfl | rfl | rfl | h
      · simp [cnt_nil]; omega
      · simp [cnt_nil]; omega
      · simp [cnt_nil]; omega
      · simp [cnt_nil]; omega
      · rw [if_neg (by omega), if_neg (by omega), if_neg (by omega), if_neg (by omega)]
        simp only [cnt_nil]; omega
    | _ => simp only [Act.discarded, cnt_nil]; omega

/-! ### the planes of a sample -/

theorem shown_plane (v : Variant) (f : Nat → Int) {k : Nat} (hk : k < 37) (h0 : 0 ≤ f k) (h4 : f k ≤ 4) :
    ((plane v f).getD k []).sum = f k := by
  unfold plane
  rw [List.getD_eq_getElem?_getD, List.getElem?_map, List.getElem?_range hk]
  cases v with
  | basic => simp
  | _ => exact (C65_thermometer (f k) 0).2.2.2 h0 h4

theorem rotate_sum (f : Nat → Int) {p : Nat} (hp : p < 4) :
    f p + (f ((p + 1) % 4) + (f ((p + 2) % 4) + (f ((p + 3) % 4) + 0))) = f 0 + f 1 + f 2 + f 3 := by
  have : p = 0 ∨ p = 1 ∨ p = 2 ∨ p = 3 := by omega
  rcases this with rfl | rfl | rfl | rfl <;> simp <;> omega

/-- the planes of a snapshot fit together -/
theorem planes_fit {v : Variant} {s : RoundSt} {o : StateObj} (ho : o.player < 4)
    (hand : ∀ k < 37, 0 ≤ s.hand_tensors o.player k) (unseen : ∀ k < 37, 0 ≤ s.remaining_tiles_pov o.player k)
    (thrown : ∀ q, ∀ k < 37, 0 ≤ o.sutehai_tensors q k)
    (sum : ∀ k < 37, s.hand_tensors o.player k + s.remaining_tiles_pov o.player k + (o.sutehai_tensors 0 k +
      o.sutehai_tensors 1 k + o.sutehai_tensors 2 k + o.sutehai_tensors 3 k) ≤ supply k) :
    PlanesFit (stateX1 v o s) := by
  have hs : ∀ k, supply k ≤ 4 := by intro k; unfold supply; split <;> omega
  intro k hk
  have a0 := hand k hk
  have a1 := unseen k hk
  have t0 := thrown 0 k hk
  have t1 := thrown 1 k hk
  have t2 := thrown 2 k hk
  have t3 := thrown 3 k hk
  have a2 := sum k hk
  have a3 := hs k
  have e0 : ((plane v (o.hand_tensor s)).getD k []).sum = s.hand_tensors o.player k := shown_plane v _ hk a0 (by
    show s.hand_tensors o.player k ≤ 4; omega)
  have e1 : ((plane v (o.remaining_tiles_pov s)).getD k []).sum = s.remaining_tiles_pov o.player k := shown_plane v _ hk a1 (by
    show s.remaining_tiles_pov o.player k ≤ 4; omega)
  have e2 : ∀ q < 4, ((plane v (o.sutehai_tensors q)).getD k []).sum = o.sutehai_tensors q k := by
    intro q hq
    refine shown_plane v _ hk (thrown q k hk) ?_
    have : q = 0 ∨ q = 1 ∨ q = 2 ∨ q = 3 := by omega
    rcases this with rfl | rfl | rfl | rfl <;> omega
  have hp : o.player = 0 ∨ o.player = 1 ∨ o.player = 2 ∨ o.player = 3 := by omega
  have three : (v = .basic ∨ v = .conv) → (∀ i < (stateX1 v o s).length, 0 ≤ shownIn (stateX1 v o s) i k) ∧
      ((List.range (stateX1 v o s).length).map (fun i => shownIn (stateX1 v o s) i k)).sum ≤ supply k := by
    intro hv
    have e : stateX1 v o s = [plane v (o.hand_tensor s), plane v (o.remaining_tiles_pov s), plane v (o.sutehai_tensors o.player)] := by
      rcases hv with rfl | rfl <;> rfl
    rw [e]
    have e2 := e2 _ ho
    have t := thrown o.player k hk
    refine ⟨?_, ?_⟩
    · intro i hi
      have : i = 0 ∨ i = 1 ∨ i = 2 := by simp at hi; omega
      rcases this with rfl | rfl | rfl
      · show 0 ≤ ((plane v (o.hand_tensor s)).getD k []).sum; omega
      · show 0 ≤ ((plane v (o.remaining_tiles_pov s)).getD k []).sum; omega
      · show 0 ≤ ((plane v (o.sutehai_tensors o.player)).getD k []).sum; omega
    · show ((plane v (o.hand_tensor s)).getD k []).sum + (((plane v (o.remaining_tiles_pov s)).getD k []).sum +
        (((plane v (o.sutehai_tensors o.player)).getD k []).sum + 0)) ≤ _
      rw [e0, e1, e2]
      have hle : o.sutehai_tensors o.player k ≤ o.sutehai_tensors 0 k + o.sutehai_tensors 1 k + o.sutehai_tensors 2 k +
          o.sutehai_tensors 3 k := by
        rcases hp with h | h | h | h <;> rw [h] <;> omega
      omega
  cases v with
  | basic => exact three (.inl rfl)
  | conv => exact three (.inr rfl)
  | ordered =>
    have e : stateX1 .ordered o s = [plane .ordered (o.hand_tensor s), plane .ordered (o.remaining_tiles_pov s),
        plane .ordered (o.sutehai_tensors o.player), plane .ordered (o.sutehai_tensors ((o.player + 1) % 4)),
        plane .ordered (o.sutehai_tensors ((o.player + 2) % 4)), plane .ordered (o.sutehai_tensors ((o.player + 3) % 4))] := by
      unfold stateX1
      rw [npRoll_four _ ho]
      rfl
    rw [e]
    have b0 := e2 _ ho
    have b1 := e2 ((o.player + 1) % 4) (by omega)
    have b2 := e2 ((o.player + 2) % 4) (by omega)
    have b3 := e2 ((o.player + 3) % 4) (by omega)
    have c0 := thrown o.player k hk
    have c1 := thrown ((o.player + 1) % 4) k hk
    have c2 := thrown ((o.player + 2) % 4) k hk
    have c3 := thrown ((o.player + 3) % 4) k hk
    refine ⟨?_, ?_⟩
    · intro i hi
      have : i = 0 ∨ i = 1 ∨ i = 2 ∨ i = 3 ∨ i = 4 ∨ i = 5 := by simp at hi; omega
      rcases this with rfl | rfl | rfl | rfl | rfl | rfl
      · show 0 ≤ ((plane .ordered (o.hand_tensor s)).getD k []).sum; omega
      · show 0 ≤ ((plane .ordered (o.remaining_tiles_pov s)).getD k []).sum; omega
      · show 0 ≤ ((plane .ordered (o.sutehai_tensors o.player)).getD k []).sum; omega
      · show 0 ≤ ((plane .ordered (o.sutehai_tensors ((o.player + 1) % 4))).getD k []).sum; omega
      · show 0 ≤ ((plane .ordered (o.sutehai_tensors ((o.player + 2) % 4))).getD k []).sum; omega
      · show 0 ≤ ((plane .ordered (o.sutehai_tensors ((o.player + 3) % 4))).getD k []).sum; omega
    · show ((plane .ordered (o.hand_tensor s)).getD k []).sum + (((plane .ordered (o.remaining_tiles_pov s)).getD k []).sum +
        (((plane .ordered (o.sutehai_tensors o.player)).getD k []).sum +
        (((plane .ordered (o.sutehai_tensors ((o.player + 1) % 4))).getD k []).sum +
        (((plane .ordered (o.sutehai_tensors ((o.player + 2) % 4))).getD k []).sum +
        (((plane .ordered (o.sutehai_tensors ((o.player + 3) % 4))).getD k []).sum + 0))))) ≤ _
      rw [e0, e1, b0, b1, b2, b3]
      have := rotate_sum (fun q => o.sutehai_tensors q k) ho
      omega

/-- C156: in every training sample of every accepted round, of every variant and every head: no channel shows a negative
number of tiles, and the hand, the unseen tiles and all discards shown are together at most four tiles of each kind and
one red five of each suit. -/
theorem C156_samples {est : Estimate} {sh : List Int → Except PyErr Int} {g : GameInfo} {a : InitAttr} {evs : List Ev}
    {s : RoundSt} (h : processRound est sh g a evs = .ok s) {v : Variant} {d cc p : Batch}
    (hb : buildTensors v s s.halfturns s.encoding_tokens = .ok (d, cc, p)) :
    ∀ x ∈ d.x1 ++ cc.x1 ++ p.x1, PlanesFit x := by
  have hfin := accepted_final h
  obtain ⟨c, s0, acts, rest, hi, _, _, _, hr⟩ := accepted_reached h
  have hf := fourLists_reached hi hr
  obtain ⟨i⟩ := initRound_ok hi
  have hd : a.Deals i.hai i.dora0 := ⟨i.hai_eq, _, _, _, _, _, i.seed_eq⟩
  have hpl := (obj_player_lt ⟨by rw [congrArg RoundSt.stateObj i.state_eq], by rw [congrArg RoundSt.halfturns i.state_eq]⟩ hr).2
  have hth := (thrown_reached ⟨by rw [congrArg RoundSt.stateObj i.state_eq], by rw [congrArg RoundSt.halfturns i.state_eq], by
    rw [congrArg RoundSt.sutehai_tensors i.state_eq]
    intro q k
    simp [collect, cnt]⟩ hr).2.2
  have hpov : ∀ q < 4, ∀ k < 37, 0 ≤ s.remaining_tiles_pov q k := by
    unfold finalOk at hfin
    simp only [Bool.and_eq_true, List.all_eq_true, List.mem_range, decide_eq_true_iff] at hfin
    exact hfin.2
  have key : ∀ t ∈ s.halfturns, ∀ rows, RowsOf v s s.encoding_tokens t rows → ∀ row ∈ rows, PlanesFit row.x1 := by
    intro t ht rows hrows row hrow
    obtain ⟨q, hb⟩ := rowsOf_base (hf t ht) hrows row hrow
    rw [hb.2.2.1]
    refine planes_fit (hpl t ht) (fun k hk => hand_nonneg hi hr _ k hk) (fun k hk => hpov _ (hpl t ht) k hk)
      (fun q k _ => (hth t ht q k).1) ?_
    intro k hk
    have h1 := balance_sum hi hd hr (p := t.obj.player) k
    have h2 := discarded_played acts k
    have b0 := (hth t ht 0 k).2
    have b1 := (hth t ht 1 k).2
    have b2 := (hth t ht 2 k).2
    have b3 := (hth t ht 3 k).2
    rw [cnt_append] at h1
    omega
  obtain ⟨b⟩ := buildTensors_rows hf hb
  have all : ∀ (f : HalfTurn → Bool) (groups : List (List Row)),
      AllPairs (RowsOf v s s.encoding_tokens) (s.halfturns.filter f) groups → ∀ x ∈ (ofRows groups.flatten).x1, PlanesFit x := by
    intro f groups hg x hx
    obtain ⟨row, hrow, rfl⟩ := List.mem_map.1 hx
    obtain ⟨rows, hr1, hr2⟩ := List.mem_flatten.1 hrow
    obtain ⟨t, ht, hR⟩ := hg.mem_right hr1
    exact key t (List.mem_filter.1 ht).1 rows hR row hr2
  intro x hx
  rw [List.mem_append, List.mem_append] at hx
  rcases hx with (hx | hx) | hx
  · rw [b.d_eq] at hx; exact all _ _ b.during x hx
  · rw [b.c_eq] at hx; exact all _ _ b.discard x hx
  · rw [b.p_eq] at hx; exact all _ _ b.post x hx

/-- the number of samples of the discard head, and the tiles of kind `k` the first of them shows -/
def discardShows (k : Nat) (s : RoundSt) : Option (Nat × List Int) :=
  match buildTensors .ordered s s.halfturns s.encoding_tokens with
  | .ok (_, b, _) => some (b.x1.length, (List.range 6).map (fun i => shownIn (b.x1.headD []) i k))
  | .error _ => none

/-- the round with a kan has one discard sample; of the four tiles of kind 30 it shows one in the hand and two
unseen; the fourth is the one about to be discarded -/
example : accepts (processRound noWin farAway ⟨0⟩ dealKan (kanLog ++ [.result false (.ok [])]))
    (fun s => decide (discardShows 30 s = some (1, [1, 2, 0, 0, 0, 0]))) = true := by decide +kernel

/-- planes that do not fit: three tiles in the hand, two unseen -/
example : ¬ PlanesFit [[[3]], [[2]], [[0]]] := by decide

end MJ
