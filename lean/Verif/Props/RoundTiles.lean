import Verif.Proofs.Concrete
/-!
C33, C34, C36, C37, C38, C57: the tile counters of the round loop.

In every theorem `hi` says that the round starts in state `s0`, and `hr` that the events `acts`
were processed without an exception and led to state `s`.
-/
namespace MJ
open Code Spec

theorem NakiDone.exposed {c : RoundCfg} {s s' : RoundSt} {code p : Nat} (d : NakiDone c s s' code p) :
    exposedTiles code = d.ex := by
  unfold exposedTiles; rw [d.exposed_eq]

theorem NakiDone.called {c : RoundCfg} {s s' : RoundSt} {code p : Nat} (d : NakiDone c s s' code p) :
    calledTile code = d.acq := by
  unfold calledTile; rw [d.exposed_eq]

/-! ### C33 -/

structure TableOk (hands ht : Nat → Nat → Int) : Prop where
  bit : ∀ p t, hands p t = 0 ∨ hands p t = 1
  big : ∀ p t, 136 ≤ t → hands p t = 0
  count : ∀ p k, ht p k = heldCnt (hands p) k

theorem setAt2 (f : Nat → Nat → Int) (p t : Nat) (v : Int) (q u : Nat) :
    setAt f p (setAt (f p) t v) q u = if q = p ∧ u = t then v else f q u := by
  by_cases hq : q = p
  · subst hq
    by_cases hu : u = t <;> simp [setAt, hu]
  · simp [setAt, hq]

theorem tableOk_add {hands ht : Nat → Nat → Int} (h : TableOk hands ht) (p t : Nat) (ht1 : t < 136)
    (h0 : hands p t = 0) : TableOk (setAt hands p (setAt (hands p) t 1)) (addRow ht p (tile2idx t) 1) := by
  refine ⟨?_, ?_, ?_⟩
  · intro q u
    rw [setAt2]
    split
    · exact .inr rfl
    · exact h.bit q u
  · intro q u hu
    rw [setAt2, if_neg (by omega)]
    exact h.big q u hu
  · intro q k
    by_cases hq : q = p
    · subst hq
      simp only [addRow, setAt_same, addAt]
      rw [heldCnt_add _ _ _ ht1 (by rw [h0]; decide), h.count q k]
      split <;> simp
    · simp only [addRow, setAt_ne _ _ _ _ hq]
      exact h.count q k

theorem tableOk_remove {hands ht : Nat → Nat → Int} (h : TableOk hands ht) (p t : Nat) (ht1 : t < 136)
    (h1 : hands p t = 1) : TableOk (setAt hands p (setAt (hands p) t 0)) (addRow ht p (tile2idx t) (-1)) := by
  refine ⟨?_, ?_, ?_⟩
  · intro q u
    rw [setAt2]
    split
    · exact .inl rfl
    · exact h.bit q u
  · intro q u hu
    rw [setAt2, if_neg (by omega)]
    exact h.big q u hu
  · intro q k
    by_cases hq : q = p
    · subst hq
      simp only [addRow, setAt_same, addAt]
      have := heldCnt_remove (hands q) t k 0 ht1 h1 (by decide)
      have := h.count q k
      by_cases hk : k ∈ tile2idx t
      · simp only [hk, if_true] at *; omega
      · simp only [hk, if_false] at *; omega
    · simp only [addRow, setAt_ne _ _ _ _ hq]
      exact h.count q k

theorem tableOk_expose {p : Nat} {l : List Nat} {hands ht hands' ht' : Nat → Nat → Int} (h : TableOk hands ht)
    (hl : ∀ t ∈ l, t < 136) (he : expose p l (hands, ht) = .ok (hands', ht')) : TableOk hands' ht' := by
  induction l generalizing hands ht with
  | nil =>
    simp only [expose, Except.ok.injEq, Prod.mk.injEq] at he
    obtain ⟨rfl, rfl⟩ := he
    exact h
  | cons e es ih =>
    unfold expose at he
    split at he
    · rename_i h1
      refine ih ?_ (fun t ht => hl t (by simp [ht])) he
      have := tableOk_remove h p e (hl e (by simp)) h1
      have e2 : addRow hands p [e] (-1) = setAt hands p (setAt (hands p) e 0) := by
        unfold addRow
        congr 1
        funext k
        simp only [addAt, setAt, List.mem_singleton]
        split
        · rename_i hk; subst hk; rw [h1]; rfl
        · rfl
      rw [e2]
      exact this
    · simp at he

theorem tableOk_effect {c : RoundCfg} {s s' : RoundSt} {act : Act} (h : TableOk s.hands s.hand_tensors)
    (he : Effect c s act s') : TableOk s'.hands s'.hand_tensors := by
  cases he with
  | dora => exact h
  | declare => exact h
  | accept => exact h
  | call d =>
    rw [d.state_eq]
    exact tableOk_expose h d.ex_lt d.expose_eq
  | draw hp d =>
    rw [d.state_eq]
    exact tableOk_add h _ _ d.tile_lt d.not_held
  | discard hp d =>
    rw [d.state_eq]
    exact tableOk_remove h _ _ d.tile_lt d.held

theorem heldCnt_list (l : List Nat) (hl : ∀ t ∈ l, t < 136) (hn : l.Nodup) (k : Nat) :
    heldCnt (fun t => if t ∈ l then 1 else 0) k = cnt l k := by
  induction l with
  | nil => simp [heldCnt, cnt]
  | cons x l ih =>
    rw [List.nodup_cons] at hn
    have := heldCnt_add (fun t => if t ∈ l then 1 else 0) x k (hl x (by simp)) (by simp [hn.1])
    rw [ih (fun t ht => hl t (by simp [ht])) hn.2] at this
    rw [cnt_cons, ← this]
    congr 1
    funext t
    simp only [setAt, List.mem_cons]
    by_cases h : t = x <;> simp [h]

theorem tableOk_init {est : Estimate} {sh : List Int → Except PyErr Int} {g : GameInfo} {a : InitAttr}
    {c : RoundCfg} {s0 : RoundSt} (d : InitDone est sh g a c s0) : TableOk s0.hands s0.hand_tensors := by
  rw [d.state_eq]
  refine ⟨?_, ?_, ?_⟩
  · intro p t
    show (if _ then (1 : Int) else 0) = 0 ∨ _
    split
    · rename_i h; right; simp [h]
    · exact .inl rfl
  · intro p t ht
    show (if _ then (1 : Int) else 0) = 0
    rw [if_neg]
    intro h
    have := d.hai_lt p t h
    omega
  · intro p k
    show countTiles (d.hai p) (fun _ => 0) 1 k = _
    rw [countTiles_eq, heldCnt_list _ (d.hai_lt p) (d.hai_nodup p)]
    omega

theorem tableOk_reached {est : Estimate} {sh : List Int → Except PyErr Int} {g : GameInfo} {a : InitAttr}
    {c : RoundCfg} {s0 : RoundSt} (hi : initRound est sh g a = .ok (c, s0))
    {acts : List Act} {s : RoundSt} (hr : Reached c s0 acts s) : TableOk s.hands s.hand_tensors := by
  obtain ⟨d⟩ := initRound_ok hi
  exact hr.induct (P := fun _ s => TableOk s.hands s.hand_tensors) (tableOk_init d)
    (fun _ _ _ _ _ h he => tableOk_effect h he)

theorem heldCnt_red (h : Nat → Int) (t0 k : Nat) (ht : t0 < 136) (hk : ∀ t < 136, k ∈ tile2idx t ↔ t = t0)
    (hb : h t0 = 0 ∨ h t0 = 1) : (heldCnt h k : Int) = h t0 := by
  have e : heldCnt h k = (List.range 136).countP (fun t => decide (h t = 1) && decide (t = t0)) := by
    unfold heldCnt
    apply List.countP_congr
    intro t htr
    rw [List.mem_range] at htr
    simp only [Bool.and_eq_true, decide_eq_true_iff, hk t htr]
  have u := countP_update 136 t0 (fun t => decide (h t = 1) && decide (t = t0)) (fun _ => false)
    (by intro x hx; simp [hx])
  simp only [ht, Bool.false_eq_true, and_false, if_false, true_and, decide_true, Bool.and_true,
    decide_eq_true_iff, List.countP_false, Nat.add_zero, Function.const, Nat.zero_add] at u
  rw [e, u]
  rcases hb with hb | hb <;> simp [hb]

/-- C33: at every point of every log that is processed without an exception the per-tile table
contains only 0 and 1, and the tensors count it: kinds in slots 0-33, red fives in 34-36. -/
theorem C33_hand_tensors {est : Estimate} {sh : List Int → Except PyErr Int} {g : GameInfo} {a : InitAttr}
    {c : RoundCfg} {s0 : RoundSt} (hi : initRound est sh g a = .ok (c, s0))
    {acts : List Act} {s : RoundSt} (hr : Reached c s0 acts s) (p : Nat) :
    (∀ t, s.hands p t = 0 ∨ s.hands p t = 1) ∧ (∀ t, 136 ≤ t → s.hands p t = 0) ∧
    (∀ k < 34, s.hand_tensors p k = ((List.range 136).filter (fun t => s.hands p t == 1 && t / 4 == k)).length) ∧
    s.hand_tensors p 34 = s.hands p 16 ∧ s.hand_tensors p 35 = s.hands p 52 ∧ s.hand_tensors p 36 = s.hands p 88 := by
  have h := tableOk_reached hi hr
  refine ⟨h.bit p, h.big p, ?_, ?_, ?_, ?_⟩
  · intro k hk
    rw [h.count p k, ← List.countP_eq_length_filter]
    unfold heldCnt
    congr 2
    funext t
    rw [Bool.eq_iff_iff]
    simp only [Bool.and_eq_true, decide_eq_true_iff, beq_iff_eq, mem_tile2idx, inSlot_kind t k hk]
  · rw [h.count]
    exact heldCnt_red _ 16 34 (by omega) (by intro t ht; rw [mem_tile2idx]; unfold InSlot; omega) (h.bit p 16)
  · rw [h.count]
    exact heldCnt_red _ 52 35 (by omega) (by intro t ht; rw [mem_tile2idx]; unfold InSlot; omega) (h.bit p 52)
  · rw [h.count]
    exact heldCnt_red _ 88 36 (by omega) (by intro t ht; rw [mem_tile2idx]; unfold InSlot; omega) (h.bit p 88)

/-! ### C34 -/

theorem holds_snoc (hai : Nat → List Nat) (acts : List Act) (a : Act) (p t : Nat) :
    Holds hai (acts ++ [a]) p t ↔ (Holds hai acts p t ∧ t ∉ a.loses p) ∨ a = .draw p t := by
  unfold Holds
  constructor
  · rintro (⟨h1, h2⟩ | ⟨pre, post, h1, h2⟩)
    · exact .inl ⟨.inl ⟨h1, fun b hb => h2 b (by simp [hb])⟩, h2 a (by simp)⟩
    · rcases List.eq_nil_or_concat post with rfl | ⟨post', x, rfl⟩
      · right
        have := (List.append_inj' h1 rfl).2
        simpa using this
      · left
        rw [List.concat_eq_append, ← List.cons_append, ← List.append_assoc] at h1
        obtain ⟨h3, h4⟩ := List.append_inj' h1 rfl
        simp only [List.cons.injEq, and_true] at h4
        subst h4
        refine ⟨.inr ⟨pre, post', h3, fun b hb => h2 b (by simp [hb])⟩, h2 a (by simp)⟩
  · rintro (⟨(⟨h1, h2⟩ | ⟨pre, post, rfl, h2⟩), h3⟩ | rfl)
    · left
      refine ⟨h1, fun b hb => ?_⟩
      rcases List.mem_append.1 hb with hb | hb
      · exact h2 b hb
      · simp at hb; subst hb; exact h3
    · right
      refine ⟨pre, post ++ [a], by simp, fun b hb => ?_⟩
      rcases List.mem_append.1 hb with hb | hb
      · exact h2 b hb
      · simp at hb; subst hb; exact h3
    · exact .inr ⟨acts, [], rfl, by simp⟩

/-- C34: the per-tile table of a player contains exactly the tiles dealt to or drawn by the player
and not discarded or exposed since. -/
theorem C34_concealed {est : Estimate} {sh : List Int → Except PyErr Int} {g : GameInfo} {a : InitAttr}
    {c : RoundCfg} {s0 : RoundSt} (hi : initRound est sh g a = .ok (c, s0)) {hai : Nat → List Nat}
    (hhai : ∀ p < 4, a.hai p = .ok (hai p)) {acts : List Act} {s : RoundSt} (hr : Reached c s0 acts s)
    (p t : Nat) (hp : p < 4) : s.hands p t = 1 ↔ Holds hai acts p t := by
  obtain ⟨d⟩ := initRound_ok hi
  refine hr.induct (P := fun acts s => s.hands p t = 1 ↔ Holds hai acts p t) ?_ ?_
  · have : d.hai p = hai p := by
      have h1 := d.hai_eq p hp
      rw [hhai p hp] at h1
      simpa using h1.symm
    rw [d.state_eq]
    show (if t ∈ d.hai p then (1 : Int) else 0) = 1 ↔ _
    rw [this]
    unfold Holds
    by_cases h : t ∈ hai p <;> simp [h]
  · intro acts s act s' hr ih he
    rw [holds_snoc]
    cases he with
    | dora => simpa [Act.loses, Act.discarded, Act.exposed] using ih
    | declare => simpa [Act.loses, Act.discarded, Act.exposed] using ih
    | accept => simpa [Act.loses, Act.discarded, Act.exposed] using ih
    | @call q code _ d =>
      rw [d.state_eq]
      show d.hands' p t = 1 ↔ _
      obtain ⟨_, _, h3, _⟩ := expose_ok d.expose_eq
      rw [h3 p t, ← ih]
      simp only [Act.loses, Act.discarded, Act.exposed, List.nil_append, reduceCtorEq, or_false, d.exposed]
      by_cases hq : q = p
      · subst hq
        by_cases hm : t ∈ d.ex <;> simp [hm]
      · have : ¬ p = q := fun h => hq h.symm
        simp [this, hq]
    | @draw q u _ hq d =>
      rw [d.state_eq]
      show setAt s.hands q (setAt (s.hands q) u 1) p t = 1 ↔ _
      simp only [Act.loses, Act.discarded, Act.exposed, List.append_nil, List.not_mem_nil, not_false_eq_true,
        and_true, Act.draw.injEq, ← ih]
      unfold setAt
      by_cases h1 : p = q
      · subst h1
        by_cases h2 : t = u
        · simp [h2]
        · have : ¬ u = t := fun h => h2 h.symm
          simp [h2, this]
      · have : ¬ q = p := fun h => h1 h.symm
        simp [h1, this]
    | @discard q u _ hq d =>
      rw [d.state_eq]
      show setAt s.hands q (setAt (s.hands q) u 0) p t = 1 ↔ _
      simp only [Act.loses, Act.discarded, Act.exposed, List.append_nil, reduceCtorEq, or_false, ← ih]
      unfold setAt
      by_cases h1 : p = q
      · subst h1
        by_cases h2 : t = u
        · simp [h2]
        · simp [h2]
      · have : ¬ q = p := fun h => h1 h.symm
        simp [h1, this]

/-! ### C36 -/

theorem collect_snoc (f : Act → List Nat) (acts : List Act) (a : Act) : collect f (acts ++ [a]) = collect f acts ++ f a := by
  simp [collect]

theorem kindCount_append (l m : List Nat) (k : Nat) : kindCount (l ++ m) k = kindCount l k + kindCount m k := by
  simp [kindCount]

theorem kindCount_one (t k : Nat) : kindCount [t] k = if t / 4 = k then 1 else 0 := by
  simp [kindCount, List.countP_cons]

theorem cnt_one (t k : Nat) : cnt [t] k = if k ∈ tile2idx t then 1 else 0 := by
  simp [cnt, List.countP_cons]

theorem addAt_tile (f : Nat → Int) (t k : Nat) (d : Int) : addAt f (tile2idx t) d k = f k + d * cnt [t] k := by
  unfold addAt
  rw [cnt_one]
  split <;> simp

theorem addAt_kind (f : Nat → Int) (t k : Nat) (d : Int) : addAt f [t / 4] d k = f k + d * kindCount [t] k := by
  unfold addAt
  rw [kindCount_one]
  by_cases h : k = t / 4
  · simp [h]
  · have : ¬ t / 4 = k := fun e => h e.symm
    simp [h, this]

theorem unseen_formula {est : Estimate} {sh : List Int → Except PyErr Int} {g : GameInfo} {a : InitAttr}
    {c : RoundCfg} {s0 : RoundSt} (d : InitDone est sh g a c s0) {acts : List Act} {s : RoundSt}
    (hr : Reached c s0 acts s) (k : Nat) :
    s.remaining_tiles k = remainingTiles k -
      cnt (d.hai 0 ++ d.hai 1 ++ d.hai 2 ++ d.hai 3 ++ [d.dora0] ++ collect Act.drawnByAny acts) k -
      kindCount (collect Act.doras acts) k := by
  refine hr.induct (P := fun acts s => s.remaining_tiles k = remainingTiles k -
      cnt (d.hai 0 ++ d.hai 1 ++ d.hai 2 ++ d.hai 3 ++ [d.dora0] ++ collect Act.drawnByAny acts) k -
      kindCount (collect Act.doras acts) k) ?_ ?_
  · rw [congrArg RoundSt.remaining_tiles d.state_eq]
    show addAt _ _ _ _ = _
    rw [addAt_tile, countTiles_eq]
    simp only [collect, List.flatMap_nil, List.append_nil, cnt_append, kindCount, List.countP_nil]
    omega
  · intro acts s act s' hr ih he
    simp only [collect_snoc, cnt_append, kindCount_append] at ih ⊢
    cases he with
    | dora =>
      show addAt _ _ _ _ = _
      rw [addAt_kind, ih]
      simp only [Act.drawnByAny, Act.doras, cnt_nil]
      omega
    | declare => show s.remaining_tiles k = _; rw [ih]; simp [Act.drawnByAny, Act.doras, cnt_nil, kindCount]
    | accept => show s.remaining_tiles k = _; rw [ih]; simp [Act.drawnByAny, Act.doras, cnt_nil, kindCount]
    | call e => rw [e.state_eq]; show s.remaining_tiles k = _; rw [ih]; simp [Act.drawnByAny, Act.doras, cnt_nil, kindCount]
    | draw hq e =>
      rw [e.state_eq]
      show addAt _ _ _ _ = _
      rw [addAt_tile, ih]
      simp only [Act.drawnByAny, Act.doras, kindCount, List.countP_nil]
      omega
    | discard hq e => rw [e.state_eq]; show s.remaining_tiles k = _; rw [ih]; simp [Act.drawnByAny, Act.doras, cnt_nil, kindCount]

theorem doras_lt {c : RoundCfg} {s0 : RoundSt} {acts : List Act} {s : RoundSt} (hr : Reached c s0 acts s) :
    ∀ t ∈ collect Act.doras acts, t < 136 := by
  refine hr.induct (P := fun acts _ => ∀ t ∈ collect Act.doras acts, t < 136) (by simp [collect]) ?_
  intro acts s act s' hr ih he
  rw [collect_snoc]
  intro t ht
  rcases List.mem_append.1 ht with ht | ht
  · exact ih t ht
  · cases he <;> simp [Act.doras] at ht
    subst ht
    assumption

/-- C36, part that holds: for every kind the counter is 4 minus the tiles of that kind dealt, drawn
or turned as indicator; for the three red slots it is 1 minus the red fives dealt, drawn or turned
as the *first* indicator, so indicators turned later are missing there. -/
theorem C36_unseen_partial {est : Estimate} {sh : List Int → Except PyErr Int} {g : GameInfo} {a : InitAttr}
    {c : RoundCfg} {s0 : RoundSt} (hi : initRound est sh g a = .ok (c, s0)) {hai : Nat → List Nat} {dora0 : Nat}
    (hd : a.Deals hai dora0) {acts : List Act} {s : RoundSt} (hr : Reached c s0 acts s) :
    (∀ k < 34, s.remaining_tiles k = 4 - (kindCount (hai 0 ++ hai 1 ++ hai 2 ++ hai 3 ++ [dora0] ++
      collect Act.drawnByAny acts ++ collect Act.doras acts) k : Nat)) ∧
    (∀ k, 34 ≤ k → k < 37 → s.remaining_tiles k = 1 - (slotCount (hai 0 ++ hai 1 ++ hai 2 ++ hai 3 ++ [dora0] ++
      collect Act.drawnByAny acts) k : Nat)) := by
  obtain ⟨d⟩ := initRound_ok hi
  obtain ⟨e1, e2⟩ := d.deals hd
  have hf := unseen_formula d hr
  rw [e1 0 (by omega), e1 1 (by omega), e1 2 (by omega), e1 3 (by omega), e2] at hf
  refine ⟨?_, ?_⟩
  · intro k hk
    have h4 : remainingTiles k = 4 := by unfold remainingTiles; rw [if_pos hk]
    rw [hf k, cnt_eq, slotCount_kind _ _ hk, h4, kindCount_append _ (collect Act.doras acts)]
    omega
  · intro k h1 h2
    have h4 : remainingTiles k = 1 := by unfold remainingTiles; rw [if_neg (by omega)]
    have h5 : kindCount (collect Act.doras acts) k = 0 := by
      unfold kindCount
      rw [List.countP_eq_zero]
      intro t ht
      have := doras_lt hr t ht
      simp
      omega
    rw [hf k, cnt_eq, h4, h5]
    omega

/-! ### C37 -/

/-- C37, part that holds: for every kind the counter of player `p` is 4 minus the tiles of that kind
the player has seen: own deal and draws, all indicators, the others' discards and exposed tiles;
in the red slots the indicators turned after the first are missing. -/
theorem C37_unseen_by_player_partial {est : Estimate} {sh : List Int → Except PyErr Int} {g : GameInfo} {a : InitAttr}
    {c : RoundCfg} {s0 : RoundSt} (hi : initRound est sh g a = .ok (c, s0)) {hai : Nat → List Nat} {dora0 : Nat}
    (hd : a.Deals hai dora0) {acts : List Act} {s : RoundSt} (hr : Reached c s0 acts s) (p : Nat) (hp : p < 4) :
    (∀ k < 34, s.remaining_tiles_pov p k = 4 - (kindCount (hai p ++ [dora0] ++ collect (Act.drawn p) acts ++
      collect (Act.shownTo p) acts ++ collect Act.doras acts) k : Nat)) ∧
    (∀ k, 34 ≤ k → k < 37 → s.remaining_tiles_pov p k = 1 - (slotCount (hai p ++ [dora0] ++
      collect (Act.drawn p) acts ++ collect (Act.shownTo p) acts) k : Nat)) := by
  obtain ⟨d⟩ := initRound_ok hi
  obtain ⟨e1, e2⟩ := d.deals hd
  have hf : ∀ k, s.remaining_tiles_pov p k = remainingTiles k - cnt (hai p ++ [dora0] ++ collect (Act.drawn p) acts ++
      collect (Act.shownTo p) acts) k - kindCount (collect Act.doras acts) k := by
    intro k
    refine hr.induct (P := fun acts s => s.remaining_tiles_pov p k = remainingTiles k - cnt (hai p ++ [dora0] ++
      collect (Act.drawn p) acts ++ collect (Act.shownTo p) acts) k - kindCount (collect Act.doras acts) k) ?_ ?_
    · rw [congrArg RoundSt.remaining_tiles_pov d.state_eq]
      show addAt _ _ _ _ = _
      rw [addAt_tile, countTiles_eq, e1 p hp, e2]
      simp only [collect, List.flatMap_nil, List.append_nil, cnt_append, kindCount, List.countP_nil]
      omega
    · intro acts s act s' hr ih he
      simp only [collect_snoc, cnt_append, kindCount_append] at ih ⊢
      cases he with
      | dora =>
        show addAt _ _ _ _ = _
        rw [addAt_kind, ih]
        simp only [Act.drawn, Act.shownTo, Act.doras, cnt_nil]
        omega
      | declare => show s.remaining_tiles_pov p k = _; rw [ih]; simp [Act.drawn, Act.shownTo, Act.doras, cnt_nil, kindCount]
      | accept => show s.remaining_tiles_pov p k = _; rw [ih]; simp [Act.drawn, Act.shownTo, Act.doras, cnt_nil, kindCount]
      | @call q code _ e =>
        rw [e.state_eq]
        show (if p = q then s.remaining_tiles_pov p else seeExposed e.ex (s.remaining_tiles_pov p)) k = _
        simp only [Act.drawn, Act.shownTo, Act.doras, cnt_nil, kindCount, List.countP_nil, e.exposed]
        by_cases hq : q = p
        · subst hq
          simpa [cnt_nil, kindCount] using ih
        · have : ¬ p = q := fun h => hq h.symm
          rw [if_neg this, if_neg hq, seeExposed_eq, ih]
          simp only [kindCount]
          omega
      | @draw q t _ hq e =>
        rw [e.state_eq]
        show addRow _ _ _ _ p k = _
        simp only [addRow, Act.drawn, Act.shownTo, Act.doras, cnt_nil, kindCount, List.countP_nil]
        by_cases hq : q = p
        · subst hq
          rw [setAt_same, addAt_tile, ih, if_pos rfl]
          simp only [kindCount]
          omega
        · have : ¬ p = q := fun h => hq h.symm
          rw [setAt_ne _ _ _ _ this, ih, if_neg hq]
          simp only [kindCount, cnt_nil]
          omega
      | @discard q t _ hq e =>
        rw [e.state_eq]
        show addRow (fun p => addAt (s.remaining_tiles_pov p) (tile2idx t) (-1)) q (tile2idx t) 1 p k = _
        simp only [addRow, Act.drawn, Act.shownTo, Act.doras, cnt_nil, kindCount, List.countP_nil]
        by_cases hq : q = p
        · subst hq
          rw [setAt_same, addAt_tile, addAt_tile, ih, if_pos rfl]
          simp only [kindCount, cnt_nil]
          omega
        · have : ¬ p = q := fun h => hq h.symm
          rw [setAt_ne _ _ _ _ this, addAt_tile, ih, if_neg hq]
          simp only [kindCount]
          omega
  refine ⟨?_, ?_⟩
  · intro k hk
    have h4 : remainingTiles k = 4 := by unfold remainingTiles; rw [if_pos hk]
    rw [hf k, cnt_eq, slotCount_kind _ _ hk, h4, kindCount_append _ (collect Act.doras acts)]
    omega
  · intro k h1 h2
    have h4 : remainingTiles k = 1 := by unfold remainingTiles; rw [if_neg (by omega)]
    have h5 : kindCount (collect Act.doras acts) k = 0 := by
      unfold kindCount
      rw [List.countP_eq_zero]
      intro t ht
      have := doras_lt hr t ht
      simp
      omega
    rw [hf k, cnt_eq, h4, h5]
    omega

/-! ### C38 -/

/-- a call that is neither chi nor pon -/
def isDeadWallCall : Act → Bool
  | .call _ c => !is_chi c && !is_pon c
  | _ => false

/-- C38, part that holds: the counter is 70 minus the draws, minus the kans, minus the indicators
turned after the first.  (Every kan is followed by a draw of its own, so kans count twice.) -/
theorem C38_remaining_draws_partial {est : Estimate} {sh : List Int → Except PyErr Int} {g : GameInfo} {a : InitAttr}
    {c : RoundCfg} {s0 : RoundSt} (hi : initRound est sh g a = .ok (c, s0))
    {acts : List Act} {s : RoundSt} (hr : Reached c s0 acts s) :
    s.remaining_tsumo = 70 - acts.countP Act.isDraw - acts.countP isDeadWallCall - (collect Act.doras acts).length := by
  obtain ⟨d⟩ := initRound_ok hi
  refine hr.induct (P := fun acts s => s.remaining_tsumo = 70 - acts.countP Act.isDraw - acts.countP isDeadWallCall -
    (collect Act.doras acts).length) ?_ ?_
  · rw [d.state_eq]; simp [collect, remainingTsumo]
  · intro acts s act s' hr ih he
    simp only [collect_snoc, List.countP_append, List.countP_singleton, List.length_append]
    cases he with
    | dora =>
      show s.remaining_tsumo - 1 = _
      simp only [Act.isDraw, isDeadWallCall, Act.doras, List.length_singleton, Bool.false_eq_true, if_false]
      omega
    | declare => show s.remaining_tsumo = _; rw [ih]; simp [Act.isDraw, isDeadWallCall, Act.doras]
    | accept => show s.remaining_tsumo = _; rw [ih]; simp [Act.isDraw, isDeadWallCall, Act.doras]
    | @call q code _ e =>
      rw [e.state_eq]
      show (if (!is_chi code && !is_pon code) = true then s.remaining_tsumo - 1 else s.remaining_tsumo) = _
      simp only [Act.isDraw, isDeadWallCall, Act.doras, List.length_nil, Bool.false_eq_true, if_false]
      by_cases hb : (!is_chi code && !is_pon code) = true
      · simp only [hb, if_true]; omega
      · simp only [hb, if_false, Bool.false_eq_true]; omega
    | draw hq e =>
      rw [e.state_eq]
      show s.remaining_tsumo - 1 = _
      simp only [Act.isDraw, isDeadWallCall, Act.doras, List.length_nil, Bool.false_eq_true, if_false, if_true]
      omega
    | discard hq e => rw [e.state_eq]; show s.remaining_tsumo = _; rw [ih]; simp [Act.isDraw, isDeadWallCall, Act.doras]

/-! ### C57 -/

/-- C57: the tensor used for win evaluation is the concealed hand plus all tiles the player exposed
in calls plus all tiles taken from others in calls, slot by slot. -/
theorem C57_full_hands {est : Estimate} {sh : List Int → Except PyErr Int} {g : GameInfo} {a : InitAttr}
    {c : RoundCfg} {s0 : RoundSt} (hi : initRound est sh g a = .ok (c, s0))
    {acts : List Act} {s : RoundSt} (hr : Reached c s0 acts s) (p k : Nat) :
    s.hand_tensors_full p k = s.hand_tensors p k +
      (slotCount (collect (Act.exposed p) acts ++ collect (Act.called p) acts) k : Nat) := by
  obtain ⟨d⟩ := initRound_ok hi
  rw [← cnt_eq]
  refine hr.induct (P := fun acts s => s.hand_tensors_full p k = s.hand_tensors p k +
      (cnt (collect (Act.exposed p) acts ++ collect (Act.called p) acts) k : Nat)) ?_ ?_
  · rw [d.state_eq]; simp [collect, cnt_nil]
  · intro acts s act s' hr ih he
    simp only [collect_snoc, cnt_append] at ih ⊢
    cases he with
    | dora => show s.hand_tensors_full p k = _; rw [ih]; simp [Act.exposed, Act.called, cnt_nil]
    | declare => show s.hand_tensors_full p k = _; rw [ih]; simp [Act.exposed, Act.called, cnt_nil]
    | accept => show s.hand_tensors_full p k = _; rw [ih]; simp [Act.exposed, Act.called, cnt_nil]
    | @call q code _ e =>
      rw [e.state_eq]
      show gain s.hand_tensors_full q e.acq p k = e.ht' p k + _
      obtain ⟨_, _, _, h4⟩ := expose_ok e.expose_eq
      rw [h4 p k]
      simp only [Act.exposed, Act.called, e.exposed, e.called]
      have hg : gain s.hand_tensors_full q e.acq p k =
          s.hand_tensors_full p k + if q = p then cnt e.acq.toList k else 0 := by
        cases e.acq with
        | none => simp [gain, cnt_nil]
        | some x =>
          simp only [gain, addRow, Option.toList_some]
          by_cases hq : q = p
          · subst hq; rw [setAt_same, addAt_tile]; simp
          · have : ¬ p = q := fun h => hq h.symm
            rw [setAt_ne _ _ _ _ this]; simp [hq]
      rw [hg, ih]
      by_cases hq : q = p
      · subst hq; simp; omega
      · have : ¬ p = q := fun h => hq h.symm
        simp [hq, this, cnt_nil]
    | @draw q t _ hq e =>
      rw [e.state_eq]
      show addRow _ _ _ _ p k = addRow _ _ _ _ p k + _
      simp only [addRow, Act.exposed, Act.called, cnt_nil]
      by_cases hq : q = p
      · subst hq
        rw [setAt_same, setAt_same, addAt_tile, addAt_tile, ih]; omega
      · have : ¬ p = q := fun h => hq h.symm
        rw [setAt_ne _ _ _ _ this, setAt_ne _ _ _ _ this, ih]; omega
    | @discard q t _ hq e =>
      rw [e.state_eq]
      show addRow _ _ _ _ p k = addRow _ _ _ _ p k + _
      simp only [addRow, Act.exposed, Act.called, cnt_nil]
      by_cases hq : q = p
      · subst hq
        rw [setAt_same, setAt_same, addAt_tile, addAt_tile, ih]; omega
      · have : ¬ p = q := fun h => hq h.symm
        rw [setAt_ne _ _ _ _ this, setAt_ne _ _ _ _ this, ih]; omega

/-! ### Witnesses -/

theorem kanLog_accepted : accepts (processRound noWin farAway ⟨0⟩ dealKan (kanLog ++ [.result false (.ok [])]))
    (fun s => s.remaining_tiles 36 == 1 && s.remaining_tiles_pov 1 36 == 1 && s.remaining_tsumo == 66) = true := by
  decide +kernel

/-- C36 does not hold for the red slots: the red five turned as an indicator after a kan is still
counted as unseen. -/
theorem C36_unseen_violated :
    ¬ ∀ (est : Estimate) (sh : List Int → Except PyErr Int) (g : GameInfo) (a : InitAttr) (c : RoundCfg) (s0 : RoundSt)
      (hai : Nat → List Nat) (dora0 : Nat) (acts : List Act) (s : RoundSt),
      initRound est sh g a = .ok (c, s0) → a.Deals hai dora0 → Reached c s0 acts s →
      ∀ k < 37, s.remaining_tiles k = remainingTiles k - (slotCount (hai 0 ++ hai 1 ++ hai 2 ++ hai 3 ++ [dora0] ++
        collect Act.drawnByAny acts ++ collect Act.doras acts) k : Nat) := by
  intro h
  obtain ⟨s, h1, h2⟩ := accepts_ok kanLog_accepted
  obtain ⟨c, s0, h3, h4⟩ := accepted_exact (acts := kanActs) h1 rfl
  have := h _ _ _ _ c s0 dealtKan 132 kanActs s h3 dealKan_deals h4 36 (by omega)
  simp only [Bool.and_eq_true, beq_iff_eq] at h2
  rw [h2.1.1] at this
  revert this
  decide +kernel

/-- C37 does not hold for the red slots. -/
theorem C37_unseen_by_player_violated :
    ¬ ∀ (est : Estimate) (sh : List Int → Except PyErr Int) (g : GameInfo) (a : InitAttr) (c : RoundCfg) (s0 : RoundSt)
      (hai : Nat → List Nat) (dora0 : Nat) (acts : List Act) (s : RoundSt),
      initRound est sh g a = .ok (c, s0) → a.Deals hai dora0 → Reached c s0 acts s →
      ∀ p < 4, ∀ k < 37, s.remaining_tiles_pov p k = remainingTiles k - (slotCount (hai p ++ [dora0] ++
        collect (Act.drawn p) acts ++ collect (Act.shownTo p) acts ++ collect Act.doras acts) k : Nat) := by
  intro h
  obtain ⟨s, h1, h2⟩ := accepts_ok kanLog_accepted
  obtain ⟨c, s0, h3, h4⟩ := accepted_exact (acts := kanActs) h1 rfl
  have := h _ _ _ _ c s0 dealtKan 132 kanActs s h3 dealKan_deals h4 1 (by omega) 36 (by omega)
  simp only [Bool.and_eq_true, beq_iff_eq] at h2
  rw [h2.1.2] at this
  revert this
  decide +kernel

/-- C38 does not hold: after two draws, a kan and its indicator the counter is 66. -/
theorem C38_remaining_draws_violated :
    ¬ ∀ (est : Estimate) (sh : List Int → Except PyErr Int) (g : GameInfo) (a : InitAttr) (c : RoundCfg) (s0 : RoundSt)
      (acts : List Act) (s : RoundSt),
      initRound est sh g a = .ok (c, s0) → Reached c s0 acts s → s.remaining_tsumo = 70 - acts.countP Act.isDraw := by
  intro h
  obtain ⟨s, h1, h2⟩ := accepts_ok kanLog_accepted
  obtain ⟨c, s0, h3, h4⟩ := accepted_exact (acts := kanActs) h1 rfl
  have := h _ _ _ _ c s0 kanActs s h3 h4
  simp only [Bool.and_eq_true, beq_iff_eq] at h2
  rw [h2.2] at this
  revert this
  decide +kernel

/-- the hypotheses of the theorems above can be met: the log with a kan is processed -/
example : ∃ c s0 s, initRound noWin farAway ⟨0⟩ dealKan = .ok (c, s0) ∧ Reached c s0 kanActs s ∧
    Holds dealtKan kanActs 0 120 ∧ ¬ Holds dealtKan kanActs 0 0 ∧ ¬ Holds dealtKan kanActs 0 121 := by
  obtain ⟨s, h1, _⟩ := accepts_ok kanLog_accepted
  obtain ⟨c, s0, h3, h4⟩ := accepted_exact (acts := kanActs) h1 rfl
  have e : accepts (processRound noWin farAway ⟨0⟩ dealKan (kanLog ++ [.result false (.ok [])]))
    (fun s => s.hands 0 120 == 1 && s.hands 0 0 == 0 && s.hands 0 121 == 0) = true := by decide +kernel
  obtain ⟨s', h1', h5⟩ := accepts_ok e
  rw [h1] at h1'
  cases h1'
  simp only [Bool.and_eq_true, beq_iff_eq] at h5
  have hc := fun t => C34_concealed h3 (fun p hp => dealKan_deals.1 p hp) h4 0 t (by omega)
  refine ⟨c, s0, s, h3, h4, (hc 120).1 h5.1.1, ?_, ?_⟩
  · rw [← hc 0, h5.1.2]; decide
  · rw [← hc 121, h5.2]; decide

end MJ
