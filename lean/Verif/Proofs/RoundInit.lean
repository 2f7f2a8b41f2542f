import Verif.Proofs.Reached
/-!
The state before the first event, and counting tiles.
-/
namespace MJ
open Code Spec

theorem mem_tile2idx (t k : Nat) : k ∈ tile2idx t ↔ InSlot t k := by
  unfold tile2idx InSlot
  by_cases h1 : t = 16
  · subst h1; simp; omega
  · by_cases h2 : t = 52
    · subst h2; simp; omega
    · by_cases h3 : t = 88
      · subst h3; simp; omega
      · simp [h1, h2, h3]; omega

theorem cnt_eq (l : List Nat) (k : Nat) : cnt l k = slotCount l k := by
  unfold cnt slotCount
  congr 1
  funext t
  rw [Bool.eq_iff_iff, decide_eq_true_iff, decide_eq_true_iff, mem_tile2idx]

/-- the first slot of a tile is its kind; for kinds, `InSlot` is equality of kinds -/
theorem inSlot_kind (t k : Nat) (hk : k < 34) : InSlot t k ↔ t / 4 = k := by
  unfold InSlot; omega

theorem slotCount_kind (l : List Nat) (k : Nat) (hk : k < 34) : slotCount l k = kindCount l k := by
  unfold slotCount kindCount
  congr 1
  funext t
  rw [Bool.eq_iff_iff, decide_eq_true_iff, inSlot_kind t k hk, beq_iff_eq]

/-- counting after a change at one point -/
theorem countP_update (n t : Nat) (P Q : Nat → Bool) (h : ∀ x, x ≠ t → P x = Q x) :
    (List.range n).countP P + (if t < n ∧ Q t = true then 1 else 0) =
    (List.range n).countP Q + (if t < n ∧ P t = true then 1 else 0) := by
  induction n with
  | zero => simp
  | succ n ih =>
    rw [List.range_succ, List.countP_append, List.countP_append, List.countP_singleton, List.countP_singleton]
    by_cases ht : t = n
    · subst ht
      have h1 : ¬ t < t := by omega
      have h2 : t < t + 1 := by omega
      simp only [h1, false_and, if_false, Nat.add_zero] at ih
      simp only [h2, true_and]
      omega
    · rw [h n (by omega)]
      have : t < n + 1 ↔ t < n := by omega
      simp only [this]
      omega

/-- how many of the tiles marked 1 in the table count in slot `k` -/
def heldCnt (h : Nat → Int) (k : Nat) : Nat :=
  (List.range 136).countP (fun t => decide (h t = 1) && decide (k ∈ tile2idx t))

theorem heldCnt_add (h : Nat → Int) (t k : Nat) (ht : t < 136) (h0 : h t ≠ 1) :
    heldCnt (setAt h t 1) k = heldCnt h k + if k ∈ tile2idx t then 1 else 0 := by
  have := countP_update 136 t (fun x => decide (setAt h t 1 x = 1) && decide (k ∈ tile2idx x))
    (fun x => decide (h x = 1) && decide (k ∈ tile2idx x)) (by intro x hx; simp [setAt, hx])
  unfold heldCnt
  simp only [ht, h0, setAt_same, true_and, decide_true, Bool.true_and, decide_false, Bool.false_and,
    Bool.false_eq_true, if_false, Nat.add_zero, decide_eq_true_iff] at this
  exact this

theorem heldCnt_remove (h : Nat → Int) (t k : Nat) (v : Int) (ht : t < 136) (h1 : h t = 1) (hv : v ≠ 1) :
    heldCnt (setAt h t v) k + (if k ∈ tile2idx t then 1 else 0) = heldCnt h k := by
  have := countP_update 136 t (fun x => decide (setAt h t v x = 1) && decide (k ∈ tile2idx x))
    (fun x => decide (h x = 1) && decide (k ∈ tile2idx x)) (by intro x hx; simp [setAt, hx])
  unfold heldCnt
  simp only [ht, h1, hv, setAt_same, true_and, decide_true, Bool.true_and, decide_false, Bool.false_and,
    Bool.false_eq_true, if_false, Nat.add_zero, decide_eq_true_iff] at this
  exact this

/-- number of distinct tiles below 136 in a list -/
theorem distinct_cons (x : Nat) (l : List Nat) (hx : x < 136) :
    (List.range 136).countP (fun t => decide (t ∈ x :: l)) =
    (List.range 136).countP (fun t => decide (t ∈ l)) + if x ∈ l then 0 else 1 := by
  have := countP_update 136 x (fun t => decide (t ∈ x :: l)) (fun t => decide (t ∈ l))
    (by intro y hy; simp [hy])
  simp only [hx, true_and, decide_eq_true_iff, List.mem_cons, true_or, if_true] at this
  simp only [List.mem_cons]
  split <;> simp_all <;> omega

theorem distinct_le (l : List Nat) (hl : ∀ t ∈ l, t < 136) :
    (List.range 136).countP (fun t => decide (t ∈ l)) ≤ l.length := by
  induction l with
  | nil => simp
  | cons x l ih =>
    rw [distinct_cons x l (hl x (by simp)), List.length_cons]
    have := ih (fun t ht => hl t (by simp [ht]))
    split <;> omega

theorem distinct_nodup (l : List Nat) (hl : ∀ t ∈ l, t < 136)
    (h : (List.range 136).countP (fun t => decide (t ∈ l)) = l.length) : l.Nodup := by
  induction l with
  | nil => simp
  | cons x l ih =>
    rw [distinct_cons x l (hl x (by simp)), List.length_cons] at h
    have hle := distinct_le l (fun t ht => hl t (by simp [ht]))
    by_cases hx : x ∈ l
    · simp [hx] at h; omega
    · simp [hx] at h
      exact List.nodup_cons.2 ⟨hx, ih (fun t ht => hl t (by simp [ht])) h⟩

theorem sum_indicator (P : Nat → Prop) [DecidablePred P] (l : List Nat) :
    (l.map (fun t => if P t then (1 : Int) else 0)).sum = (l.countP (fun t => decide (P t)) : Nat) := by
  induction l with
  | nil => simp
  | cons x l ih =>
    rw [List.map_cons, List.sum_cons, ih, List.countP_cons]
    by_cases h : P x <;> simp [h] <;> omega

/-- sum of the kinds' counters after adding `d` for each tile of a list -/
theorem sum34_add (f g : Nat → Int) : sum34 (fun k => f k + g k) = sum34 f + sum34 g := by
  simp only [sum34]
  simp only [List.range, List.range.loop, List.map_cons, List.map_nil, List.sum_cons, List.sum_nil]
  omega

theorem sum34_congr {f g : Nat → Int} (h : ∀ k < 34, f k = g k) : sum34 f = sum34 g := by
  unfold sum34
  congr 1
  apply List.map_congr_left
  intro k hk
  exact h k (List.mem_range.1 hk)

theorem sum34_addAt (f : Nat → Int) (t : Nat) (d : Int) (ht : t < 136) :
    sum34 (addAt f (tile2idx t) d) = sum34 f + d := by
  have h1 : sum34 (addAt f (tile2idx t) d) = sum34 (fun k => f k + if t / 4 = k then d else 0) := by
    apply sum34_congr
    intro k hk
    unfold addAt
    simp only [mem_tile2idx, inSlot_kind t k hk]
    split <;> omega
  rw [h1, sum34_add]
  congr 1
  have : ∀ j < 34, sum34 (fun k => if j = k then d else 0) = d := by
    intro j hj
    have key : ∀ n, j < n → ((List.range n).map (fun k => if j = k then d else 0)).sum = d := by
      intro n hn
      induction n with
      | zero => omega
      | succ n ih =>
        rw [List.range_succ, List.map_append, List.sum_append]
        by_cases hjn : j < n
        · rw [ih hjn]
          have : ¬ j = n := by omega
          simp [this]
        · have hjn : j = n := by omega
          subst hjn
          have : ((List.range j).map (fun k => if j = k then d else 0)).sum = 0 := by
            have : (List.range j).map (fun k => if j = k then d else 0) = (List.range j).map (fun _ => (0 : Int)) := by
              apply List.map_congr_left
              intro k hk
              rw [List.mem_range] at hk
              rw [if_neg (by omega)]
            rw [this]
            generalize List.range j = l
            induction l with
            | nil => simp
            | cons x l ih => simpa using ih
          rw [this]
          simp
    exact key 34 hj
  exact this (t / 4) (by omega)

theorem sum34_countTiles (l : List Nat) (f : Nat → Int) (d : Int) (hl : ∀ t ∈ l, t < 136) :
    sum34 (countTiles l f d) = sum34 f + d * l.length := by
  unfold countTiles
  induction l generalizing f with
  | nil => simp
  | cons t l ih =>
    rw [List.foldl_cons, ih _ (fun t ht => hl t (by simp [ht])), sum34_addAt f t d (hl t (by simp)), List.length_cons,
      Int.natCast_add, Int.mul_add]
    simp
    omega

/-- the start of a round: the dealt tiles `hai`, the first indicator `dora0` -/
structure InitDone (est : Estimate) (sh : List Int → Except PyErr Int) (g : GameInfo) (a : InitAttr)
    (c : RoundCfg) (s0 : RoundSt) where
  hai : Nat → List Nat
  hai_eq : ∀ p < 4, a.hai p = .ok (hai p)
  hai_none : ∀ p, 4 ≤ p → hai p = []
  curr_round : Nat
  honba : Nat
  kyotaku : Nat
  x : Nat
  y : Nat
  dora0 : Nat
  seed_eq : a.seed = .ok [curr_round, honba, kyotaku, x, y, dora0]
  parent : Nat
  parent_eq : a.oya = .ok parent
  parent_lt : parent < 4
  scores : List Int
  scores_eq : a.ten = .ok scores
  hai_lt : ∀ p, ∀ t ∈ hai p, t < 136
  dora_lt : dora0 < 136
  hai_len : ∀ p < 4, (hai p).length = 13
  hai_nodup : ∀ p, (hai p).Nodup
  cfg_eq : c =
    { estimate := est, shanten := sh, honba := honba, parent := parent
      rounds_remaining := (g.n_rounds : Int) - curr_round
      parent_rounds_remaining := (List.range 4).map (fun (i : Nat) => ((g.n_rounds : Int) - curr_round + i) / 4)
      player_wind := (RoundInfo.init g curr_round).player_wind
      round_wind := (RoundInfo.init g curr_round).round_wind }
  state_eq : s0 =
    { hands := fun p t => if t ∈ hai p then (1 : Int) else 0
      hand_tensors := fun p => countTiles (hai p) (fun _ => 0) 1
      hand_tensors_full := fun p => countTiles (hai p) (fun _ => 0) 1
      remaining_tiles := addAt (countTiles (hai 0 ++ hai 1 ++ hai 2 ++ hai 3) remainingTiles (-1)) (tile2idx dora0) (-1)
      remaining_tiles_pov := fun p => addAt (countTiles (hai p) remainingTiles (-1)) (tile2idx dora0) (-1)
      remaining_tsumo := remainingTsumo
      sutehai_tensors := fun _ _ => 0
      doras := [dora0]
      scores := scores
      kyotaku := kyotaku
      double_reaches := fun _ => 0
      reaches := fun _ => 0
      ippatsu := fun _ => 0
      melds := fun _ => []
      is_menzen := fun _ => 1
      curr_halfturn := none
      cycles := 0
      acquired := none
      stateObj := none
      halfturns := []
      encoding_tokens := [] }

theorem unpackSeed_ok {l : List Nat} {r h k d : Nat} (e : unpackSeed l = .ok (r, h, k, d)) :
    ∃ x y, l = [r, h, k, x, y, d] := by
  unfold unpackSeed at e
  split at e
  · simp at e; obtain ⟨rfl, rfl, rfl, rfl⟩ := e; exact ⟨_, _, rfl⟩
  · simp at e

theorem sum34_remainingTiles : sum34 remainingTiles = 136 := by decide

theorem initRound_ok {est : Estimate} {sh : List Int → Except PyErr Int} {g : GameInfo} {a : InitAttr}
    {c : RoundCfg} {s0 : RoundSt} (h : initRound est sh g a = .ok (c, s0)) :
    Nonempty (InitDone est sh g a c s0) := by
  simp only [initRound, bind_ok, checkTile_ok, checkTiles_ok, checkSeat_ok] at h
  obtain ⟨scores, e1, parent, e2, _, e3, seed, e4, ⟨cr, hb, ky, d0⟩, e5, h0, e6, h1, e7, h2, e8, h3, e9, _, e10, _, e11, h⟩ := h
  obtain ⟨x, y, rfl⟩ := unpackSeed_ok e5
  by_cases hlen : h0.length = h1.length ∧ h1.length = h2.length ∧ h2.length = h3.length
  · rw [if_pos hlen] at h
    simp only [bind_ok, pure_ok, pyAssert_ok, beq_iff_eq, Prod.mk.injEq] at h
    obtain ⟨_, e12, _, e13, e14, e15⟩ := h
    have hsum : sum34 (addAt (countTiles (h0 ++ h1 ++ h2 ++ h3) remainingTiles (-1)) (tile2idx d0) (-1)) =
        136 - ((h0 ++ h1 ++ h2 ++ h3).length : Int) - 1 := by
      rw [sum34_addAt _ _ _ e11, sum34_countTiles _ _ _ e10, sum34_remainingTiles]
      omega
    rw [hsum] at e13
    simp only [List.length_append] at e13
    have hl13 : h0.length = 13 ∧ h1.length = 13 ∧ h2.length = 13 ∧ h3.length = 13 := by omega
    have hai_cases : ∀ p, p < 4 → p = 0 ∨ p = 1 ∨ p = 2 ∨ p = 3 := by omega
    let hai := fun p : Nat => if p = 0 then h0 else if p = 1 then h1 else if p = 2 then h2 else if p = 3 then h3 else []
    have hlt : ∀ p, ∀ t ∈ hai p, t < 136 := by
      intro p t ht
      apply e10 t
      simp only [hai] at ht
      simp only [List.mem_append]
      repeat' split at ht
      all_goals simp_all
    have hai4 : ∀ p, 4 ≤ p → hai p = [] := by
      intro p hp
      simp only [hai]
      rw [if_neg (by omega), if_neg (by omega), if_neg (by omega), if_neg (by omega)]
    have hlen13 : ∀ p < 4, (hai p).length = 13 := by
      intro p hp
      rcases hai_cases p hp with rfl | rfl | rfl | rfl
      · exact hl13.1
      · exact hl13.2.1
      · exact hl13.2.2.1
      · exact hl13.2.2.2
    have hnd : ∀ p, (hai p).Nodup := by
      intro p
      by_cases hp : p < 4
      · apply distinct_nodup _ (hlt p)
        rw [hlen13 p hp]
        have := List.all_eq_true.1 e12 p (List.mem_range.2 hp)
        rw [beq_iff_eq] at this
        have e := sum_indicator (fun t => t ∈ hai p) (List.range 136)
        have : (((List.range 136).countP (fun t => decide (t ∈ hai p)) : Nat) : Int) = 13 := e.symm.trans this
        omega
      · rw [hai4 p (by omega)]; simp
    refine ⟨⟨hai, ?_, hai4, cr, hb, ky, x, y, d0, e4, parent, e2, e3, scores, e1, hlt, e11, hlen13, hnd, e14.symm, ?_⟩⟩
    · intro p hp
      rcases hai_cases p hp with rfl | rfl | rfl | rfl
      · exact e6
      · exact e7
      · exact e8
      · exact e9
    · rw [← e15]
      rfl
  · rw [if_neg hlen] at h
    simp [throw, throwThe, MonadExceptOf.throw, bind, Except.bind] at h

/-- the dealt tiles and the first indicator named by the attributes of the INIT event -/
def InitAttr.Deals (a : InitAttr) (hai : Nat → List Nat) (dora0 : Nat) : Prop :=
  (∀ p < 4, a.hai p = .ok (hai p)) ∧ ∃ r h k x y, a.seed = .ok [r, h, k, x, y, dora0]

theorem InitDone.deals {est : Estimate} {sh : List Int → Except PyErr Int} {g : GameInfo} {a : InitAttr}
    {c : RoundCfg} {s0 : RoundSt} (d : InitDone est sh g a c s0) {hai : Nat → List Nat} {dora0 : Nat}
    (h : a.Deals hai dora0) : (∀ p < 4, d.hai p = hai p) ∧ d.dora0 = dora0 := by
  obtain ⟨h1, r, hh, k, x, y, h2⟩ := h
  refine ⟨fun p hp => ?_, ?_⟩
  · have := d.hai_eq p hp
    rw [h1 p hp] at this
    simpa using this.symm
  · have := d.seed_eq
    rw [h2] at this
    simp at this
    exact this.2.2.2.2.2.symm

end MJ
