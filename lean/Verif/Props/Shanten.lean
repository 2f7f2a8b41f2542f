import Verif.Proofs.ShantenHonours
/-!
Properties of the shanten solver: it restores the hand, terminates, its value comes from an actual decomposition, and
it recognises exactly the complete hands and the hands one tile from complete.  Counterexamples for the fifth tile,
red fives, minimality and the thirteen-orphans formula.
-/
namespace MJ
open Spec

/-! ### Restoring and terminating -/

/-- everything but `best_shanten` is as before `solve` -/
theorem C76_restores {fuel : Nat} {s s' : Solver} {v : Int} (h : s.solve fuel = some (v, s')) :
    s' = { s with best := v } ∧ v ≤ s.best := by
  unfold Solver.solve at h
  simp only [bind_some] at h
  obtain ⟨s1, h1, h2⟩ := h
  simp only [Option.some.injEq, Prod.mk.injEq] at h2
  obtain ⟨rfl, rfl⟩ := h2
  have a := solveNormal_good _ _ _ _ h1
  constructor
  · rw [a.same]; rfl
  · have : s1.chitoitsu.kokushi.best ≤ s1.best := by
      simp only [Solver.kokushi, Solver.chitoitsu]
      omega
    exact Int.le_trans this a.le

/-- the same for every recursive call of `solve_normal` -/
theorem C76_restores_inner {fuel idx : Nat} {s s' : Solver} (h : solveNormal fuel idx s = some s') :
    s' = { s with best := s'.best } ∧ s'.best ≤ s.best :=
  ⟨(solveNormal_good _ _ _ _ h).same, (solveNormal_good _ _ _ _ h).le⟩

/-- the recursion is at most `depth` deep, for every hand of integers -/
theorem C77_terminates (s : Solver) : ∃ v s', ∀ fuel, depth s.hand 0 < fuel → s.solve fuel = some (v, s') := by
  obtain ⟨s1, h1⟩ := solveNormal_tot (depth s.hand 0 + 1) 0 s (by omega) (by omega)
  refine ⟨s1.chitoitsu.kokushi.best, s1.chitoitsu.kokushi, fun fuel hf => ?_⟩
  unfold Solver.solve
  rw [solveNormal_fuel (by omega) hf, h1]
  rfl

/-- a hand of 14 tiles needs a recursion depth of at most 42 -/
theorem C77_depth_14 {h : List Int} (hl : LegalHand h) (hs : h.sum ≤ 14) : depth h 0 ≤ 41 := by
  unfold depth suitSum
  have : ((((List.range 27).map (fun j => (at37 h j).toNat)).sum : Nat) : Int) ≤ ((List.range 34).map (at37 h)).sum := by
    have e : ∀ n, ((((List.range n).map (fun j => (at37 h j).toNat)).sum : Nat) : Int) = ((List.range n).map (at37 h)).sum := by
      intro n
      induction n with
      | zero => rfl
      | succ n ih =>
        rw [List.range_succ]
        simp only [List.map_append, List.sum_append, List.map_cons, List.map_nil, List.sum_cons, List.sum_nil]
        have := (hl.range n).1
        omega
    rw [e]
    have : List.range 34 = List.range 27 ++ (List.range 7).map (27 + ·) := by decide
    rw [this]
    simp only [List.map_append, List.sum_append]
    have := sum_nonneg (l := (List.range 7).map (27 + ·)) (f := at37 h) (fun x _ => (hl.range x).1)
    omega
  rw [← tiles, ← sum_legal hl] at this
  omega

/-! ### The value of the normal search -/

/-- the value found by `solve_normal` for a hand -/
def normalValue (h : List Int) : Int := ((solveNormal (depth h 0 + 1) 0 (Solver.init h)).map (·.best)).getD 14

theorem normalValue_acc (h : List Int) :
    ∃ s', solveNormal (depth h 0 + 1) 0 (Solver.init h) = some s' ∧ s'.best = normalValue h ∧
      Acc (Solver.init h) (Leaf 0 (Solver.init h).pos) s' := by
  obtain ⟨s', h1⟩ := solveNormal_tot (depth h 0 + 1) 0 (Solver.init h) (by omega) (by show depth h 0 < _; omega)
  refine ⟨s', h1, ?_, solveNormal_good _ _ _ _ h1⟩
  unfold normalValue
  rw [h1]
  rfl

/-- `normalValue` is the value at every sufficient recursion depth -/
theorem normalValue_fuel (h : List Int) {fuel : Nat} (hf : depth h 0 < fuel) :
    solveNormal fuel 0 (Solver.init h) = some { Solver.init h with best := normalValue h } := by
  obtain ⟨s', h1, h2, h3⟩ := normalValue_acc h
  rw [solveNormal_fuel (s := Solver.init h) (by omega) hf]
  show solveNormal (depth h 0 + 1) 0 _ = _
  rw [h1, h3.same, h2]

theorem normalValue_le {h : List Int} {v : Int} (hv : Leaf 0 (Solver.init h).pos v) : normalValue h ≤ v := by
  obtain ⟨s', _, h2, h3⟩ := normalValue_acc h
  rw [← h2]
  exact h3.min v hv

theorem normalValue_attained (h : List Int) : normalValue h = 14 ∨ Leaf 0 (Solver.init h).pos (normalValue h) := by
  obtain ⟨s', _, h2, h3⟩ := normalValue_acc h
  rw [← h2]
  exact h3.attained

/-- with at most four tiles of each kind the search reaches an end -/
theorem leaf_exists (n : Nat) : ∀ (idx : Nat) (q : Pos), q.hand.length = 37 → idx ≤ 27 → depth q.hand idx < n →
    (∀ j, idx ≤ j → j < 27 → 0 ≤ at37 q.hand j ∧ at37 q.hand j ≤ 4) → ∃ v, Leaf idx q v := by
  induction n with
  | zero => intro idx q _ _ h; omega
  | succ n ih =>
    intro idx q hl hidx hn hr
    by_cases h27 : nextIdx q.hand idx = 27
    · exact ⟨_, .done h27⟩
    · obtain ⟨n1, n2, n3, _⟩ := nextIdx_spec q.hand hidx
      have hnz := n3 h27
      have hr' := hr _ n1 (by omega)
      have go : ∀ (b : Block) (k : Nat), b.ok → b.start = nextIdx q.hand idx → (k = nextIdx q.hand idx ∨ k = nextIdx q.hand idx + 1) →
          ([b], k) ∈ branches q.hand (nextIdx q.hand idx) →
          (∀ j, k ≤ j → j < 27 → (b.uses j : Int) ≤ at37 q.hand j) → ∃ v, Leaf idx q v := by
        intro b k hb hs hk hm hu
        have hd : depth (q.addAll [b]).hand k < n := by
          have := suitSum_addAll (A := [b]) (i := nextIdx q.hand idx) hl (by simpa using hb) (by omega) (by omega)
            (by rw [used_cons, ← hs]; have := uses_start hb; omega)
          unfold depth at *
          omega
        obtain ⟨v, hv⟩ := ih k (q.addAll [b]) (by rw [addAll_length, hl]) (by omega) hd (fun j h1 h2 => by
          rw [addAll_at hl (by simpa using hb), used_cons, used_nil]
          have := hr j (by omega) h2
          have := hu j h1 h2
          omega)
        exact ⟨v, .step h27 hm hv⟩
      generalize hi : nextIdx q.hand idx = i at *
      have hi27 : i < 27 := by omega
      have hk : (Block.koutsu i).ok := ⟨by simp [Block.valid]; omega, hi27⟩
      have ht : (Block.toitsu i).ok := ⟨by simp [Block.valid]; omega, hi27⟩
      have hs : (Block.single i false).ok := ⟨by simp [Block.valid]; omega, hi27⟩
      by_cases c4 : at37 q.hand i = 4
      · refine go (.koutsu i) (i + 1) hk rfl (.inr rfl) (by unfold branches; rw [if_pos c4]; simp) (fun j h1 h2 => ?_)
        have : (Block.koutsu i).uses j = 0 := if_neg (by omega)
        rw [this]; exact (hr j (by omega) h2).1
      · by_cases c3 : at37 q.hand i = 3
        · refine go (.koutsu i) (i + 1) hk rfl (.inr rfl) (by unfold branches; rw [if_neg c4, if_pos c3]; simp) (fun j h1 h2 => ?_)
          have : (Block.koutsu i).uses j = 0 := if_neg (by omega)
          rw [this]; exact (hr j (by omega) h2).1
        · by_cases c2 : at37 q.hand i = 2
          · refine go (.toitsu i) (i + 1) ht rfl (.inr rfl) (by unfold branches; rw [if_neg c4, if_neg c3, if_pos c2]; simp)
              (fun j h1 h2 => ?_)
            have : (Block.toitsu i).uses j = 0 := if_neg (by omega)
            rw [this]; exact (hr j (by omega) h2).1
          · have c1 : at37 q.hand i = 1 := by omega
            refine go (.single i false) i hs rfl (.inl rfl) ?_ (fun j h1 h2 => ?_)
            · unfold branches
              rw [if_neg c4, if_neg c3, if_neg c2, if_pos c1]
              refine List.mem_map.2 ⟨_, ?_, rfl⟩
              unfold shunBranches
              simp
            · by_cases e : j = i
              · subst e
                have : (Block.single j false).uses j = 1 := if_pos rfl
                rw [this]; omega
              · have : (Block.single i false).uses j = 0 := if_neg e
                rw [this]; exact (hr j (by omega) h2).1

theorem honourKinds_range : ∀ j ∈ honourKinds, 27 ≤ j ∧ j < 34 := by decide

/-- the blocks behind an end of the search, honours included -/
theorem leaf_hand {h : List Int} (hl : RedHand h) {v : Int} (hv : Leaf 0 (Solver.init h).pos v) :
    ∃ A : List Block, (∀ b ∈ A, b.valid = true) ∧ (∀ j, j < 34 → (used A j : Int) ≤ at37 h j) ∧
      v = distance ((14 - h.sum) / 3 + sets A) (taatsus A) (toitsus A) (decide (markeds A ≠ 0)) := by
  obtain ⟨B, b1, b2⟩ := leaf_blocks hv (by omega) hl.len (fun j => (hl.range j).1)
  refine ⟨B ++ honourBlocks h honourKinds, ?_, fun j hj => ?_, ?_⟩
  · intro b hb
    rcases List.mem_append.1 hb with hb | hb
    · exact (b1.ok b hb).1
    · exact (honourBlocks_valid honourKinds_range b hb).1
  · rw [used_append]
    obtain ⟨u1, u2⟩ := honourBlocks_used honourKinds_range (by decide) (fun j => (hl.range j).1) (h := h) j
    have b3 : (used B j : Int) ≤ at37 h j := b1.le j
    by_cases h27 : j < 27
    · have : j ∉ honourKinds := fun hh => by have := honourKinds_range j hh; omega
      rw [u2 this]; omega
    · have : used B j = 0 := by
        apply Classical.byContradiction
        intro hn
        obtain ⟨b, hb, hb'⟩ := exists_of_used (B := B) (j := j) (by omega)
        have := (b1.ok b hb).uses_zero (j := j) (by omega)
        omega
      rw [this]; omega
  · rw [b2]
    obtain ⟨a1, a2, a3, a4⟩ := addAll_counts (Solver.init h).pos B
    obtain ⟨c1, c2, c3, c4⟩ := honourBlocks_counts h honourKinds
    unfold Pos.value
    rw [a1, a2, a3, a4]
    have e := init_pos hl
    simp only [e]
    obtain ⟨d1, d2, d3, _⟩ := counts_append B (honourBlocks h honourKinds)
    have d4 : markeds (B ++ honourBlocks h honourKinds) = markeds B + markeds (honourBlocks h honourKinds) := by
      simp only [markeds, List.countP_append]
    rw [d1, d2, d3, d4, c1, c2, c3, c4]
    congr 1
    · omega
    · omega
    · omega
    · simp

theorem distance_bound {m t p : Int} {b : Bool} (hm : -1 ≤ m) (ht : 0 ≤ t) (hp : 0 ≤ p) : distance m t p b ≤ 11 := by
  unfold distance
  split <;> omega

/-- the value of the normal search is the distance of an actual decomposition of the hand -/
theorem C78_decomposition {h : List Int} (hl : RedHand h) (hs : h.sum ≤ 17) :
    ∃ A : List Block, (∀ b ∈ A, b.valid = true) ∧ (∀ j, j < 34 → (used A j : Int) ≤ at37 h j) ∧
      normalValue h = distance ((14 - h.sum) / 3 + sets A) (taatsus A) (toitsus A) (decide (markeds A ≠ 0)) := by
  rcases normalValue_attained h with e | e
  · exfalso
    obtain ⟨v, hv⟩ := leaf_exists _ 0 (Solver.init h).pos hl.len (by omega) (Nat.lt_succ_self _)
      (fun j _ _ => hl.range j)
    have h1 := normalValue_le hv
    obtain ⟨A, _, _, h2⟩ := leaf_hand hl hv
    have := distance_bound (m := (14 - h.sum) / 3 + sets A) (t := taatsus A) (p := toitsus A) (b := decide (markeds A ≠ 0))
      (by omega) (by omega) (by omega)
    omega
  · exact leaf_hand hl e

/-! ### Complete hands -/

theorem found_le {d : Int} {h : List Int} (hf : Found d 0 (Solver.init h).pos) : normalValue h ≤ d := by
  obtain ⟨v, hv, hd⟩ := hf
  exact Int.le_trans (normalValue_le hv) hd

/-- how many tiles a decomposition leaves over -/
theorem left_over {h : List Int} {A : List Block} (hv : ∀ b ∈ A, b.valid = true) :
    ((List.range 34).map (fun j => at37 h j - used A j)).sum = tiles h - (3 * sets A + 2 * (taatsus A + toitsus A) + singles A : Nat) := by
  rw [sum_map_sub, ← tiles, blocks_weight hv]

theorem isSet_of_counts {A : List Block} (h1 : taatsus A = 0) (h2 : toitsus A = 0) (h3 : singles A = 0) :
    ∀ b ∈ A, b.isSet = true := by
  intro b hb
  have k1 := List.countP_eq_zero.1 h1 b hb
  have k2 := List.countP_eq_zero.1 h2 b hb
  have k3 := List.countP_eq_zero.1 h3 b hb
  cases b <;> simp_all [Block.isSet, Block.isTaatsu, Block.isToitsu, Block.isSingle]

theorem exists_of_countP {A : List Block} {p : Block → Bool} (h : A.countP p ≠ 0) : ∃ b ∈ A, p b = true := by
  have : 0 < A.countP p := by omega
  exact List.countP_pos_iff.1 this

theorem sets_eq_length {A : List Block} (h : ∀ b ∈ A, b.isSet = true) : sets A = A.length := by
  exact List.countP_eq_length.2 h

theorem counts_of_sets {A : List Block} (h : ∀ b ∈ A, b.isSet = true) :
    taatsus A = 0 ∧ toitsus A = 0 ∧ singles A = 0 ∧ ∀ b ∈ A, b.isMarked = false := by
  refine ⟨List.countP_eq_zero.2 ?_, List.countP_eq_zero.2 ?_, List.countP_eq_zero.2 ?_, ?_⟩ <;> intro b hb <;>
    have := h b hb <;> cases b <;> simp_all [Block.isSet, Block.isTaatsu, Block.isToitsu, Block.isSingle, Block.isMarked]

/-- a hand of 3k+2 tiles has value -1 exactly if it is complete, and never less -/
theorem C79_complete {h : List Int} (hl : LegalHand h) {k : Nat} (hs : h.sum = 3 * k + 2) (hk : k ≤ 4) :
    (normalValue h = -1 ↔ Complete k (at37 h)) ∧ -1 ≤ normalValue h := by
  have hdiv : (14 - h.sum) / 3 = 4 - (k : Int) := by rw [hs]; omega
  have lower : -1 ≤ normalValue h ∧ (normalValue h = -1 → Complete k (at37 h)) := by
    obtain ⟨A, a1, a2, a3⟩ := C78_decomposition hl.toRedHand (by rw [hs]; omega)
    have hlo := left_over (h := h) a1
    rw [← sum_legal hl] at hlo
    have hnn : ∀ x ∈ List.range 34, 0 ≤ at37 h x - used A x := by
      intro x hx
      have := a2 x (by simpa using hx)
      omega
    have hge := sum_nonneg hnn
    rw [hlo, hs] at hge
    rw [hdiv] at a3
    have key : -1 ≤ normalValue h ∧ (normalValue h = -1 → sets A = k ∧ taatsus A = 0 ∧ toitsus A = 1 ∧ singles A = 0) := by
      rw [a3]
      unfold distance
      generalize sets A = s at *
      generalize taatsus A = t at *
      generalize toitsus A = p at *
      generalize singles A = g at *
      constructor
      · split <;> omega
      · split <;> omega
    refine ⟨key.1, fun hv => ?_⟩
    obtain ⟨k1, k2, k3, k4⟩ := key.2 hv
    have hz := all_zero hnn (by rw [hlo, hs, k1, k2, k3, k4]; omega)
    obtain ⟨b, hb, hbt⟩ := exists_of_countP (A := A) (p := Block.isToitsu) (by show toitsus A ≠ 0; omega)
    obtain ⟨A', e⟩ := perm_cons_of_mem hb
    obtain ⟨e1, e2, e3, e4⟩ := counts_perm e
    rcases b with i | i | i | ⟨i, w⟩ | ⟨i, m⟩ <;> simp [Block.isToitsu] at hbt
    obtain ⟨c1, c2, c3, c4⟩ := counts_cons (.toitsu i) A'
    simp only [Block.isSet, Block.isTaatsu, Block.isToitsu, Block.isSingle, Bool.false_eq_true, if_false, if_true] at c1 c2 c3 c4
    have hset := isSet_of_counts (A := A') (by omega) (by omega) (by omega)
    refine ⟨A', i, fun b hb => ⟨a1 b (e.mem_iff.2 (by simp [hb])), hset b hb⟩, ?_, ?_, fun j hj => ?_⟩
    · rw [← sets_eq_length hset]; omega
    · have := a1 _ (e.mem_iff.2 (List.mem_cons_self))
      simpa [Block.valid] using this
    · rw [← used_perm e]
      have := hz j (by simpa using hj)
      omega
  refine ⟨⟨lower.2, ?_⟩, lower.1⟩
  rintro ⟨B, q, b1, b2, b3, b4⟩
  obtain ⟨t1, t2, t3, t4⟩ := counts_of_sets (fun b hb => (b1 b hb).2)
  obtain ⟨c1, c2, c3, c4⟩ := counts_cons (.toitsu q) B
  simp only [Block.isSet, Block.isTaatsu, Block.isToitsu, Block.isSingle, Bool.false_eq_true, if_false, if_true] at c1 c2 c3 c4
  have := sets_eq_length (fun b hb => (b1 b hb).2)
  have hf : Found (-1) 0 (Solver.init h).pos := by
    refine found_hand hl (D := .toitsu q :: B) ?_ ?_ b4 ?_
    · intro b hb
      rcases List.mem_cons.1 hb with rfl | hb
      · simpa [Block.valid] using b3
      · exact (b1 b hb).1
    · intro b hb
      rcases List.mem_cons.1 hb with rfl | hb
      · rfl
      · exact t4 b hb
    · refine .inl ⟨rfl, ?_, ?_, ?_, ?_⟩
      · rw [hdiv]; omega
      · omega
      · omega
      · omega
  have := found_le hf
  have := lower.1
  omega

end MJ
