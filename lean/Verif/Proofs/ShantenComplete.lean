import Verif.Proofs.ShantenBlocks
/-!
The shanten search finds complete hands and hands one tile from complete: every split of the suited tiles of such a
hand can be rearranged into one that the search looks at.
-/
namespace MJ
open Spec

def Spec.Block.isSingle : Block → Bool
  | .single _ _ => true
  | _ => false

def singles (B : List Block) : Nat := B.countP Block.isSingle

/-- the numbers of sets, partial runs, pairs and single tiles of a complete hand (`d = -1`) or of one that is one tile
from complete (`d = 0`) -/
def Totals (d m t p s : Int) : Prop :=
  (d = -1 ∧ m = 4 ∧ t = 0 ∧ p = 1 ∧ s = 0) ∨
  (d = 0 ∧ ((m = 4 ∧ t = 0 ∧ p = 0 ∧ s ≤ 1) ∨ (m = 3 ∧ t = 1 ∧ p = 1 ∧ s = 0) ∨ (m = 3 ∧ t = 0 ∧ p = 2 ∧ s = 0)))

theorem Totals.congr {d m t p s m' t' p' s' : Int} (h : Totals d m t p s) (hm : m = m') (ht : t = t') (hp : p = p')
    (hs : s = s') : Totals d m' t' p' s' := by
  subst hm; subst ht; subst hp; subst hs; exact h

/-- the suited tiles from kind `idx` on are split into the blocks `B` -/
structure Inv (d : Int) (idx : Nat) (q : Pos) (B : List Block) : Prop where
  len : q.hand.length = 37
  ok : ∀ b ∈ B, b.ok
  start : ∀ b ∈ B, idx ≤ b.start
  mark : ∀ b ∈ B, b.isMarked = false
  tune : q.tune = 0
  nonneg : 0 ≤ q.t ∧ 0 ≤ q.p
  exact : ∀ j, idx ≤ j → j < 27 → at37 q.hand j = used B j
  le4 : ∀ j, idx ≤ j → j < 27 → at37 q.hand j ≤ 4
  totals : Totals d (q.m + sets B) (q.t + taatsus B) (q.p + toitsus B) (singles B)

theorem used_perm {A B : List Block} (h : A.Perm B) (j : Nat) : used A j = used B j := by
  unfold used
  exact (h.map _).sum_nat

theorem Inv.perm {d : Int} {idx : Nat} {q : Pos} {A B : List Block} (h : Inv d idx q A) (e : A.Perm B) : Inv d idx q B := by
  obtain ⟨h1, h2, h3, h4, h5, hnn, h6, h7, h8⟩ := h
  refine ⟨h1, fun b hb => h2 b (e.mem_iff.2 hb), fun b hb => h3 b (e.mem_iff.2 hb), fun b hb => h4 b (e.mem_iff.2 hb), h5, hnn,
    fun j a b => ?_, h7, ?_⟩
  · rw [h6 j a b, used_perm e]
  · simpa only [sets, taatsus, toitsus, singles, e.countP_eq] using h8

theorem perm_cons_of_mem {b : Block} {B : List Block} (h : b ∈ B) : ∃ B', B.Perm (b :: B') :=
  ⟨B.erase b, List.perm_cons_erase h⟩

theorem counts_cons (b : Block) (B : List Block) :
    sets (b :: B) = sets B + (if b.isSet = true then 1 else 0) ∧
    taatsus (b :: B) = taatsus B + (if b.isTaatsu = true then 1 else 0) ∧
    toitsus (b :: B) = toitsus B + (if b.isToitsu = true then 1 else 0) ∧
    singles (b :: B) = singles B + (if b.isSingle = true then 1 else 0) := by
  simp only [sets, taatsus, toitsus, singles, List.countP_cons, and_self]

/-- a block of the split taken out of the hand -/
theorem Inv.take {d : Int} {idx : Nat} {q : Pos} {b : Block} {B : List Block} (h : Inv d idx q (b :: B))
    (hs : b.isSingle = false) : Inv d idx (q.add b) B := by
  obtain ⟨h1, h2, h3, h4, h5, hnn, h6, h7, h8⟩ := h
  have hat := fun j => add_at h1 (h2 b (by simp)) j
  refine ⟨by rw [add_length, h1], fun b hb => h2 b (by simp [hb]), fun b hb => h3 b (by simp [hb]),
    fun b hb => h4 b (by simp [hb]), ?_, ?_, fun j a c => ?_, fun j a c => ?_, ?_⟩
  · cases b <;> simp_all [Pos.add, Block.isSingle]
  · clear hat h2 h3 h4 h6 h7 h8
    cases b <;> simp only [Pos.add] <;> omega
  · rw [hat, h6 j a c, used_cons]; omega
  · rw [hat]; have := h7 j a c; omega
  · obtain ⟨c1, c2, c3, c4⟩ := counts_cons b B
    rw [c1, c2, c3, c4] at h8
    clear hat h2 h3 h4 h6 h7 c1 c2 c3 c4
    cases b <;>
      simp only [Block.isSet, Block.isTaatsu, Block.isToitsu, Block.isSingle, Bool.false_eq_true, if_false, if_true] at h8 hs <;>
      simp only [Pos.add] <;> first | (exact absurd hs (by decide)) | (refine h8.congr ?_ ?_ ?_ ?_ <;> omega)

/-- a single tile taken out of the hand -/
theorem Inv.takeSingle {d : Int} {idx i : Nat} {q : Pos} {B : List Block} (h : Inv d idx q (.single i false :: B)) :
    Inv d idx (q.add (.single i false)) B := by
  obtain ⟨h1, h2, h3, h4, h5, hnn, h6, h7, h8⟩ := h
  have hat := fun j => add_at h1 (h2 (.single i false) (by simp)) j
  refine ⟨by rw [add_length, h1], fun b hb => h2 b (by simp [hb]), fun b hb => h3 b (by simp [hb]),
    fun b hb => h4 b (by simp [hb]), h5, hnn, fun j a c => ?_, fun j a c => ?_, ?_⟩
  · rw [hat, h6 j a c, used_cons]; omega
  · rw [hat]; have := h7 j a c; omega
  · obtain ⟨c1, c2, c3, c4⟩ := counts_cons (.single i false) B
    rw [c1, c2, c3, c4] at h8
    simp only [Block.isSet, Block.isTaatsu, Block.isToitsu, Block.isSingle, Bool.false_eq_true, if_false, if_true] at h8
    simp only [Pos.add]
    unfold Totals at h8 ⊢
    clear hat h2 h3 h4 h6 h7 c1 c2 c3 c4
    omega

theorem Inv.next {d : Int} {i : Nat} {q : Pos} {B : List Block} (h : Inv d i q B) (hs : ∀ b ∈ B, i + 1 ≤ b.start) :
    Inv d (i + 1) q B :=
  ⟨h.len, h.ok, hs, h.mark, h.tune, h.nonneg, fun j a b => h.exact j (by omega) b, fun j a b => h.le4 j (by omega) b, h.totals⟩

theorem uses_start {b : Block} (h : b.ok) : 1 ≤ b.uses b.start := by
  obtain ⟨h1, h2⟩ := h
  cases b <;> simp only [Block.valid, Block.start, decide_eq_true_eq] at h1 h2 <;> simp only [Block.uses, Block.start] <;>
    split <;> first | omega | (rename_i h; simp at h; done) | (rename_i h; simp at h; omega)

theorem used_pos_of_mem {b : Block} {B : List Block} (h : b ∈ B) (j : Nat) : b.uses j ≤ used B j := by
  obtain ⟨B', e⟩ := perm_cons_of_mem h
  rw [used_perm e, used_cons]
  omega

theorem exists_of_used {B : List Block} {j : Nat} (h : 1 ≤ used B j) : ∃ b ∈ B, 1 ≤ b.uses j := by
  induction B with
  | nil => simp [used_nil] at h
  | cons b B ih =>
    rw [used_cons] at h
    by_cases e : 1 ≤ b.uses j
    · exact ⟨b, by simp, e⟩
    · obtain ⟨b', h1, h2⟩ := ih (by omega)
      exact ⟨b', by simp [h1], h2⟩

theorem start_le_of_uses {b : Block} {j : Nat} (h : 1 ≤ b.uses j) : b.start ≤ j := by
  cases b <;> simp only [Block.uses] at h <;> simp only [Block.start] <;> split at h <;> omega

/-- an unmarked block that starts at `i` -/
theorem block_cases {b : Block} {i : Nat} (h : b.start = i) (hm : b.isMarked = false) (hk : b.ok) :
    b = .koutsu i ∨ b = .toitsu i ∨ b = .shuntsu i ∨ b = .taatsu i 1 ∨ b = .taatsu i 2 ∨ b = .single i false := by
  obtain ⟨h1, h2⟩ := hk
  rcases b with j | j | j | ⟨j, w⟩ | ⟨j, m⟩ <;> simp only [Block.start] at h <;> subst h <;> simp only [Block.valid, decide_eq_true_eq] at h1
  · exact .inl rfl
  · exact .inr (.inr (.inl rfl))
  · exact .inr (.inl rfl)
  · rcases h1.2 with h | h
    · rw [h.1]; exact .inr (.inr (.inr (.inl rfl)))
    · rw [h.1]; exact .inr (.inr (.inr (.inr (.inl rfl))))
  · cases m
    · exact .inr (.inr (.inr (.inr (.inr rfl))))
    · simp [Block.isMarked] at hm

/-- a block that `process_shuntsu` tries -/
theorem mem_shunBranches {h : List Int} {i : Nat} {b : Block} (hb : b = .shuntsu i ∨ b = .taatsu i 1 ∨ b = .taatsu i 2 ∨ b = .single i false)
    (hk : b.ok) (hu : ∀ j, j = i + 1 ∨ j = i + 2 → 1 ≤ b.uses j → (b.uses j : Int) ≤ at37 h j) : b ∈ shunBranches h i false := by
  obtain ⟨h1, h2⟩ := hk
  have u1 := hu (i + 1) (.inl rfl)
  have u2 := hu (i + 2) (.inr rfl)
  unfold shunBranches
  simp only [List.mem_append, List.mem_singleton]
  rcases hb with rfl | rfl | rfl | rfl
  · simp only [Block.valid, decide_eq_true_eq] at h1
    have w1 : (Block.shuntsu i).uses (i + 1) = 1 := if_pos (by omega)
    have w2 : (Block.shuntsu i).uses (i + 2) = 1 := if_pos (by omega)
    refine .inl ?_
    rw [if_pos ⟨h1.2, by omega⟩, if_pos (by omega)]
    simp
  · simp only [Block.valid, decide_eq_true_eq] at h1
    have w2 : (Block.taatsu i 1).uses (i + 2) = 1 := if_pos (by omega)
    refine .inl ?_
    rw [if_pos ⟨by omega, by omega⟩]
    simp
  · simp only [Block.valid, decide_eq_true_eq] at h1
    have w2 : (Block.taatsu i 2).uses (i + 1) = 1 := if_pos (by omega)
    refine .inr (.inl ?_)
    rw [if_pos ⟨by omega, by omega⟩]
    simp
  · exact .inr (.inr rfl)

theorem suitSum_addAll {q : Pos} {A : List Block} {i : Nat} (hl : q.hand.length = 37) (hA : ∀ b ∈ A, b.ok) (hi : i < 27)
    (hp : 0 < at37 q.hand i) (hu : 1 ≤ used A i) : suitSum (q.addAll A).hand < suitSum q.hand := by
  refine suitSum_lt hi (fun j => ?_) ?_ hp
  · rw [addAll_at hl hA]; omega
  · rw [addAll_at hl hA]; omega

theorem totals_value {d : Int} {q : Pos} (ht : q.tune = 0) {s : Int} (h : Totals d q.m q.t q.p s) : q.value ≤ d := by
  unfold Pos.value distance
  have : decide (q.tune ≠ 0) = false := by simp [ht]
  rw [this]
  simp only [Bool.false_eq_true, false_and, if_false]
  unfold Totals at h
  omega

/-! ### Following the split -/

/-- the blocks that use kind `i` when no block starts before it -/
theorem Inv.covers {d : Int} {i : Nat} {q : Pos} {B : List Block} (h : Inv d i q B) {b : Block} (hb : b ∈ B)
    (hu : 1 ≤ b.uses i) : b.start = i := by
  have := start_le_of_uses hu
  have := h.start b hb
  omega

theorem Inv.nextIdx {d : Int} {idx : Nat} {q : Pos} {B : List Block} (hidx : idx ≤ 27) (h : Inv d idx q B) :
    Inv d (nextIdx q.hand idx) q B := by
  obtain ⟨n1, n2, n3, n4⟩ := nextIdx_spec q.hand hidx
  refine ⟨h.len, h.ok, fun b hb => ?_, h.mark, h.tune, h.nonneg, fun j a c => h.exact j (by omega) c,
    fun j a c => h.le4 j (by omega) c, h.totals⟩
  apply Classical.byContradiction
  intro hn
  have h1 := h.start b hb
  have h2 := n4 b.start h1 (by omega)
  have h3 := h.exact b.start h1 (h.ok b hb).2
  have h4 := used_pos_of_mem hb b.start
  have h5 := uses_start (h.ok b hb)
  omega

/-- all that is left when the tiles of kind `i` are used up starts later -/
theorem Inv.later {d : Int} {i : Nat} {q : Pos} {B : List Block} (hi : i < 27) (h : Inv d i q B) (hz : at37 q.hand i = 0) :
    Inv d (i + 1) q B := by
  refine h.next (fun b hb => ?_)
  have h1 := h.start b hb
  by_cases e : b.start = i
  · have h3 := h.exact i (Nat.le_refl _) hi
    have h4 := used_pos_of_mem hb i
    have h5 := uses_start (h.ok b hb)
    rw [e] at h5
    omega
  · omega

/-- the search finds a value of at most `d` -/
def Found (d : Int) (idx : Nat) (q : Pos) : Prop := ∃ v, Leaf idx q v ∧ v ≤ d

theorem found_done {d : Int} {q : Pos} {idx : Nat} {B : List Block} (hidx : idx ≤ 27) (h : Inv d idx q B)
    (h27 : MJ.nextIdx q.hand idx = 27) : Found d idx q := by
  have hi := h.nextIdx hidx
  rw [h27] at hi
  have hB : B = [] := by
    cases B with
    | nil => rfl
    | cons b B =>
      have := hi.start b (by simp)
      have := (hi.ok b (by simp)).2
      omega
  subst hB
  refine ⟨_, .done h27, totals_value h.tune (s := 0) ?_⟩
  exact h.totals.congr (by simp [sets]) (by simp [taatsus]) (by simp [toitsus]) (by simp [singles])

section
variable {d : Int} {q : Pos} {i : Nat}

/-- the triplet is in the split -/
theorem found_koutsu {B : List Block} (hi : i < 27) (h : Inv d i q (.koutsu i :: B)) (hp : 0 < at37 q.hand i)
    (ih : ∀ idx q' B', idx ≤ 27 → Inv d idx q' B' → depth q'.hand idx < depth q.hand i → Found d idx q') :
    ∃ br ∈ branches q.hand i, Found d br.2 (q.addAll br.1) := by
  have hk : (Block.koutsu i).ok := h.ok _ (by simp)
  have ku : (Block.koutsu i).uses i = 3 := if_pos rfl
  have hex := h.exact i (Nat.le_refl _) hi
  rw [used_cons, ku] at hex
  have h4 := h.le4 i (Nat.le_refl _) hi
  have ht := h.take (by rfl)
  have hat := add_at h.len hk i
  rw [ku] at hat
  have hd1 : ∀ j, i ≤ j → depth (q.add (.koutsu i)).hand j < depth q.hand i := by
    intro j hj
    have := suitSum_addAll (A := [.koutsu i]) h.len (by simpa using hk) hi hp (by rw [used_cons, ku]; omega)
    rw [addAll_cons, addAll_nil] at this
    unfold depth; omega
  by_cases c : at37 q.hand i = 3
  · refine ⟨([.koutsu i], i + 1), ?_, ?_⟩
    · unfold branches
      rw [if_neg (by omega), if_pos c]
      simp
    · have hz : at37 (q.add (.koutsu i)).hand i = 0 := by rw [hat]; omega
      exact ih _ _ _ (by omega) (ht.later hi hz) (hd1 _ (by omega))
  · have c4 : at37 q.hand i = 4 := by omega
    obtain ⟨b, hb, hu⟩ := exists_of_used (B := B) (j := i) (by omega)
    have hbo : b.ok := h.ok b (by simp [hb])
    obtain ⟨B', e⟩ := perm_cons_of_mem hb
    have ht' := ht.perm e
    have hb1 := used_perm e i
    rw [used_cons] at hb1
    have hcov := ht.covers hb hu
    have hmem : ∀ b : Block, b.isSingle = false → b = .shuntsu i ∨ b = .taatsu i 1 ∨ b = .taatsu i 2 ∨ b = .single i false →
        b ∈ shunBranches q.hand i false → b ∈ shunBranches q.hand i true := by
      intro b hs hb hm
      unfold shunBranches at hm ⊢
      simp only [List.mem_append, List.mem_singleton] at hm ⊢
      rcases hm with hm | hm | rfl
      · exact .inl hm
      · exact .inr (.inl hm)
      · simp [Block.isSingle] at hs
    have hle : ∀ j, j = i + 1 ∨ j = i + 2 → j < 27 → (b.uses j : Int) ≤ at37 q.hand j := by
      intro j hj hj'
      rw [h.exact j (by omega) hj', used_cons, used_perm e, used_cons]
      omega
    have hle' : ∀ j, j = i + 1 ∨ j = i + 2 → (b.uses j : Int) ≤ at37 q.hand j ∨ 27 ≤ j := by
      intro j hj
      by_cases hj' : j < 27
      · exact .inl (hle j hj hj')
      · exact .inr (by omega)
    have main : b = .shuntsu i ∨ b = .taatsu i 1 ∨ b = .taatsu i 2 →
        ∃ br ∈ branches q.hand i, Found d br.2 (q.addAll br.1) := by
      intro hb'
      have hs : b.isSingle = false := by rcases hb' with rfl | rfl | rfl <;> rfl
      refine ⟨([.koutsu i, b], i), ?_, ?_⟩
      · unfold branches
        rw [if_pos c4]
        simp only [List.mem_append, List.mem_map, List.mem_singleton]
        refine .inl (.inl ⟨b, hmem b hs (by grind) ?_, rfl⟩)
        refine mem_shunBranches (by grind) hbo (fun j hj hj1 => ?_)
        rcases hle' j hj with h' | h'
        · exact h'
        · have := hbo.uses_zero h'
          omega
      · have ht2 := ht'.take hs
        refine ih _ _ _ (by omega) ht2 ?_
        have := suitSum_addAll (A := [.koutsu i, b]) h.len (by simpa using ⟨hk, hbo⟩) hi hp (by rw [used_cons, ku]; omega)
        rw [addAll_cons, addAll_cons, addAll_nil] at this
        show depth ((q.add (.koutsu i)).add b).hand i < _
        unfold depth; omega
    rcases block_cases hcov (ht.mark b hb) hbo with rfl | rfl | rfl | rfl | rfl | rfl
    · have : (Block.koutsu i).uses i = 3 := if_pos rfl
      omega
    · have : (Block.toitsu i).uses i = 2 := if_pos rfl
      omega
    · exact main (.inl rfl)
    · exact main (.inr (.inl rfl))
    · exact main (.inr (.inr rfl))
    · -- the fourth tile is left over
      have hsu : (Block.single i false).uses i = 1 := if_pos rfl
      refine ⟨([.koutsu i], i + 1), ?_, ?_⟩
      · unfold branches
        rw [if_pos c4]
        simp
      · have hrest : ∀ b ∈ B', i + 1 ≤ b.start := by
          intro b' hb'
          have h1 := ht'.start b' (by simp [hb'])
          by_cases e' : b'.start = i
          · have h5 := uses_start (ht'.ok b' (by simp [hb']))
            rw [e'] at h5
            have := used_pos_of_mem hb' i
            omega
          · omega
        refine ih (i + 1) _ B' (by omega) ?_ (hd1 _ (by omega))
        refine ⟨ht'.len, fun b hb => ht'.ok b (by simp [hb]), hrest, fun b hb => ht'.mark b (by simp [hb]), ht'.tune, ht'.nonneg,
          fun j a c => ?_, fun j a c => ht'.le4 j (by omega) c, ?_⟩
        · have : (Block.single i false).uses j = 0 := if_neg (by omega)
          show at37 (q.add (.koutsu i)).hand j = _
          rw [ht'.exact j (by omega) c, used_cons, this]; omega
        · have := ht'.totals
          obtain ⟨c1, c2, c3, c4⟩ := counts_cons (.single i false) B'
          rw [c1, c2, c3, c4] at this
          simp only [Block.isSet, Block.isTaatsu, Block.isToitsu, Block.isSingle, Bool.false_eq_true, if_false, if_true] at this
          show Totals d ((q.add (.koutsu i)).m + sets B') ((q.add (.koutsu i)).t + taatsus B')
            ((q.add (.koutsu i)).p + toitsus B') (singles B')
          generalize (q.add (.koutsu i)).m = m at *
          generalize (q.add (.koutsu i)).t = t at *
          generalize (q.add (.koutsu i)).p = p at *
          clear c1 c2 c3 c4 main hle hle' hmem ih
          unfold Totals at this ⊢
          omega

/-- a block after the pair or triplet -/
theorem mem_shun_of_inv {B : List Block} {b : Block} (h : Inv d i q B) (hb : b ∈ B)
    (hc : b = .shuntsu i ∨ b = .taatsu i 1 ∨ b = .taatsu i 2 ∨ b = .single i false) :
    b ∈ shunBranches q.hand i false := by
  have hbo := h.ok b hb
  refine mem_shunBranches hc hbo (fun j hj hj1 => ?_)
  by_cases hj' : j < 27
  · rw [h.exact j (by omega) hj']
    have := used_pos_of_mem hb j
    omega
  · have := hbo.uses_zero (j := j) (by omega)
    omega

theorem Inv.takeAny {B : List Block} {b : Block} (h : Inv d i q (b :: B)) : Inv d i (q.add b) B := by
  by_cases hs : b.isSingle = false
  · exact h.take hs
  · have hm := h.mark b (by simp)
    rcases b with j | j | j | ⟨j, w⟩ | ⟨j, m⟩ <;> simp [Block.isSingle] at hs
    cases m
    · exact h.takeSingle
    · simp [Block.isMarked] at hm

/-- the pair is in the split, and no triplet -/
theorem found_toitsu {B : List Block} (hi : i < 27) (h : Inv d i q (.toitsu i :: B)) (hp : 0 < at37 q.hand i)
    (hnk : Block.koutsu i ∉ B) (hnt : Block.toitsu i ∉ B)
    (ih : ∀ idx q' B', idx ≤ 27 → Inv d idx q' B' → depth q'.hand idx < depth q.hand i → Found d idx q') :
    ∃ br ∈ branches q.hand i, Found d br.2 (q.addAll br.1) := by
  have hk : (Block.toitsu i).ok := h.ok _ (by simp)
  have ku : (Block.toitsu i).uses i = 2 := if_pos rfl
  have hex := h.exact i (Nat.le_refl _) hi
  rw [used_cons, ku] at hex
  have h4 := h.le4 i (Nat.le_refl _) hi
  have ht := h.take (by rfl)
  have hat := add_at h.len hk i
  rw [ku] at hat
  have hd1 : ∀ j, i ≤ j → depth (q.add (.toitsu i)).hand j < depth q.hand i := by
    intro j hj
    have := suitSum_addAll (A := [.toitsu i]) h.len (by simpa using hk) hi hp (by rw [used_cons, ku]; omega)
    rw [addAll_cons, addAll_nil] at this
    unfold depth; omega
  by_cases c : at37 q.hand i = 2
  · refine ⟨([.toitsu i], i + 1), ?_, ?_⟩
    · unfold branches
      rw [if_neg (by omega), if_neg (by omega), if_pos c]
      simp
    · have hz : at37 (q.add (.toitsu i)).hand i = 0 := by rw [hat]; omega
      exact ih _ _ _ (by omega) (ht.later hi hz) (hd1 _ (by omega))
  · by_cases c3 : at37 q.hand i = 3
    · refine ⟨([.toitsu i], i), ?_, ?_⟩
      · unfold branches
        rw [if_neg (by omega), if_pos c3]
        simp
      · exact ih _ _ _ (by omega) ht (hd1 _ (by omega))
    · have c4 : at37 q.hand i = 4 := by omega
      obtain ⟨b, hb, hu⟩ := exists_of_used (B := B) (j := i) (by omega)
      have hbo : b.ok := h.ok b (by simp [hb])
      obtain ⟨B', e⟩ := perm_cons_of_mem hb
      have ht' := ht.perm e
      have hcov := ht.covers hb hu
      have hc : b = .shuntsu i ∨ b = .taatsu i 1 ∨ b = .taatsu i 2 ∨ b = .single i false := by
        rcases block_cases hcov (ht.mark b hb) hbo with rfl | rfl | h'
        · exact absurd hb hnk
        · exact absurd hb hnt
        · exact h'
      have hmem : b ∈ shunBranches q.hand i false := mem_shun_of_inv h (by simp [hb]) hc
      refine ⟨([.toitsu i, b], i), ?_, ?_⟩
      · unfold branches
        rw [if_pos c4]
        simp only [List.mem_append, List.mem_map, List.mem_singleton]
        exact .inr ⟨b, hmem, rfl⟩
      · refine ih _ _ _ (by omega) ht'.takeAny ?_
        have := suitSum_addAll (A := [.toitsu i, b]) h.len (by simpa using ⟨hk, hbo⟩) hi hp (by rw [used_cons, ku]; omega)
        rw [addAll_cons, addAll_cons, addAll_nil] at this
        show depth ((q.add (.toitsu i)).add b).hand i < _
        unfold depth; omega

theorem counts_append (A B : List Block) : sets (A ++ B) = sets A + sets B ∧ taatsus (A ++ B) = taatsus A + taatsus B ∧
    toitsus (A ++ B) = toitsus A + toitsus B ∧ singles (A ++ B) = singles A + singles B := by
  simp only [sets, taatsus, toitsus, singles, List.countP_append, and_self]

/-- some blocks of the split replaced by others with the same tiles -/
theorem Inv.rewrite {A R : List Block} (A' : List Block) (h : Inv d i q (A ++ R)) (hok : ∀ b ∈ A', b.ok)
    (hst : ∀ b ∈ A', i ≤ b.start) (hm : ∀ b ∈ A', b.isMarked = false) (hu : ∀ j, used A' j = used A j)
    (ht : ∀ m t p s : Int, 0 ≤ t → 0 ≤ p → 0 ≤ s →
      Totals d (m + sets A) (t + taatsus A) (p + toitsus A) (s + singles A) →
      Totals d (m + sets A') (t + taatsus A') (p + toitsus A') (s + singles A')) : Inv d i q (A' ++ R) := by
  obtain ⟨h1, h2, h3, h4, h5, hnn, h6, h7, h8⟩ := h
  refine ⟨h1, ?_, ?_, ?_, h5, hnn, fun j a c => ?_, h7, ?_⟩
  · intro b hb
    rcases List.mem_append.1 hb with hb | hb
    · exact hok b hb
    · exact h2 b (by simp [hb])
  · intro b hb
    rcases List.mem_append.1 hb with hb | hb
    · exact hst b hb
    · exact h3 b (by simp [hb])
  · intro b hb
    rcases List.mem_append.1 hb with hb | hb
    · exact hm b hb
    · exact h4 b (by simp [hb])
  · rw [h6 j a c, used_append, used_append, hu]
  · obtain ⟨a1, a2, a3, a4⟩ := counts_append A R
    obtain ⟨b1, b2, b3, b4⟩ := counts_append A' R
    rw [a1, a2, a3, a4] at h8
    rw [b1, b2, b3, b4]
    have := ht (q.m + sets R) (q.t + taatsus R) (q.p + toitsus R) (singles R) (by omega) (by omega) (by omega)
      (h8.congr (by omega) (by omega) (by omega) (by omega))
    exact this.congr (by omega) (by omega) (by omega) (by omega)

end

end MJ
