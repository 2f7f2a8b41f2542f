import Verif.Proofs.ShantenFound
/-!
The shanten search comes close to every split of the suited tiles: it reaches the value of every split, except that two
equal runs beside a third tile of their first kind may cost one.
-/
namespace MJ
open Spec

/-- the distance without marked tiles -/
def cost (m t p : Int) : Int := 8 - 2 * m - t - p + max 0 (m + t + max 0 (p - 1) - 4)

theorem cost_distance (m t p : Int) : cost m t p = distance m t p false := by
  unfold cost distance
  simp

/-- the value of the split `B` in the position `q` -/
def val (q : Pos) (B : List Block) : Int := cost (q.m + sets B) (q.t + taatsus B) (q.p + toitsus B)

/-- the number of tiles in the blocks -/
def wt (B : List Block) : Nat := 3 * sets B + 2 * taatsus B + 2 * toitsus B + singles B

/-- the number of tiles in sets and single tiles -/
def phi (B : List Block) : Nat := 3 * sets B + singles B

/-- the suited tiles from kind `idx` on are split into the blocks `B` -/
structure Split (idx : Nat) (q : Pos) (B : List Block) : Prop where
  len : q.hand.length = 37
  ok : ∀ b ∈ B, b.ok
  start : ∀ b ∈ B, idx ≤ b.start
  mark : ∀ b ∈ B, b.isMarked = false
  tune : q.tune = 0
  nonneg : 0 ≤ q.t ∧ 0 ≤ q.p
  exact : ∀ j, idx ≤ j → j < 27 → at37 q.hand j = used B j
  le4 : ∀ j, idx ≤ j → j < 27 → at37 q.hand j ≤ 4

section
variable {q : Pos} {i : Nat}

theorem Split.perm {A B : List Block} (h : Split i q A) (e : A.Perm B) : Split i q B := by
  obtain ⟨h1, h2, h3, h4, h5, hnn, h6, h7⟩ := h
  refine ⟨h1, fun b hb => h2 b (e.mem_iff.2 hb), fun b hb => h3 b (e.mem_iff.2 hb), fun b hb => h4 b (e.mem_iff.2 hb), h5, hnn,
    fun j a b => ?_, h7⟩
  rw [h6 j a b, used_perm e]

theorem counts_of_perm {A B : List Block} (e : A.Perm B) :
    sets A = sets B ∧ taatsus A = taatsus B ∧ toitsus A = toitsus B ∧ singles A = singles B := by
  simp only [sets, taatsus, toitsus, singles, e.countP_eq, and_self]

theorem val_perm {A B : List Block} (e : A.Perm B) : val q A = val q B := by
  obtain ⟨c1, c2, c3, _⟩ := counts_of_perm e
  unfold val; rw [c1, c2, c3]

theorem phi_perm {A B : List Block} (e : A.Perm B) : phi A = phi B := by
  obtain ⟨c1, c2, c3, c4⟩ := counts_of_perm e
  unfold phi; rw [c1, c4]

theorem wt_perm {A B : List Block} (e : A.Perm B) : wt A = wt B := by
  obtain ⟨c1, c2, c3, c4⟩ := counts_of_perm e
  unfold wt; rw [c1, c2, c3, c4]

theorem Split.take {b : Block} {B : List Block} (h : Split i q (b :: B)) : Split i (q.add b) B := by
  obtain ⟨h1, h2, h3, h4, h5, hnn, h6, h7⟩ := h
  have hat := fun j => add_at h1 (h2 b (by simp)) j
  have hm := h4 b (by simp)
  refine ⟨by rw [add_length, h1], fun b hb => h2 b (by simp [hb]), fun b hb => h3 b (by simp [hb]),
    fun b hb => h4 b (by simp [hb]), ?_, ?_, fun j a c => ?_, fun j a c => ?_⟩
  · rcases b with j | j | j | ⟨j, w⟩ | ⟨j, m⟩ <;> simp only [Pos.add] <;> try exact h5
    cases m
    · exact h5
    · simp [Block.isMarked] at hm
  · clear hat h2 h3 h4 h6 h7
    cases b <;> simp only [Pos.add] <;> omega
  · rw [hat, h6 j a c, used_cons]; omega
  · rw [hat]; have := h7 j a c; omega

theorem val_add (q : Pos) (b : Block) (B : List Block) : val (q.add b) B = val q (b :: B) := by
  obtain ⟨c1, c2, c3, c4⟩ := counts_cons b B
  unfold val
  rw [c1, c2, c3]
  cases b <;> simp only [Pos.add, Block.isSet, Block.isTaatsu, Block.isToitsu, Bool.false_eq_true, if_false, if_true] <;>
    congr 1 <;> omega

theorem Split.next {B : List Block} (h : Split i q B) (hs : ∀ b ∈ B, i + 1 ≤ b.start) : Split (i + 1) q B :=
  ⟨h.len, h.ok, hs, h.mark, h.tune, h.nonneg, fun j a b => h.exact j (by omega) b, fun j a b => h.le4 j (by omega) b⟩

theorem Split.covers {B : List Block} (h : Split i q B) {b : Block} (hb : b ∈ B) (hu : 1 ≤ b.uses i) : b.start = i := by
  have := start_le_of_uses hu
  have := h.start b hb
  omega

theorem Split.nextIdx {idx : Nat} {B : List Block} (hidx : idx ≤ 27) (h : Split idx q B) :
    Split (nextIdx q.hand idx) q B := by
  obtain ⟨n1, n2, n3, n4⟩ := nextIdx_spec q.hand hidx
  refine ⟨h.len, h.ok, fun b hb => ?_, h.mark, h.tune, h.nonneg, fun j a c => h.exact j (by omega) c,
    fun j a c => h.le4 j (by omega) c⟩
  apply Classical.byContradiction
  intro hn
  have h1 := h.start b hb
  have h2 := n4 b.start h1 (by omega)
  have h3 := h.exact b.start h1 (h.ok b hb).2
  have h4 := used_pos_of_mem hb b.start
  have h5 := uses_start (h.ok b hb)
  omega

theorem Split.later {B : List Block} (hi : i < 27) (h : Split i q B) (hz : at37 q.hand i = 0) : Split (i + 1) q B := by
  refine h.next (fun b hb => ?_)
  have h1 := h.start b hb
  by_cases e : b.start = i
  · have h3 := h.exact i (Nat.le_refl _) hi
    have h4 := used_pos_of_mem hb i
    have h5 := uses_start (h.ok b hb)
    rw [e] at h5
    omega
  · omega

/-- some blocks of the split replaced by others with the same tiles -/
theorem Split.rewrite {A R : List Block} (A' : List Block) (h : Split i q (A ++ R)) (hok : ∀ b ∈ A', b.ok)
    (hst : ∀ b ∈ A', i ≤ b.start) (hm : ∀ b ∈ A', b.isMarked = false) (hu : ∀ j, used A' j = used A j) :
    Split i q (A' ++ R) := by
  obtain ⟨h1, h2, h3, h4, h5, hnn, h6, h7⟩ := h
  refine ⟨h1, ?_, ?_, ?_, h5, hnn, fun j a c => ?_, h7⟩
  · intro b hb
    rcases List.mem_append.1 hb with hb | hb
    · exact hok b hb
    · exact h2 b (by simp [hb])
  · intro b hb
    rcases List.mem_append.1 hb with hb | hb
    · exact hst b hb
    · exact h3 b (by simp [hb])
  · intro b hb
    rcases List.mem_append.1 hb with hb | hb
    · exact hm b hb
    · exact h4 b (by simp [hb])
  · rw [h6 j a c, used_append, used_append, hu]

/-- a block other than triplet and pair -/
def Piece (i : Nat) (b : Block) : Prop := b = .shuntsu i ∨ b = .taatsu i 1 ∨ b = .taatsu i 2 ∨ b = .single i false

/-- a block of kind `i` after which the search looks at the split `B'` -/
structure Took (i : Nat) (q : Pos) (B : List Block) (br : List Block × Nat) (B' : List Block) : Prop where
  mem : br ∈ branches q.hand i
  le : br.2 ≤ 27
  ge : i ≤ br.2
  ok : ∀ b ∈ br.1, b.ok
  uses : 1 ≤ used br.1 i
  split : Split br.2 (q.addAll br.1) B'
  same : val (q.addAll br.1) B' = val q B

theorem mem_shun_of_split {B : List Block} {b : Block} (h : Split i q B) (hb : b ∈ B) (hc : Piece i b) :
    b ∈ shunBranches q.hand i false := by
  have hbo := h.ok b hb
  refine mem_shunBranches hc hbo (fun j hj hj1 => ?_)
  by_cases hj' : j < 27
  · rw [h.exact j (by omega) hj']
    have := used_pos_of_mem hb j
    omega
  · have := hbo.uses_zero (j := j) (by omega)
    omega

theorem mem_shun_true {b : Block} (hs : b.isSingle = false) (hm : b ∈ shunBranches q.hand i false) :
    b ∈ shunBranches q.hand i true := by
  unfold shunBranches at hm ⊢
  simp only [List.mem_append, List.mem_singleton] at hm ⊢
  rcases hm with hm | hm | rfl
  · exact .inl hm
  · exact .inr (.inl hm)
  · simp [Block.isSingle] at hs

theorem uses_koutsu (i : Nat) : (Block.koutsu i).uses i = 3 := if_pos rfl
theorem uses_toitsu (i : Nat) : (Block.toitsu i).uses i = 2 := if_pos rfl

/-- three tiles, a triplet -/
theorem took_koutsu3 {B : List Block} (hi : i < 27) (h : Split i q (.koutsu i :: B)) (c : at37 q.hand i = 3) :
    ∃ br, Took i q (.koutsu i :: B) br B := by
  have hk : (Block.koutsu i).ok := h.ok _ (by simp)
  refine ⟨([.koutsu i], i + 1), ?_, by show i + 1 ≤ 27; omega, by show i ≤ i + 1; omega, by simpa using hk,
    by rw [used_cons, uses_koutsu]; omega, ?_, val_add q (.koutsu i) B⟩
  · unfold branches
    rw [if_neg (by omega), if_pos c]
    simp
  · refine h.take.later hi ?_
    show at37 (q.add (.koutsu i)).hand i = 0
    rw [add_at h.len hk i, uses_koutsu]; omega

/-- four tiles, a triplet and a block -/
theorem took_koutsu4 {B : List Block} {b : Block} (hi : i < 27) (h : Split i q (.koutsu i :: b :: B)) (c : at37 q.hand i = 4)
    (hb : Piece i b) : ∃ br, Took i q (.koutsu i :: b :: B) br B := by
  have hk : (Block.koutsu i).ok := h.ok _ (by simp)
  have hbo : b.ok := h.ok _ (by simp)
  by_cases hs : b.isSingle = false
  · refine ⟨([.koutsu i, b], i), ?_, by show i ≤ 27; omega, Nat.le_refl _, by simpa using ⟨hk, hbo⟩,
      by rw [used_cons, uses_koutsu]; omega, h.take.take, ?_⟩
    · unfold branches
      rw [if_pos c]
      simp only [List.mem_append, List.mem_map, List.mem_singleton]
      exact .inl (.inl ⟨b, mem_shun_true hs (mem_shun_of_split h (by simp) hb), rfl⟩)
    · show val ((q.add _).add b) B = _
      rw [val_add, val_add]
  · have hbs : b = .single i false := by
      rcases hb with rfl | rfl | rfl | rfl
      · exact absurd rfl hs
      · exact absurd rfl hs
      · exact absurd rfl hs
      · rfl
    subst hbs
    refine ⟨([.koutsu i], i + 1), ?_, by show i + 1 ≤ 27; omega, by show i ≤ i + 1; omega, by simpa using hk,
      by rw [used_cons, uses_koutsu]; omega, ?_, ?_⟩
    · unfold branches
      rw [if_pos c]
      simp
    · have ht := h.take
      have hz := h.exact i (Nat.le_refl _) hi
      rw [used_cons, used_cons, uses_koutsu, uses_other (.inr (.inr (.inr rfl)))] at hz
      refine ⟨ht.len, fun b hb => ht.ok b (by simp [hb]), fun b hb => ?_, fun b hb => ht.mark b (by simp [hb]), ht.tune, ht.nonneg,
        fun j a c => ?_, fun j a c => ht.le4 j (by omega) c⟩
      · have h1 := ht.start b (by simp [hb])
        by_cases e : b.start = i
        · have h5 := uses_start (ht.ok b (by simp [hb]))
          have h4 := used_pos_of_mem hb i
          rw [e] at h5
          omega
        · show i + 1 ≤ b.start
          omega
      · have : (Block.single i false).uses j = 0 := if_neg (by omega)
        show at37 (q.add (.koutsu i)).hand j = _
        rw [ht.exact j (by omega) c, used_cons, this]; omega
    · show val (q.add (.koutsu i)) B = _
      rw [← val_add q, ← val_add]
      rfl

/-- two tiles, a pair -/
theorem took_toitsu2 {B : List Block} (hi : i < 27) (h : Split i q (.toitsu i :: B)) (c : at37 q.hand i = 2) :
    ∃ br, Took i q (.toitsu i :: B) br B := by
  have hk : (Block.toitsu i).ok := h.ok _ (by simp)
  refine ⟨([.toitsu i], i + 1), ?_, by show i + 1 ≤ 27; omega, by show i ≤ i + 1; omega, by simpa using hk,
    by rw [used_cons, uses_toitsu]; omega, ?_, val_add q (.toitsu i) B⟩
  · unfold branches
    rw [if_neg (by omega), if_neg (by omega), if_pos c]
    simp
  · refine h.take.later hi ?_
    show at37 (q.add (.toitsu i)).hand i = 0
    rw [add_at h.len hk i, uses_toitsu]; omega

/-- three tiles, a pair -/
theorem took_toitsu3 {B : List Block} (hi : i < 27) (h : Split i q (.toitsu i :: B)) (c : at37 q.hand i = 3) :
    ∃ br, Took i q (.toitsu i :: B) br B ∧ br = ([.toitsu i], i) := by
  have hk : (Block.toitsu i).ok := h.ok _ (by simp)
  refine ⟨([.toitsu i], i), ⟨?_, by show i ≤ 27; omega, Nat.le_refl _, by simpa using hk,
    by rw [used_cons, uses_toitsu]; omega, h.take, val_add q (.toitsu i) B⟩, rfl⟩
  unfold branches
  rw [if_neg (by omega), if_pos c]
  simp

/-- four tiles, a pair and a block -/
theorem took_toitsu4 {B : List Block} {b : Block} (hi : i < 27) (h : Split i q (.toitsu i :: b :: B)) (c : at37 q.hand i = 4)
    (hb : Piece i b) : ∃ br, Took i q (.toitsu i :: b :: B) br B := by
  have hk : (Block.toitsu i).ok := h.ok _ (by simp)
  have hbo : b.ok := h.ok _ (by simp)
  refine ⟨([.toitsu i, b], i), ?_, by show i ≤ 27; omega, Nat.le_refl _, by simpa using ⟨hk, hbo⟩,
    by rw [used_cons, uses_toitsu]; omega, h.take.take, ?_⟩
  · unfold branches
    rw [if_pos c]
    simp only [List.mem_append, List.mem_map, List.mem_singleton]
    exact .inr ⟨b, mem_shun_of_split h (by simp) hb, rfl⟩
  · show val ((q.add _).add b) B = _
    rw [val_add, val_add]

/-- one or two tiles, a block -/
theorem took_piece {B : List Block} {b : Block} (hi : i < 27) (h : Split i q (b :: B)) (c : at37 q.hand i = 1 ∨ at37 q.hand i = 2)
    (hb : Piece i b) : ∃ br, Took i q (b :: B) br B := by
  have hbo : b.ok := h.ok _ (by simp)
  have hmem := mem_shun_of_split h (by simp) hb
  refine ⟨([b], i), ?_, by show i ≤ 27; omega, Nat.le_refl _, by simpa using hbo,
    by rw [used_cons, uses_other hb]; omega, h.take, val_add _ _ _⟩
  unfold branches
  rcases c with c | c
  · rw [if_neg (by omega), if_neg (by omega), if_neg (by omega), if_pos c]
    exact List.mem_map.2 ⟨b, hmem, rfl⟩
  · rw [if_neg (by omega), if_neg (by omega), if_pos c]
    exact List.mem_cons_of_mem _ (List.mem_map.2 ⟨b, hmem, rfl⟩)

end

end MJ
