import Verif.Proofs.ShantenComplete
/-!
The remaining rearrangements, and the main lemma: the search finds the value of every split of a complete or nearly
complete hand.
-/
namespace MJ
open Spec

section
variable {d : Int} {q : Pos} {i : Nat}

theorem koutsu_ok {j : Nat} (h : j < 27) : (Block.koutsu j).ok := ⟨by simp [Block.valid]; omega, h⟩
theorem toitsu_ok {j : Nat} (h : j < 27) : (Block.toitsu j).ok := ⟨by simp [Block.valid]; omega, h⟩

/-- three equal runs are three triplets -/
theorem Inv.runs {R : List Block} (h : Inv d i q ([.shuntsu i, .shuntsu i, .shuntsu i] ++ R)) :
    Inv d i q ([.koutsu i, .koutsu (i + 1), .koutsu (i + 2)] ++ R) := by
  have hv := (h.ok (.shuntsu i) (by simp)).1
  simp only [Block.valid, decide_eq_true_eq] at hv
  refine h.rewrite _ ?_ ?_ ?_ (fun j => ?_) ?_
  · simp only [List.mem_cons, List.not_mem_nil, or_false]
    rintro b (rfl | rfl | rfl) <;> exact koutsu_ok (by omega)
  · simp only [List.mem_cons, List.not_mem_nil, or_false]
    rintro b (rfl | rfl | rfl) <;> simp only [Block.start] <;> omega
  · simp [Block.isMarked]
  · simp only [used_cons, used_nil, Block.uses]
    (repeat' split) <;> omega
  · intro m t p s _ _ _ ht
    exact ht

/-- two runs and the first two tiles of a third are two triplets and a pair -/
theorem Inv.runsTaatsu2 {R : List Block} (h : Inv d i q ([.shuntsu i, .shuntsu i, .taatsu i 2] ++ R)) :
    Inv d i q ([.koutsu i, .koutsu (i + 1), .toitsu (i + 2)] ++ R) := by
  have hv := (h.ok (.shuntsu i) (by simp)).1
  simp only [Block.valid, decide_eq_true_eq] at hv
  refine h.rewrite _ ?_ ?_ ?_ (fun j => ?_) ?_
  · simp only [List.mem_cons, List.not_mem_nil, or_false]
    rintro b (rfl | rfl | rfl)
    · exact koutsu_ok (by omega)
    · exact koutsu_ok (by omega)
    · exact toitsu_ok (by omega)
  · simp only [List.mem_cons, List.not_mem_nil, or_false]
    rintro b (rfl | rfl | rfl) <;> simp only [Block.start] <;> omega
  · simp [Block.isMarked]
  · simp only [used_cons, used_nil, Block.uses]
    (repeat' split) <;> omega
  · intro m t p s h1 h2 h3 ht
    change Totals d (m + (2 : Nat)) (t + (1 : Nat)) (p + (0 : Nat)) (s + (0 : Nat)) at ht
    show Totals d (m + (2 : Nat)) (t + (0 : Nat)) (p + (1 : Nat)) (s + (0 : Nat))
    unfold Totals at *
    omega

/-- two runs and the outer tiles of a third are two triplets and a pair -/
theorem Inv.runsTaatsu1 {R : List Block} (h : Inv d i q ([.shuntsu i, .shuntsu i, .taatsu i 1] ++ R)) :
    Inv d i q ([.koutsu i, .toitsu (i + 1), .koutsu (i + 2)] ++ R) := by
  have hv := (h.ok (.shuntsu i) (by simp)).1
  simp only [Block.valid, decide_eq_true_eq] at hv
  refine h.rewrite _ ?_ ?_ ?_ (fun j => ?_) ?_
  · simp only [List.mem_cons, List.not_mem_nil, or_false]
    rintro b (rfl | rfl | rfl)
    · exact koutsu_ok (by omega)
    · exact toitsu_ok (by omega)
    · exact koutsu_ok (by omega)
  · simp only [List.mem_cons, List.not_mem_nil, or_false]
    rintro b (rfl | rfl | rfl) <;> simp only [Block.start] <;> omega
  · simp [Block.isMarked]
  · simp only [used_cons, used_nil, Block.uses]
    (repeat' split) <;> omega
  · intro m t p s h1 h2 h3 ht
    change Totals d (m + (2 : Nat)) (t + (1 : Nat)) (p + (0 : Nat)) (s + (0 : Nat)) at ht
    show Totals d (m + (2 : Nat)) (t + (0 : Nat)) (p + (1 : Nat)) (s + (0 : Nat))
    unfold Totals at *
    omega

/-- two runs and the first tile of a third are a triplet and two pairs -/
theorem Inv.runsSingle {R : List Block} (h : Inv d i q ([.shuntsu i, .shuntsu i, .single i false] ++ R)) :
    Inv d i q ([.koutsu i, .toitsu (i + 1), .toitsu (i + 2)] ++ R) := by
  have hv := (h.ok (.shuntsu i) (by simp)).1
  simp only [Block.valid, decide_eq_true_eq] at hv
  refine h.rewrite _ ?_ ?_ ?_ (fun j => ?_) ?_
  · simp only [List.mem_cons, List.not_mem_nil, or_false]
    rintro b (rfl | rfl | rfl)
    · exact koutsu_ok (by omega)
    · exact toitsu_ok (by omega)
    · exact toitsu_ok (by omega)
  · simp only [List.mem_cons, List.not_mem_nil, or_false]
    rintro b (rfl | rfl | rfl) <;> simp only [Block.start] <;> omega
  · simp [Block.isMarked]
  · simp only [used_cons, used_nil, Block.uses]
    (repeat' split) <;> omega
  · intro m t p s h1 h2 h3 ht
    change Totals d (m + (2 : Nat)) (t + (0 : Nat)) (p + (0 : Nat)) (s + (1 : Nat)) at ht
    show Totals d (m + (1 : Nat)) (t + (0 : Nat)) (p + (2 : Nat)) (s + (0 : Nat))
    unfold Totals at *
    omega

/-- two pairs of one kind are a triplet and a single tile -/
theorem Inv.pairs {R : List Block} (h : Inv d i q ([.toitsu i, .toitsu i] ++ R)) :
    Inv d i q ([.koutsu i, .single i false] ++ R) := by
  have hv := h.ok (.toitsu i) (by simp)
  refine h.rewrite _ ?_ ?_ ?_ (fun j => ?_) ?_
  · simp only [List.mem_cons, List.not_mem_nil, or_false]
    rintro b (rfl | rfl)
    · exact koutsu_ok hv.2
    · exact ⟨hv.1, hv.2⟩
  · simp only [List.mem_cons, List.not_mem_nil, or_false]
    rintro b (rfl | rfl) <;> simp only [Block.start] <;> omega
  · simp [Block.isMarked]
  · simp only [used_cons, used_nil, Block.uses]
    (repeat' split) <;> omega
  · intro m t p s h1 h2 h3 ht
    change Totals d (m + (0 : Nat)) (t + (0 : Nat)) (p + (2 : Nat)) (s + (0 : Nat)) at ht
    show Totals d (m + (1 : Nat)) (t + (0 : Nat)) (p + (0 : Nat)) (s + (1 : Nat))
    unfold Totals at *
    omega

/-- the blocks that use kind `i` -/
theorem Inv.cases {B : List Block} (h : Inv d i q B) (hnk : Block.koutsu i ∉ B) (hnt : Block.toitsu i ∉ B) {b : Block}
    (hb : b ∈ B) (hu : 1 ≤ b.uses i) : b = .shuntsu i ∨ b = .taatsu i 1 ∨ b = .taatsu i 2 ∨ b = .single i false := by
  rcases block_cases (h.covers hb hu) (h.mark b hb) (h.ok b hb) with rfl | rfl | h'
  · exact absurd hb hnk
  · exact absurd hb hnt
  · exact h'

theorem uses_other {b : Block} {i : Nat}
    (hb : b = .shuntsu i ∨ b = .taatsu i 1 ∨ b = .taatsu i 2 ∨ b = .single i false) : b.uses i = 1 := by
  rcases hb with rfl | rfl | rfl | rfl <;> simp [Block.uses]

/-- at most one block is a partial run or a single tile -/
theorem Inv.shuntsu_of_two {B : List Block} {x y : Block} (h : Inv d i q (x :: y :: B))
    (hx : x = .taatsu i 1 ∨ x = .taatsu i 2 ∨ x = .single i false)
    (hy : y = .taatsu i 1 ∨ y = .taatsu i 2 ∨ y = .single i false) : False := by
  have ht := h.totals
  have hn := h.nonneg
  obtain ⟨a1, a2, a3, a4⟩ := counts_cons x (y :: B)
  obtain ⟨b1, b2, b3, b4⟩ := counts_cons y B
  rw [a1, a2, a3, a4, b1, b2, b3, b4] at ht
  clear a1 a2 a3 a4 b1 b2 b3 b4 h
  have k : (if x.isTaatsu = true then 1 else 0) + (if x.isSingle = true then 1 else 0) = 1 := by
    rcases hx with rfl | rfl | rfl <;> rfl
  have k' : (if y.isTaatsu = true then 1 else 0) + (if y.isSingle = true then 1 else 0) = 1 := by
    rcases hy with rfl | rfl | rfl <;> rfl
  revert k k' ht
  generalize (if x.isTaatsu = true then 1 else 0) = x1
  generalize (if x.isSingle = true then 1 else 0) = x2
  generalize (if y.isTaatsu = true then 1 else 0) = y1
  generalize (if y.isSingle = true then 1 else 0) = y2
  intro ht k k'
  unfold Totals at ht
  omega

/-- neither a triplet nor a pair of kind `i` is in the split -/
theorem found_other {B : List Block} (hi : i < 27) (h : Inv d i q B) (hp : 0 < at37 q.hand i)
    (hnk : Block.koutsu i ∉ B) (hnt : Block.toitsu i ∉ B)
    (ih : ∀ idx q' B', idx ≤ 27 → Inv d idx q' B' → depth q'.hand idx < depth q.hand i → Found d idx q') :
    ∃ br ∈ branches q.hand i, Found d br.2 (q.addAll br.1) := by
  have hex := h.exact i (Nat.le_refl _) hi
  have h4 := h.le4 i (Nat.le_refl _) hi
  by_cases c : at37 q.hand i = 1 ∨ at37 q.hand i = 2
  · obtain ⟨b, hb, hu⟩ := exists_of_used (B := B) (j := i) (by omega)
    have hc := h.cases hnk hnt hb hu
    have hbo := h.ok b hb
    obtain ⟨B', e⟩ := perm_cons_of_mem hb
    have hmem := mem_shun_of_inv h hb hc
    refine ⟨([b], i), ?_, ?_⟩
    · unfold branches
      rcases c with c | c
      · rw [if_neg (by omega), if_neg (by omega), if_neg (by omega), if_pos c]
        exact List.mem_map.2 ⟨b, hmem, rfl⟩
      · rw [if_neg (by omega), if_neg (by omega), if_pos c]
        exact List.mem_cons_of_mem _ (List.mem_map.2 ⟨b, hmem, rfl⟩)
    · refine ih _ _ _ (by omega) (h.perm e).takeAny ?_
      have := suitSum_addAll (A := [b]) h.len (by simpa using hbo) hi hp (by rw [used_cons]; omega)
      rw [addAll_cons, addAll_nil] at this
      show depth (q.add b).hand i < _
      unfold depth; omega
  · -- three or four tiles: at least two runs
    have next : ∀ C : List Block, (∀ b ∈ C, b ∈ B) → 1 ≤ used C i → ∃ b C', C.Perm (b :: C') ∧
        (b = .shuntsu i ∨ b = .taatsu i 1 ∨ b = .taatsu i 2 ∨ b = .single i false) ∧
        (∀ b ∈ C', b ∈ B) ∧ used C i = 1 + used C' i := by
      intro C hC hu
      obtain ⟨b, hb, hu'⟩ := exists_of_used hu
      obtain ⟨C', e⟩ := perm_cons_of_mem hb
      have hc := h.cases hnk hnt (hC b hb) hu'
      refine ⟨b, C', e, hc, fun b' hb' => hC b' (e.mem_iff.2 (by simp [hb'])), ?_⟩
      rw [used_perm e, used_cons, uses_other hc]
    obtain ⟨x, C1, e1, hx, m1, u1⟩ := next B (fun b hb => hb) (by omega)
    obtain ⟨y, C2, e2, hy, m2, u2⟩ := next C1 m1 (by omega)
    obtain ⟨z, C3, e3, hz, m3, u3⟩ := next C2 m2 (by omega)
    have hB : B.Perm (x :: y :: z :: C3) := e1.trans ((e2.trans (e3.cons _)).cons _)
    have hI := h.perm hB
    -- a split that begins with two runs and something else
    have fin : ∀ z C3, Inv d i q (.shuntsu i :: .shuntsu i :: z :: C3) →
        (z = .shuntsu i ∨ z = .taatsu i 1 ∨ z = .taatsu i 2 ∨ z = .single i false) →
        ∃ br ∈ branches q.hand i, Found d br.2 (q.addAll br.1) := by
      intro z C3 hI hz
      rcases hz with rfl | rfl | rfl | rfl
      · exact found_koutsu hi (Inv.runs (R := C3) hI) hp ih
      · exact found_koutsu hi (Inv.runsTaatsu1 (R := C3) hI) hp ih
      · exact found_koutsu hi (Inv.runsTaatsu2 (R := C3) hI) hp ih
      · exact found_koutsu hi (Inv.runsSingle (R := C3) hI) hp ih
    by_cases hx1 : x = .shuntsu i
    · subst hx1
      by_cases hy1 : y = .shuntsu i
      · subst hy1
        exact fin z C3 hI hz
      · by_cases hz1 : z = .shuntsu i
        · subst hz1
          exact fin y C3 (hI.perm (List.Perm.cons _ (List.Perm.swap _ _ _))) hy
        · exfalso
          exact Inv.shuntsu_of_two (x := y) (y := z) (B := .shuntsu i :: C3)
            (hI.perm ((List.Perm.swap _ _ _).trans (List.Perm.cons _ (List.Perm.swap _ _ _)))) (by grind) (by grind)
    · have hy1 : y = .shuntsu i := by
        apply Classical.byContradiction
        intro hy1
        exact Inv.shuntsu_of_two hI (by grind) (by grind)
      have hz1 : z = .shuntsu i := by
        apply Classical.byContradiction
        intro hz1
        exact Inv.shuntsu_of_two (x := x) (y := z) (B := y :: C3) (hI.perm (List.Perm.cons _ (List.Perm.swap _ _ _)))
          (by grind) (by grind)
      subst hy1; subst hz1
      exact fin x C3 (hI.perm ((List.Perm.swap _ _ _).trans (List.Perm.cons _ (List.Perm.swap _ _ _)))) hx

end

/-- the search finds a value of at most `d` whenever the suited tiles have a split with these totals -/
theorem found (n : Nat) : ∀ (d : Int) (idx : Nat) (q : Pos) (B : List Block), depth q.hand idx < n → idx ≤ 27 →
    Inv d idx q B → Found d idx q := by
  induction n with
  | zero => intro d idx q B h; omega
  | succ n ihn =>
    intro d idx q B hdep hidx h
    by_cases h27 : nextIdx q.hand idx = 27
    · exact found_done hidx h h27
    · obtain ⟨n1, n2, n3, _⟩ := nextIdx_spec q.hand hidx
      have hI := h.nextIdx hidx
      have hnz := n3 h27
      have step : ∀ br ∈ branches q.hand (nextIdx q.hand idx), Found d br.2 (q.addAll br.1) → Found d idx q := by
        rintro br hb ⟨v, hv, hv'⟩
        exact ⟨v, .step h27 hb hv, hv'⟩
      have hdep' : depth q.hand (nextIdx q.hand idx) ≤ n := by unfold depth at *; omega
      generalize hi : nextIdx q.hand idx = i at *
      have hi27 : i < 27 := by omega
      have hpos : 0 < at37 q.hand i := by
        have := hI.exact i (Nat.le_refl _) hi27
        omega
      have ih : ∀ idx q' B', idx ≤ 27 → Inv d idx q' B' → depth q'.hand idx < depth q.hand i → Found d idx q' :=
        fun idx q' B' a b c => ihn d idx q' B' (by omega) a b
      suffices hh : ∃ br ∈ branches q.hand i, Found d br.2 (q.addAll br.1) by
        obtain ⟨br, hb, hf⟩ := hh
        exact step br hb hf
      by_cases hk : Block.koutsu i ∈ B
      · obtain ⟨B', e⟩ := perm_cons_of_mem hk
        exact found_koutsu hi27 (hI.perm e) hpos ih
      · by_cases ht : Block.toitsu i ∈ B
        · obtain ⟨B', e⟩ := perm_cons_of_mem ht
          have hI' := hI.perm e
          have hk' : Block.koutsu i ∉ B' := fun hh => hk (e.mem_iff.2 (by simp [hh]))
          by_cases ht' : Block.toitsu i ∈ B'
          · obtain ⟨B'', e'⟩ := perm_cons_of_mem ht'
            exact found_koutsu hi27 (Inv.pairs (R := B'') (hI'.perm (e'.cons _))) hpos ih
          · exact found_toitsu hi27 hI' hpos hk' ht' ih
        · exact found_other hi27 hI hpos hk ht ih

end MJ
