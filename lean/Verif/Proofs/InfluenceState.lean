import Verif.Proofs.Influence
/-!
Tests for the numbers of `StateNet`: all inputs are one.
-/
namespace MJ.Net
open scoped BigOperators
open Spec

/-! ### the layers after the convolutions -/

/-- index of an entry of the first layer's output in the combined vector -/
def inCombined (i : Fin 64) : Fin (64 + 7 * 4 + 4) := Fin.castAdd 4 (Fin.castAdd (7 * 4) i)

theorem relu_of_nonneg {x : ℝ} (h : 0 ≤ x) : relu x = x := max_eq_left h

@[simp] theorem relu_zero : relu 0 = 0 := max_self 0
@[simp] theorem relu_one : relu 1 = 1 := max_eq_left zero_le_one

/-- a path through the last two layers -/
noncomputable def tailPath (n : ℕ) (l : Linear n 64) (i : Fin embdSize) (j : Fin (64 + 7 * 4 + 4)) (w b : ℝ) (o : Fin embdSize) (w2 b2 : ℝ) :
    StateTail n := ⟨l, pt i j w (single i b), pt o i w2 (single o b2)⟩

/-- the combined vector when `x2` and `x3` are one -/
noncomputable def combined {n : ℕ} (l : Linear n 64) (x1 : Fin n → ℝ) : Fin (64 + 7 * 4 + 4) → ℝ :=
  cat (cat (fun i => relu (l.fwd x1 i)) (flatten (fun (_ : Fin 7) (_ : Fin 4) => (1 : ℝ)))) (fun _ => 1)

theorem combined_in {n : ℕ} (l : Linear n 64) (x1 : Fin n → ℝ) (i : Fin 64) : combined l x1 (inCombined i) = relu (l.fwd x1 i) := by
  unfold combined inCombined cat
  rw [Fin.append_left, Fin.append_left]

theorem combined_one {n : ℕ} (l : Linear n 64) (x1 : Fin n → ℝ) (h : ∀ i, l.fwd x1 i = 1) (j : Fin (64 + 7 * 4 + 4)) :
    combined l x1 j = 1 := by
  unfold combined cat
  refine Fin.addCases (fun j => ?_) (fun j => ?_) j
  · rw [Fin.append_left]
    refine Fin.addCases (fun j => ?_) (fun j => ?_) j
    · rw [Fin.append_left, h, relu_one]
    · rw [Fin.append_right]; rfl
  · rw [Fin.append_right]

theorem tailPath_fwd {n : ℕ} (l : Linear n 64) (i : Fin embdSize) (j : Fin (64 + 7 * 4 + 4)) (w b : ℝ) (o : Fin embdSize) (w2 b2 : ℝ)
    (x1 : Fin n → ℝ) :
    (tailPath n l i j w b o w2 b2).fwd x1 (fun _ _ => 1) (fun _ => 1) = single o (relu (w2 * relu (w * combined l x1 j + b) + b2)) := by
  funext o'
  unfold StateTail.fwd tailPath
  dsimp only
  rw [pt_fwd, pt_fwd]
  unfold single
  by_cases h : o' = o
  · simp only [h, if_true]
    rfl
  · simp [h]

/-- the combined state is zero with one set of parameters and something else with another -/
def TailTest {n : ℕ} (s s' : StateTail n) (x x' : Fin n → ℝ) : Prop :=
  ∃ (o : Fin embdSize) (D : ℝ), D ≠ 0 ∧ s.fwd x (fun _ _ => 1) (fun _ => 1) = 0 ∧ s'.fwd x' (fun _ _ => 1) (fun _ => 1) = single o D

theorem tail_test {n : ℕ} (c : TailCoord n) : ∃ s r, ∀ x : Fin n → ℝ, (∀ i, x i = 1) → TailTest s (s.set r c) x x := by
  match c with
  | .main2 (.weight o i) =>
    refine ⟨tailPath n ⟨0, 0⟩ i 0 0 1 o 0 0, 1, fun x hx => ⟨o, 1, one_ne_zero, ?_, ?_⟩⟩
    · rw [tailPath_fwd]; simp
    · have : (tailPath n ⟨0, 0⟩ i 0 0 1 o 0 0).set 1 (.main2 (.weight o i)) = tailPath n ⟨0, 0⟩ i 0 0 1 o 1 0 := by
        simp only [tailPath, StateTail.set]; rw [pt_set_weight]
      rw [this, tailPath_fwd]; simp
  | .main2 (.bias o) =>
    refine ⟨tailPath n ⟨0, 0⟩ 0 0 0 0 o 0 0, 1, fun x hx => ⟨o, 1, one_ne_zero, ?_, ?_⟩⟩
    · rw [tailPath_fwd]; simp
    · have : (tailPath n ⟨0, 0⟩ 0 0 0 0 o 0 0).set 1 (.main2 (.bias o)) = tailPath n ⟨0, 0⟩ 0 0 0 0 o 0 1 := by
        simp only [tailPath, StateTail.set]; rw [pt_set_bias]
      rw [this, tailPath_fwd]; simp
  | .main1 (.weight i j) =>
    refine ⟨tailPath n ⟨0, 1⟩ i j 0 0 0 1 0, 1, fun x hx => ⟨0, 1, one_ne_zero, ?_, ?_⟩⟩
    · rw [tailPath_fwd]; simp
    · have : (tailPath n ⟨0, 1⟩ i j 0 0 0 1 0).set 1 (.main1 (.weight i j)) = tailPath n ⟨0, 1⟩ i j 1 0 0 1 0 := by
        simp only [tailPath, StateTail.set]; rw [pt_set_weight]
      rw [this, tailPath_fwd, combined_one _ _ (fun i => by simp [Linear.fwd])]; simp
  | .main1 (.bias i) =>
    refine ⟨tailPath n ⟨0, 1⟩ i 0 0 0 0 1 0, 1, fun x hx => ⟨0, 1, one_ne_zero, ?_, ?_⟩⟩
    · rw [tailPath_fwd]; simp
    · have : (tailPath n ⟨0, 1⟩ i 0 0 0 0 1 0).set 1 (.main1 (.bias i)) = tailPath n ⟨0, 1⟩ i 0 0 1 0 1 0 := by
        simp only [tailPath, StateTail.set]; rw [pt_set_bias]
      rw [this, tailPath_fwd]; simp
  | .fc_x1 (.weight i j) =>
    refine ⟨tailPath n (pt i j 0 0) 0 (inCombined i) 1 0 0 1 0, 1, fun x hx => ⟨0, 1, one_ne_zero, ?_, ?_⟩⟩
    · rw [tailPath_fwd, combined_in, pt_fwd]; simp
    · have : (tailPath n (pt i j 0 0) 0 (inCombined i) 1 0 0 1 0).set 1 (.fc_x1 (.weight i j)) =
          tailPath n (pt i j 1 0) 0 (inCombined i) 1 0 0 1 0 := by
        simp only [tailPath, StateTail.set]; rw [pt_set_weight]
      rw [this, tailPath_fwd, combined_in, pt_fwd, hx]; simp
  | .fc_x1 (.bias i) =>
    refine ⟨tailPath n ⟨0, single i 0⟩ 0 (inCombined i) 1 0 0 1 0, 1, fun x hx => ⟨0, 1, one_ne_zero, ?_, ?_⟩⟩
    · rw [tailPath_fwd, combined_in]; simp [Linear.fwd]
    · have : (tailPath n ⟨0, single i 0⟩ 0 (inCombined i) 1 0 0 1 0).set 1 (.fc_x1 (.bias i)) =
          tailPath n ⟨0, single i 1⟩ 0 (inCombined i) 1 0 0 1 0 := by
        simp only [tailPath, StateTail.set, Linear.set]
        congr 2
        funext o'
        unfold single
        split <;> rfl
      rw [this, tailPath_fwd, combined_in]; simp [Linear.fwd]

/-- reading one entry -/
noncomputable def tailRead (n : ℕ) (j : Fin n) : StateTail n := tailPath n (pt 0 j 1 0) 0 (inCombined 0) 1 0 0 1 0

theorem tailRead_fwd {n : ℕ} (j : Fin n) (x : Fin n → ℝ) (h : 0 ≤ x j) :
    (tailRead n j).fwd x (fun _ _ => 1) (fun _ => 1) = single 0 (x j) := by
  unfold tailRead
  rw [tailPath_fwd, combined_in, pt_fwd]
  simp only [if_true, one_mul, Pi.zero_apply, add_zero]
  rw [relu_of_nonneg h, relu_of_nonneg h, relu_of_nonneg h]

/-! ### convolutions -/

theorem pad1_const {n : ℕ} (c : ℝ) (p : Fin n) (k : Fin 3) (h : 1 ≤ p.val ∧ p.val + 1 < n) : pad1 (fun _ => c) p k = c := by
  unfold pad1
  rw [dif_pos (by omega)]

theorem pad1_mid {n : ℕ} (x : Fin n → ℝ) (p : Fin n) : pad1 x p 1 = x p := by
  unfold pad1
  rw [dif_pos ⟨by simp, by simp⟩]
  congr 1

/-- convolutions with one weight -/
def cpt {c o : ℕ} (m : Fin o) (i : Fin c) (k : Fin 3) (w : ℝ) (b : Fin o → ℝ) : Conv1d c o :=
  ⟨fun m' i' k' => if m' = m ∧ i' = i ∧ k' = k then w else 0, b⟩
@[inherit_doc cpt] def cpt2 {c o : ℕ} (m : Fin o) (i : Fin c) (k l : Fin 3) (w : ℝ) (b : Fin o → ℝ) : Conv2d c o :=
  ⟨fun m' i' k' l' => if m' = m ∧ i' = i ∧ k' = k ∧ l' = l then w else 0, b⟩

theorem cpt_fwd {c o n : ℕ} (m : Fin o) (i : Fin c) (k : Fin 3) (w : ℝ) (b : Fin o → ℝ) (x : T2 c n) (m' : Fin o) (p : Fin n) :
    (cpt m i k w b).fwd x m' p = (if m' = m then w * pad1 (x i) p k else 0) + b m' := by
  unfold Conv1d.fwd cpt
  dsimp only
  congr 1
  by_cases h : m' = m
  · simp only [h, true_and, if_true]
    rw [Finset.sum_eq_single i, Finset.sum_eq_single k]
    · simp
    · intro k' _ hk; simp [hk]
    · simp
    · intro i' _ hi; simp [hi]
    · simp
  · simp [h]

theorem cpt2_fwd {c o n w' : ℕ} (m : Fin o) (i : Fin c) (k l : Fin 3) (w : ℝ) (b : Fin o → ℝ) (x : T3 c n w') (m' : Fin o) (p : Fin n)
    (r : Fin w') :
    (cpt2 m i k l w b).fwd x m' p r = (if m' = m then w * pad1 (fun p' => pad1 (x i p') r l) p k else 0) + b m' := by
  unfold Conv2d.fwd cpt2
  dsimp only
  congr 1
  by_cases h : m' = m
  · simp only [h, true_and, if_true]
    rw [Finset.sum_eq_single i, Finset.sum_eq_single k, Finset.sum_eq_single l]
    · simp
    · intro l' _ hl; simp [hl]
    · simp
    · intro k' _ hk; simp [hk]
    · simp
    · intro i' _ hi; simp [hi]
    · simp
  · simp [h]

theorem cpt_set {c o : ℕ} (m : Fin o) (i : Fin c) (k : Fin 3) (w r : ℝ) (b : Fin o → ℝ) :
    (cpt m i k w b).set r (.weight m i k) = cpt m i k r b := by
  simp only [cpt, Conv1d.set]
  congr 1
  funext m' i' k'
  split <;> rfl

theorem cpt_set_bias {c o : ℕ} (m : Fin o) (i : Fin c) (k : Fin 3) (w r s : ℝ) :
    (cpt m i k w (single m s)).set r (.bias m) = cpt m i k w (single m r) := by
  simp only [cpt, Conv1d.set]
  congr 1
  funext m'
  unfold single
  split <;> rfl

theorem cpt2_set {c o : ℕ} (m : Fin o) (i : Fin c) (k l : Fin 3) (w r : ℝ) (b : Fin o → ℝ) :
    (cpt2 m i k l w b).set r (.weight m i k l) = cpt2 m i k l r b := by
  simp only [cpt2, Conv2d.set]
  congr 1
  funext m' i' k' l'
  split <;> rfl

theorem cpt2_set_bias {c o : ℕ} (m : Fin o) (i : Fin c) (k l : Fin 3) (w r s : ℝ) :
    (cpt2 m i k l w (single m s)).set r (.bias m) = cpt2 m i k l w (single m r) := by
  simp only [cpt2, Conv2d.set]
  congr 1
  funext m'
  unfold single
  split <;> rfl

theorem exists_index {a b : ℕ} (i : Fin a) (j : Fin b) : ∃ k : Fin (a * b), k.divNat = i ∧ k.modNat = j := by
  refine ⟨finProdFinEquiv (i, j), ?_⟩
  have h := finProdFinEquiv.symm_apply_apply (i, j)
  exact ⟨congrArg Prod.fst h, congrArg Prod.snd h⟩

theorem relu_nonneg (x : ℝ) : 0 ≤ relu x := le_max_right _ _

/-- the first result zero, the second something else -/
def Apart (y y' : Fin embdSize → ℝ) : Prop := ∃ (o : Fin embdSize) (D : ℝ), D ≠ 0 ∧ y = 0 ∧ y' = single o D

/-- the ones -/
abbrev ones1 : T2 3 37 := fun _ _ => 1
@[inherit_doc ones1] abbrev ones2 (c : ℕ) : T3 c 37 4 := fun _ _ _ => 1

theorem read1 (m : Fin 16) (p : Fin 37) : ∃ j, ∀ (c1 : Conv1d 3 8) (c2 : Conv1d 8 16),
    StateNet1.fwd ⟨c1, c2, tailRead _ j⟩ ones1 (fun _ _ => 1) (fun _ => 1) =
      single 0 (relu (c2.fwd (fun m p => relu (c1.fwd ones1 m p)) m p)) := by
  obtain ⟨k, hk1, hk2⟩ := exists_index m p
  refine ⟨Fin.castAdd (3 * 37) k, fun c1 c2 => ?_⟩
  have e : ∀ (x : Fin (16 * 37) → ℝ) (y : Fin (3 * 37) → ℝ), cat x y (Fin.castAdd (3 * 37) k) = x k := fun x y => Fin.append_left _ _ _
  unfold StateNet1.fwd
  dsimp only
  rw [tailRead_fwd _ _ (by rw [e]; exact relu_nonneg _), e]
  unfold flatten
  rw [hk1, hk2]

theorem read2 {c o : ℕ} (m : Fin o) (p : Fin 37) (r : Fin 4) : ∃ j, ∀ (c1 : Conv2d c 8) (c2 : Conv2d 8 o),
    StateNet2.fwd ⟨c1, c2, tailRead _ j⟩ (ones2 c) (fun _ _ => 1) (fun _ => 1) =
      single 0 (relu (c2.fwd (fun m p r => relu (c1.fwd (ones2 c) m p r)) m p r)) := by
  obtain ⟨k, hk1, hk2⟩ := exists_index p r
  obtain ⟨k', hk1', hk2'⟩ := exists_index m k
  refine ⟨Fin.castAdd (c * (37 * 4)) k', fun c1 c2 => ?_⟩
  have e : ∀ (x : Fin (o * (37 * 4)) → ℝ) (y : Fin (c * (37 * 4)) → ℝ), cat x y (Fin.castAdd (c * (37 * 4)) k') = x k' :=
    fun x y => Fin.append_left _ _ _
  unfold StateNet2.fwd
  dsimp only
  rw [tailRead_fwd _ _ (by rw [e]; exact relu_nonneg _), e]
  unfold flatten
  rw [hk1', hk2']
  dsimp only
  rw [hk1, hk2]

theorem state1_test (c : State1Coord) : ∃ s r, Apart (StateNet1.fwd s ones1 (fun _ _ => 1) (fun _ => 1))
    (StateNet1.fwd (s.set r c) ones1 (fun _ _ => 1) (fun _ => 1)) := by
  have hp : 1 ≤ (1 : Fin 37).val ∧ (1 : Fin 37).val + 1 < 37 := by decide
  match c with
  | .conv1 (.weight m i k) =>
    obtain ⟨j, hj⟩ := read1 0 1
    refine ⟨⟨cpt m i k 0 0, cpt 0 m 1 1 0, tailRead _ j⟩, 1, 0, 1, one_ne_zero, ?_, ?_⟩
    · rw [hj, cpt_fwd, pad1_mid, cpt_fwd]
      simp
    · simp only [StateNet1.set, cpt_set]
      rw [hj, cpt_fwd, pad1_mid, cpt_fwd, pad1_const _ _ _ hp]
      simp
  | .conv1 (.bias m) =>
    obtain ⟨j, hj⟩ := read1 0 1
    refine ⟨⟨cpt m 0 0 0 (single m 0), cpt 0 m 1 1 0, tailRead _ j⟩, 1, 0, 1, one_ne_zero, ?_, ?_⟩
    · rw [hj, cpt_fwd, pad1_mid, cpt_fwd]
      simp
    · simp only [StateNet1.set, cpt_set_bias]
      rw [hj, cpt_fwd, pad1_mid, cpt_fwd]
      simp
  | .conv2 (.weight m i k) =>
    obtain ⟨j, hj⟩ := read1 m 1
    have h1 : ∀ m p, (⟨0, 1⟩ : Conv1d 3 8).fwd ones1 m p = 1 := by intro m p; simp [Conv1d.fwd]
    refine ⟨⟨⟨0, 1⟩, cpt m i k 0 0, tailRead _ j⟩, 1, 0, 1, one_ne_zero, ?_, ?_⟩
    · rw [hj, cpt_fwd]
      simp
    · simp only [StateNet1.set, cpt_set]
      rw [hj, cpt_fwd]
      simp only [h1]
      rw [pad1_const _ _ _ hp]
      simp
  | .conv2 (.bias m) =>
    obtain ⟨j, hj⟩ := read1 m 1
    refine ⟨⟨⟨0, 1⟩, cpt m 0 0 0 (single m 0), tailRead _ j⟩, 1, 0, 1, one_ne_zero, ?_, ?_⟩
    · rw [hj, cpt_fwd]
      simp
    · simp only [StateNet1.set, cpt_set_bias]
      rw [hj, cpt_fwd]
      simp
  | .tail c =>
    obtain ⟨s, r, h⟩ := tail_test c
    have h1 : ∀ m p, (⟨0, 1⟩ : Conv1d 3 8).fwd ones1 m p = 1 := by intro m p; simp [Conv1d.fwd]
    have h2 : ∀ (x : T2 8 37) m p, (⟨0, 1⟩ : Conv1d 8 16).fwd x m p = 1 := by intro x m p; simp [Conv1d.fwd]
    obtain ⟨o, D, hD, e1, e2⟩ := h (fun _ => 1) (fun _ => rfl)
    have hc : cat (flatten fun (m : Fin 16) (p : Fin 37) => relu ((⟨0, 1⟩ : Conv1d 8 16).fwd
        (fun m p => relu ((⟨0, 1⟩ : Conv1d 3 8).fwd ones1 m p)) m p)) (flatten ones1) = fun _ => 1 := by
      funext j
      unfold cat
      refine Fin.addCases (fun j => ?_) (fun j => ?_) j
      · rw [Fin.append_left]; unfold flatten; dsimp only; rw [h2, relu_one]
      · rw [Fin.append_right]; rfl
    refine ⟨⟨⟨0, 1⟩, ⟨0, 1⟩, s⟩, r, o, D, hD, ?_, ?_⟩
    · unfold StateNet1.fwd
      dsimp only
      rw [hc, e1]
    · unfold StateNet1.fwd StateNet1.set
      dsimp only
      rw [hc, e2]

theorem state2_test {c o : ℕ} (ho : 0 < o) (hc0 : 0 < c) (d : State2Coord c o) :
    ∃ s r, Apart (StateNet2.fwd s (ones2 c) (fun _ _ => 1) (fun _ => 1))
      (StateNet2.fwd (s.set r d) (ones2 c) (fun _ _ => 1) (fun _ => 1)) := by
  have hp : 1 ≤ (1 : Fin 37).val ∧ (1 : Fin 37).val + 1 < 37 := by decide
  have hq : 1 ≤ (1 : Fin 4).val ∧ (1 : Fin 4).val + 1 < 4 := by decide
  have o0 : Fin o := ⟨0, ho⟩
  have i0 : Fin c := ⟨0, hc0⟩
  match d with
  | .conv1 (.weight m i k l) =>
    obtain ⟨j, hj⟩ := read2 (c := c) o0 1 1
    refine ⟨⟨cpt2 m i k l 0 0, cpt2 o0 m 1 1 1 0, tailRead _ j⟩, 1, 0, 1, one_ne_zero, ?_, ?_⟩
    · rw [hj, cpt2_fwd, pad1_mid, pad1_mid, cpt2_fwd]
      simp
    · simp only [StateNet2.set, cpt2_set]
      rw [hj, cpt2_fwd, pad1_mid, pad1_mid, cpt2_fwd]
      simp only [pad1_const _ _ _ hp, pad1_const _ _ _ hq]
      simp
  | .conv1 (.bias m) =>
    obtain ⟨j, hj⟩ := read2 (c := c) o0 1 1
    refine ⟨⟨cpt2 m i0 0 0 0 (single m 0), cpt2 o0 m 1 1 1 0, tailRead _ j⟩, 1, 0, 1, one_ne_zero, ?_, ?_⟩
    · rw [hj, cpt2_fwd, pad1_mid, pad1_mid, cpt2_fwd]
      simp
    · simp only [StateNet2.set, cpt2_set_bias]
      rw [hj, cpt2_fwd, pad1_mid, pad1_mid, cpt2_fwd]
      simp
  | .conv2 (.weight m i k l) =>
    obtain ⟨j, hj⟩ := read2 (c := c) m 1 1
    have h1 : ∀ m p r, (⟨0, 1⟩ : Conv2d c 8).fwd (ones2 c) m p r = 1 := by intro m p r; simp [Conv2d.fwd]
    refine ⟨⟨⟨0, 1⟩, cpt2 m i k l 0 0, tailRead _ j⟩, 1, 0, 1, one_ne_zero, ?_, ?_⟩
    · rw [hj, cpt2_fwd]
      simp
    · simp only [StateNet2.set, cpt2_set]
      rw [hj, cpt2_fwd]
      simp only [h1, pad1_const _ _ _ hp, pad1_const _ _ _ hq]
      simp
  | .conv2 (.bias m) =>
    obtain ⟨j, hj⟩ := read2 (c := c) m 1 1
    refine ⟨⟨⟨0, 1⟩, cpt2 m 0 0 0 0 (single m 0), tailRead _ j⟩, 1, 0, 1, one_ne_zero, ?_, ?_⟩
    · rw [hj, cpt2_fwd]
      simp
    · simp only [StateNet2.set, cpt2_set_bias]
      rw [hj, cpt2_fwd]
      simp
  | .tail d =>
    obtain ⟨s, r, h⟩ := tail_test d
    have h2 : ∀ (x : T3 8 37 4) m p r, (⟨0, 1⟩ : Conv2d 8 o).fwd x m p r = 1 := by intro x m p r; simp [Conv2d.fwd]
    obtain ⟨k, D, hD, e1, e2⟩ := h (fun _ => 1) (fun _ => rfl)
    have hc : cat (flatten fun (m : Fin o) => flatten fun (p : Fin 37) (r : Fin 4) => relu ((⟨0, 1⟩ : Conv2d 8 o).fwd
        (fun m p r => relu ((⟨0, 1⟩ : Conv2d c 8).fwd (ones2 c) m p r)) m p r)) (flatten fun m => flatten (ones2 c m)) = fun _ => 1 := by
      funext j
      unfold cat
      refine Fin.addCases (fun j => ?_) (fun j => ?_) j
      · rw [Fin.append_left]; unfold flatten; dsimp only; rw [h2, relu_one]
      · rw [Fin.append_right]; rfl
    refine ⟨⟨⟨0, 1⟩, ⟨0, 1⟩, s⟩, r, k, D, hD, ?_, ?_⟩
    · unfold StateNet2.fwd
      dsimp only
      rw [hc, e1]
    · unfold StateNet2.fwd StateNet2.set
      dsimp only
      rw [hc, e2]

theorem state_test (v : Variant) (c : StateCoord v) : ∃ s r, Apart (stateNet v s (fun _ _ _ => 1) (fun _ _ => 1) (fun _ => 1))
    (stateNet v (setState v s r c) (fun _ _ _ => 1) (fun _ _ => 1) (fun _ => 1)) := by
  match v, c with
  | .basic, c => exact state1_test c
  | .conv, c => exact state2_test (by decide) (by decide) c
  | .ordered, c => exact state2_test (by decide) (by decide) c

/-- any non-negative state -/
theorem state_any (v : Variant) (x : Fin embdSize → ℝ) (hx : 0 ≤ x) :
    ∃ s, stateNet v s (fun _ _ _ => 1) (fun _ _ => 1) (fun _ => 1) = x := by
  have key : ∀ n (y : Fin n → ℝ), StateTail.fwd ⟨⟨0, 0⟩, ⟨0, 0⟩, ⟨0, x⟩⟩ y (fun _ _ => 1) (fun _ => 1) = x := by
    intro n y
    funext i
    unfold StateTail.fwd
    simp [Linear.fwd, relu_of_nonneg (hx i)]
  match v with
  | .basic => exact ⟨⟨⟨0, 0⟩, ⟨0, 0⟩, ⟨⟨0, 0⟩, ⟨0, 0⟩, ⟨0, x⟩⟩⟩, key _ _⟩
  | .conv => exact ⟨⟨⟨0, 0⟩, ⟨0, 0⟩, ⟨⟨0, 0⟩, ⟨0, 0⟩, ⟨0, x⟩⟩⟩, key _ _⟩
  | .ordered => exact ⟨⟨⟨0, 0⟩, ⟨0, 0⟩, ⟨⟨0, 0⟩, ⟨0, 0⟩, ⟨0, x⟩⟩⟩, key _ _⟩

end MJ.Net
