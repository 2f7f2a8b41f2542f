import Verif.Spec.Missing
import Verif.Props.ShantenMinimal
/-!
C160: the shanten value is the number of tiles that are missing.
-/
namespace MJ

open MJ.Spec
open MJ.Spec.Lack

namespace Lack

/-! ### Sums over the kinds -/

theorem sum_add (L : List Nat) (f g : Nat → Nat) :
    (L.map (fun j => f j + g j)).sum = (L.map f).sum + (L.map g).sum := by
  induction L with
  | nil => rfl
  | cons a L ih => simp only [List.map_cons, List.sum_cons, ih]; omega

theorem sum_le {L : List Nat} {f g : Nat → Nat} (h : ∀ j ∈ L, f j ≤ g j) : (L.map f).sum ≤ (L.map g).sum := by
  induction L with
  | nil => exact Nat.le_refl _
  | cons a L ih =>
    simp only [List.map_cons, List.sum_cons]
    have := h a (by simp)
    have := ih (fun j hj => h j (by simp [hj]))
    omega

theorem sum_congr {L : List Nat} {f g : Nat → Nat} (h : ∀ j ∈ L, f j = g j) : (L.map f).sum = (L.map g).sum := by
  rw [List.map_congr_left h]

theorem sum_none (L : List Nat) : (L.map (fun _ => 0)).sum = 0 := by
  induction L with
  | nil => rfl
  | cons a L ih => rw [List.map_cons, List.sum_cons, ih]

theorem sum_at {L : List Nat} (hn : L.Nodup) {i : Nat} (hi : i ∈ L) (c : Nat) :
    (L.map (fun j => if j = i then c else 0)).sum = c := by
  induction L with
  | nil => cases hi
  | cons a L ih =>
    have hn' := List.nodup_cons.1 hn
    simp only [List.map_cons, List.sum_cons]
    by_cases ha : a = i
    · subst ha
      rw [if_pos rfl]
      have : (L.map (fun j => if j = a then c else 0)).sum = 0 := by
        rw [sum_congr (g := fun _ => 0) (fun j hj => if_neg (fun (e : j = a) => hn'.1 (e ▸ hj)))]
        exact sum_none L
      omega
    · rw [if_neg ha, ih hn'.2 (by rcases List.mem_cons.1 hi with h | h; exact absurd h.symm ha; exact h)]
      omega

theorem sum34 {i : Nat} (hi : i < 34) (c : Nat) : ((List.range 34).map (fun j => if j = i then c else 0)).sum = c :=
  sum_at List.nodup_range (List.mem_range.2 hi) c

/-! ### From sets and a pair to a decomposition -/

theorem lacking_cons (b : Block) (T : List Block) (a : Nat → Nat) :
    lacking (b :: T) a = ((List.range 34).map (fun j => b.uses j - a j)).sum + lacking T (fun j => a j - b.uses j) := by
  unfold lacking
  rw [← sum_add]
  apply sum_congr
  intro j _
  rw [used_cons]
  dsimp only
  omega

/-- what the hand has of a set -/
theorem part_of {b : Block} (hv : b.valid = true) (hs : b.isSet = true) (a : Nat → Nat) :
    ∃ P : List Block, (∀ c ∈ P, c.valid = true) ∧ (∀ j, used P j ≤ b.uses j ∧ used P j ≤ a j) ∧
      2 ≤ ((List.range 34).map (fun j => b.uses j - a j)).sum + 2 * sets P + taatsus P + toitsus P ∧
      sets P + taatsus P + toitsus P ≤ 1 := by
  rcases b with i | i | i | ⟨i, w⟩ | ⟨i, m⟩ <;> simp [Block.isSet] at hs
  · simp only [Block.valid, decide_eq_true_eq] at hv
    have e : ((List.range 34).map (fun j => (Block.koutsu i).uses j - a j)).sum = 3 - a i := by
      rw [← sum34 hv (3 - a i)]
      apply sum_congr
      intro j _
      simp only [Block.uses]
      split
      · next h => rw [h]
      · omega
    rw [e]
    by_cases h3 : 3 ≤ a i
    · refine ⟨[.koutsu i], by simpa [Block.valid] using hv, fun j => ?_, ?_, Nat.le_refl 1⟩
      · simp only [used_cons, used_nil, Block.uses]
        split
        · next h => rw [h]; omega
        · omega
      · have : sets [.koutsu i] = 1 := rfl
        omega
    · by_cases h2 : 2 ≤ a i
      · refine ⟨[.toitsu i], by simpa [Block.valid] using hv, fun j => ?_, ?_, Nat.le_refl 1⟩
        · simp only [used_cons, used_nil, Block.uses]
          split
          · next h => rw [h]; omega
          · omega
        · have : toitsus [.toitsu i] = 1 := rfl
          omega
      · exact ⟨[], by simp, fun j => ⟨Nat.zero_le _, Nat.zero_le _⟩, by omega, by decide⟩
  · simp only [Block.valid, decide_eq_true_eq] at hv
    have e : ((List.range 34).map (fun j => (Block.shuntsu i).uses j - a j)).sum =
        (1 - a i) + (1 - a (i + 1)) + (1 - a (i + 2)) := by
      rw [← sum34 (show i < 34 by omega) (1 - a i), ← sum34 (show i + 1 < 34 by omega) (1 - a (i + 1)),
        ← sum34 (show i + 2 < 34 by omega) (1 - a (i + 2)), ← sum_add, ← sum_add]
      apply sum_congr
      intro j _
      simp only [Block.uses]
      by_cases h0 : j = i
      · subst h0; simp
      · by_cases h1 : j = i + 1
        · subst h1; simp
        · by_cases h2 : j = i + 2
          · subst h2; simp
          · simp [h0, h1, h2]
    rw [e]
    have mk : ∀ c : Block, c.valid = true → (∀ j, c.uses j ≤ (Block.shuntsu i).uses j ∧ c.uses j ≤ a j) →
        2 ≤ (1 - a i) + (1 - a (i + 1)) + (1 - a (i + 2)) + 2 * sets [c] + taatsus [c] + toitsus [c] →
        sets [c] + taatsus [c] + toitsus [c] ≤ 1 →
        ∃ P : List Block, (∀ c ∈ P, c.valid = true) ∧
          (∀ j, used P j ≤ (Block.shuntsu i).uses j ∧ used P j ≤ a j) ∧
          2 ≤ (1 - a i) + (1 - a (i + 1)) + (1 - a (i + 2)) + 2 * sets P + taatsus P + toitsus P ∧
          sets P + taatsus P + toitsus P ≤ 1 := by
      intro c h1 h2 h3 h4
      refine ⟨[c], by simpa using h1, fun j => ?_, h3, h4⟩
      rw [used_cons, used_nil]
      exact h2 j
    have case1 : ∀ j, j = i ∨ j = i + 1 ∨ j = i + 2 ∨ (j ≠ i ∧ j ≠ i + 1 ∧ j ≠ i + 2) := by intro j; omega
    by_cases h0 : 1 ≤ a i
    · by_cases h1 : 1 ≤ a (i + 1)
      · by_cases h2 : 1 ≤ a (i + 2)
        · refine mk (.shuntsu i) (by simp [Block.valid]; omega) (fun j => ⟨Nat.le_refl _, ?_⟩) ?_ (Nat.le_refl 1)
          · rcases case1 j with e | e | e | e <;> first | (rw [e]; simp only [Block.uses]; (repeat' split) <;> omega) | (simp only [Block.uses]; (repeat' split) <;> omega)
          · have : sets [.shuntsu i] = 1 := rfl
            omega
        · refine mk (.taatsu i 2) (by simp [Block.valid]; omega) (fun j => ⟨?_, ?_⟩) ?_ (Nat.le_refl 1)
          · rcases case1 j with e | e | e | e <;> first | (rw [e]; simp only [Block.uses]; (repeat' split) <;> omega) | (simp only [Block.uses]; (repeat' split) <;> omega)
          · rcases case1 j with e | e | e | e <;> first | (rw [e]; simp only [Block.uses]; (repeat' split) <;> omega) | (simp only [Block.uses]; (repeat' split) <;> omega)
          · have : taatsus [.taatsu i 2] = 1 := rfl
            omega
      · by_cases h2 : 1 ≤ a (i + 2)
        · refine mk (.taatsu i 1) (by simp [Block.valid]; omega) (fun j => ⟨?_, ?_⟩) ?_ (Nat.le_refl 1)
          · rcases case1 j with e | e | e | e <;> first | (rw [e]; simp only [Block.uses]; (repeat' split) <;> omega) | (simp only [Block.uses]; (repeat' split) <;> omega)
          · rcases case1 j with e | e | e | e <;> first | (rw [e]; simp only [Block.uses]; (repeat' split) <;> omega) | (simp only [Block.uses]; (repeat' split) <;> omega)
          · have : taatsus [.taatsu i 1] = 1 := rfl
            omega
        · exact ⟨[], by simp, fun j => ⟨Nat.zero_le _, Nat.zero_le _⟩, by omega, by decide⟩
    · by_cases h12 : 1 ≤ a (i + 1) ∧ 1 ≤ a (i + 2)
      · refine mk (.taatsu (i + 1) 2) (by simp [Block.valid]; omega) (fun j => ⟨?_, ?_⟩) ?_ (Nat.le_refl 1)
        · rcases case1 j with e | e | e | e <;> first | (rw [e]; simp only [Block.uses]; (repeat' split) <;> omega) | (simp only [Block.uses]; (repeat' split) <;> omega)
        · rcases case1 j with e | e | e | e <;> first | (rw [e]; simp only [Block.uses]; (repeat' split) <;> omega) | (simp only [Block.uses]; (repeat' split) <;> omega)
        · have : taatsus [.taatsu (i + 1) 2] = 1 := rfl
          omega
      · exact ⟨[], by simp, fun j => ⟨Nat.zero_le _, Nat.zero_le _⟩, by omega, by decide⟩

theorem parts_of : ∀ (T : List Block), (∀ b ∈ T, b.valid = true ∧ b.isSet = true) → ∀ a : Nat → Nat,
    ∃ P : List Block, (∀ c ∈ P, c.valid = true) ∧ (∀ j, used P j ≤ used T j ∧ used P j ≤ a j) ∧
      2 * T.length ≤ lacking T a + 2 * sets P + taatsus P + toitsus P ∧
      sets P + taatsus P + toitsus P ≤ T.length := by
  intro T
  induction T with
  | nil =>
    intro _ a
    exact ⟨[], by simp, fun j => ⟨Nat.le_refl _, Nat.zero_le _⟩, Nat.zero_le _, Nat.le_refl _⟩
  | cons b T ih =>
    intro hT a
    obtain ⟨hv, hs⟩ := hT b (by simp)
    obtain ⟨P, p1, p2, p3, p4⟩ := part_of hv hs a
    obtain ⟨Q, q1, q2, q3, q4⟩ := ih (fun c hc => hT c (by simp [hc])) (fun j => a j - b.uses j)
    obtain ⟨c1, c2, c3, -⟩ := counts_append P Q
    refine ⟨P ++ Q, fun c hc => ?_, fun j => ?_, ?_, ?_⟩
    · rcases List.mem_append.1 hc with h | h
      · exact p1 c h
      · exact q1 c h
    · have := p2 j
      have := q2 j
      rw [used_append, used_cons]
      omega
    · rw [lacking_cons, c1, c2, c3, List.length_cons]
      omega
    · rw [c1, c2, c3, List.length_cons]
      omega

/-- the sets and the pair that the hand is to become give a decomposition whose distance is smaller than the number
of tiles that are lacking -/
theorem distance_of_lacks {k : Nat} {h : Nat → Nat} {n : Nat} (hl : Lacks k h n) :
    ∃ A : List Block, (∀ b ∈ A, b.valid = true) ∧ (∀ j, used A j ≤ h j) ∧
      distance (4 - (k : Int) + sets A) (taatsus A) (toitsus A) false + 1 ≤ n := by
  obtain ⟨B, q, hB, hk, hq, rfl⟩ := hl
  have eq : ((List.range 34).map (fun j => (Block.toitsu q).uses j - h j)).sum = 2 - h q := by
    rw [← sum34 hq (2 - h q)]
    apply sum_congr
    intro j _
    simp only [Block.uses]
    split
    · next e => rw [e]
    · omega
  rw [lacking_cons, eq]
  obtain ⟨P, p1, p2, p3, p4⟩ := parts_of B hB (fun j => h j - (Block.toitsu q).uses j)
  by_cases h2 : 2 ≤ h q
  · obtain ⟨c1, c2, c3, -⟩ := counts_append [.toitsu q] P
    have t1 : sets [.toitsu q] = 0 := rfl
    have t2 : taatsus [.toitsu q] = 0 := rfl
    have t3 : toitsus [.toitsu q] = 1 := rfl
    refine ⟨[.toitsu q] ++ P, fun b hb => ?_, fun j => ?_, ?_⟩
    · rcases List.mem_append.1 hb with e | e
      · rw [List.mem_singleton.1 e]
        simpa [Block.valid] using hq
      · exact p1 b e
    · have := (p2 j).2
      rw [used_append, used_cons, used_nil]
      have : (Block.toitsu q).uses j ≤ h j := by
        simp only [Block.uses]
        split
        · next e => rw [e]; exact h2
        · exact Nat.zero_le _
      omega
    · rw [c1, c2, c3, t1, t2, t3]
      unfold distance
      simp only [Bool.false_eq_true, false_and, if_false]
      omega
  · refine ⟨P, p1, fun j => ?_, ?_⟩
    · have := (p2 j).2
      omega
    · unfold distance
      simp only [Bool.false_eq_true, false_and, if_false]
      omega

/-! ### From a decomposition to sets and a pair -/

/-- the number of tiles of the blocks -/
def weight (B : List Block) : Nat := ((List.range 34).map (used B)).sum

theorem weight_eq {B : List Block} (hv : ∀ b ∈ B, b.valid = true) :
    weight B = 3 * sets B + 2 * (taatsus B + toitsus B) + singles B := blocks_weight hv

/-- every block is part of a set -/
theorem completes {b : Block} (hv : b.valid = true) :
    ∃ s : Block, s.valid = true ∧ s.isSet = true ∧ ∀ j, b.uses j ≤ s.uses j := by
  rcases b with i | i | i | ⟨i, w⟩ | ⟨i, m⟩
  · exact ⟨.koutsu i, hv, rfl, fun _ => Nat.le_refl _⟩
  · exact ⟨.shuntsu i, hv, rfl, fun _ => Nat.le_refl _⟩
  · refine ⟨.koutsu i, hv, rfl, fun j => ?_⟩
    simp only [Block.uses]
    split <;> omega
  · obtain ⟨x, s, -, h1, h2⟩ := taatsu_completes hv
    exact ⟨.shuntsu s, h1, rfl, fun j => by rw [h2 j]; omega⟩
  · refine ⟨.koutsu i, hv, rfl, fun j => ?_⟩
    simp only [Block.uses]
    split <;> omega

theorem complete_all : ∀ (C : List Block), (∀ b ∈ C, b.valid = true) →
    ∃ T : List Block, (∀ b ∈ T, b.valid = true ∧ b.isSet = true) ∧ T.length = C.length ∧
      ∀ j, used C j ≤ used T j := by
  intro C
  induction C with
  | nil => intro _; exact ⟨[], by simp, rfl, fun _ => Nat.le_refl _⟩
  | cons b C ih =>
    intro hC
    obtain ⟨s, s1, s2, s3⟩ := completes (hC b (by simp))
    obtain ⟨T, t1, t2, t3⟩ := ih (fun c hc => hC c (by simp [hc]))
    refine ⟨s :: T, cons_set ⟨s1, s2⟩ t1, by rw [List.length_cons, List.length_cons, t2], fun j => ?_⟩
    rw [used_cons, used_cons]
    exact Nat.add_le_add (s3 j) (t3 j)

theorem sets_only {T : List Block} (hT : ∀ b ∈ T, b.valid = true ∧ b.isSet = true) : weight T = 3 * T.length := by
  rw [weight_eq (fun b hb => (hT b hb).1)]
  have h1 : sets T = T.length := List.countP_eq_length.2 (fun b hb => (hT b hb).2)
  have h2 : taatsus T = 0 := List.countP_eq_zero.2 (fun b hb => by
    have := (hT b hb).2
    cases b <;> simp_all [Block.isSet, Block.isTaatsu])
  have h3 : toitsus T = 0 := List.countP_eq_zero.2 (fun b hb => by
    have := (hT b hb).2
    cases b <;> simp_all [Block.isSet, Block.isToitsu])
  have h4 : singles T = 0 := List.countP_eq_zero.2 (fun b hb => by
    have := (hT b hb).2
    cases b <;> simp_all [Block.isSet, Block.isSingle])
  omega

/-- blocks of the hand, one of them a single tile or a pair, are completed to sets and a pair -/
theorem lacks_of_blocks {k : Nat} {h : Nat → Nat} {q : Nat} {hd : Block} {C : List Block} (hq : q < 34)
    (hhd : ∀ j, hd.uses j ≤ (Block.toitsu q).uses j) (hC : ∀ b ∈ C, b.valid = true) (hk : C.length = k)
    (hu : ∀ j < 34, used (hd :: C) j ≤ h j) : ∃ n, Lacks k h n ∧ n + weight (hd :: C) ≤ 3 * k + 2 := by
  obtain ⟨T, t1, t2, t3⟩ := complete_all C hC
  refine ⟨_, ⟨T, q, t1, by rw [t2, hk], hq, rfl⟩, ?_⟩
  have h1 : lacking (.toitsu q :: T) h ≤
      ((List.range 34).map (fun j => used (.toitsu q :: T) j - used (hd :: C) j)).sum := by
    unfold lacking
    apply sum_le
    intro j hj
    have := hu j (List.mem_range.1 hj)
    omega
  have h2 : ((List.range 34).map (fun j => used (.toitsu q :: T) j - used (hd :: C) j)).sum + weight (hd :: C) =
      weight (.toitsu q :: T) := by
    unfold weight
    rw [← sum_add]
    apply sum_congr
    intro j _
    have a := hhd j
    have b := t3 j
    rw [used_cons, used_cons]
    omega
  have h3 : weight (.toitsu q :: T) = 2 + 3 * k := by
    have e : weight (.toitsu q :: T) = ((List.range 34).map (fun j => if j = q then 2 else 0)).sum + weight T := by
      unfold weight
      rw [← sum_add]
      apply sum_congr
      intro j _
      rw [used_cons]
      rfl
    rw [e, sum34 hq, sets_only t1, t2, hk]
  omega

theorem used_sublist {A B : List Block} (h : A.Sublist B) (j : Nat) : used A j ≤ used B j := by
  induction h with
  | slnil => exact Nat.le_refl _
  | cons b _ ih => rw [used_cons]; omega
  | cons_cons b _ ih => rw [used_cons, used_cons]; omega

/-- the blocks by their kinds -/
theorem parts (D : List Block) (j : Nat) : used D j = used (D.filter Block.isSet) j +
    used (D.filter Block.isTaatsu) j + used (D.filter Block.isToitsu) j + used (D.filter Block.isSingle) j := by
  induction D with
  | nil => rfl
  | cons b D ih =>
    rw [used_cons, ih]
    cases b <;> simp only [List.filter_cons, Block.isSet, Block.isTaatsu, Block.isToitsu, Block.isSingle,
      Bool.false_eq_true, if_false, if_true, used_cons] <;> omega

theorem isTaatsu_of {b : Block} (h : b.isTaatsu = true) : ∃ i w, b = .taatsu i w := by
  cases b <;> simp_all [Block.isTaatsu]

theorem isToitsu_of {b : Block} (h : b.isToitsu = true) : ∃ i, b = .toitsu i := by
  cases b <;> simp_all [Block.isToitsu]

theorem isSingle_of {b : Block} (h : b.isSingle = true) : ∃ i m, b = .single i m := by
  cases b <;> simp_all [Block.isSingle]

theorem weight_cons (b : Block) (C : List Block) : weight (b :: C) = weight [b] + weight C := by
  unfold weight
  rw [← sum_add]
  apply sum_congr
  intro j _
  rw [used_cons, used_cons, used_nil]
  omega

theorem weight_append (A B : List Block) : weight (A ++ B) = weight A + weight B := by
  unfold weight
  rw [← sum_add]
  apply sum_congr
  intro j _
  rw [used_append]

theorem weight_two {L : List Block} (hv : ∀ b ∈ L, b.valid = true)
    (h : ∀ b ∈ L, b.isTaatsu = true ∨ b.isToitsu = true) : weight L = 2 * L.length := by
  induction L with
  | nil => decide
  | cons b L ih =>
    rw [weight_cons, ih (fun c hc => hv c (by simp [hc])) (fun c hc => h c (by simp [hc])),
      weight_eq (by simpa using hv b (by simp)), List.length_cons]
    rcases h b (by simp) with e | e
    · obtain ⟨i, w, rfl⟩ := isTaatsu_of e
      show 3 * 0 + 2 * (1 + 0) + 0 + _ = _
      omega
    · obtain ⟨i, rfl⟩ := isToitsu_of e
      show 3 * 0 + 2 * (0 + 1) + 0 + _ = _
      omega

theorem weight_one {L : List Block} (hv : ∀ b ∈ L, b.valid = true) (h : ∀ b ∈ L, b.isSingle = true) :
    weight L = L.length := by
  induction L with
  | nil => decide
  | cons b L ih =>
    rw [weight_cons, ih (fun c hc => hv c (by simp [hc])) (fun c hc => h c (by simp [hc])),
      weight_eq (by simpa using hv b (by simp)), List.length_cons]
    obtain ⟨i, m, rfl⟩ := isSingle_of (h b (by simp))
    show 3 * 0 + 2 * (0 + 0) + 1 + _ = _
    omega

/-- a decomposition of the whole hand gives sets and a pair that lack at most one tile more than its distance -/
theorem lacks_of_whole {k : Nat} {h : Nat → Nat} {D : List Block} (hv : ∀ b ∈ D, b.valid = true)
    (hu : ∀ j < 34, used D j ≤ h j) (hw : weight D = 3 * k + 1 ∨ weight D = 3 * k + 2) :
    ∃ n, Lacks k h n ∧ (n : Int) ≤ distance (4 - (k : Int) + sets D) (taatsus D) (toitsus D) false + 1 := by
  have hw' := weight_eq hv
  have hparts := parts D
  have lm : (D.filter Block.isSet).length = sets D := List.countP_eq_length_filter.symm
  have lt : (D.filter Block.isTaatsu).length = taatsus D := List.countP_eq_length_filter.symm
  have lp : (D.filter Block.isToitsu).length = toitsus D := List.countP_eq_length_filter.symm
  have ls : (D.filter Block.isSingle).length = singles D := List.countP_eq_length_filter.symm
  have vm : ∀ b ∈ D.filter Block.isSet, b.valid = true ∧ b.isSet = true := fun b hb =>
    ⟨hv b (List.mem_filter.1 hb).1, (List.mem_filter.1 hb).2⟩
  have vt : ∀ b ∈ D.filter Block.isTaatsu, b.valid = true ∧ b.isTaatsu = true := fun b hb =>
    ⟨hv b (List.mem_filter.1 hb).1, (List.mem_filter.1 hb).2⟩
  have vp : ∀ b ∈ D.filter Block.isToitsu, b.valid = true ∧ b.isToitsu = true := fun b hb =>
    ⟨hv b (List.mem_filter.1 hb).1, (List.mem_filter.1 hb).2⟩
  have vs : ∀ b ∈ D.filter Block.isSingle, b.valid = true ∧ b.isSingle = true := fun b hb =>
    ⟨hv b (List.mem_filter.1 hb).1, (List.mem_filter.1 hb).2⟩
  generalize D.filter Block.isSet = F3 at *
  generalize D.filter Block.isTaatsu = F2 at *
  generalize D.filter Block.isToitsu = FP at *
  generalize D.filter Block.isSingle = F1 at *
  have hu' : ∀ j < 34, used F3 j + used F2 j + used FP j + used F1 j ≤ h j := fun j hj => by
    rw [← hparts j]; exact hu j hj
  rw [← lm, ← lt, ← lp]
  rw [hw', ← lm, ← lt, ← lp, ← ls] at hw
  clear hw' hparts hu lm lt lp ls hv
  have w3 : weight F3 = 3 * F3.length := sets_only vm
  obtain ⟨g, hg⟩ : ∃ g, k = F3.length + g := ⟨k - F3.length, by omega⟩
  cases FP with
  | cons b P =>
    obtain ⟨q, rfl⟩ := isToitsu_of (vp b (by simp)).2
    have hq : q < 34 := by simpa [Block.valid] using (vp _ (List.mem_cons_self)).1
    -- partial sets
    have hpool : ∀ c ∈ F2 ++ P, c.valid = true ∧ (c.isTaatsu = true ∨ c.isToitsu = true) := by
      intro c hc
      rcases List.mem_append.1 hc with e | e
      · exact ⟨(vt c e).1, .inl (vt c e).2⟩
      · exact ⟨(vp c (by simp [e])).1, .inr (vp c (by simp [e])).2⟩
    have hlen : (F2 ++ P).length = F2.length + P.length := List.length_append
    have hused : ∀ j, used (F2 ++ P) j = used F2 j + used P j := used_append F2 P
    generalize F2 ++ P = pool at hpool hlen hused
    have s1 := fun j => used_sublist (List.take_sublist g pool) j
    have s2 := fun j => used_sublist (List.take_sublist (g - pool.length) F1) j
    have m1 : ∀ c ∈ pool.take g, c ∈ pool := fun c hc => List.mem_of_mem_take hc
    have m2 : ∀ c ∈ F1.take (g - pool.length), c ∈ F1 := fun c hc => List.mem_of_mem_take hc
    have l1 : (pool.take g).length = min g pool.length := List.length_take
    have l2 : (F1.take (g - pool.length)).length = min (g - pool.length) F1.length := List.length_take
    have w1 := weight_two (fun c hc => (hpool c (m1 c hc)).1) (fun c hc => (hpool c (m1 c hc)).2)
    have w2 := weight_one (fun c hc => (vs c (m2 c hc)).1) (fun c hc => (vs c (m2 c hc)).2)
    generalize pool.take g = X at *
    generalize F1.take (g - pool.length) = Y at *
    simp only [List.length_cons] at hw ⊢
    obtain ⟨n, n1, n2⟩ := lacks_of_blocks (k := k) (h := h) (q := q) (hd := .toitsu q) (C := F3 ++ (X ++ Y)) hq
      (fun _ => Nat.le_refl _) (fun c hc => by
        rcases List.mem_append.1 hc with e | e
        · exact (vm c e).1
        · rcases List.mem_append.1 e with e | e
          · exact (hpool c (m1 c e)).1
          · exact (vs c (m2 c e)).1)
      (by rw [List.length_append, List.length_append, l1, l2]; omega)
      (fun j hj => by
        have a := hu' j hj
        have b := s1 j
        have c := s2 j
        have d := hused j
        rw [used_cons] at a ⊢
        rw [used_append, used_append]
        omega)
    refine ⟨n, n1, ?_⟩
    have wq : weight [.toitsu q] = 2 := by
      rw [weight_two (by simpa [Block.valid] using hq) (by simp [Block.isToitsu])]
      rfl
    rw [weight_cons, wq, weight_append, weight_append, w1, w2, w3, l1, l2] at n2
    unfold distance
    simp only [Bool.false_eq_true, false_and, if_false]
    omega
  | nil =>
    simp only [List.length_nil, Nat.add_zero] at hw
    -- the head: a single tile that is not used otherwise
    have finish : ∀ (q : Nat) (hd : Block) (X Y : List Block), q < 34 → hd.valid = true →
        (∀ j, hd.uses j ≤ (Block.toitsu q).uses j) → weight [hd] = 1 →
        (∀ c ∈ X, c ∈ F2) → (∀ c ∈ Y, c ∈ F1) → X.length = min g F2.length → Y.length = g - F2.length →
        (∀ j, hd.uses j + used X j + used Y j ≤ used F2 j + used F1 j) →
        ∃ n, Lacks k h n ∧ (n : Int) ≤ distance (4 - (k : Int) + F3.length) F2.length ([] : List Block).length false + 1 := by
      intro q hd X Y hq hv hle hw1 hX hY lX lY hus
      obtain ⟨n, n1, n2⟩ := lacks_of_blocks (k := k) (h := h) (q := q) (hd := hd) (C := F3 ++ (X ++ Y)) hq hle
        (fun c hc => by
          rcases List.mem_append.1 hc with e | e
          · exact (vm c e).1
          · rcases List.mem_append.1 e with e | e
            · exact (vt c (hX c e)).1
            · exact (vs c (hY c e)).1)
        (by rw [List.length_append, List.length_append, lX, lY]; omega)
        (fun j hj => by
          have a := hu' j hj
          have b := hus j
          rw [used_nil] at a
          rw [used_cons, used_append, used_append]
          omega)
      refine ⟨n, n1, ?_⟩
      have w1 := weight_two (fun c hc => (vt c (hX c hc)).1) (fun c hc => .inl (vt c (hX c hc)).2)
      have w2 := weight_one (fun c hc => (vs c (hY c hc)).1) (fun c hc => (vs c (hY c hc)).2)
      rw [weight_cons, hw1, weight_append, weight_append, w1, w2, w3, lX, lY] at n2
      unfold distance
      simp only [Bool.false_eq_true, false_and, if_false, List.length_nil]
      omega
    cases F1 with
    | cons b R =>
      obtain ⟨i, m, rfl⟩ := isSingle_of (vs b (by simp)).2
      have hvb := (vs _ (List.mem_cons_self (l := R))).1
      have hi : i < 34 := by simpa [Block.valid] using hvb
      simp only [List.length_cons] at hw
      refine finish i (.single i m) (F2.take g) (R.take (g - F2.length)) hi hvb (fun j => ?_) ?_
        (fun c hc => List.mem_of_mem_take hc) (fun c hc => List.mem_cons_of_mem _ (List.mem_of_mem_take hc))
        List.length_take (by rw [List.length_take]; omega) (fun j => ?_)
      · simp only [Block.uses]
        split <;> omega
      · rw [weight_one (by simpa using hvb) (by simp [Block.isSingle])]
        rfl
      · have a := used_sublist (List.take_sublist g F2) j
        have b := used_sublist (List.take_sublist (g - F2.length) R) j
        rw [used_cons]
        omega
    | nil =>
      simp only [List.length_nil, Nat.add_zero] at hw
      have hgt : g < F2.length := by omega
      obtain ⟨b, R, hR⟩ : ∃ b R, F2.drop g = b :: R := by
        cases e : F2.drop g with
        | nil => rw [List.drop_eq_nil_iff] at e; omega
        | cons b R => exact ⟨b, R, rfl⟩
      have hb : b ∈ F2 := List.mem_of_mem_drop (hR ▸ List.mem_cons_self)
      obtain ⟨i, w, rfl⟩ := isTaatsu_of (vt b hb).2
      have hvb := (vt _ hb).1
      simp only [Block.valid, decide_eq_true_eq] at hvb
      refine finish i (.single i false) (F2.take g) [] (by omega) (by simp [Block.valid]; omega) (fun j => ?_) ?_
        (fun c hc => List.mem_of_mem_take hc) (fun c hc => hc) List.length_take (by simp; omega) (fun j => ?_)
      · simp only [Block.uses]
        split <;> omega
      · rw [weight_one (by simp [Block.valid]; omega) (by simp [Block.isSingle])]
        rfl
      · have e : used F2 j = used (F2.take g) j + used (F2.drop g) j := by
          rw [← used_append, List.take_append_drop]
        rw [e, hR, used_cons, used_nil]
        have : (Block.single i false).uses j ≤ (Block.taatsu i w).uses j := by
          simp only [Block.uses]
          (repeat' split) <;> omega
        omega

/-! ### Draws and exchanges -/

theorem lacks_some (k : Nat) (h : Nat → Nat) : ∃ n, Lacks k h n :=
  ⟨_, List.replicate k (.koutsu 0), 0, fun b hb => by rw [(List.mem_replicate.1 hb).2]; decide, List.length_replicate,
    by decide, rfl⟩

theorem least {p : Nat → Prop} : ∀ n, p n → ∃ m, p m ∧ ∀ m', p m' → m ≤ m' := by
  intro n
  induction n using Nat.strongRecOn with
  | ind n ih =>
    intro hn
    by_cases h : ∃ m < n, p m
    · obtain ⟨m, hm, hp⟩ := h
      exact ih m hm hp
    · refine ⟨n, hn, fun m' hm' => ?_⟩
      by_cases hlt : m' < n
      · exact absurd ⟨m', hlt, hm'⟩ h
      · omega

theorem fewest_exists (k : Nat) (h : Nat → Nat) : ∃ n, Fewest k h n := by
  obtain ⟨n, hn⟩ := lacks_some k h
  exact least n hn

theorem fewest_unique {k : Nat} {h : Nat → Nat} {n m : Nat} (a : Fewest k h n) (b : Fewest k h m) : n = m :=
  Nat.le_antisymm (a.2 m b.1) (b.2 n a.1)

theorem lacking_mono {B : List Block} {h h' : Nat → Nat} (hle : ∀ j, h j ≤ h' j) : lacking B h' ≤ lacking B h :=
  sum_le (fun j _ => by have := hle j; omega)

theorem lacking_draw (B : List Block) (h : Nat → Nat) {x : Nat} (hx : x < 34) :
    lacking B h ≤ lacking B (draw h x) + 1 := by
  unfold lacking
  rw [← sum34 hx 1, ← sum_add]
  apply sum_le
  intro j _
  unfold draw
  split <;> omega

theorem lacking_draw_eq {B : List Block} {h : Nat → Nat} {x : Nat} (hx : x < 34) (hl : h x < used B x) :
    lacking B h = lacking B (draw h x) + 1 := by
  unfold lacking
  rw [← sum34 hx 1, ← sum_add]
  apply sum_congr
  intro j _
  unfold draw
  split
  · next e => subst e; omega
  · omega

theorem exists_lacking {B : List Block} {h : Nat → Nat} (hl : 0 < lacking B h) : ∃ x < 34, h x < used B x := by
  by_cases hex : ∃ x < 34, h x < used B x
  · exact hex
  · exfalso
    have : lacking B h = 0 := by
      unfold lacking
      rw [sum_congr (g := fun _ => 0) (fun j hj => by
        have : ¬ h j < used B j := fun hh => hex ⟨j, List.mem_range.1 hj, hh⟩
        omega)]
      exact sum_none _
    omega

/-- the number of tiles of a hand -/
def total (h : Nat → Nat) : Nat := ((List.range 34).map h).sum

theorem exists_surplus {B : List Block} {h : Nat → Nat} (ht : weight B = total h) (hl : 0 < lacking B h) :
    ∃ y < 34, used B y < h y := by
  by_cases hex : ∃ y < 34, used B y < h y
  · exact hex
  · exfalso
    have e : lacking B h + total h = weight B := by
      unfold lacking total weight
      rw [← sum_add]
      apply sum_congr
      intro j hj
      have : ¬ used B j < h j := fun hh => hex ⟨j, List.mem_range.1 hj, hh⟩
      omega
    omega

theorem total_exchange {h : Nat → Nat} {x y : Nat} (hx : x < 34) (hy : y < 34) (hh : 0 < h y) :
    total (draw (drop h y) x) = total h := by
  have e : total (draw (drop h y) x) + 1 = total h + 1 := by
    unfold total
    conv => lhs; rw [← sum34 hy 1]
    conv => rhs; rw [← sum34 hx 1]
    rw [← sum_add, ← sum_add]
    apply sum_congr
    intro j _
    unfold draw drop
    by_cases h1 : j = y
    · subst h1
      simp
      omega
    · simp [h1]
  omega

theorem exchanged_total {n : Nat} {h h' : Nat → Nat} (he : Exchanged n h h') : total h' = total h := by
  induction he with
  | none h => rfl
  | one x y hx hy hh _ ih => rw [ih, total_exchange hx hy hh]

/-- an exchange brings at most one of the tiles that are lacking -/
theorem exchanged_lacking (B : List Block) {n : Nat} {h h' : Nat → Nat} (he : Exchanged n h h') :
    lacking B h ≤ lacking B h' + n := by
  induction he with
  | none h => exact Nat.le_add_right _ 0
  | @one n h h' x y hx hy hh _ ih =>
    have h1 : lacking B h ≤ lacking B (drop h y) := lacking_mono (fun j => by unfold drop; omega)
    have h2 := lacking_draw B (drop h y) hx
    omega

/-- a hand becomes the sets and the pair by exchanging as many tiles as it lacks -/
theorem exchange_all {B : List Block} : ∀ (n : Nat) (h : Nat → Nat), weight B = total h → lacking B h = n →
    ∃ h', Exchanged n h h' ∧ ∀ j < 34, h' j = used B j := by
  intro n
  induction n with
  | zero =>
    intro h ht hl
    refine ⟨h, .none h, ?_⟩
    have hle : ∀ j < 34, used B j ≤ h j := by
      intro j hj
      by_cases hlt : h j < used B j
      · have := lacking_draw_eq hj hlt
        omega
      · omega
    intro j hj
    by_cases hlt : used B j < h j
    · exfalso
      have e : weight B + 1 ≤ total h := by
        unfold weight total
        rw [← sum34 hj 1, ← sum_add]
        apply sum_le
        intro i hi
        have := hle i (List.mem_range.1 hi)
        split
        · next e => subst e; omega
        · omega
      omega
    · have := hle j hj
      omega
  | succ n ih =>
    intro h ht hl
    obtain ⟨x, hx, hx'⟩ := exists_lacking (B := B) (h := h) (by omega)
    obtain ⟨y, hy, hy'⟩ := exists_surplus ht (by omega)
    have hne : x ≠ y := fun e => by subst e; omega
    have h1 : lacking B (drop h y) = lacking B h := by
      apply sum_congr
      intro j _
      unfold drop
      split
      · next e => subst e; omega
      · omega
    have h2 : lacking B (drop h y) = lacking B (draw (drop h y) x) + 1 := by
      apply lacking_draw_eq hx
      unfold drop
      rw [if_neg hne]
      exact hx'
    have ht' := total_exchange (h := h) hx hy (by omega)
    obtain ⟨h', e1, e2⟩ := ih (draw (drop h y) x) (by rw [ht', ht]) (by omega)
    exact ⟨h', .one x y hx hy (by omega) e1, e2⟩

end Lack

open Lack

/-- the hand as a number for each kind -/
def Spec.Lack.kinds (h : List Int) (j : Nat) : Nat := (at37 h j).toNat

theorem Lack.total_kinds {h : List Int} (hl : LegalHand h) : (total (kinds h) : Int) = h.sum := by
  rw [sum_legal hl]
  unfold total tiles kinds
  generalize List.range 34 = L
  induction L with
  | nil => rfl
  | cons a L ih =>
    simp only [List.map_cons, List.sum_cons]
    have := (hl.range a).1
    omega

/-- a decomposition of the hand gives sets and a pair that lack at most one tile more than its distance -/
theorem Lack.lacks_of_decomposition {h : List Int} (hl : LegalHand h) {k : Nat}
    (hs : h.sum = 3 * k + 1 ∨ h.sum = 3 * k + 2) {A : List Block} (hv : ∀ b ∈ A, b.valid = true)
    (hA : ∀ j, j < 34 → (used A j : Int) ≤ at37 h j) :
    ∃ n, Lacks k (kinds h) n ∧ (n : Int) ≤ distance (4 - (k : Int) + sets A) (taatsus A) (toitsus A) false + 1 := by
  let f : Nat → Nat := fun j => kinds h j - used A j
  obtain ⟨c1, c2, c3, -⟩ := counts_append A (loners f (List.range 34))
  obtain ⟨d1, d2, d3⟩ := loners_counts f (List.range 34)
  have hle : ∀ j < 34, used A j ≤ kinds h j := by
    intro j hj
    have := hA j hj
    unfold kinds
    omega
  have hu : ∀ j < 34, used (A ++ loners f (List.range 34)) j = kinds h j := by
    intro j hj
    rw [used_append, used_loners f List.nodup_range, if_pos (List.mem_range.2 hj)]
    have := hle j hj
    show used A j + (kinds h j - used A j) = _
    omega
  have hw : weight (A ++ loners f (List.range 34)) = total (kinds h) :=
    sum_congr (fun j hj => hu j (List.mem_range.1 hj))
  have ht := total_kinds hl
  obtain ⟨n, n1, n2⟩ := lacks_of_whole (k := k) (h := kinds h) (D := A ++ loners f (List.range 34))
    (fun b hb => by
      rcases List.mem_append.1 hb with e | e
      · exact hv b e
      · obtain ⟨i, hi, rfl⟩ := loners_mem e
        simpa [Block.valid] using hi)
    (fun j hj => Nat.le_of_eq (hu j hj)) (by rw [hw]; omega)
  rw [c1, c2, c3, d1, d2, d3] at n2
  exact ⟨n, n1, n2⟩

/-- C160: the smallest distance of a decomposition is one less than the number of tiles that the hand lacks. -/
theorem C160_smallest {h : List Int} (hl : LegalHand h) {k : Nat} (hs : h.sum = 3 * k + 1 ∨ h.sum = 3 * k + 2)
    (v : Int) : Smallest h v ↔ ∃ n, Fewest k (kinds h) n ∧ v = n - 1 := by
  have hdiv : (14 - h.sum) / 3 = 4 - (k : Int) := by rcases hs with e | e <;> rw [e] <;> omega
  have up : ∀ {n}, Lacks k (kinds h) n → ∃ A : List Block, (∀ b ∈ A, b.valid = true) ∧
      (∀ j, j < 34 → (used A j : Int) ≤ at37 h j) ∧
      distance ((14 - h.sum) / 3 + sets A) (taatsus A) (toitsus A) false + 1 ≤ n := by
    intro n hn
    obtain ⟨A, a1, a2, a3⟩ := distance_of_lacks hn
    refine ⟨A, a1, fun j _ => ?_, by rw [hdiv]; exact a3⟩
    have h1 := a2 j
    have h2 := (hl.range j).1
    unfold kinds at h1
    omega
  constructor
  · rintro ⟨⟨A, a1, a2, a3⟩, hmin⟩
    obtain ⟨n, n1, n2⟩ := lacks_of_decomposition hl hs a1 a2
    rw [← hdiv, a3] at n2
    have low : ∀ n', Lacks k (kinds h) n' → v + 1 ≤ n' := by
      intro n' hn'
      obtain ⟨B, b1, b2, b3⟩ := up hn'
      have := hmin B b1 b2
      omega
    have := low n n1
    refine ⟨n, ⟨n1, fun n' hn' => ?_⟩, by omega⟩
    have := low n' hn'
    omega
  · rintro ⟨n, ⟨n1, n2⟩, rfl⟩
    have low : ∀ A : List Block, (∀ b ∈ A, b.valid = true) → (∀ j, j < 34 → (used A j : Int) ≤ at37 h j) →
        (n : Int) - 1 ≤ distance ((14 - h.sum) / 3 + sets A) (taatsus A) (toitsus A) false := by
      intro A a1 a2
      obtain ⟨m, m1, m2⟩ := lacks_of_decomposition hl hs a1 a2
      rw [← hdiv] at m2
      have := n2 m m1
      omega
    obtain ⟨A, a1, a2, a3⟩ := up n1
    have := low A a1 a2
    exact ⟨⟨A, a1, a2, by omega⟩, low⟩

/-- C160: the value of a hand is one less than the number of tiles it lacks, or equal to this number; if no kind is
held three times beside two of each of the next two, it is one less. -/
theorem C160_value_partial {h : List Int} (hl : LegalHand h) {k : Nat} (hk : k ≤ 4)
    (hs : h.sum = 3 * k + 1 ∨ h.sum = 3 * k + 2) {n : Nat} (hn : Fewest k (kinds h) n) :
    ((n : Int) - 1 ≤ normalValue h ∧ normalValue h ≤ n) ∧ (NoPattern h → normalValue h = n - 1) := by
  have h14 : h.sum ≤ 14 := by omega
  have hsm : Smallest h ((n : Int) - 1) := (C160_smallest hl hs _).2 ⟨n, hn, rfl⟩
  have := C91_within hl h14 hsm
  refine ⟨by omega, fun hp => ?_⟩
  obtain ⟨m, hm, e⟩ := (C160_smallest hl hs _).1 (C91_smallest_partial hl h14 hp)
  rw [e, fewest_unique hm hn]

/-- C160: the number of tiles a hand of 3k+2 tiles lacks is the smallest number of exchanges that complete it. -/
theorem C160_exchanges {k : Nat} {h : Nat → Nat} (ht : ((List.range 34).map h).sum = 3 * k + 2) (n : Nat) :
    Fewest k h n ↔ (∃ h', Exchanged n h h' ∧ Complete k (fun j => h' j)) ∧
      ∀ m h', Exchanged m h h' → Complete k (fun j => h' j) → n ≤ m := by
  have ht : total h = 3 * k + 2 := ht
  have wB : ∀ {B : List Block} {q : Nat}, (∀ b ∈ B, b.valid = true ∧ b.isSet = true) → B.length = k → q < 34 →
      weight (.toitsu q :: B) = 3 * k + 2 := by
    intro B q hB hk hq
    rw [weight_cons, sets_only hB, hk, weight_two (by simpa [Block.valid] using hq) (by simp [Block.isToitsu])]
    simp
    omega
  have reach : ∀ {n}, Lacks k h n → ∃ h', Exchanged n h h' ∧ Complete k (fun j => h' j) := by
    rintro n ⟨B, q, hB, hk, hq, hn⟩
    obtain ⟨h', e1, e2⟩ := exchange_all n h (by rw [wB hB hk hq, ht]) hn
    exact ⟨h', e1, B, q, hB, hk, hq, fun j hj => by simp only [e2 j hj]⟩
  have low : ∀ {m h'}, Exchanged m h h' → Complete k (fun j => h' j) → ∃ n', Lacks k h n' ∧ n' ≤ m := by
    rintro m h' he ⟨B, q, hB, hk, hq, hc⟩
    refine ⟨_, ⟨B, q, hB, hk, hq, rfl⟩, ?_⟩
    have h1 := exchanged_lacking (.toitsu q :: B) he
    have h2 : lacking (.toitsu q :: B) h' = 0 := by
      unfold lacking
      rw [sum_congr (g := fun _ => 0) (fun j hj => by
        have := hc j (List.mem_range.1 hj)
        dsimp only at this
        omega)]
      exact sum_none _
    omega
  constructor
  · rintro ⟨n1, n2⟩
    refine ⟨reach n1, fun m h' he hc => ?_⟩
    obtain ⟨n', a, b⟩ := low he hc
    have := n2 n' a
    omega
  · rintro ⟨⟨h', he, hc⟩, hmin⟩
    obtain ⟨n', a, b⟩ := low he hc
    obtain ⟨h2, a2, b2⟩ := reach a
    have e : n' = n := Nat.le_antisymm b (hmin n' h2 a2 b2)
    subst e
    refine ⟨a, fun m hm => ?_⟩
    obtain ⟨h3, a3, b3⟩ := reach hm
    exact hmin m h3 a3 b3

/-- C160: drawing a tile does not increase the number of tiles that a hand lacks and lowers it by at most one; unless
nothing is lacking, some tile lowers it. -/
theorem C160_draw {k : Nat} {h : Nat → Nat} {n : Nat} (hn : Fewest k h n) :
    (∀ x < 34, ∀ m, Fewest k (draw h x) m → m ≤ n ∧ n ≤ m + 1) ∧
    (0 < n → ∃ x < 34, Fewest k (draw h x) (n - 1)) := by
  have one : ∀ x < 34, ∀ m, Fewest k (draw h x) m → m ≤ n ∧ n ≤ m + 1 := by
    intro x hx m hm
    obtain ⟨⟨B, q, hB, hk, hq, hb⟩, hmin⟩ := hn
    obtain ⟨⟨C, p, hC, hk', hp, hc⟩, hmin'⟩ := hm
    constructor
    · have h1 := hmin' _ ⟨B, q, hB, hk, hq, rfl⟩
      have h2 : lacking (.toitsu q :: B) (draw h x) ≤ lacking (.toitsu q :: B) h :=
        lacking_mono (fun j => by unfold draw; omega)
      omega
    · have h1 := hmin _ ⟨C, p, hC, hk', hp, rfl⟩
      have h2 := lacking_draw (.toitsu p :: C) h hx
      omega
  refine ⟨one, fun hpos => ?_⟩
  obtain ⟨⟨B, q, hB, hk, hq, hb⟩, hmin⟩ := hn
  obtain ⟨x, hx, hx'⟩ := exists_lacking (B := .toitsu q :: B) (h := h) (by omega)
  have h1 := lacking_draw_eq hx hx'
  obtain ⟨m, hm⟩ := fewest_exists k (draw h x)
  have h2 := (one x hx m hm).2
  have h3 := hm.2 _ ⟨B, q, hB, hk, hq, rfl⟩
  have e : m = n - 1 := by omega
  exact ⟨x, hx, e ▸ hm⟩

/-- C160 fails for three tiles of a kind beside two of each of the next two: this hand lacks one tile (a five between
two of its tiles), but its value is 1. -/
theorem C160_value_violated : ∃ h, LegalHand h ∧ h.sum = 14 ∧ Fewest 4 (kinds h) 1 ∧ normalValue h = 1 := by
  refine ⟨handOf [3, 2, 2, 0, 0, 0, 0, 0, 0] [0, 0, 0, 0, 2, 0, 0, 3, 0] [0, 0, 0, 1, 0, 1, 0, 0, 0] [0, 0, 0, 0, 0, 0, 0],
    legalHand_of (by decide), by decide, ?_, by decide +kernel⟩
  have hl : Lacks 4 (kinds (handOf [3, 2, 2, 0, 0, 0, 0, 0, 0] [0, 0, 0, 0, 2, 0, 0, 3, 0] [0, 0, 0, 1, 0, 1, 0, 0, 0]
      [0, 0, 0, 0, 0, 0, 0])) 1 :=
    ⟨[.shuntsu 0, .shuntsu 0, .koutsu 16, .shuntsu 21], 13, by decide, rfl, by decide, by decide⟩
  refine ⟨hl, fun n' hn' => ?_⟩
  by_cases h0 : n' = 0
  · exfalso
    subst h0
    have hf : Fewest 4 (kinds (handOf [3, 2, 2, 0, 0, 0, 0, 0, 0] [0, 0, 0, 0, 2, 0, 0, 3, 0]
        [0, 0, 0, 1, 0, 1, 0, 0, 0] [0, 0, 0, 0, 0, 0, 0])) 0 := ⟨hn', fun _ _ => Nat.zero_le _⟩
    have hle := (C160_value_partial (legalHand_of (by decide)) (by decide) (.inr (by decide)) hf).1.2
    have hv : normalValue (handOf [3, 2, 2, 0, 0, 0, 0, 0, 0] [0, 0, 0, 0, 2, 0, 0, 3, 0]
        [0, 0, 0, 1, 0, 1, 0, 0, 0] [0, 0, 0, 0, 0, 0, 0]) = 1 := by decide +kernel
    omega
  · omega

/-- non-vacuity: a hand of single tiles lacks nine tiles, and its value is 8 -/
example : ∃ h, LegalHand h ∧ h.sum = 13 ∧ NoPattern h ∧ normalValue h = 8 ∧ Fewest 4 (kinds h) 9 := by
  refine ⟨handOf [1, 0, 0, 1, 0, 0, 1, 0, 0] [1, 0, 0, 1, 0, 0, 1, 0, 0] [1, 0, 0, 1, 0, 0, 1, 0, 0] [1, 1, 1, 1, 0, 0, 0],
    legalHand_of (by decide), by decide, ?_, by decide +kernel, ?_⟩
  · unfold NoPattern
    decide
  · obtain ⟨n, hn⟩ := fewest_exists 4 (kinds (handOf [1, 0, 0, 1, 0, 0, 1, 0, 0] [1, 0, 0, 1, 0, 0, 1, 0, 0]
      [1, 0, 0, 1, 0, 0, 1, 0, 0] [1, 1, 1, 1, 0, 0, 0]))
    have h1 := (C160_value_partial (legalHand_of (by decide)) (by decide) (.inl (by decide)) hn).2
      (by unfold NoPattern; decide)
    have hv : normalValue (handOf [1, 0, 0, 1, 0, 0, 1, 0, 0] [1, 0, 0, 1, 0, 0, 1, 0, 0]
      [1, 0, 0, 1, 0, 0, 1, 0, 0] [1, 1, 1, 1, 0, 0, 0]) = 8 := by decide +kernel
    have : n = 9 := by omega
    exact this ▸ hn

end MJ
