import Verif.Props.ShantenTenpai
/-!
The formulas for seven pairs and thirteen orphans, and where the solver's value is wrong.
-/
namespace MJ
open Spec

/-! ### Seven pairs and thirteen orphans -/

/-- how many of the kinds in `L` are held at least `n` times -/
def kindsHeld (L : List Nat) (n : Int) (h : List Int) : Nat := L.countP (fun j => decide (n ≤ at37 h j))

/-- the terminals and honours -/
def orphans : List Nat := [0, 8, 9, 17, 18, 26, 27, 28, 29, 30, 31, 32, 33]

/-- seven pairs: 6 minus the number of kinds held at least twice -/
theorem C80_chitoitsu {s : Solver} (hl : RedHand s.hand) :
    s.chitoitsu.best = min s.best (6 - kindsHeld (List.range 34) 2 s.hand) := by
  have : countIf (fun x => decide (2 ≤ x)) s.hand = kindsHeld (List.range 34) 2 s.hand := by
    unfold countIf kindsHeld
    rw [← List.countP_eq_length_filter]
    conv => lhs; rw [list_eq_range (h := s.hand), hl.len]
    rw [List.countP_map, show (37 : Nat) = 34 + 1 + 1 + 1 from rfl, List.range_succ, List.range_succ, List.range_succ]
    have r : ∀ j, 34 ≤ j → ¬ 2 ≤ at37 s.hand j := fun j hj => by have := hl.red j hj; omega
    simp [List.countP_append, Function.comp_def, r]
  simp only [Solver.chitoitsu, this]

/-- the entries of `yaochu_arr` -/
theorem yaochu_arr {h : List Int} (hl : h.length = 37) :
    List.zipWith (· * ·) h yaochuTensor = (List.range 37).map (fun j => at37 h j * if j ∈ yaochuIdx then 1 else 0) := by
  conv => lhs; rw [list_eq_range (h := h), hl]
  unfold yaochuTensor
  rw [List.zipWith_map, List.zipWith_self]

theorem foldl_max_spec (l : List Int) (a : Int) :
    (l.foldl max a = a ∨ l.foldl max a ∈ l) ∧ a ≤ l.foldl max a ∧ ∀ x ∈ l, x ≤ l.foldl max a := by
  induction l generalizing a with
  | nil => simp
  | cons b l ih =>
    simp only [List.foldl_cons]
    obtain ⟨h1, h2, h3⟩ := ih (max a b)
    refine ⟨?_, by omega, ?_⟩
    · rcases h1 with h1 | h1
      · rcases Int.le_total a b with h | h
        · right; rw [h1, Int.max_eq_right h]; simp
        · left; rw [h1, Int.max_eq_left h]
      · right; simp [h1]
    · intro x hx
      rcases List.mem_cons.1 hx with rfl | hx
      · omega
      · exact h3 x hx

theorem maxOf_spec {l : List Int} (hl : l ≠ []) : maxOf l ∈ l ∧ ∀ x ∈ l, x ≤ maxOf l := by
  cases l with
  | nil => exact absurd rfl hl
  | cons a l =>
    obtain ⟨h1, h2, h3⟩ := foldl_max_spec l a
    show l.foldl max a ∈ a :: l ∧ ∀ x ∈ a :: l, x ≤ l.foldl max a
    refine ⟨?_, ?_⟩
    · rcases h1 with h1 | h1
      · rw [h1]; simp
      · simp [h1]
    · intro x hx
      rcases List.mem_cons.1 hx with rfl | hx
      · exact h2
      · exact h3 x hx

theorem yaochu_count {h : List Int} (hl : h.length = 37) (h34 : at37 h 34 = 0) :
    countIf (fun x => decide (1 ≤ x)) (List.zipWith (· * ·) h yaochuTensor) = kindsHeld orphans 1 h := by
  rw [yaochu_arr hl]
  unfold countIf kindsHeld
  rw [← List.countP_eq_length_filter, List.countP_map]
  have e : (List.range 37).countP ((fun x : Int => decide (1 ≤ x)) ∘ fun j => at37 h j * if j ∈ yaochuIdx then 1 else 0) =
      ((List.range 37).filter (fun j => decide (j ∈ yaochuIdx))).countP (fun j => decide (1 ≤ at37 h j)) := by
    rw [List.countP_filter]
    congr 1
    funext j
    simp only [Function.comp]
    by_cases hj : j ∈ yaochuIdx
    · simp [hj]
    · simp [hj]
  have e' : (List.range 37).filter (fun j => decide (j ∈ yaochuIdx)) = orphans ++ [34] := by decide
  rw [e, e', List.countP_append]
  simp [h34]

/-- thirteen orphans: 13 minus the number of kinds held, minus one if one of them is held twice, provided no terminal
or honour is held three times, one is held, and there is no red five of characters -/
theorem C80_kokushi_partial {s : Solver} (hl : RedHand s.hand) (h34 : at37 s.hand 34 = 0)
    (h2 : ∀ j ∈ orphans, at37 s.hand j ≤ 2) (h1 : ∃ j ∈ orphans, 1 ≤ at37 s.hand j) :
    s.kokushi.best = min s.best (13 - kindsHeld orphans 1 s.hand - if kindsHeld orphans 2 s.hand = 0 then 0 else 1) := by
  have hmax : maxOf (List.zipWith (· * ·) s.hand yaochuTensor) - 1 = if kindsHeld orphans 2 s.hand = 0 then 0 else 1 := by
    rw [yaochu_arr hl.len]
    obtain ⟨m1, m2⟩ := maxOf_spec (l := (List.range 37).map (fun j => at37 s.hand j * if j ∈ yaochuIdx then 1 else 0))
      (by simp)
    generalize maxOf _ = m at *
    obtain ⟨j, hj, hm⟩ := List.mem_map.1 m1
    have hyo : ∀ j, j ∈ yaochuIdx ↔ j ∈ orphans ∨ j = 34 := by
      intro j
      simp only [yaochuIdx, orphans, List.mem_cons, List.not_mem_nil, or_false]
      omega
    have ho37 : ∀ j ∈ orphans, j < 37 := by decide
    have hup : ∀ j ∈ orphans, at37 s.hand j ≤ m := by
      intro j hj
      refine m2 _ (List.mem_map.2 ⟨j, by simpa using ho37 j hj, ?_⟩)
      simp [(hyo j).2 (.inl hj)]
    obtain ⟨j1, hj1, hj1'⟩ := h1
    have hm1 : 1 ≤ m := Int.le_trans hj1' (hup j1 hj1)
    have hjo : j ∈ orphans ∧ at37 s.hand j = m := by
      by_cases hy : j ∈ yaochuIdx
      · rw [if_pos hy] at hm
        rcases (hyo j).1 hy with h | h
        · exact ⟨h, by omega⟩
        · subst h; omega
      · rw [if_neg hy] at hm; omega
    have hle := h2 j hjo.1
    by_cases c : kindsHeld orphans 2 s.hand = 0
    · rw [if_pos c]
      have := List.countP_eq_zero.1 c j hjo.1
      simp only [decide_eq_true_eq] at this
      omega
    · rw [if_neg c]
      have : 0 < orphans.countP (fun j => decide (2 ≤ at37 s.hand j)) := by unfold kindsHeld at c; omega
      obtain ⟨j2, hj2, hj2'⟩ := List.countP_pos_iff.1 this
      simp only [decide_eq_true_eq] at hj2'
      have := hup j2 hj2
      omega
  simp only [Solver.kokushi, yaochu_count hl.len h34, hmax]

/-- the hand with the given suits and honours and no red fives -/
def handOf (m p s z : List Int) : List Int := m ++ p ++ s ++ z ++ [0, 0, 0]

/-- decidable form of a legal hand -/
def isRedHand (h : List Int) : Bool :=
  h.length == 37 && h.all (fun x => decide (0 ≤ x ∧ x ≤ 4)) && (h.drop 34).all (fun x => decide (x ≤ 1))

def isLegalHand (h : List Int) : Bool := isRedHand h && (h.drop 34).all (fun x => decide (x = 0))

theorem at37_cases (h : List Int) (j : Nat) : (j < h.length ∧ at37 h j ∈ h) ∨ (h.length ≤ j ∧ at37 h j = 0) := by
  unfold at37
  rw [List.getD_eq_getElem?_getD]
  by_cases hj : j < h.length
  · rw [List.getElem?_eq_getElem hj]
    exact .inl ⟨hj, List.getElem_mem hj⟩
  · rw [List.getElem?_eq_none (by omega)]
    exact .inr ⟨by omega, rfl⟩

theorem at37_drop {h : List Int} {j : Nat} (hj : 34 ≤ j) : at37 h j = at37 (h.drop 34) (j - 34) := by
  unfold at37
  rw [List.getD_eq_getElem?_getD, List.getD_eq_getElem?_getD, List.getElem?_drop]
  congr 2
  omega

theorem redHand_of {h : List Int} (hh : isRedHand h = true) : RedHand h := by
  unfold isRedHand at hh
  simp only [Bool.and_eq_true, beq_iff_eq, List.all_eq_true, decide_eq_true_eq] at hh
  obtain ⟨⟨h1, h2⟩, h3⟩ := hh
  refine ⟨h1, fun j => ?_, fun j hj => ?_⟩
  · rcases at37_cases h j with ⟨_, h⟩ | ⟨_, h⟩
    · exact h2 _ h
    · rw [h]; omega
  · rw [at37_drop hj]
    rcases at37_cases (h.drop 34) (j - 34) with ⟨_, h⟩ | ⟨_, h⟩
    · exact h3 _ h
    · rw [h]; omega

theorem legalHand_of {h : List Int} (hh : isLegalHand h = true) : LegalHand h := by
  unfold isLegalHand at hh
  simp only [Bool.and_eq_true, List.all_eq_true, decide_eq_true_eq] at hh
  obtain ⟨h1, h2⟩ := hh
  refine ⟨redHand_of h1, fun j hj => ?_⟩
  rw [at37_drop hj]
  rcases at37_cases (h.drop 34) (j - 34) with ⟨_, h⟩ | ⟨_, h⟩
  · exact h2 _ h
  · exact h

/-- twelve terminals and honours, one of them three times: counted as complete; no terminal or honour: 14 -/
theorem C80_kokushi_violated :
    (∃ h, LegalHand h ∧ h.sum = 14 ∧ kindsHeld orphans 1 h = 12 ∧ (Solver.init h).kokushi.best = -1) ∧
    (∃ h, LegalHand h ∧ h.sum = 14 ∧ kindsHeld orphans 1 h = 0 ∧ ({ Solver.init h with best := 99 }).kokushi.best = 14) ∧
    (∃ h, RedHand h ∧ tiles h = 14 ∧ kindsHeld orphans 1 h = 12 ∧ kindsHeld orphans 2 h = 0 ∧ (Solver.init h).kokushi.best = 0) := by
  refine ⟨⟨handOf [3, 0, 0, 0, 0, 0, 0, 0, 1] [1, 0, 0, 0, 0, 0, 0, 0, 1] [1, 0, 0, 0, 0, 0, 0, 0, 1] [1, 1, 1, 1, 1, 1, 0],
      legalHand_of (by decide), by decide, by decide, by decide +kernel⟩,
    ⟨handOf [0, 1, 1, 1, 1, 1, 1, 1, 0] [0, 1, 1, 1, 1, 1, 1, 1, 0] [0, 0, 0, 0, 0, 0, 0, 0, 0] [0, 0, 0, 0, 0, 0, 0],
      legalHand_of (by decide), by decide, by decide, by decide +kernel⟩,
    ⟨[1, 1, 0, 0, 1, 0, 0, 0, 1] ++ [1, 0, 0, 0, 0, 0, 0, 0, 1] ++ [1, 0, 0, 0, 0, 0, 0, 0, 1] ++ [1, 1, 1, 1, 1, 1, 0] ++ [1, 0, 0],
      redHand_of (by decide), by decide, by decide, by decide, by decide +kernel⟩⟩

/-! ### The fifth tile -/

theorem complete_congr {k : Nat} {f g : Nat → Int} (h : ∀ j < 34, f j = g j) (hc : Complete k f) : Complete k g := by
  obtain ⟨B, q, h1, h2, h3, h4⟩ := hc
  exact ⟨B, q, h1, h2, h3, fun j hj => by rw [← h j hj]; exact h4 j hj⟩

/-- four tiles of one kind beside three melds: value 0, though no tile that is left completes the hand -/
theorem C89_fifth_tile_violated : ∃ h, LegalHand h ∧ h.sum = 4 ∧ normalValue h = 0 ∧
    ∀ x < 34, at37 h x < 4 → ¬ Complete 1 (drawn h x) := by
  refine ⟨handOf [4, 0, 0, 0, 0, 0, 0, 0, 0] [0, 0, 0, 0, 0, 0, 0, 0, 0] [0, 0, 0, 0, 0, 0, 0, 0, 0] [0, 0, 0, 0, 0, 0, 0],
    legalHand_of (by decide), by decide, by decide +kernel, ?_⟩
  generalize hh : handOf _ _ _ _ = h
  have key : ∀ x < 34, at37 h x < 4 → isLegalHand (bump h x 1) = true ∧ (bump h x 1).sum = 5 ∧ normalValue (bump h x 1) ≠ -1 := by
    subst hh
    decide +kernel
  intro x hx h4 hc
  obtain ⟨k1, k2, k3⟩ := key x hx h4
  have hlen : h.length = 37 := by subst hh; decide
  refine k3 ((C79_complete (legalHand_of k1) (k := 1) (by rw [k2]; rfl) (by omega)).1.2 (complete_congr (fun j hj => ?_) hc))
  rw [at37_bump']
  unfold drawn
  congr 1
  simp only [hlen]
  (repeat' split) <;> omega

/-! ### Red fives -/

/-- a hand of 3k+2 tiles with a red five never has a value below 1, however complete it is -/
theorem C90_red_never_complete {h : List Int} (hl : RedHand h) {k : Nat} (ht : tiles h = 3 * k + 2) (hk : k ≤ 4)
    (hr : 1 ≤ reds h) : 1 ≤ normalValue h := by
  have r1 := hl.red 34 (by omega)
  have r2 := hl.red 35 (by omega)
  have r3 := hl.red 36 (by omega)
  have hs := sum_red hl
  unfold reds at hr hs
  obtain ⟨A, a1, a2, a3⟩ := C78_decomposition hl (by rw [hs]; omega)
  have hlo := left_over (h := h) a1
  have hge := sum_nonneg (l := List.range 34) (f := fun j => at37 h j - used A j) (fun x hx => by
    have := a2 x (by simpa using hx)
    omega)
  rw [hlo, ht] at hge
  have hdiv : (14 - h.sum) / 3 = 3 - (k : Int) := by rw [hs]; omega
  rw [hdiv] at a3
  rw [a3]
  unfold distance
  clear a1 a2 a3 hlo hdiv hs
  generalize sets A = s at *
  generalize taatsus A = t at *
  generalize toitsus A = p at *
  generalize singles A = g at *
  split <;> omega

/-- a hand of 3k+1 tiles with two red fives never has a value below 2 -/
theorem C90_red_never_tenpai {h : List Int} (hl : RedHand h) {k : Nat} (ht : tiles h = 3 * k + 1) (hk : k ≤ 4)
    (hr : 2 ≤ reds h) : 2 ≤ normalValue h := by
  have r1 := hl.red 34 (by omega)
  have r2 := hl.red 35 (by omega)
  have r3 := hl.red 36 (by omega)
  have hs := sum_red hl
  unfold reds at hr hs
  obtain ⟨A, a1, a2, a3⟩ := C78_decomposition hl (by rw [hs]; omega)
  have hlo := left_over (h := h) a1
  have hge := sum_nonneg (l := List.range 34) (f := fun j => at37 h j - used A j) (fun x hx => by
    have := a2 x (by simpa using hx)
    omega)
  rw [hlo, ht] at hge
  have hdiv : (14 - h.sum) / 3 = 3 - (k : Int) := by rw [hs]; omega
  rw [hdiv] at a3
  rw [a3]
  unfold distance
  clear a1 a2 a3 hlo hdiv hs
  generalize sets A = s at *
  generalize taatsus A = t at *
  generalize toitsus A = p at *
  generalize singles A = g at *
  split <;> omega

/-- a complete hand with a red five gets value 1 -/
theorem C90_red_violated : ∃ h, RedHand h ∧ tiles h = 14 ∧ Complete 4 (at37 h) ∧ normalValue h = 1 := by
  refine ⟨[1, 1, 1, 1, 1, 1, 0, 0, 0] ++ [0, 0, 0, 0, 0, 0, 0, 0, 0] ++ [0, 0, 0, 0, 0, 0, 0, 0, 0] ++ [3, 3, 2, 0, 0, 0, 0] ++ [1, 0, 0],
    redHand_of (by decide), by decide,
    ⟨[.shuntsu 0, .shuntsu 3, .koutsu 27, .koutsu 28], 29, by decide, rfl, by omega, by decide⟩, by decide +kernel⟩

/-! ### Minimality -/

/-- a hand of 14 tiles with value 1 that has value 0 after a discard: the value is not the smallest over all
decompositions -/
theorem C91_minimal_violated : ∃ h, LegalHand h ∧ h.sum = 14 ∧ normalValue h = 1 ∧ 0 < at37 h 0 ∧
    normalValue (bump h 0 (-1)) = 0 ∧
    ∃ A : List Block, (∀ b ∈ A, b.valid = true) ∧ (∀ j, j < 34 → (used A j : Int) ≤ at37 h j) ∧
      distance (sets A) (taatsus A) (toitsus A) false = 0 := by
  refine ⟨handOf [3, 2, 2, 0, 0, 0, 0, 0, 0] [0, 0, 0, 0, 2, 0, 0, 3, 0] [0, 0, 0, 1, 0, 1, 0, 0, 0] [0, 0, 0, 0, 0, 0, 0],
    legalHand_of (by decide), by decide, by decide +kernel, by decide, by decide +kernel,
    [.shuntsu 0, .shuntsu 0, .toitsu 13, .koutsu 16, .taatsu 21 1], by decide, by decide, by decide⟩

/-! ### Open hands -/

/-- the value of `solve`: the smallest of the normal value, the seven-pairs value and the thirteen-orphans value -/
theorem C92_solve_value {h : List Int} (hl : RedHand h) (h34 : at37 h 34 = 0) (h2 : ∀ j ∈ orphans, at37 h j ≤ 2)
    (h1 : ∃ j ∈ orphans, 1 ≤ at37 h j) {fuel : Nat} (hf : depth h 0 < fuel) :
    ((Solver.init h).solve fuel).map (·.1) = some (min (min (normalValue h) (6 - kindsHeld (List.range 34) 2 h))
      (13 - kindsHeld orphans 1 h - if kindsHeld orphans 2 h = 0 then 0 else 1)) := by
  unfold Solver.solve
  rw [normalValue_fuel h hf]
  show some (Solver.kokushi (Solver.chitoitsu { Solver.init h with best := normalValue h })).best = _
  congr 1
  rw [C80_kokushi_partial (s := Solver.chitoitsu { Solver.init h with best := normalValue h }) hl h34 h2 h1,
    C80_chitoitsu (s := { Solver.init h with best := normalValue h }) hl]
  rfl

/-- five pairs beside a meld: the seven-pairs formula is applied although the hand is open -/
theorem C92_open_hand_violated : ∃ h, LegalHand h ∧ h.sum = 10 ∧ normalValue h = 2 ∧
    ((Solver.init h).solve 42).map (·.1) = some 1 := by
  refine ⟨handOf [2, 0, 0, 2, 0, 0, 2, 0, 0] [2, 0, 0, 2, 0, 0, 0, 0, 0] [0, 0, 0, 0, 0, 0, 0, 0, 0] [0, 0, 0, 0, 0, 0, 0],
    legalHand_of (by decide), by decide, by decide +kernel, by decide +kernel⟩

/-! ### The hypotheses can be met -/

-- a complete hand and a hand one tile from complete
example : LegalHand (handOf [1, 1, 1, 1, 1, 1, 1, 1, 1] [3, 0, 0, 0, 0, 0, 0, 0, 0] [0, 0, 0, 0, 0, 0, 0, 0, 0] [2, 0, 0, 0, 0, 0, 0]) ∧
    (handOf [1, 1, 1, 1, 1, 1, 1, 1, 1] [3, 0, 0, 0, 0, 0, 0, 0, 0] [0, 0, 0, 0, 0, 0, 0, 0, 0] [2, 0, 0, 0, 0, 0, 0]).sum = 3 * (4 : Nat) + 2 ∧
    Complete 4 (at37 (handOf [1, 1, 1, 1, 1, 1, 1, 1, 1] [3, 0, 0, 0, 0, 0, 0, 0, 0] [0, 0, 0, 0, 0, 0, 0, 0, 0] [2, 0, 0, 0, 0, 0, 0])) :=
  ⟨legalHand_of (by decide), by decide,
    ⟨[.shuntsu 0, .shuntsu 3, .shuntsu 6, .koutsu 9], 27, by decide, rfl, by omega, by decide⟩⟩

example : LegalHand (handOf [3, 1, 1, 1, 1, 1, 1, 1, 3] [0, 0, 0, 0, 0, 0, 0, 0, 0] [0, 0, 0, 0, 0, 0, 0, 0, 0] [0, 0, 0, 0, 0, 0, 0]) ∧
    (handOf [3, 1, 1, 1, 1, 1, 1, 1, 3] [0, 0, 0, 0, 0, 0, 0, 0, 0] [0, 0, 0, 0, 0, 0, 0, 0, 0] [0, 0, 0, 0, 0, 0, 0]).sum = 3 * (4 : Nat) + 1 ∧
    Complete 4 (drawn (handOf [3, 1, 1, 1, 1, 1, 1, 1, 3] [0, 0, 0, 0, 0, 0, 0, 0, 0] [0, 0, 0, 0, 0, 0, 0, 0, 0] [0, 0, 0, 0, 0, 0, 0]) 4) :=
  ⟨legalHand_of (by decide), by decide,
    ⟨[.koutsu 0, .koutsu 8, .shuntsu 1, .shuntsu 5], 4, by decide, rfl, by omega, by decide⟩⟩

end MJ
