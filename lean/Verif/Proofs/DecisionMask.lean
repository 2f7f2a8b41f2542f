import Verif.Proofs.DecisionMem
/-!
Each branch of `decision_mask` yields exactly the offers described by `Offered`.
-/
namespace MJ
open Code

set_option linter.unusedSimpArgs false

theorem offered_split (player p : Nat) (h : Hand) (q k : Nat) (hq : q < 3) (hk : k < 9) (hk4 : k ≠ 4)
    (is_red : Bool) (c : Nat) :
    Offered player p h (9 * q + k) is_red c ↔
    (isNext player p = true ∧ ∃ n, n < 7 ∧ n ≤ k ∧ k ≤ n + 2 ∧ (∀ j < 3, n + j ≠ k → h (9 * q + n + j) ≠ 0) ∧
      ∃ r, (if k = 4 then r = is_red
        else if n ≤ 4 ∧ 4 ≤ n + 2 then
          (if hasRed h (9 * q + k) then r = true ∨ 0 < blackFives h (9 * q + k) else r = false)
        else r = false) ∧
        c = chiInfo q n (if k = 3 ∧ n = 2 ∧ hasRed h (9 * q + k) then 0
          else if k = 5 ∧ n = 4 ∧ hasRed h (9 * q + k) then 2 else k - n) r) ∨
    ((h (9 * q + k) = 2 ∧ c = ponInfo (9 * q + k) 0 false (source player p)) ∨
      (h (9 * q + k) = 3 ∧ c = minkanInfo (9 * q + k) (source player p) 0)) := by
  have e2 : (9 * q + k) / 9 = q := by omega
  unfold Offered
  rw [offered_rest player p h (9 * q + k) is_red (by omega) c, e2, chiOffer_cases h q k hq hk]

section
variable (player p : Nat) (h : Hand) (q : Nat) (is_red : Bool) (hq : q < 3) (hp : p < 4) (hpl : player < 4)
  (hne : p ≠ player)
include hq hp hpl hne

theorem yields_0 : Yields (oneAndNine player p h (9 * q + 0) true) p (Offered player p h (9 * q + 0) is_red) := by
  have e : (9 * q + 0) / 9 = q := by omega
  have a := yields_offP (offer_chi p (isNext player p && slot h (((9 * q + 0 : Nat) : Int) + 1) * slot h (((9 * q + 0 : Nat) : Int) + 1 * 2) != 0)
    q 0 0 false hq (by omega) (by omega) (by simp))
  have b := yields_ponKan player p h (9 * q + 0) (by omega) hp hpl hne
  have ab := yields_append a b
  unfold oneAndNine
  simp only [if_true, e]
  refine yields_congr ab (fun c => ?_)
  rw [offered_split player p h q 0 hq (by omega) (by omega) is_red c, exists_lt7]
  simp only [forall_lt3, slot_eq h (((9 * q + 0 : Nat) : Int) + 1) (9 * q + 0 + 1) (by omega),
    slot_eq h (((9 * q + 0 : Nat) : Int) + 1 * 2) (9 * q + 0 + 2) (by omega), Bool.and_eq_true, mul_bne]
  simp
  grind

theorem yields_8 : Yields (oneAndNine player p h (9 * q + 8) false) p (Offered player p h (9 * q + 8) is_red) := by
  have e : (9 * q + 8) / 9 = q := by omega
  have a := yields_offP (offer_chi p (isNext player p && slot h (((9 * q + 8 : Nat) : Int) + -1) * slot h (((9 * q + 8 : Nat) : Int) + -1 * 2) != 0) q 6 2 false hq (by omega) (by omega) (by simp))
  have z := yields_ponKan player p h (9 * q + 8) (by omega) hp hpl hne
  have y := yields_append a z
  unfold oneAndNine
  simp only [if_true, Bool.false_eq_true, if_false, e]
  refine yields_congr y (fun c => ?_)
  rw [offered_split player p h q 8 hq (by omega) (by omega) is_red c, exists_lt7]
  simp only [forall_lt3, slot_eq h (((9 * q + 8 : Nat) : Int) + -1) (9 * q + 7) (by omega),
    slot_eq h (((9 * q + 8 : Nat) : Int) + -1 * 2) (9 * q + 6) (by omega),
    Bool.and_eq_true, mul_bne, e]
  simp [Nat.add_assoc] <;> grind

theorem yields_1 : Yields (twoAndEight player p h (9 * q + 1) true) p (Offered player p h (9 * q + 1) is_red) := by
  have e : (9 * q + 1) / 9 = q := by omega
  have a := yields_offP (offer_chi p (slot h (((9 * q + 1 : Nat) : Int) - 1) * slot h (((9 * q + 1 : Nat) : Int) + 1) != 0) q 0 1 false hq (by omega) (by omega) (by simp))
  have b := yields_offP (offer_chi p (slot h (((9 * q + 1 : Nat) : Int) + 1) * slot h (((9 * q + 1 : Nat) : Int) + 1 * 2) != 0) q 1 0 false hq (by omega) (by omega) (by simp))
  have z := yields_ponKan player p h (9 * q + 1) (by omega) hp hpl hne
  have y := yields_append (yields_ite (isNext player p) (yields_append a b)) z
  unfold twoAndEight
  simp only [if_true, Bool.false_eq_true, if_false, e]
  refine yields_congr y (fun c => ?_)
  rw [offered_split player p h q 1 hq (by omega) (by omega) is_red c, exists_lt7]
  simp only [forall_lt3, slot_eq h (((9 * q + 1 : Nat) : Int) - 1) (9 * q + 0) (by omega),
    slot_eq h (((9 * q + 1 : Nat) : Int) + 1) (9 * q + 2) (by omega),
    slot_eq h (((9 * q + 1 : Nat) : Int) + 1 * 2) (9 * q + 3) (by omega),
    Bool.and_eq_true, mul_bne, e]
  simp [Nat.add_assoc] <;> grind

theorem yields_7 : Yields (twoAndEight player p h (9 * q + 7) false) p (Offered player p h (9 * q + 7) is_red) := by
  have e : (9 * q + 7) / 9 = q := by omega
  have a := yields_offP (offer_chi p (slot h (((9 * q + 7 : Nat) : Int) - 1) * slot h (((9 * q + 7 : Nat) : Int) + 1) != 0) q 6 1 false hq (by omega) (by omega) (by simp))
  have b := yields_offP (offer_chi p (slot h (((9 * q + 7 : Nat) : Int) + -1) * slot h (((9 * q + 7 : Nat) : Int) + -1 * 2) != 0) q 5 2 false hq (by omega) (by omega) (by simp))
  have z := yields_ponKan player p h (9 * q + 7) (by omega) hp hpl hne
  have y := yields_append (yields_ite (isNext player p) (yields_append a b)) z
  unfold twoAndEight
  simp only [if_true, Bool.false_eq_true, if_false, e]
  refine yields_congr y (fun c => ?_)
  rw [offered_split player p h q 7 hq (by omega) (by omega) is_red c, exists_lt7]
  simp only [forall_lt3, slot_eq h (((9 * q + 7 : Nat) : Int) - 1) (9 * q + 6) (by omega),
    slot_eq h (((9 * q + 7 : Nat) : Int) + 1) (9 * q + 8) (by omega),
    slot_eq h (((9 * q + 7 : Nat) : Int) + -1) (9 * q + 6) (by omega),
    slot_eq h (((9 * q + 7 : Nat) : Int) + -1 * 2) (9 * q + 5) (by omega),
    Bool.and_eq_true, mul_bne, e]
  simp [Nat.add_assoc] <;> grind

theorem yields_2 : Yields (threeAndSeven player p h (9 * q + 2) true) p (Offered player p h (9 * q + 2) is_red) := by
  have e : (9 * q + 2) / 9 = q := by omega
  have a := yields_offP (offer_chi p (slot h (((9 * q + 2 : Nat) : Int) - 2 * 1) * slot h (((9 * q + 2 : Nat) : Int) - 1) != 0) q 0 2 false hq (by omega) (by omega) (by simp))
  have b := yields_offP (offer_chi' p (slot h (((9 * q + 2 : Nat) : Int) - 1) * slot h (((9 * q + 2 : Nat) : Int) + 1) != 0) q 1 1)
  have c := yields_ite (slot h (((9 * q + 2 : Nat) : Int) + 1) * slot h (((9 * q + 2 : Nat) : Int) + 2 * 1) != 0) (yields_fiveRun p h (9 * q + 2) 2 0 0 (by omega) (by omega) (by omega) (by omega) (by omega))
  have z := yields_ponKan player p h (9 * q + 2) (by omega) hp hpl hne
  have y := yields_append (yields_ite (isNext player p) (yields_append3 a b c)) z
  unfold threeAndSeven
  simp only [if_true, Bool.false_eq_true, if_false, e]
  refine yields_congr y (fun c => ?_)
  rw [offered_split player p h q 2 hq (by omega) (by omega) is_red c, exists_lt7]
  simp only [forall_lt3, slot_eq h (((9 * q + 2 : Nat) : Int) - 2 * 1) (9 * q + 0) (by omega),
    slot_eq h (((9 * q + 2 : Nat) : Int) - 1) (9 * q + 1) (by omega),
    slot_eq h (((9 * q + 2 : Nat) : Int) + 1) (9 * q + 3) (by omega),
    slot_eq h (((9 * q + 2 : Nat) : Int) + 2 * 1) (9 * q + 4) (by omega),
    Bool.and_eq_true, mul_bne, e]
  cases hr : hasRed h (9 * q + 2) <;> simp [Nat.add_assoc, hr] <;> grind

theorem yields_6 : Yields (threeAndSeven player p h (9 * q + 6) false) p (Offered player p h (9 * q + 6) is_red) := by
  have e : (9 * q + 6) / 9 = q := by omega
  have a := yields_offP (offer_chi p (slot h (((9 * q + 6 : Nat) : Int) - 2 * -1) * slot h (((9 * q + 6 : Nat) : Int) - -1) != 0) q 6 0 false hq (by omega) (by omega) (by simp))
  have b := yields_offP (offer_chi' p (slot h (((9 * q + 6 : Nat) : Int) - 1) * slot h (((9 * q + 6 : Nat) : Int) + 1) != 0) q 5 1)
  have c := yields_ite (slot h (((9 * q + 6 : Nat) : Int) + -1) * slot h (((9 * q + 6 : Nat) : Int) + 2 * -1) != 0) (yields_fiveRun p h (9 * q + 6) 4 2 2 (by omega) (by omega) (by omega) (by omega) (by omega))
  have z := yields_ponKan player p h (9 * q + 6) (by omega) hp hpl hne
  have y := yields_append (yields_ite (isNext player p) (yields_append3 a b c)) z
  unfold threeAndSeven
  simp only [if_true, Bool.false_eq_true, if_false, e]
  refine yields_congr y (fun c => ?_)
  rw [offered_split player p h q 6 hq (by omega) (by omega) is_red c, exists_lt7]
  simp only [forall_lt3, slot_eq h (((9 * q + 6 : Nat) : Int) - 2 * -1) (9 * q + 8) (by omega),
    slot_eq h (((9 * q + 6 : Nat) : Int) - -1) (9 * q + 7) (by omega),
    slot_eq h (((9 * q + 6 : Nat) : Int) - 1) (9 * q + 5) (by omega),
    slot_eq h (((9 * q + 6 : Nat) : Int) + 1) (9 * q + 7) (by omega),
    slot_eq h (((9 * q + 6 : Nat) : Int) + -1) (9 * q + 5) (by omega),
    slot_eq h (((9 * q + 6 : Nat) : Int) + 2 * -1) (9 * q + 4) (by omega),
    Bool.and_eq_true, mul_bne, e]
  cases hr : hasRed h (9 * q + 6) <;> simp [Nat.add_assoc, hr] <;> grind

theorem yields_3 : Yields (fourAndSix player p h (9 * q + 3) true) p (Offered player p h (9 * q + 3) is_red) := by
  have e : (9 * q + 3) / 9 = q := by omega
  have a := yields_offP (offer_chi p (slot h (((9 * q + 3 : Nat) : Int) - 2 * 1) * slot h (((9 * q + 3 : Nat) : Int) - 1) != 0) q 1 2 false hq (by omega) (by omega) (by simp))
  have b := yields_ite (slot h (((9 * q + 3 : Nat) : Int) - 1) * slot h (((9 * q + 3 : Nat) : Int) + 1) != 0) (yields_fiveRun p h (9 * q + 3) 2 0 1 (by omega) (by omega) (by omega) (by omega) (by omega))
  have c := yields_ite (slot h (((9 * q + 3 : Nat) : Int) + 1) * slot h (((9 * q + 3 : Nat) : Int) + 2 * 1) != 0) (yields_fiveRun p h (9 * q + 3) 3 0 0 (by omega) (by omega) (by omega) (by omega) (by omega))
  have z := yields_ponKan player p h (9 * q + 3) (by omega) hp hpl hne
  have y := yields_append (yields_ite (isNext player p) (yields_append3 a b c)) z
  unfold fourAndSix
  simp only [if_true, Bool.false_eq_true, if_false, e]
  refine yields_congr y (fun c => ?_)
  rw [offered_split player p h q 3 hq (by omega) (by omega) is_red c, exists_lt7]
  simp only [forall_lt3, slot_eq h (((9 * q + 3 : Nat) : Int) - 2 * 1) (9 * q + 1) (by omega),
    slot_eq h (((9 * q + 3 : Nat) : Int) - 1) (9 * q + 2) (by omega),
    slot_eq h (((9 * q + 3 : Nat) : Int) + 1) (9 * q + 4) (by omega),
    slot_eq h (((9 * q + 3 : Nat) : Int) + 2 * 1) (9 * q + 5) (by omega),
    Bool.and_eq_true, mul_bne, e]
  cases hr : hasRed h (9 * q + 3) <;> simp [Nat.add_assoc, hr] <;> grind

theorem yields_5 : Yields (fourAndSix player p h (9 * q + 5) false) p (Offered player p h (9 * q + 5) is_red) := by
  have e : (9 * q + 5) / 9 = q := by omega
  have a := yields_offP (offer_chi p (slot h (((9 * q + 5 : Nat) : Int) - 2 * -1) * slot h (((9 * q + 5 : Nat) : Int) - -1) != 0) q 5 0 false hq (by omega) (by omega) (by simp))
  have b := yields_ite (slot h (((9 * q + 5 : Nat) : Int) - 1) * slot h (((9 * q + 5 : Nat) : Int) + 1) != 0) (yields_fiveRun p h (9 * q + 5) 4 2 1 (by omega) (by omega) (by omega) (by omega) (by omega))
  have c := yields_ite (slot h (((9 * q + 5 : Nat) : Int) + -1) * slot h (((9 * q + 5 : Nat) : Int) + 2 * -1) != 0) (yields_fiveRun p h (9 * q + 5) 3 2 2 (by omega) (by omega) (by omega) (by omega) (by omega))
  have z := yields_ponKan player p h (9 * q + 5) (by omega) hp hpl hne
  have y := yields_append (yields_ite (isNext player p) (yields_append3 a b c)) z
  unfold fourAndSix
  simp only [if_true, Bool.false_eq_true, if_false, e]
  refine yields_congr y (fun c => ?_)
  rw [offered_split player p h q 5 hq (by omega) (by omega) is_red c, exists_lt7]
  simp only [forall_lt3, slot_eq h (((9 * q + 5 : Nat) : Int) - 2 * -1) (9 * q + 7) (by omega),
    slot_eq h (((9 * q + 5 : Nat) : Int) - -1) (9 * q + 6) (by omega),
    slot_eq h (((9 * q + 5 : Nat) : Int) - 1) (9 * q + 4) (by omega),
    slot_eq h (((9 * q + 5 : Nat) : Int) + 1) (9 * q + 6) (by omega),
    slot_eq h (((9 * q + 5 : Nat) : Int) + -1) (9 * q + 4) (by omega),
    slot_eq h (((9 * q + 5 : Nat) : Int) + 2 * -1) (9 * q + 3) (by omega),
    Bool.and_eq_true, mul_bne, e]
  cases hr : hasRed h (9 * q + 5) <;> simp [Nat.add_assoc, hr] <;> grind

omit hp hpl hne in
theorem yields_fivePon : Yields (fivePon p h (9 * q + 4) is_red (source player p)) p
    (fun c => ∃ w r, PonOffer h (9 * q + 4) is_red w r ∧ c = ponInfo (9 * q + 4) w r (source player p)) := by
  have e : 9 * q + 4 < 27 ∧ (9 * q + 4) % 9 = 4 := by omega
  unfold fivePon
  cases hr : hasRed h (9 * q + 4)
  · have a := yields_offP (offer_pon p (h (9 * q + 4) == 2) (9 * q + 4) (if is_red then 1 else 0) (source player p) is_red
      (by omega) (by split <;> omega) (fun _ => e))
    refine yields_congr a (fun c => ?_)
    simp only [PonOffer, e, hr, if_true, Bool.false_eq_true, if_false, and_self, beq_iff_eq]
    constructor
    · rintro ⟨h1, h2⟩
      exact ⟨_, _, ⟨h1, rfl, rfl⟩, by rw [h2]; cases is_red <;> rfl⟩
    · rintro ⟨w, r, ⟨h1, rfl, rfl⟩, h2⟩
      exact ⟨h1, by rw [h2]; cases r <;> rfl⟩
  · have a := yields_offP (offer_pon p (h (9 * q + 4) == 2) (9 * q + 4) 1 (source player p) true
      (by omega) (by omega) (fun _ => e))
    have b := yields_offP (offer_pon p (blackFives h (9 * q + 4) == 2) (9 * q + 4) 0 (source player p) false
      (by omega) (by omega) (fun _ => e))
    refine yields_congr (yields_append a b) (fun c => ?_)
    have hb : blackFives h (9 * q + 4) = 2 ↔ h (9 * q + 4) = 3 := by
      simp only [blackFives, hr, Bool.toNat_true]; omega
    simp only [PonOffer, e, hr, if_true, and_self, beq_iff_eq, hb]
    constructor
    · rintro (⟨h1, h2⟩ | ⟨h1, h2⟩)
      · exact ⟨_, _, .inl ⟨h1, rfl, rfl⟩, h2⟩
      · exact ⟨_, _, .inr ⟨h1, rfl, rfl⟩, h2⟩
    · rintro ⟨w, r, ⟨h1, rfl, rfl⟩ | ⟨h1, rfl, rfl⟩, h2⟩
      · exact .inl ⟨h1, h2⟩
      · exact .inr ⟨h1, h2⟩

theorem yields_4 : Yields (five player p h (9 * q + 4) is_red) p (Offered player p h (9 * q + 4) is_red) := by
  have e : (9 * q + 4) / 9 = q := by omega
  have a := yields_offP (offer_chi p (slot h (((9 * q + 4 : Nat) : Int) - 2) * slot h (((9 * q + 4 : Nat) : Int) - 1) != 0)
    q 2 2 is_red hq (by omega) (by omega) (by omega))
  have b := yields_offP (offer_chi p (slot h (((9 * q + 4 : Nat) : Int) - 1) * slot h (((9 * q + 4 : Nat) : Int) + 1) != 0)
    q 3 1 is_red hq (by omega) (by omega) (by omega))
  have c := yields_offP (offer_chi p (slot h (((9 * q + 4 : Nat) : Int) + 1) * slot h (((9 * q + 4 : Nat) : Int) + 2) != 0)
    q 4 0 is_red hq (by omega) (by omega) (by omega))
  have x := yields_fivePon player p h q is_red hq
  have z := yields_offP (offer_minkan p (h (9 * q + 4) == 3) (9 * q + 4) (if is_red then 1 else 0) (source player p)
    (by omega) (by split <;> omega) (source_ne player p hp hpl hne).1)
  have y := yields_append3 (yields_ite (isNext player p) (yields_append3 a b c)) x z
  unfold five
  simp only [e]
  refine yields_congr y (fun c => ?_)
  unfold Offered
  rw [e, chiOffer_cases h q 4 hq (by omega), exists_lt7]
  have hk : (∃ w, KanOffer h (9 * q + 4) is_red w ∧ c = minkanInfo (9 * q + 4) (source player p) w) ↔
      (h (9 * q + 4) == 3) = true ∧ c = minkanInfo (9 * q + 4) (source player p) (if is_red then 1 else 0) := by
    have e : 9 * q + 4 < 27 ∧ (9 * q + 4) % 9 = 4 := by omega
    simp only [KanOffer, e, and_self, if_true, beq_iff_eq]
    constructor
    · rintro ⟨w, ⟨h1, rfl⟩, h2⟩
      exact ⟨h1, by rw [h2]; cases is_red <;> rfl⟩
    · rintro ⟨h1, h2⟩
      exact ⟨_, ⟨h1, rfl⟩, by rw [h2]; cases is_red <;> rfl⟩
  rw [hk]
  simp only [forall_lt3, slot_eq h (((9 * q + 4 : Nat) : Int) - 2) (9 * q + 2) (by omega),
    slot_eq h (((9 * q + 4 : Nat) : Int) - 1) (9 * q + 3) (by omega),
    slot_eq h (((9 * q + 4 : Nat) : Int) + 1) (9 * q + 5) (by omega),
    slot_eq h (((9 * q + 4 : Nat) : Int) + 2) (9 * q + 6) (by omega), mul_bne]
  simp [Nat.add_assoc]

end

/-- Every offer of every player other than the discarder, for every tile index. -/
theorem maskFor_yields (player p : Nat) (h : Hand) (t : Nat) (is_red : Bool) (ht : t < 34) (hp : p < 4)
    (hpl : player < 4) (hne : p ≠ player) :
    Yields (maskFor player p h t is_red) p (Offered player p h t is_red) := by
  by_cases hj : t > 26
  · simp only [maskFor, hne, hj, if_true, if_false]
    refine yields_congr (yields_ponKan player p h t ht hp hpl hne) (fun c => ?_)
    rw [← offered_rest player p h t is_red (by omega) c]
    unfold Offered
    constructor
    · exact .inr
    · rintro (⟨_, n, w, r, h1, _⟩ | h)
      · have := h1.1; omega
      · exact h
  · obtain ⟨q, k, hq, hk, rfl⟩ : ∃ q k, q < 3 ∧ k < 9 ∧ t = 9 * q + k := ⟨t / 9, t % 9, by omega, by omega, by omega⟩
    have hm : (9 * q + k) % 9 = k := by omega
    simp only [maskFor, hne, hj, if_false, hm]
    match k, hk with
    | 0, _ => exact yields_0 player p h q is_red hq hp hpl hne
    | 1, _ => exact yields_1 player p h q is_red hq hp hpl hne
    | 2, _ => exact yields_2 player p h q is_red hq hp hpl hne
    | 3, _ => exact yields_3 player p h q is_red hq hp hpl hne
    | 4, _ => exact yields_4 player p h q is_red hq hp hpl hne
    | 5, _ => exact yields_5 player p h q is_red hq hp hpl hne
    | 6, _ => exact yields_6 player p h q is_red hq hp hpl hne
    | 7, _ => exact yields_7 player p h q is_red hq hp hpl hne
    | 8, _ => exact yields_8 player p h q is_red hq hp hpl hne

/-- `decision_mask` never fails, and list `p` contains exactly the offers. -/
theorem decisionMask_spec (player : Nat) (hands : Nat → Hand) (t : Nat) (is_red : Bool) (ht : t < 34)
    (hpl : player < 4) :
    ∃ ds, decisionMask player hands t is_red = .ok ds ∧ ds.length = 4 ∧
      ∀ p, p < 4 → ∃ l, ds[p]? = some l ∧
        ∀ d, d ∈ l ↔ p ≠ player ∧ ∃ c, Offered player p (hands p) t is_red c ∧ d = ⟨p, Naki.raw c, false⟩ := by
  have key : ∀ p, p < 4 → ∃ l, maskFor player p (hands p) t is_red = .ok l ∧
      ∀ d, d ∈ l ↔ p ≠ player ∧ ∃ c, Offered player p (hands p) t is_red c ∧ d = ⟨p, Naki.raw c, false⟩ := by
    intro p hp
    by_cases hne : p = player
    · exact ⟨[], by simp [maskFor, hne], by simp [hne]⟩
    · obtain ⟨l, h1, h2⟩ := maskFor_yields player p (hands p) t is_red ht hp hpl hne
      exact ⟨l, h1, by simpa [hne] using h2⟩
  obtain ⟨l0, a0, b0⟩ := key 0 (by omega)
  obtain ⟨l1, a1, b1⟩ := key 1 (by omega)
  obtain ⟨l2, a2, b2⟩ := key 2 (by omega)
  obtain ⟨l3, a3, b3⟩ := key 3 (by omega)
  refine ⟨[l0, l1, l2, l3], by simp only [decisionMask, a0, a1, a2, a3]; rfl, rfl, ?_⟩
  intro p hp
  match p, hp with
  | 0, _ => exact ⟨l0, rfl, b0⟩
  | 1, _ => exact ⟨l1, rfl, b1⟩
  | 2, _ => exact ⟨l2, rfl, b2⟩
  | 3, _ => exact ⟨l3, rfl, b3⟩

end MJ
