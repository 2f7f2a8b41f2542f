import Verif.Proofs.NakiSame
/-!
Action numbers in terms of the fields.
-/
namespace MJ
namespace Code
open Spec

theorem during_ankan (c : Nat) (h : is_ankan c = true) :
    get_during_turn_filter_idx c = .ok (3 + (c / 256 % 256 / 4)) := by
  have : 9 * (c / 256 % 256 / 4 / 9) + c / 256 % 256 / 4 % 9 = c / 256 % 256 / 4 := by omega
  simp only [get_during_turn_filter_idx, h, if_true, pattern_ankan_color, pattern_ankan_number]
  rw [Nat.add_assoc, this]

theorem during_kakan (c : Nat) (h : is_kakan c = true) :
    get_during_turn_filter_idx c = .ok (37 + (c / 512 % 128 / 3)) := by
  have ha : is_ankan c = false := by
    rw [is_kakan_iff] at h; rw [is_ankan_false]; omega
  have : 9 * (c / 512 % 128 / 3 / 9) + c / 512 % 128 / 3 % 9 = c / 512 % 128 / 3 := by omega
  simp only [get_during_turn_filter_idx, ha, h, if_true, pattern_kakan_color, pattern_kakan_number,
    Bool.false_eq_true, if_false]
  rw [Nat.add_assoc, this]

theorem during_other (c : Nat) (h1 : is_ankan c = false) (h2 : is_kakan c = false) :
    get_during_turn_filter_idx c = .error .zeroDivision := by
  simp [get_during_turn_filter_idx, h1, h2]

/-- a chi whose red five comes from the hand -/
def redHandChi (c : Nat) : Prop :=
  is_chi c = true ∧ (pattern_chi c).has_red = true ∧ (pattern_chi c).number + (pattern_chi c).which ≠ 4

theorem post_chi_plain (c : Nat) (h : is_chi c = true) (hr : ¬ redHandChi c) :
    get_post_turn_filter_idx c = .ok (2 + ((c / 1024 % 64 : Nat) : Int)) := by
  have hb : ((pattern_chi c).has_red && (pattern_chi c).number + (pattern_chi c).which != 4) = false := by
    rw [← Bool.not_eq_true, Bool.and_eq_true, bne_iff_ne]
    exact fun x => hr ⟨h, x⟩
  simp only [get_post_turn_filter_idx, h, if_true, hb, Bool.false_eq_true, if_false]
  simp only [pattern_chi_color, pattern_chi_number, pattern_chi_which]
  congr 1
  omega

theorem post_chi_red (c : Nat) (h : redHandChi c) :
    get_post_turn_filter_idx c = .ok (65 + 6 * ((pattern_chi c).color : Int) + (pattern_chi c).number * 2 +
      (((pattern_chi c).number : Int) + (pattern_chi c).which - 3) / 2) := by
  have hb : ((pattern_chi c).has_red && (pattern_chi c).number + (pattern_chi c).which != 4) = true := by
    rw [Bool.and_eq_true, bne_iff_ne]; exact h.2
  simp only [get_post_turn_filter_idx, h.1, if_true, hb]
  congr 1

theorem ponTiles_which (c : Nat) : ∃ a, (pattern_pon c).acquired = some a := by
  have hw : (pattern_pon c).which < 3 := by rw [pattern_pon_which]; omega
  rw [(pattern_pon_tiles c).2, ponTiles]
  rcases ponCopies_cases (c / 32 % 4) (by omega) with ⟨_, e⟩ | ⟨_, e⟩ | ⟨_, e⟩ | ⟨_, e⟩ <;> rw [e] <;>
    exact ⟨_, List.getElem?_eq_getElem (by simpa using hw)⟩

/-- the action number of a pon: `110 + suit` for some calls with a red five, else
`83 + kind` (suited) or `113 + n` (honours) -/
theorem post_pon (c : Nat) (hc : is_chi c = false) (h : is_pon c = true) :
    get_post_turn_filter_idx c = .ok (83 + ((c / 512 % 128 / 3 : Nat) : Int) +
      (if (pattern_pon c).color = 3 then 3 else 0)) ∨
    ((pattern_pon c).has_red = true ∧ get_post_turn_filter_idx c = .ok (110 + ((pattern_pon c).color : Int))) := by
  obtain ⟨a, ha⟩ := ponTiles_which c
  have p1 := pattern_pon_color c
  have p2 := pattern_pon_number c
  simp only [get_post_turn_filter_idx, hc, h, if_true, Bool.false_eq_true, if_false, ha]
  generalize (pattern_pon c).color = col at *
  generalize (pattern_pon c).number = num at *
  generalize c / 512 % 128 / 3 = k at *
  by_cases h3 : col = 3
  · left
    simp only [h3, beq_self_eq_true, if_true]
    congr 1
    omega
  · simp only [h3, if_false, beq_iff_eq]
    by_cases hr : ((pattern_pon c).has_red && a % 4 == 3) = true
    · right
      rw [if_pos hr]
      exact ⟨by simp at hr; exact hr.1, by congr 1⟩
    · left
      rw [if_neg hr]
      congr 1
      omega

theorem post_minkan (c : Nat) (hc : is_chi c = false) (hp : is_pon c = false) (h : is_minkan c = true) :
    get_post_turn_filter_idx c = .ok (120 + ((c / 256 % 256 / 4 : Nat) : Int)) := by
  simp only [get_post_turn_filter_idx, hc, hp, h, if_true, Bool.false_eq_true, if_false,
    pattern_minkan_color, pattern_minkan_number]
  congr 1
  omega

theorem post_other (c : Nat) (hc : is_chi c = false) (hp : is_pon c = false) (h : is_minkan c = false) :
    get_post_turn_filter_idx c = .error .zeroDivision := by
  simp [get_post_turn_filter_idx, hc, hp, h]

/-- bounds that hold for every code, well-formed or not -/
theorem post_bounds (c : Nat) (i : Int) (h : get_post_turn_filter_idx c = .ok i) : 2 ≤ i ∧ i < 256 := by
  cases hc : is_chi c
  · cases hp : is_pon c
    · cases hm : is_minkan c
      · rw [post_other c hc hp hm] at h; simp at h
      · rw [post_minkan c hc hp hm] at h
        simp only [Except.ok.injEq] at h
        omega
    · rcases post_pon c hc hp with h' | ⟨_, h'⟩
      · rw [h'] at h
        simp only [Except.ok.injEq] at h
        split at h <;> omega
      · have p1 := pattern_pon_color c
        rw [h'] at h
        simp only [Except.ok.injEq] at h
        omega
  · by_cases hr : redHandChi c
    · rw [post_chi_red c hr] at h
      simp only [Except.ok.injEq] at h
      have p1 : (pattern_chi c).color ≤ 3 := by rw [pattern_chi_color]; omega
      have p2 : (pattern_chi c).number < 7 := by rw [pattern_chi_number]; omega
      have p3 : (pattern_chi c).which < 3 := by rw [pattern_chi_which]; omega
      omega
    · rw [post_chi_plain c hc hr] at h
      simp only [Except.ok.injEq] at h
      omega

theorem during_bounds (c i : Nat) (h : get_during_turn_filter_idx c = .ok i) : 3 ≤ i ∧ i < 128 := by
  cases ha : is_ankan c
  · cases hk : is_kakan c
    · rw [during_other c ha hk] at h; simp at h
    · rw [during_kakan c hk] at h
      simp only [Except.ok.injEq] at h
      omega
  · rw [during_ankan c ha] at h
    simp only [Except.ok.injEq] at h
    omega

end Code
end MJ
