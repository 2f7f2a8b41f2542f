import Verif.Model.Naki
import Verif.Spec.Meld
import Verif.Proofs.Bits
/-!
Division/remainder form of the methods of `Naki`.
-/
namespace MJ
namespace Code

theorem m3 (c : Nat) : c &&& 3 = c % 4 := by
  simpa using and_mask c 0 2
theorem m4 (c : Nat) : c &&& 0x4 = (c / 4 % 2) * 4 := by simpa using and_mask c 2 1
theorem m8 (c : Nat) : c &&& 0x8 = (c / 8 % 2) * 8 := by simpa using and_mask c 3 1
theorem m10 (c : Nat) : c &&& 0x10 = (c / 16 % 2) * 16 := by simpa using and_mask c 4 1
theorem m3c (c : Nat) : c &&& 0b111100 = (c / 4 % 16) * 4 := by simpa using and_mask c 2 4
theorem m60 (c : Nat) : c &&& 0x60 = (c / 32 % 4) * 32 := by simpa using and_mask c 5 2
theorem m1f8 (c : Nat) : c &&& 0x1f8 = (c / 8 % 64) * 8 := by simpa using and_mask c 3 6
theorem m300 (c : Nat) : c &&& 0x300 = (c / 256 % 4) * 256 := by simpa using and_mask c 8 2
theorem s18 (c : Nat) : (c &&& 0x0018) >>> 3 = c / 8 % 4 := by simpa using and_mask_shr c 3 2
theorem s60 (c : Nat) : (c &&& 0x0060) >>> 5 = c / 32 % 4 := by simpa using and_mask_shr c 5 2
theorem s180 (c : Nat) : (c &&& 0x0180) >>> 7 = c / 128 % 4 := by simpa using and_mask_shr c 7 2
theorem sfc (c : Nat) : (c &&& 0xFC00) >>> 10 = c / 1024 % 64 := by simpa using and_mask_shr c 10 6
theorem sfe (c : Nat) : (c &&& 0xFE00) >>> 9 = c / 512 % 128 := by simpa using and_mask_shr c 9 7
theorem sff (c : Nat) : (c &&& 0xFF00) >>> 8 = c / 256 % 256 := by simpa using and_mask_shr c 8 8

/-! ### Classification -/

theorem from_who_eq (c : Nat) : from_who c = c % 4 := m3 c

theorem is_chi_iff (c : Nat) : is_chi c = true ↔ c / 4 % 2 = 1 := by
  simp only [is_chi, m4, bne_iff_ne]; omega
theorem is_pon_iff (c : Nat) : is_pon c = true ↔ c / 4 % 4 = 2 := by
  simp only [is_pon, is_chi, m4, m8, Bool.and_eq_true, Bool.not_eq_true', bne_eq_false_iff_eq,
    bne_iff_ne]; omega
theorem is_kakan_iff (c : Nat) : is_kakan c = true ↔ c / 4 % 2 = 0 ∧ c / 16 % 2 = 1 := by
  simp only [is_kakan, is_chi, m4, m10, Bool.and_eq_true, Bool.not_eq_true', bne_eq_false_iff_eq,
    bne_iff_ne]; omega
theorem is_minkan_iff (c : Nat) : is_minkan c = true ↔ c / 4 % 16 = 0 ∧ c % 4 ≠ 0 := by
  simp only [is_minkan, from_who_eq, m3c, Bool.and_eq_true, beq_iff_eq, bne_iff_ne]; omega
theorem is_ankan_iff (c : Nat) : is_ankan c = true ↔ c / 4 % 16 = 0 ∧ c % 4 = 0 := by
  simp only [is_ankan, from_who_eq, m3c, Bool.and_eq_true, beq_iff_eq]; omega

theorem is_chi_false (c : Nat) : is_chi c = false ↔ c / 4 % 2 = 0 := by
  rw [← Bool.not_eq_true, is_chi_iff]; omega
theorem is_pon_false (c : Nat) : is_pon c = false ↔ c / 4 % 4 ≠ 2 := by
  rw [← Bool.not_eq_true, is_pon_iff]
theorem is_kakan_false (c : Nat) : is_kakan c = false ↔ ¬ (c / 4 % 2 = 0 ∧ c / 16 % 2 = 1) := by
  rw [← Bool.not_eq_true, is_kakan_iff]
theorem is_minkan_false (c : Nat) : is_minkan c = false ↔ ¬ (c / 4 % 16 = 0 ∧ c % 4 ≠ 0) := by
  rw [← Bool.not_eq_true, is_minkan_iff]
theorem is_ankan_false (c : Nat) : is_ankan c = false ↔ ¬ (c / 4 % 16 = 0 ∧ c % 4 = 0) := by
  rw [← Bool.not_eq_true, is_ankan_iff]

open Spec in
theorem meldType_eq (c : Nat) : meldType c =
    if is_chi c then some .chi else if is_pon c then some .pon else if is_kakan c then some .kakan
    else if is_minkan c then some .minkan else if is_ankan c then some .ankan else none := by
  have e0 : c.testBit 0 = decide (c % 2 = 1) := by rw [Nat.testBit_eq_decide_div_mod_eq]; simp
  have e1 : c.testBit 1 = decide (c / 2 % 2 = 1) := by rw [Nat.testBit_eq_decide_div_mod_eq]
  have e2 : c.testBit 2 = decide (c / 4 % 2 = 1) := by rw [Nat.testBit_eq_decide_div_mod_eq]
  have e3 : c.testBit 3 = decide (c / 8 % 2 = 1) := by rw [Nat.testBit_eq_decide_div_mod_eq]
  have e4 : c.testBit 4 = decide (c / 16 % 2 = 1) := by rw [Nat.testBit_eq_decide_div_mod_eq]
  have e5 : c.testBit 5 = decide (c / 32 % 2 = 1) := by rw [Nat.testBit_eq_decide_div_mod_eq]
  simp only [meldType, e0, e1, e2, e3, e4, e5, Bool.or_eq_true, decide_eq_true_eq, is_chi_iff,
    is_pon_iff, is_kakan_iff, is_minkan_iff, is_ankan_iff]
  repeat' split
  all_goals first | rfl | (exfalso; omega)

/-! ### Patterns -/

theorem pattern_chi_color (c : Nat) : (pattern_chi c).color = c / 1024 % 64 / 3 / 7 := by
  simp only [pattern_chi, sfc]
theorem pattern_chi_number (c : Nat) : (pattern_chi c).number = c / 1024 % 64 / 3 % 7 := by
  simp only [pattern_chi, sfc]
theorem pattern_chi_which (c : Nat) : (pattern_chi c).which = c / 1024 % 64 % 3 := by
  simp only [pattern_chi, sfc]

/-- the three tiles of a chi in increasing order -/
def chiTiles (c : Nat) : List Nat :=
  [ ((pattern_chi c).color * 9 + (pattern_chi c).number) * 4 + c / 8 % 4,
    ((pattern_chi c).color * 9 + (pattern_chi c).number + 1) * 4 + c / 32 % 4,
    ((pattern_chi c).color * 9 + (pattern_chi c).number + 2) * 4 + c / 128 % 4 ]

theorem pattern_chi_tiles (c : Nat) :
    (pattern_chi c).exposed = (chiTiles c).eraseIdx (pattern_chi c).which ∧
    (pattern_chi c).acquired = (chiTiles c)[(pattern_chi c).which]? := by
  simp only [pattern_chi, chiTiles, sfc, s18, s60, s180, Nat.mul_comm 9, Nat.add_zero, and_self]

theorem pattern_chi_red (c : Nat) : (pattern_chi c).has_red = true ↔
    ((pattern_chi c).number = 4 ∧ c / 8 % 4 = 0) ∨
    ((pattern_chi c).number = 3 ∧ c / 32 % 4 = 0) ∨
    ((pattern_chi c).number = 2 ∧ c / 128 % 4 = 0) := by
  have hc : (pattern_chi c).has_red = (chiTiles c).contains ((pattern_chi c).color * 36 + 16) := by
    simp only [chiTiles, pattern_chi, sfc, s18, s60, s180, Nat.mul_comm 9, Nat.add_zero]
  rw [hc]
  simp only [chiTiles, List.contains_cons, List.contains_nil, Bool.or_false, Bool.or_eq_true,
    beq_iff_eq]
  have hn : (pattern_chi c).number < 7 := by rw [pattern_chi_number]; omega
  omega

theorem pattern_pon_color (c : Nat) : (pattern_pon c).color = c / 512 % 128 / 3 / 9 := by
  simp only [pattern_pon, sfe]
theorem pattern_pon_number (c : Nat) : (pattern_pon c).number = c / 512 % 128 / 3 % 9 := by
  simp only [pattern_pon, sfe]
theorem pattern_pon_which (c : Nat) : (pattern_pon c).which = c / 512 % 128 % 3 := by
  simp only [pattern_pon, sfe]

/-- the three copies (0-3) used by a pon whose unused copy is `u` -/
def ponCopies (u : Nat) : List Nat := (List.range 4).filter (fun k => k != u)

theorem ponCopies_cases (u : Nat) (h : u < 4) :
    (u = 0 ∧ ponCopies u = [1, 2, 3]) ∨ (u = 1 ∧ ponCopies u = [0, 2, 3]) ∨
    (u = 2 ∧ ponCopies u = [0, 1, 3]) ∨ (u = 3 ∧ ponCopies u = [0, 1, 2]) := by
  have : u = 0 ∨ u = 1 ∨ u = 2 ∨ u = 3 := by omega
  rcases this with rfl | rfl | rfl | rfl <;> decide

/-- the three tiles of a pon in increasing order -/
def ponTiles (c : Nat) : List Nat :=
  (ponCopies (c / 32 % 4)).map (fun k => ((pattern_pon c).color * 9 + (pattern_pon c).number) * 4 + k)

theorem pattern_pon_tiles (c : Nat) :
    (pattern_pon c).exposed = (ponTiles c).eraseIdx (pattern_pon c).which ∧
    (pattern_pon c).acquired = (ponTiles c)[(pattern_pon c).which]? := by
  simp only [pattern_pon, ponTiles, ponCopies, sfe, s60, Nat.mul_comm 9, and_self]

theorem pattern_pon_red (c : Nat) : (pattern_pon c).has_red = true ↔
    (pattern_pon c).color < 3 ∧ (pattern_pon c).number = 4 ∧ c / 32 % 4 ≠ 0 := by
  have hc : (pattern_pon c).has_red = (decide ((pattern_pon c).color < 3) &&
      (ponTiles c).contains ((pattern_pon c).color * 36 + 16)) := by
    simp only [pattern_pon, ponTiles, ponCopies, sfe, s60, Nat.mul_comm 9]
  rw [hc, ponTiles]
  have hn : (pattern_pon c).number < 9 := by rw [pattern_pon_number]; omega
  rcases ponCopies_cases (c / 32 % 4) (by omega) with ⟨h, e⟩ | ⟨h, e⟩ | ⟨h, e⟩ | ⟨h, e⟩ <;>
    (rw [e]; simp [h]; omega)

theorem pattern_kakan_color (c : Nat) : (pattern_kakan c).color = c / 512 % 128 / 3 / 9 := by
  simp only [pattern_kakan, sfe]
theorem pattern_kakan_number (c : Nat) : (pattern_kakan c).number = c / 512 % 128 / 3 % 9 := by
  simp only [pattern_kakan, sfe]
theorem pattern_kakan_which (c : Nat) : (pattern_kakan c).which = c / 512 % 128 % 3 := by
  simp only [pattern_kakan, sfe]
theorem pattern_kakan_red (c : Nat) : (pattern_kakan c).has_red = true ↔
    (pattern_kakan c).number = 4 ∧ (pattern_kakan c).color ≠ 3 := by
  simp [pattern_kakan]
theorem pattern_kakan_tiles (c : Nat) :
    (pattern_kakan c).exposed =
      [((pattern_kakan c).color * 9 + (pattern_kakan c).number) * 4 + c / 32 % 4] ∧
    (pattern_kakan c).acquired = none := by
  simp only [pattern_kakan, sfe, s60, Nat.mul_comm 9, and_self]

theorem pattern_minkan_color (c : Nat) : (pattern_minkan c).color = c / 256 % 256 / 4 / 9 := by
  simp only [pattern_minkan, sff]
theorem pattern_minkan_number (c : Nat) : (pattern_minkan c).number = c / 256 % 256 / 4 % 9 := by
  simp only [pattern_minkan, sff]
theorem pattern_minkan_which (c : Nat) : (pattern_minkan c).which = c / 256 % 256 % 4 := by
  simp only [pattern_minkan, sff]
theorem pattern_minkan_red (c : Nat) : (pattern_minkan c).has_red = true ↔
    (pattern_minkan c).number = 4 ∧ (pattern_minkan c).color ≠ 3 := by
  simp [pattern_minkan]

/-- four tiles of one kind -/
def kanTiles (k : Nat) : List Nat := [k * 4, k * 4 + 1, k * 4 + 2, k * 4 + 3]

theorem pattern_minkan_tiles (c : Nat) :
    (pattern_minkan c).exposed =
      (kanTiles ((pattern_minkan c).color * 9 + (pattern_minkan c).number)).eraseIdx
        (pattern_minkan c).which ∧
    (pattern_minkan c).acquired =
      (kanTiles ((pattern_minkan c).color * 9 + (pattern_minkan c).number))[(pattern_minkan c).which]? := by
  simp only [pattern_minkan, kanTiles, sff, Nat.mul_comm 9]
  constructor <;> rfl

theorem pattern_ankan_color (c : Nat) : (pattern_ankan c).color = c / 256 % 256 / 4 / 9 := by
  simp only [pattern_ankan, sff]
theorem pattern_ankan_number (c : Nat) : (pattern_ankan c).number = c / 256 % 256 / 4 % 9 := by
  simp only [pattern_ankan, sff]
theorem pattern_ankan_red (c : Nat) : (pattern_ankan c).has_red = true ↔
    (pattern_ankan c).number = 4 ∧ (pattern_ankan c).color ≠ 3 := by
  simp [pattern_ankan]
theorem pattern_ankan_tiles (c : Nat) :
    (pattern_ankan c).exposed =
      kanTiles ((pattern_ankan c).color * 9 + (pattern_ankan c).number) ∧
    (pattern_ankan c).acquired = none := by
  simp only [pattern_ankan, kanTiles, sff, Nat.mul_comm 9, and_true]
  rfl

/-! ### Cleaning -/

theorem clean_ankan_eq (c : Nat) : clean_ankan c = c - c / 256 % 4 * 256 := by
  simp only [clean_ankan, clearBits]
  rw [show (3 <<< 8 : Nat) = 0x300 from rfl, m300]

theorem clean_minkan_eq (c : Nat) : clean_minkan c =
    if (pattern_minkan c).has_red = true ∧ (pattern_minkan c).which = 0 then c
    else c + 256 - (pattern_minkan c).which * 256 := by
  simp only [clean_minkan, Nat.shiftLeft_eq]
  cases h : (pattern_minkan c).has_red <;> by_cases hw : (pattern_minkan c).which = 0 <;> simp [hw]

theorem or_20 (x : Nat) (h : x / 32 % 4 = 0) : x ||| 0x20 = x + 32 := by
  have hx : x = x / 32 * 32 + x % 32 := by omega
  have h4 : x = x / 128 * 128 + x % 32 := by omega
  rw [h4]
  have := split_or 7 (x / 128) (x % 32) 0x20 (by omega) (by omega)
  simp only [show (2 : Nat) ^ 7 = 128 from rfl] at this
  rw [this]
  have h5 : (x % 32) ||| 0x20 = x % 32 + 32 := by
    have := or_shl 5 1 (x % 32) (by omega)
    simpa [Nat.add_comm] using this
  omega

theorem clean_kakan_eq (c : Nat) : clean_kakan c =
    if (pattern_kakan c).has_red = true ∧ (pattern_kakan c).which = 0 then c - c / 32 % 4 * 32
    else c - c / 32 % 4 * 32 + 32 := by
  simp only [clean_kakan, clearBits, m60]
  rw [or_20 (c - c / 32 % 4 * 32) (by omega)]
  cases h : (pattern_kakan c).has_red <;> by_cases hw : (pattern_kakan c).which = 0 <;> simp [hw]

theorem clean_pon_eq (c : Nat) : clean_pon c =
    if (pattern_pon c).has_red = true then
      c - c / 32 % 4 * 32 + 96 - ((pattern_pon c).which - 1) * 512
    else c - c / 32 % 4 * 32 := by
  simp only [clean_pon, clearBits, m60, Nat.shiftLeft_eq]
  cases h : (pattern_pon c).has_red <;> by_cases hw : (pattern_pon c).which = 0 <;> simp [hw]

theorem clean_chi_eq (c : Nat) : clean_chi c =
    if (pattern_chi c).has_red = true then
      c / 512 * 512 + c % 8 + 168 -
        (if (pattern_chi c).number = 4 then 8 else if (pattern_chi c).number = 3 then 32 else 128)
    else c / 512 * 512 + c % 8 + 168 := by
  simp only [clean_chi, clearBits]
  rw [show (0x18 ||| 0x60 ||| 0x180 : Nat) = 0x1f8 from rfl,
    show (0x8 ||| 0x20 ||| 0x80 : Nat) = 168 from rfl, m1f8]
  have e : c - c / 8 % 64 * 8 = c / 512 * 2 ^ 9 + c % 8 := by
    simp only [show (2 : Nat) ^ 9 = 512 from rfl]; omega
  have hlo : c % 8 < 8 := by omega
  rw [e, split_or 9 _ _ 168 (by omega) (by omega)]
  have h1 : ∀ x < 8, x ||| 168 = x + 168 := by decide
  have h8 : ∀ x < 8, (x + 168) ^^^ 8 = x + 168 - 8 := by decide
  have h32 : ∀ x < 8, (x + 168) ^^^ 32 = x + 168 - 32 := by decide
  have h128 : ∀ x < 8, (x + 168) ^^^ 128 = x + 168 - 128 := by decide
  rw [h1 _ hlo]
  cases h : (pattern_chi c).has_red
  · simp [Nat.add_assoc]
  · simp only [if_true]
    have hr := (pattern_chi_red c).1 h
    have hn : (pattern_chi c).number = 4 ∨ (pattern_chi c).number = 3 ∨ (pattern_chi c).number = 2 := by
      rcases hr with ⟨a, _⟩ | ⟨a, _⟩ | ⟨a, _⟩ <;> simp [a]
    rcases hn with hn | hn | hn <;> rw [hn]
    · rw [show (1 <<< (3 + (4 - 4) * 2) : Nat) = 8 from rfl, split_xor 9 _ _ 8 (by omega) (by omega), h8 _ hlo]
      simp only [if_true, show (2 : Nat) ^ 9 = 512 from rfl]; omega
    · rw [show (1 <<< (3 + (4 - 3) * 2) : Nat) = 32 from rfl, split_xor 9 _ _ 32 (by omega) (by omega), h32 _ hlo]
      simp only [show (2 : Nat) ^ 9 = 512 from rfl]; simp; omega
    · rw [show (1 <<< (3 + (4 - 2) * 2) : Nat) = 128 from rfl, split_xor 9 _ _ 128 (by omega) (by omega), h128 _ hlo]
      simp only [show (2 : Nat) ^ 9 = 512 from rfl]; simp; omega

end Code
end MJ
