import Verif.Proofs.NakiClean
import Verif.Spec.MeldObs
/-!
The observable view of a meld code in terms of its fields.
-/
namespace MJ
namespace Code
open Spec

theorem isRedB_iff (t : Nat) : isRedB t = true ↔ t = 16 ∨ t = 52 ∨ t = 88 := by
  simp [isRedB, or_assoc]

theorem isRedB_kind (k x : Nat) (hx : x < 4) :
    isRedB (k * 4 + x) = (decide (x = 0) && decide (k = 4 ∨ k = 13 ∨ k = 22)) := by
  rw [Bool.eq_iff_iff, isRedB_iff]; simp; omega

/-- `kinds that have a red five` -/
def fiveKind (k : Nat) : Bool := decide (k = 4 ∨ k = 13 ∨ k = 22)

theorem view_chi (c : Nat) (h : is_chi c = true) :
    view c = some
      { type := .chi, source := c % 4
        handKinds := [(pattern_chi c).color * 9 + (pattern_chi c).number,
            (pattern_chi c).color * 9 + (pattern_chi c).number + 1,
            (pattern_chi c).color * 9 + (pattern_chi c).number + 2].eraseIdx (pattern_chi c).which
        calledKind := some ((pattern_chi c).color * 9 + (pattern_chi c).number + (pattern_chi c).which)
        handRed := ((chiTiles c).eraseIdx (pattern_chi c).which).any isRedB
        calledRed := ((chiTiles c)[(pattern_chi c).which]?).any isRedB } := by
  have ht : meldType c = some .chi := by rw [meldType_eq]; simp [h]
  have hw : (pattern_chi c).which < 3 := by rw [pattern_chi_which]; omega
  have := pattern_chi_tiles c
  simp only [view, ht, get_exposed, h, if_true, this, viewOf, from_who_eq]
  congr 1
  have hk : ∀ a x : Nat, (a * 4 + x % 4) / 4 = a := by omega
  generalize hW : (pattern_chi c).which = w at hw
  have : w = 0 ∨ w = 1 ∨ w = 2 := by omega
  rcases this with rfl | rfl | rfl <;> simp [chiTiles, List.eraseIdx, hk]

theorem view_pon (c : Nat) (hc : is_chi c = false) (h : is_pon c = true) :
    view c = some
      { type := .pon, source := c % 4
        handKinds := [(pattern_pon c).color * 9 + (pattern_pon c).number,
            (pattern_pon c).color * 9 + (pattern_pon c).number]
        calledKind := some ((pattern_pon c).color * 9 + (pattern_pon c).number)
        handRed := decide (c / 32 % 4 ≠ 0 ∧ (pattern_pon c).which ≠ 0) &&
          fiveKind ((pattern_pon c).color * 9 + (pattern_pon c).number)
        calledRed := decide (c / 32 % 4 ≠ 0 ∧ (pattern_pon c).which = 0) &&
          fiveKind ((pattern_pon c).color * 9 + (pattern_pon c).number) } := by
  have ht : meldType c = some .pon := by rw [meldType_eq]; simp [hc, h]
  have hw : (pattern_pon c).which < 3 := by rw [pattern_pon_which]; omega
  have := pattern_pon_tiles c
  simp only [view, ht, get_exposed, hc, h, if_true, this, viewOf, from_who_eq, ponTiles, Bool.false_eq_true,
    if_false, fiveKind]
  congr 1
  generalize (pattern_pon c).color * 9 + (pattern_pon c).number = k
  have h0 := isRedB_kind k 0 (by omega)
  have h1 := isRedB_kind k 1 (by omega)
  have h2 := isRedB_kind k 2 (by omega)
  have h3 := isRedB_kind k 3 (by omega)
  have e0 : k * 4 / 4 = k := by omega
  have e1 : (k * 4 + 1) / 4 = k := by omega
  have e2 : (k * 4 + 2) / 4 = k := by omega
  have e3 : (k * 4 + 3) / 4 = k := by omega
  simp at h0 h1 h2 h3
  have hu := ponCopies_cases (c / 32 % 4) (by omega)
  generalize c / 32 % 4 = u at hu
  generalize (pattern_pon c).which = w at hw
  have : w = 0 ∨ w = 1 ∨ w = 2 := by omega
  rcases hu with ⟨rfl, e⟩ | ⟨rfl, e⟩ | ⟨rfl, e⟩ | ⟨rfl, e⟩ <;>
    rcases this with rfl | rfl | rfl <;> simp [e, List.eraseIdx, h0, h1, h2, h3, e0, e1, e2, e3]

theorem view_kakan (c : Nat) (hc : is_chi c = false) (hp : is_pon c = false) (h : is_kakan c = true) :
    view c = some
      { type := .kakan, source := c % 4
        handKinds := [(pattern_kakan c).color * 9 + (pattern_kakan c).number]
        calledKind := none
        handRed := decide (c / 32 % 4 = 0) &&
          fiveKind ((pattern_kakan c).color * 9 + (pattern_kakan c).number)
        calledRed := false } := by
  have ht : meldType c = some .kakan := by rw [meldType_eq]; simp [hc, hp, h]
  have := pattern_kakan_tiles c
  have hu : c / 32 % 4 < 4 := by omega
  simp only [view, ht, get_exposed, hc, hp, h, if_true, this, viewOf, from_who_eq, Bool.false_eq_true,
    if_false, fiveKind]
  congr 1
  simp [isRedB_kind _ _ hu]
  omega

theorem view_minkan (c : Nat) (hc : is_chi c = false) (hp : is_pon c = false) (hk : is_kakan c = false)
    (h : is_minkan c = true) :
    view c = some
      { type := .minkan, source := c % 4
        handKinds := List.replicate 3 ((pattern_minkan c).color * 9 + (pattern_minkan c).number)
        calledKind := some ((pattern_minkan c).color * 9 + (pattern_minkan c).number)
        handRed := decide ((pattern_minkan c).which ≠ 0) &&
          fiveKind ((pattern_minkan c).color * 9 + (pattern_minkan c).number)
        calledRed := decide ((pattern_minkan c).which = 0) &&
          fiveKind ((pattern_minkan c).color * 9 + (pattern_minkan c).number) } := by
  have ht : meldType c = some .minkan := by rw [meldType_eq]; simp [hc, hp, hk, h]
  have := pattern_minkan_tiles c
  have hw : (pattern_minkan c).which < 4 := by rw [pattern_minkan_which]; omega
  simp only [view, ht, get_exposed, hc, hp, hk, h, if_true, this, viewOf, from_who_eq, Bool.false_eq_true,
    if_false, fiveKind]
  congr 1
  generalize (pattern_minkan c).color * 9 + (pattern_minkan c).number = k
  have h0 := isRedB_kind k 0 (by omega)
  have h1 := isRedB_kind k 1 (by omega)
  have h2 := isRedB_kind k 2 (by omega)
  have h3 := isRedB_kind k 3 (by omega)
  have e0 : k * 4 / 4 = k := by omega
  have e1 : (k * 4 + 1) / 4 = k := by omega
  have e2 : (k * 4 + 2) / 4 = k := by omega
  have e3 : (k * 4 + 3) / 4 = k := by omega
  simp at h0 h1 h2 h3
  generalize (pattern_minkan c).which = w at hw
  have : w = 0 ∨ w = 1 ∨ w = 2 ∨ w = 3 := by omega
  rcases this with rfl | rfl | rfl | rfl <;>
    simp [kanTiles, List.eraseIdx, h0, h1, h2, h3, e0, e1, e2, e3, List.replicate]

theorem view_ankan (c : Nat) (hc : is_chi c = false) (hp : is_pon c = false) (hk : is_kakan c = false)
    (hm : is_minkan c = false) (h : is_ankan c = true) :
    view c = some
      { type := .ankan, source := c % 4
        handKinds := List.replicate 4 ((pattern_ankan c).color * 9 + (pattern_ankan c).number)
        calledKind := none
        handRed := fiveKind ((pattern_ankan c).color * 9 + (pattern_ankan c).number)
        calledRed := false } := by
  have ht : meldType c = some .ankan := by rw [meldType_eq]; simp [hc, hp, hk, hm, h]
  have := pattern_ankan_tiles c
  simp only [view, ht, get_exposed, hc, hp, hk, hm, h, if_true, this, viewOf, from_who_eq, Bool.false_eq_true,
    if_false, fiveKind]
  congr 1
  generalize (pattern_ankan c).color * 9 + (pattern_ankan c).number = k
  have h0 := isRedB_kind k 0 (by omega)
  have h1 := isRedB_kind k 1 (by omega)
  have h2 := isRedB_kind k 2 (by omega)
  have h3 := isRedB_kind k 3 (by omega)
  have e0 : k * 4 / 4 = k := by omega
  have e1 : (k * 4 + 1) / 4 = k := by omega
  have e2 : (k * 4 + 2) / 4 = k := by omega
  have e3 : (k * 4 + 3) / 4 = k := by omega
  simp at h0 h1 h2 h3
  simp [kanTiles, h0, h1, h2, h3, e0, e1, e2, e3, List.replicate]

end Code
end MJ
