import Verif.Proofs.NakiView
/-!
Properties C01-C08: the meld codec.
-/
namespace MJ
open Spec Code

set_option synthInstance.maxSize 2000
set_option synthInstance.maxHeartbeats 200000

/-! ## C01 -/

/-- Chi codes round-trip.  All constructor arguments are covered: three suits,
seven lowest numbers, three positions, and a red flag that is only set when the
run contains the five. -/
theorem C01_chi_roundtrip (color number which : Nat) (red : Bool)
    (hc : color < 3) (hn : number < 7) (hw : which < 3)
    (hr : red = true → 2 ≤ number ∧ number ≤ 4) :
    ∃ n, Naki.from_chi_info color number which red = .ok n ∧
      (pattern_chi n.naki_code).color = color ∧
      (pattern_chi n.naki_code).number = number ∧
      (pattern_chi n.naki_code).which = which ∧
      (pattern_chi n.naki_code).has_red = red ∧
      from_who n.naki_code = 3 ∧
      onlyType n.naki_code .chi ∧
      (pattern_chi n.naki_code).exposed.map (· / 4) =
        [9 * color + number, 9 * color + number + 1, 9 * color + number + 2].eraseIdx which ∧
      (pattern_chi n.naki_code).acquired.map (· / 4) = some (9 * color + number + which) ∧
      (((pattern_chi n.naki_code).exposed ++ (pattern_chi n.naki_code).acquired.toList).any
        (· == redFive color)) = red := by
  have key : ∀ color < 3, ∀ number < 7, ∀ which < 3, ∀ red : Bool,
      (red = true → 2 ≤ number ∧ number ≤ 4) →
      (red && decide (6 ≤ number)) = false ∧
      (pattern_chi (chiInfo color number which red)).color = color ∧ (pattern_chi (chiInfo color number which red)).number = number ∧
      (pattern_chi (chiInfo color number which red)).which = which ∧ (pattern_chi (chiInfo color number which red)).has_red = red ∧ from_who (chiInfo color number which red) = 3 ∧
      onlyType (chiInfo color number which red) .chi ∧
      (pattern_chi (chiInfo color number which red)).exposed.map (· / 4) =
        [9 * color + number, 9 * color + number + 1, 9 * color + number + 2].eraseIdx which ∧
      (pattern_chi (chiInfo color number which red)).acquired.map (· / 4) = some (9 * color + number + which) ∧
      (((pattern_chi (chiInfo color number which red)).exposed ++ (pattern_chi (chiInfo color number which red)).acquired.toList).any
        (· == redFive color)) = red := by decide +kernel
  obtain ⟨h0, h⟩ := key color hc number hn which hw red hr
  refine ⟨Naki.raw (chiInfo color number which red), ?_, h⟩
  simp [Naki.from_chi_info, h0]

example : (0 < 3 ∧ 2 < 7 ∧ 1 < 3 ∧ (true = true → 2 ≤ 2 ∧ 2 ≤ 4)) ∧
    Naki.from_chi_info 0 2 1 true = .ok (Naki.raw 0x1C2F) := by decide

/-! ## C02 -/

theorem ponInfo_mod (tile which : Nat) (red : Bool) (src : Nat) :
    ponInfo tile which red src = ponInfo tile which red (src % 4) := by
  simp only [ponInfo, m3, Nat.mod_mod]

/-- Pon codes round-trip, for every source seat. -/
theorem C02_pon_roundtrip (tile which src : Nat) (red : Bool)
    (ht : tile < 34) (hw : which < 2) (hr : red = true → tile < 27 ∧ tile % 9 = 4) :
    ∃ n, Naki.from_pon_info tile which red src = .ok n ∧
      (pattern_pon n.naki_code).color = tile / 9 ∧
      (pattern_pon n.naki_code).number = tile % 9 ∧
      (pattern_pon n.naki_code).which = which ∧
      (pattern_pon n.naki_code).has_red = red ∧
      from_who n.naki_code = src % 4 ∧
      onlyType n.naki_code .pon ∧
      (∃ a, (pattern_pon n.naki_code).acquired = some a ∧
        IsCopies 3 tile (a :: (pattern_pon n.naki_code).exposed)) := by
  have key : ∀ tile < 34, ∀ which < 2, ∀ red : Bool, (red = true → tile < 27 ∧ tile % 9 = 4) →
      ∀ src < 4,
      (pattern_pon (ponInfo tile which red src)).color = tile / 9 ∧ (pattern_pon (ponInfo tile which red src)).number = tile % 9 ∧
      (pattern_pon (ponInfo tile which red src)).which = which ∧ (pattern_pon (ponInfo tile which red src)).has_red = red ∧ from_who (ponInfo tile which red src) = src ∧
      onlyType (ponInfo tile which red src) .pon ∧
      ((pattern_pon (ponInfo tile which red src)).acquired.isSome = true ∧
        ((pattern_pon (ponInfo tile which red src)).acquired.toList ++ (pattern_pon (ponInfo tile which red src)).exposed).length = 3 ∧
        ((pattern_pon (ponInfo tile which red src)).acquired.toList ++ (pattern_pon (ponInfo tile which red src)).exposed).Nodup ∧
        ∀ t ∈ ((pattern_pon (ponInfo tile which red src)).acquired.toList ++ (pattern_pon (ponInfo tile which red src)).exposed), t / 4 = tile) := by
    decide +kernel
  obtain ⟨h1, h2, h3, h4, h5, h6, h7, h8⟩ := key tile ht which hw red hr (src % 4) (by omega)
  rw [← ponInfo_mod] at h1 h2 h3 h4 h5 h6 h7 h8
  refine ⟨Naki.raw (ponInfo tile which red src), ?_, h1, h2, h3, h4, h5, h6, ?_⟩
  · have : which = 0 ∨ which = 1 := by omega
    simp [Naki.from_pon_info, this]
  · obtain ⟨a, ha⟩ := Option.isSome_iff_exists.1 h7
    refine ⟨a, ha, ?_⟩
    rw [ha] at h8
    simpa [IsCopies, Naki.raw] using h8

example : Naki.from_pon_info 13 1 true 6 = .ok (Naki.raw 0x506A) := by decide

/-! ## C03 -/

theorem minkanInfo_mod (tile src which : Nat) :
    minkanInfo tile src which = minkanInfo tile (src % 4) which := by
  simp only [minkanInfo, m3, Nat.mod_mod]

/-- Added kans round-trip. -/
theorem C03_kakan_roundtrip (tile which : Nat) (ht : tile < 34) (hw : which < 2) :
    ∃ n, Naki.from_kakan_info tile which = .ok n ∧
      (pattern_kakan n.naki_code).color = tile / 9 ∧
      (pattern_kakan n.naki_code).number = tile % 9 ∧
      (pattern_kakan n.naki_code).which = which ∧
      onlyType n.naki_code .kakan ∧
      (∃ t, (pattern_kakan n.naki_code).exposed = [t] ∧ t / 4 = tile ∧
        (IsRed t ↔ tile < 27 ∧ tile % 9 = 4 ∧ which = 0)) ∧
      (pattern_kakan n.naki_code).acquired = none := by
  have key : ∀ tile < 34, ∀ which < 2,
      (pattern_kakan (kakanInfo tile which)).color = tile / 9 ∧ (pattern_kakan (kakanInfo tile which)).number = tile % 9 ∧
      (pattern_kakan (kakanInfo tile which)).which = which ∧ onlyType (kakanInfo tile which) .kakan ∧
      (pattern_kakan (kakanInfo tile which)).exposed = [tile * 4 + (if tile < 27 ∧ tile % 9 = 4 ∧ which = 0 then 0 else 1)] ∧
      (pattern_kakan (kakanInfo tile which)).acquired = none := by decide +kernel
  obtain ⟨h1, h2, h3, h4, h5, h6⟩ := key tile ht which hw
  refine ⟨Naki.raw (kakanInfo tile which), ?_, h1, h2, h3, h4, ⟨_, h5, ?_, ?_⟩, h6⟩
  · have : which = 0 ∨ which = 1 := by omega
    simp [Naki.from_kakan_info, this]
  · split <;> omega
  · simp only [IsRed, redFive]
    split <;> rename_i h
    · simp only [h, and_self, iff_true]
      exact ⟨tile / 9, by omega, by omega⟩
    · simp only [h, iff_false]
      rintro ⟨s, hs, e⟩
      omega

/-- Open kans round-trip, for every non-zero source seat. -/
theorem C03_minkan_roundtrip (tile src which : Nat) (ht : tile < 34) (hw : which < 2)
    (hs : src % 4 ≠ 0) :
    ∃ n, Naki.from_minkan_info tile src which = .ok n ∧
      (pattern_minkan n.naki_code).color = tile / 9 ∧
      (pattern_minkan n.naki_code).number = tile % 9 ∧
      (pattern_minkan n.naki_code).which = which ∧
      from_who n.naki_code = src % 4 ∧
      onlyType n.naki_code .minkan ∧
      (pattern_minkan n.naki_code).acquired = some (tile * 4 + which) ∧
      IsCopies 4 tile ((tile * 4 + which) :: (pattern_minkan n.naki_code).exposed) := by
  have key : ∀ tile < 34, ∀ which < 2, ∀ src < 4, src ≠ 0 →
      (pattern_minkan (minkanInfo tile src which)).color = tile / 9 ∧ (pattern_minkan (minkanInfo tile src which)).number = tile % 9 ∧
      (pattern_minkan (minkanInfo tile src which)).which = which ∧ from_who (minkanInfo tile src which) = src ∧ onlyType (minkanInfo tile src which) .minkan ∧
      (pattern_minkan (minkanInfo tile src which)).acquired = some (tile * 4 + which) ∧
      ((tile * 4 + which) :: (pattern_minkan (minkanInfo tile src which)).exposed).length = 4 ∧
      ((tile * 4 + which) :: (pattern_minkan (minkanInfo tile src which)).exposed).Nodup ∧
      ∀ t ∈ ((tile * 4 + which) :: (pattern_minkan (minkanInfo tile src which)).exposed), t / 4 = tile := by decide +kernel
  have h := key tile ht which hw (src % 4) (by omega) hs
  rw [← minkanInfo_mod] at h
  refine ⟨Naki.raw (minkanInfo tile src which), ?_, h⟩
  have : which = 0 ∨ which = 1 := by omega
  simp [Naki.from_minkan_info, this]

/-- Closed kans round-trip. -/
theorem C03_ankan_roundtrip (tile : Nat) (ht : tile < 34) :
    let c := (Naki.from_ankan_info tile).naki_code
    (pattern_ankan c).color = tile / 9 ∧ (pattern_ankan c).number = tile % 9 ∧ from_who c = 0 ∧
      onlyType c .ankan ∧ (pattern_ankan c).acquired = none ∧
      IsCopies 4 tile (pattern_ankan c).exposed := by
  have key : ∀ tile < 34,
      (pattern_ankan (ankanInfo tile)).color = tile / 9 ∧ (pattern_ankan (ankanInfo tile)).number = tile % 9 ∧ from_who (ankanInfo tile) = 0 ∧
      onlyType (ankanInfo tile) .ankan ∧ (pattern_ankan (ankanInfo tile)).acquired = none ∧
      (pattern_ankan (ankanInfo tile)).exposed.length = 4 ∧ (pattern_ankan (ankanInfo tile)).exposed.Nodup ∧
      ∀ t ∈ (pattern_ankan (ankanInfo tile)).exposed, t / 4 = tile := by decide +kernel
  exact key tile ht

example : Naki.from_minkan_info 4 7 0 = .ok (Naki.raw 0x1003) ∧ 7 % 4 ≠ 0 := by decide

/-! ## C04 -/

/-- The full statement fails: a code with bits 3 and 4 set satisfies both
`is_pon()` and `is_kakan()`. -/
theorem C04_classification_violated :
    ¬ ∀ c, (∃ n, Naki.mk' c = .ok n) → ∃ ty, onlyType c ty := by
  intro h
  obtain ⟨ty, h⟩ := h 0x18 ⟨_, rfl⟩
  revert h
  cases ty <;> decide

/-- Missing from the full statement: codes with bit 2 clear and both bits 3 and 4
set.  Every other code has exactly one type, or is rejected with ValueError; the
type is the one of the public bit layout; rejection happens iff the layout gives
no type. -/
theorem C04_classification_partial (c : Nat) :
    (∀ ty, meldType c = some ty → (∃ n, Naki.mk' c = .ok n ∧ n.naki_code = c) ∧
      (ty = .chi ∨ ¬ (c.testBit 3 = true ∧ c.testBit 4 = true) → onlyType c ty)) ∧
    (meldType c = none → Naki.mk' c = .error .value ∧
      is_chi c = false ∧ is_pon c = false ∧ is_kakan c = false ∧ is_minkan c = false ∧ is_ankan c = false) := by
  have e3 : c.testBit 3 = decide (c / 8 % 2 = 1) := by rw [Nat.testBit_eq_decide_div_mod_eq]
  have e4 : c.testBit 4 = decide (c / 16 % 2 = 1) := by rw [Nat.testBit_eq_decide_div_mod_eq]
  rw [meldType_eq, e3, e4]
  simp only [decide_eq_true_eq]
  have h1 := is_chi_iff c
  have h2 := is_pon_iff c
  have h3 := is_kakan_iff c
  have h4 := is_minkan_iff c
  have h5 := is_ankan_iff c
  unfold Naki.mk' clean onlyType
  revert h1 h2 h3 h4 h5
  cases is_chi c <;> cases is_pon c <;> cases is_kakan c <;> cases is_minkan c <;> cases is_ankan c <;>
    intro h1 h2 h3 h4 h5 <;> simp at h1 h2 h3 h4 h5 ⊢ <;> omega

example : meldType 0x20 = none ∧ meldType 0x1C2F = some .chi := by decide

/-! ## C05 -/

/-- Every accepted code decodes to tiles of the right shape for its type. -/
theorem C05_exposed_shape (c : Nat) (ex : List Nat) (acq : Option Nat)
    (h : get_exposed c = .ok (ex, acq)) :
    ∃ ty, meldType c = some ty ∧ Shape ty ex acq := by
  rw [meldType_eq]
  unfold get_exposed at h
  split at h <;> rename_i h1
  · simp only [h1, if_true]
    refine ⟨_, rfl, ?_⟩
    simp only [Except.ok.injEq, Prod.mk.injEq] at h
    obtain ⟨rfl, rfl⟩ := h
    rw [(pattern_chi_tiles c).1, (pattern_chi_tiles c).2]
    have hw : (pattern_chi c).which < 3 := by rw [pattern_chi_which]; omega
    have hn : (pattern_chi c).number < 7 := by rw [pattern_chi_number]; omega
    have hk : ∀ a x : Nat, (a * 4 + x % 4) / 4 = a := by omega
    generalize (pattern_chi c).which = w at hw
    have hm : ((pattern_chi c).color * 9 + (pattern_chi c).number) % 9 ≤ 6 := by omega
    have : w = 0 ∨ w = 1 ∨ w = 2 := by omega
    rcases this with rfl | rfl | rfl
    all_goals
      simp [Shape, chiTiles, List.eraseIdx, IsRun]
      refine ⟨(pattern_chi c).color * 9 + (pattern_chi c).number, hm, ?_⟩
      simp only [hk]
    · exact .refl _
    · exact .swap _ _ _
    · exact (List.Perm.swap _ _ _).trans ((List.Perm.swap _ _ _).cons _)
  split at h <;> rename_i h2
  · simp only [h1, h2, if_true, Bool.false_eq_true, if_false]
    refine ⟨_, rfl, ?_⟩
    simp only [Except.ok.injEq, Prod.mk.injEq] at h
    obtain ⟨rfl, rfl⟩ := h
    rw [(pattern_pon_tiles c).1, (pattern_pon_tiles c).2, ponTiles]
    have hw : (pattern_pon c).which < 3 := by rw [pattern_pon_which]; omega
    generalize (pattern_pon c).which = w at hw
    generalize (pattern_pon c).color * 9 + (pattern_pon c).number = k
    have hu := ponCopies_cases (c / 32 % 4) (by omega)
    generalize c / 32 % 4 = u at hu
    have : w = 0 ∨ w = 1 ∨ w = 2 := by omega
    rcases hu with ⟨rfl, e⟩ | ⟨rfl, e⟩ | ⟨rfl, e⟩ | ⟨rfl, e⟩ <;>
      rcases this with rfl | rfl | rfl <;>
      (simp [e, List.eraseIdx, Shape, IsCopies]; omega)
  split at h <;> rename_i h3
  · simp only [h1, h2, h3, if_true, Bool.false_eq_true, if_false]
    refine ⟨_, rfl, ?_⟩
    simp only [Except.ok.injEq, Prod.mk.injEq] at h
    obtain ⟨rfl, rfl⟩ := h
    rw [(pattern_kakan_tiles c).1, (pattern_kakan_tiles c).2]
    simp [Shape, IsCopies]
  split at h <;> rename_i h4
  · simp only [h1, h2, h3, h4, if_true, Bool.false_eq_true, if_false]
    refine ⟨_, rfl, ?_⟩
    simp only [Except.ok.injEq, Prod.mk.injEq] at h
    obtain ⟨rfl, rfl⟩ := h
    rw [(pattern_minkan_tiles c).1, (pattern_minkan_tiles c).2]
    have hw : (pattern_minkan c).which < 4 := by rw [pattern_minkan_which]; omega
    generalize (pattern_minkan c).which = w at hw
    generalize (pattern_minkan c).color * 9 + (pattern_minkan c).number = k
    have : w = 0 ∨ w = 1 ∨ w = 2 ∨ w = 3 := by omega
    rcases this with rfl | rfl | rfl | rfl <;>
      (simp [kanTiles, List.eraseIdx, Shape, IsCopies]; omega)
  split at h <;> rename_i h5
  · simp only [h1, h2, h3, h4, h5, if_true, Bool.false_eq_true, if_false]
    refine ⟨_, rfl, ?_⟩
    simp only [Except.ok.injEq, Prod.mk.injEq] at h
    obtain ⟨rfl, rfl⟩ := h
    rw [(pattern_ankan_tiles c).1, (pattern_ankan_tiles c).2]
    generalize (pattern_ankan c).color * 9 + (pattern_ankan c).number = k
    simp [kanTiles, Shape, IsCopies]
    omega
  · exact absurd h (by simp)

example : get_exposed 0x1C2F = .ok ([9, 16], some 13) := by decide

end MJ
