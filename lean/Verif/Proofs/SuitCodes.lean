import Verif.Spec.Suits
import Verif.Proofs.NakiSame
import Verif.Proofs.NakiIdx
import Mathlib.Data.List.Perm.Subperm
/-!
Exchanging the suits: slots, tiles and meld codes.
-/
namespace MJ
open Code Spec
namespace Spec.Suits

/-! ### suits, slots, tiles -/

theorem three_ways {σ : Suits} (h : σ.Proper) : (σ.m = 0 ∧ σ.p = 1 ∧ σ.s = 2) ∨ (σ.m = 0 ∧ σ.p = 2 ∧ σ.s = 1) ∨
    (σ.m = 1 ∧ σ.p = 0 ∧ σ.s = 2) ∨ (σ.m = 1 ∧ σ.p = 2 ∧ σ.s = 0) ∨ (σ.m = 2 ∧ σ.p = 0 ∧ σ.s = 1) ∨
    (σ.m = 2 ∧ σ.p = 1 ∧ σ.s = 0) := by
  have := h.suits
  simpa using this

theorem on_lt {σ : Suits} (h : σ.Proper) {x : Nat} (hx : x < 3) : σ.on x < 3 := by
  have := three_ways h
  unfold on
  split
  · omega
  · split
    · omega
    · split <;> omega

theorem on_ge (σ : Suits) {x : Nat} (hx : 3 ≤ x) : σ.on x = x := by
  unfold on
  rw [if_neg (by omega), if_neg (by omega), if_neg (by omega)]

theorem on_vals (σ : Suits) : σ.on 0 = σ.m ∧ σ.on 1 = σ.p ∧ σ.on 2 = σ.s := ⟨rfl, rfl, rfl⟩

theorem on_inj {σ : Suits} (h : σ.Proper) {x y : Nat} : σ.on x = σ.on y ↔ x = y := by
  constructor
  · intro e
    by_cases hx : x < 3
    · by_cases hy : y < 3
      · have h3 : x = 0 ∨ x = 1 ∨ x = 2 := by omega
        have h4 : y = 0 ∨ y = 1 ∨ y = 2 := by omega
        obtain ⟨v0, v1, v2⟩ := on_vals σ
        have := three_ways h
        rcases h3 with rfl | rfl | rfl <;> rcases h4 with rfl | rfl | rfl <;> omega
      · have := on_lt h hx
        rw [on_ge σ (x := y) (by omega)] at e
        omega
    · by_cases hy : y < 3
      · have := on_lt h hy
        rw [on_ge σ (x := x) (by omega)] at e
        omega
      · rwa [on_ge σ (by omega), on_ge σ (by omega)] at e
  · rintro rfl; rfl

theorem on_surj {σ : Suits} (h : σ.Proper) {y : Nat} (hy : y < 3) : ∃ x < 3, σ.on x = y := by
  obtain ⟨v0, v1, v2⟩ := on_vals σ
  have := three_ways h
  by_cases h0 : σ.on 0 = y
  · exact ⟨0, by omega, h0⟩
  · by_cases h1 : σ.on 1 = y
    · exact ⟨1, by omega, h1⟩
    · exact ⟨2, by omega, by omega⟩

/-- the honours are exchanged, none is lost -/
theorem honours_perm {σ : Suits} (h : σ.Proper) : ((List.range 7).map σ.z).Perm (List.range 7) := by
  have hn : ((List.range 7).map σ.z).Nodup := by
    refine List.pairwise_map.2 (List.nodup_range.imp_of_mem ?_)
    intro a b ha hb hab e
    exact hab (h.apart a (List.mem_range.1 ha) b (List.mem_range.1 hb) e)
  refine (List.subperm_of_subset hn ?_).perm_of_length_le (by simp)
  intro x hx
  obtain ⟨y, hy, rfl⟩ := List.mem_map.1 hx
  exact List.mem_range.2 (h.honours y (List.mem_range.1 hy))

theorem z_surj {σ : Suits} (h : σ.Proper) {y : Nat} (hy : y < 7) : ∃ x < 7, σ.z x = y := by
  obtain ⟨x, hx, e⟩ := List.mem_map.1 ((honours_perm h).mem_iff.2 (List.mem_range.2 hy))
  exact ⟨x, List.mem_range.1 hx, e⟩

theorem slot_suit {σ : Suits} {s j : Nat} (hs : s < 3) (hj : j < 9) : σ.slot (9 * s + j) = 9 * σ.on s + j := by
  unfold slot
  rw [if_pos (by omega), show (9 * s + j) / 9 = s by omega, show (9 * s + j) % 9 = j by omega]

theorem slot_honour (σ : Suits) {x : Nat} (hx : x < 7) : σ.slot (27 + x) = 27 + σ.z x := by
  unfold slot
  rw [if_neg (by omega), if_pos (by omega), show 27 + x - 27 = x by omega]

theorem slot_red {σ : Suits} {s : Nat} : σ.slot (34 + s) = 34 + σ.on s := by
  unfold slot
  rw [if_neg (by omega), if_neg (by omega), show 34 + s - 34 = s by omega]

theorem slot_lt27 {σ : Suits} (h : σ.Proper) {k : Nat} : σ.slot k < 27 ↔ k < 27 := by
  unfold slot
  split
  · next hk => have := on_lt h (x := k / 9) (by omega); omega
  · split <;> omega

theorem slot_lt34 {σ : Suits} (h : σ.Proper) {k : Nat} : σ.slot k < 34 ↔ k < 34 := by
  unfold slot
  split
  · next hk => have := on_lt h (x := k / 9) (by omega); omega
  · split
    · have := h.honours (k - 27) (by omega); omega
    · omega

theorem slot_lt37 {σ : Suits} (h : σ.Proper) {k : Nat} : σ.slot k < 37 ↔ k < 37 := by
  unfold slot
  split
  · next hk => have := on_lt h (x := k / 9) (by omega); omega
  · split
    · have := h.honours (k - 27) (by omega); omega
    · by_cases hk : k - 34 < 3
      · have := on_lt h hk; omega
      · rw [on_ge σ (by omega)]; omega

theorem slot_inj {σ : Suits} (h : σ.Proper) {a b : Nat} : σ.slot a = σ.slot b ↔ a = b := by
  constructor
  · intro e
    have h1 := slot_lt27 h (k := a)
    have h2 := slot_lt27 h (k := b)
    have h3 := slot_lt34 h (k := a)
    have h4 := slot_lt34 h (k := b)
    by_cases ha : a < 27
    · have hb : b < 27 := h2.1 (e ▸ h1.2 ha)
      unfold slot at e
      rw [if_pos ha, if_pos hb] at e
      have e2 : σ.on (a / 9) = σ.on (b / 9) := by omega
      have := (on_inj h).1 e2
      omega
    · have hb : ¬ b < 27 := fun hb => ha (h1.1 (e ▸ h2.2 hb))
      by_cases ha' : a < 34
      · have hb' : b < 34 := h4.1 (e ▸ h3.2 ha')
        unfold slot at e
        rw [if_neg ha, if_neg hb, if_pos ha', if_pos hb'] at e
        have := h.apart (a - 27) (by omega) (b - 27) (by omega) (by omega)
        omega
      · have hb' : ¬ b < 34 := fun hb => ha' (h3.1 (e ▸ h4.2 hb))
        unfold slot at e
        rw [if_neg ha, if_neg hb, if_neg ha', if_neg hb'] at e
        have := (on_inj h (x := a - 34) (y := b - 34)).1 (by omega)
        omega
  · rintro rfl; rfl

theorem slot_surj {σ : Suits} (h : σ.Proper) {k : Nat} (hk : k < 37) : ∃ j < 37, σ.slot j = k := by
  by_cases h1 : k < 27
  · obtain ⟨x, hx, e⟩ := on_surj h (y := k / 9) (by omega)
    exact ⟨9 * x + k % 9, by omega, by rw [slot_suit hx (by omega), e]; omega⟩
  · by_cases h2 : k < 34
    · obtain ⟨x, hx, e⟩ := z_surj h (y := k - 27) (by omega)
      exact ⟨27 + x, by omega, by rw [slot_honour σ hx, e]; omega⟩
    · obtain ⟨x, hx, e⟩ := on_surj h (y := k - 34) (by omega)
      exact ⟨34 + x, by omega, by rw [slot_red, e]; omega⟩

theorem tile_suit {σ : Suits} {s j : Nat} (hs : s < 3) (hj : j < 36) : σ.tile (36 * s + j) = 36 * σ.on s + j := by
  unfold tile
  rw [if_pos (by omega), show (36 * s + j) / 36 = s by omega, show (36 * s + j) % 36 = j by omega]

theorem tile_honour (σ : Suits) {x j : Nat} (hx : x < 7) (hj : j < 4) : σ.tile (108 + 4 * x + j) = 108 + 4 * σ.z x + j := by
  unfold tile
  rw [if_neg (by omega), if_pos (by omega), show (108 + 4 * x + j - 108) / 4 = x by omega, show (108 + 4 * x + j) % 4 = j by omega]

theorem tile_lt108 {σ : Suits} (h : σ.Proper) {t : Nat} : σ.tile t < 108 ↔ t < 108 := by
  unfold tile
  split
  · have := on_lt h (x := t / 36) (by omega); omega
  · split <;> omega

theorem tile_lt {σ : Suits} (h : σ.Proper) {t : Nat} : σ.tile t < 136 ↔ t < 136 := by
  unfold tile
  split
  · have := on_lt h (x := t / 36) (by omega); omega
  · split
    · have := h.honours ((t - 108) / 4) (by omega); omega
    · omega

theorem tile_inj {σ : Suits} (h : σ.Proper) {a b : Nat} : σ.tile a = σ.tile b ↔ a = b := by
  constructor
  · intro e
    have h1 := tile_lt108 h (t := a)
    have h2 := tile_lt108 h (t := b)
    have h3 := tile_lt h (t := a)
    have h4 := tile_lt h (t := b)
    by_cases ha : a < 108
    · have hb : b < 108 := h2.1 (e ▸ h1.2 ha)
      unfold tile at e
      rw [if_pos ha, if_pos hb] at e
      have e2 : σ.on (a / 36) = σ.on (b / 36) := by omega
      have := (on_inj h).1 e2
      omega
    · have hb : ¬ b < 108 := fun hb => ha (h1.1 (e ▸ h2.2 hb))
      by_cases ha' : a < 136
      · have hb' : b < 136 := h4.1 (e ▸ h3.2 ha')
        unfold tile at e
        rw [if_neg ha, if_neg hb, if_pos ha', if_pos hb'] at e
        have := h.apart ((a - 108) / 4) (by omega) ((b - 108) / 4) (by omega) (by omega)
        omega
      · have hb' : ¬ b < 136 := fun hb => ha' (h3.1 (e ▸ h4.2 hb))
        unfold tile at e
        rwa [if_neg ha, if_neg hb, if_neg ha', if_neg hb'] at e
  · rintro rfl; rfl

theorem tile_copies {σ : Suits} {k j : Nat} (hk : k < 34) (hj : j < 4) : σ.tile (k * 4 + j) = σ.slot k * 4 + j := by
  by_cases h : k < 27
  · have e : k * 4 + j = 36 * (k / 9) + (k % 9 * 4 + j) := by omega
    rw [e, tile_suit (by omega) (by omega)]
    unfold slot
    rw [if_pos h]
    omega
  · obtain ⟨x, rfl⟩ : ∃ x, k = 27 + x := ⟨k - 27, by omega⟩
    rw [show (27 + x) * 4 + j = 108 + 4 * x + j by omega, tile_honour σ (by omega) hj, slot_honour σ (by omega)]
    omega

theorem tile_kind {σ : Suits} {t : Nat} (ht : t < 136) : σ.tile t / 4 = σ.slot (t / 4) := by
  have e : t = t / 4 * 4 + t % 4 := by omega
  have := tile_copies (σ := σ) (k := t / 4) (j := t % 4) (by omega) (by omega)
  rw [← e] at this
  omega

/-- the slot of a suit's tile, the slot of the same tile of another suit -/
theorem tile2idx_suit : ∀ x < 3, ∀ j < 36, tile2idx (36 * x + j) = if j = 16 then [9 * x + 4, 34 + x] else [9 * x + j / 4] := by
  decide +kernel

theorem tile2idx_honour : ∀ x < 7, ∀ j < 4, tile2idx (108 + 4 * x + j) = [27 + x] := by decide +kernel

theorem tile2idx_tile {σ : Suits} (h : σ.Proper) {t : Nat} (ht : t < 136) : tile2idx (σ.tile t) = (tile2idx t).map σ.slot := by
  by_cases h1 : t < 108
  · have e : t = 36 * (t / 36) + t % 36 := by omega
    have hs := on_lt h (x := t / 36) (by omega)
    rw [e, tile_suit (by omega) (by omega), tile2idx_suit _ hs _ (by omega), tile2idx_suit _ (by omega) _ (by omega)]
    split
    · rw [List.map_cons, List.map_cons, List.map_nil, slot_red, slot_suit (by omega) (by omega)]
    · rw [List.map_cons, List.map_nil, slot_suit (by omega) (by omega)]
  · have e : t = 108 + 4 * ((t - 108) / 4) + t % 4 := by omega
    have hz := h.honours ((t - 108) / 4) (by omega)
    rw [e, tile_honour σ (by omega) (by omega), tile2idx_honour _ hz _ (by omega), tile2idx_honour _ (by omega) _ (by omega)]
    rw [List.map_cons, List.map_nil, slot_honour σ (by omega)]

/-! ### codes -/

theorem code_chi (σ : Suits) {c : Nat} (h : is_chi c = true) :
    σ.code c = c % 1024 + 1024 * (21 * σ.on (c / 1024 / 21) + c / 1024 % 21) := by
  have ht : meldType c = some .chi := by rw [meldType_eq]; simp [h]
  simp only [code, ht]

theorem code_pon (σ : Suits) {c : Nat} (h0 : is_chi c = false) (h : is_pon c = true) :
    σ.code c = c % 512 + 512 * (3 * σ.slot (c / 512 / 3) + c / 512 % 3) := by
  have ht : meldType c = some .pon := by rw [meldType_eq]; simp [h, h0]
  simp only [code, ht]

theorem code_kakan (σ : Suits) {c : Nat} (h0 : is_chi c = false) (h1 : is_pon c = false) (h : is_kakan c = true) :
    σ.code c = c % 512 + 512 * (3 * σ.slot (c / 512 / 3) + c / 512 % 3) := by
  have ht : meldType c = some .kakan := by rw [meldType_eq]; simp [h, h0, h1]
  simp only [code, ht]

theorem code_kan (σ : Suits) {c : Nat} (h0 : is_chi c = false) (h1 : is_pon c = false) (h2 : is_kakan c = false)
    (h : is_minkan c = true ∨ is_ankan c = true) :
    σ.code c = c % 256 + 256 * (4 * σ.slot (c / 256 / 4) + c / 256 % 4) := by
  have ht : meldType c = some .minkan ∨ meldType c = some .ankan := by
    rw [meldType_eq]
    rcases h with h | h <;> simp only [h, h0, h1, h2] <;> cases is_minkan c <;> simp
  rcases ht with ht | ht <;> simp only [code, ht]

/-- what kind of meld it is, and from whom, is in the lowest bits -/
theorem code_low (σ : Suits) (c : Nat) : σ.code c % 256 = c % 256 := by
  unfold code
  split <;> omega

theorem code_is_chi (σ : Suits) (c : Nat) : is_chi (σ.code c) = is_chi c := by
  have := code_low σ c
  rw [Bool.eq_iff_iff, is_chi_iff, is_chi_iff]; omega
theorem code_is_pon (σ : Suits) (c : Nat) : is_pon (σ.code c) = is_pon c := by
  have := code_low σ c
  rw [Bool.eq_iff_iff, is_pon_iff, is_pon_iff]; omega
theorem code_is_kakan (σ : Suits) (c : Nat) : is_kakan (σ.code c) = is_kakan c := by
  have := code_low σ c
  rw [Bool.eq_iff_iff, is_kakan_iff, is_kakan_iff]; omega
theorem code_is_minkan (σ : Suits) (c : Nat) : is_minkan (σ.code c) = is_minkan c := by
  have := code_low σ c
  rw [Bool.eq_iff_iff, is_minkan_iff, is_minkan_iff]; omega
theorem code_is_ankan (σ : Suits) (c : Nat) : is_ankan (σ.code c) = is_ankan c := by
  have := code_low σ c
  rw [Bool.eq_iff_iff, is_ankan_iff, is_ankan_iff]; omega
theorem code_from_who (σ : Suits) (c : Nat) : from_who (σ.code c) = from_who c := by
  have := code_low σ c
  rw [from_who_eq, from_who_eq]; omega

theorem code_type (σ : Suits) (c : Nat) : meldType (σ.code c) = meldType c := by
  simp only [meldType_eq, code_is_chi, code_is_pon, code_is_kakan, code_is_minkan, code_is_ankan]

theorem code_inj {σ : Suits} (h : σ.Proper) {c d : Nat} : σ.code c = σ.code d ↔ c = d := by
  constructor
  · intro e
    have ht : meldType c = meldType d := by rw [← code_type σ c, e, code_type]
    unfold code at e
    rw [← ht] at e
    split at e
    · have e2 : σ.on (c / 1024 / 21) = σ.on (d / 1024 / 21) := by omega
      have := (on_inj h).1 e2
      omega
    · have e2 : σ.slot (c / 512 / 3) = σ.slot (d / 512 / 3) := by omega
      have := (slot_inj h).1 e2
      omega
    · have e2 : σ.slot (c / 512 / 3) = σ.slot (d / 512 / 3) := by omega
      have := (slot_inj h).1 e2
      omega
    · have e2 : σ.slot (c / 256 / 4) = σ.slot (d / 256 / 4) := by omega
      have := (slot_inj h).1 e2
      omega
    · have e2 : σ.slot (c / 256 / 4) = σ.slot (d / 256 / 4) := by omega
      have := (slot_inj h).1 e2
      omega
    · exact e
  · rintro rfl; rfl

/-- the kinds of well-formed codes; `e` exchanges them -/
theorem slot_split {σ : Suits} {k : Nat} (hk : k < 27) : σ.slot k % 9 = k % 9 ∧ σ.slot k / 9 = σ.on (k / 9) := by
  unfold slot
  rw [if_pos hk]
  omega

theorem slot_color {σ : Suits} (hσ : σ.Proper) {k : Nat} (hk : k < 34) : σ.slot k / 9 = σ.on (k / 9) := by
  by_cases h : k < 27
  · exact (slot_split h).2
  · have h1 := slot_lt27 hσ (k := k)
    have h2 := slot_lt34 hσ (k := k)
    rw [on_ge σ (by omega)]
    omega

/-- the places 0 to 8 within a suit or among the honours -/
theorem slot_number {σ : Suits} (hσ : σ.Proper) {k : Nat} (hk : k < 34) (hc : k / 9 < 3 ∨ σ.on (k / 9) < 3 ∨ σ.on (k / 9) ≠ 3) :
    σ.slot k % 9 = k % 9 := by
  refine (slot_split ?_).1
  rcases hc with h | h | h
  · omega
  · by_cases h3 : k / 9 < 3
    · omega
    · rw [on_ge σ (by omega)] at h; omega
  · by_cases h3 : k / 9 < 3
    · omega
    · rw [on_ge σ (by omega)] at h; omega

theorem on_three {σ : Suits} (h : σ.Proper) {x : Nat} (hx : x < 4) : σ.on x = 3 ↔ x = 3 := by
  have := on_inj h (x := x) (y := 3)
  rw [on_ge σ (x := 3) (by omega)] at this
  exact this

theorem on_lt3 {σ : Suits} (h : σ.Proper) {x : Nat} : σ.on x < 3 ↔ x < 3 := by
  constructor
  · intro e
    by_cases hx : x < 3
    · exact hx
    · rw [on_ge σ (by omega)] at e; exact e
  · exact on_lt h

theorem wf_code {σ : Suits} (h : σ.Proper) {c : Nat} (w : WellFormed c) : WellFormed (σ.code c) := by
  have ht := code_type σ c
  unfold WellFormed
  rw [ht]
  have w0 := w
  unfold WellFormed at w
  obtain ⟨w1, w2⟩ := w
  have hb : ∀ x : Nat, x.testBit 9 = decide (x / 512 % 2 = 1) := fun x => by rw [Nat.testBit_eq_decide_div_mod_eq]
  have hb4 : ∀ x : Nat, x.testBit 4 = decide (x / 16 % 2 = 1) := fun x => by rw [Nat.testBit_eq_decide_div_mod_eq]
  unfold code
  split at w2
  · next e =>
    rw [e]
    simp only [hb, decide_eq_false_iff_not] at w2 ⊢
    have := on_lt h (x := c / 1024 / 21) (by omega)
    omega
  · next e =>
    rw [e]
    simp only [hb4, decide_eq_false_iff_not] at w2 ⊢
    have := (slot_lt34 h (k := c / 512 / 3)).2 (by omega)
    omega
  · next e =>
    rw [e]
    simp only at w2 ⊢
    have := (slot_lt34 h (k := c / 512 / 3)).2 (by omega)
    omega
  · next e =>
    rw [e]
    simp only at w2 ⊢
    have := (slot_lt34 h (k := c / 256 / 4)).2 (by omega)
    omega
  · next e =>
    rw [e]
    simp only at w2 ⊢
    have := (slot_lt34 h (k := c / 256 / 4)).2 (by omega)
    omega
  · exact absurd w2 id

/-! ### the tiles of a meld -/

theorem map_eraseIdx {α β : Type} (f : α → β) : ∀ (l : List α) (i : Nat), (l.map f).eraseIdx i = (l.eraseIdx i).map f
  | [], i => by simp
  | _ :: _, 0 => rfl
  | a :: l, i + 1 => by simp [map_eraseIdx f l i]

theorem chi_high {σ : Suits} {c : Nat} (h : is_chi c = true) :
    σ.code c % 1024 = c % 1024 ∧ σ.code c / 1024 = 21 * σ.on (c / 1024 / 21) + c / 1024 % 21 := by
  rw [code_chi σ h]; omega

theorem chi_fields {σ : Suits} (hσ : σ.Proper) {c : Nat} (h : is_chi c = true) (w : WellFormed c) :
    (pattern_chi (σ.code c)).color = σ.on (pattern_chi c).color ∧ (pattern_chi (σ.code c)).number = (pattern_chi c).number ∧
    (pattern_chi (σ.code c)).which = (pattern_chi c).which ∧ (pattern_chi c).color < 3 ∧ (pattern_chi c).number < 7 := by
  obtain ⟨h1, h2⟩ := chi_high (σ := σ) h
  obtain ⟨_, _, w3⟩ := wf_chi c h w
  have hs := on_lt hσ (x := c / 1024 / 21) (by omega)
  simp only [pattern_chi_color, pattern_chi_number, pattern_chi_which, h2]
  have e : c / 1024 % 64 / 3 / 7 = c / 1024 / 21 := by omega
  rw [e]
  generalize σ.on (c / 1024 / 21) = x at hs
  generalize c / 1024 = y at w3
  have e1 : (21 * x + y % 21) % 64 = 21 * x + y % 21 := by omega
  have e2 : y % 64 = y := by omega
  rw [e1, e2]
  have e3 : (21 * x + y % 21) / 3 = 7 * x + y % 21 / 3 := by omega
  have e4 : y / 3 = 7 * (y / 21) + y % 21 / 3 := by omega
  rw [e3, e4]
  refine ⟨?_, ?_, ?_, ?_, ?_⟩ <;> omega

theorem chi_red {σ : Suits} (hσ : σ.Proper) {c : Nat} (h : is_chi c = true) (w : WellFormed c) :
    (pattern_chi (σ.code c)).has_red = (pattern_chi c).has_red := by
  obtain ⟨h1, _⟩ := chi_high (σ := σ) h
  rw [Bool.eq_iff_iff, pattern_chi_red, pattern_chi_red, (chi_fields hσ h w).2.1]
  have e1 : σ.code c / 8 % 4 = c / 8 % 4 := by omega
  have e2 : σ.code c / 32 % 4 = c / 32 % 4 := by omega
  have e3 : σ.code c / 128 % 4 = c / 128 % 4 := by omega
  rw [e1, e2, e3]

theorem tile_run {σ : Suits} {col n b : Nat} (hc : col < 3) (hn : n < 9) (hb : b < 4) :
    (σ.on col * 9 + n) * 4 + b = σ.tile ((col * 9 + n) * 4 + b) := by
  have e : (col * 9 + n) * 4 + b = 36 * col + (n * 4 + b) := by omega
  rw [e, tile_suit hc (by omega)]
  omega

theorem chi_tiles {σ : Suits} (hσ : σ.Proper) {c : Nat} (h : is_chi c = true) (w : WellFormed c) :
    chiTiles (σ.code c) = (chiTiles c).map σ.tile := by
  obtain ⟨h1, _⟩ := chi_high (σ := σ) h
  obtain ⟨f1, f2, _, f4, f5⟩ := chi_fields hσ h w
  have e1 : σ.code c / 8 % 4 = c / 8 % 4 := by omega
  have e2 : σ.code c / 32 % 4 = c / 32 % 4 := by omega
  have e3 : σ.code c / 128 % 4 = c / 128 % 4 := by omega
  simp only [chiTiles, f1, f2, e1, e2, e3, List.map_cons, List.map_nil]
  rw [tile_run f4 (by omega) (by omega), Nat.add_assoc (_ * 9), tile_run f4 (by omega) (by omega), Nat.add_assoc (_ * 9),
    tile_run f4 (by omega) (by omega), ← Nat.add_assoc, ← Nat.add_assoc]

/-- pons and added kans -/
theorem three_high {σ : Suits} {c : Nat} (h : σ.code c = c % 512 + 512 * (3 * σ.slot (c / 512 / 3) + c / 512 % 3)) :
    σ.code c % 512 = c % 512 ∧ σ.code c / 512 / 3 = σ.slot (c / 512 / 3) ∧ σ.code c / 512 % 3 = c / 512 % 3 := by
  rw [h]; omega

theorem three_fields {σ : Suits} (hσ : σ.Proper) {c : Nat} (h : σ.code c = c % 512 + 512 * (3 * σ.slot (c / 512 / 3) + c / 512 % 3))
    (hk : c / 512 / 3 < 34) :
    σ.code c / 512 % 128 / 3 / 9 = σ.on (c / 512 % 128 / 3 / 9) ∧ σ.code c / 512 % 128 / 3 % 9 = σ.slot (c / 512 / 3) % 9 ∧
    σ.code c / 512 % 128 % 3 = c / 512 % 128 % 3 ∧ c / 512 % 128 / 3 = c / 512 / 3 := by
  obtain ⟨_, h2, h3⟩ := three_high h
  have hs := (slot_lt34 hσ (k := c / 512 / 3)).2 hk
  have e1 : σ.code c / 512 % 128 = σ.code c / 512 := by omega
  have e2 : c / 512 % 128 = c / 512 := by omega
  rw [e1, e2, h2, h3, slot_color hσ hk]
  exact ⟨rfl, rfl, rfl, rfl⟩

theorem kind_eq {σ : Suits} (hσ : σ.Proper) {k : Nat} (hk : k < 34) : σ.on (k / 9) * 9 + σ.slot k % 9 = σ.slot k := by
  rw [← slot_color hσ hk]
  omega

theorem copies_kind {σ : Suits} (hσ : σ.Proper) {k : Nat} (hk : k < 34) (l : List Nat) (hl : ∀ j ∈ l, j < 4) :
    l.map (fun j => (σ.on (k / 9) * 9 + σ.slot k % 9) * 4 + j) = (l.map (fun j => (k / 9 * 9 + k % 9) * 4 + j)).map σ.tile := by
  rw [List.map_map]
  refine List.map_congr_left (fun j hj => ?_)
  have e : k / 9 * 9 + k % 9 = k := by omega
  simp only [Function.comp, kind_eq hσ hk, e]
  exact (tile_copies hk (hl j hj)).symm

/-- what makes a five a five -/
theorem five_suits {σ : Suits} (hσ : σ.Proper) {k : Nat} (hk : k < 34) :
    (σ.on (k / 9) < 3 ∧ σ.slot k % 9 = 4 ↔ k / 9 < 3 ∧ k % 9 = 4) := by
  rw [on_lt3 hσ]
  constructor <;> rintro ⟨h1, h2⟩ <;> have := slot_number hσ hk (.inl h1) <;> exact ⟨h1, by omega⟩

@[inherit_doc five_suits]
theorem five_suits' {σ : Suits} (hσ : σ.Proper) {k : Nat} (hk : k < 34) :
    (σ.slot k % 9 = 4 ∧ σ.on (k / 9) ≠ 3 ↔ k % 9 = 4 ∧ k / 9 ≠ 3) := by
  rw [Ne, on_three hσ (by omega)]
  constructor <;> rintro ⟨h1, h2⟩ <;> have := slot_number hσ hk (.inl (by omega)) <;> exact ⟨by omega, h2⟩

theorem pon_fields {σ : Suits} (hσ : σ.Proper) {c : Nat} (h0 : is_chi c = false) (h : is_pon c = true) (w : WellFormed c) :
    (pattern_pon (σ.code c)).color = σ.on (pattern_pon c).color ∧
    (pattern_pon (σ.code c)).which = (pattern_pon c).which ∧
    ponTiles (σ.code c) = (ponTiles c).map σ.tile ∧ (pattern_pon (σ.code c)).has_red = (pattern_pon c).has_red ∧
    (pattern_pon (σ.code c)).color * 9 + (pattern_pon (σ.code c)).number =
      σ.slot ((pattern_pon c).color * 9 + (pattern_pon c).number) := by
  obtain ⟨_, _, _, hk⟩ := wf_pon c h0 h w
  have hc := code_pon σ h0 h
  obtain ⟨f1, f2, f3, f4⟩ := three_fields hσ hc hk
  obtain ⟨l1, _, _⟩ := three_high hc
  have e5 : σ.code c / 32 % 4 = c / 32 % 4 := by omega
  have hcol : (pattern_pon c).color = c / 512 / 3 / 9 := by rw [pattern_pon_color, f4]
  have hnum : (pattern_pon c).number = c / 512 / 3 % 9 := by rw [pattern_pon_number, f4]
  have hcol' : (pattern_pon (σ.code c)).color = σ.on (c / 512 / 3 / 9) := by rw [pattern_pon_color, f1, f4]
  have hnum' : (pattern_pon (σ.code c)).number = σ.slot (c / 512 / 3) % 9 := by rw [pattern_pon_number, f2]
  refine ⟨by rw [hcol', hcol], by rw [pattern_pon_which, pattern_pon_which, f3], ?_, ?_, ?_⟩
  · simp only [ponTiles, hcol, hnum, hcol', hnum', e5]
    refine copies_kind hσ hk _ (fun j hj => ?_)
    have := (List.mem_filter.1 hj).1
    simpa using this
  · rw [Bool.eq_iff_iff, pattern_pon_red, pattern_pon_red, hcol, hnum, hcol', hnum', e5, ← and_assoc, five_suits hσ hk, and_assoc]
  · rw [hcol, hnum, hcol', hnum', kind_eq hσ hk]
    congr 1
    omega

theorem kakan_fields {σ : Suits} (hσ : σ.Proper) {c : Nat} (h0 : is_chi c = false) (h1 : is_pon c = false) (h : is_kakan c = true)
    (w : WellFormed c) : (pattern_kakan (σ.code c)).which = (pattern_kakan c).which ∧
    (pattern_kakan (σ.code c)).exposed = (pattern_kakan c).exposed.map σ.tile ∧
    (pattern_kakan (σ.code c)).has_red = (pattern_kakan c).has_red ∧
    (pattern_kakan (σ.code c)).color * 9 + (pattern_kakan (σ.code c)).number =
      σ.slot ((pattern_kakan c).color * 9 + (pattern_kakan c).number) ∧ (pattern_kakan c).color * 9 + (pattern_kakan c).number < 34 := by
  obtain ⟨_, _, hk⟩ := wf_kakan c h0 h1 h w
  have hc := code_kakan σ h0 h1 h
  obtain ⟨f1, f2, f3, f4⟩ := three_fields hσ hc hk
  obtain ⟨l1, _, _⟩ := three_high hc
  have e5 : σ.code c / 32 % 4 = c / 32 % 4 := by omega
  have hcol : (pattern_kakan c).color = c / 512 / 3 / 9 := by rw [pattern_kakan_color, f4]
  have hnum : (pattern_kakan c).number = c / 512 / 3 % 9 := by rw [pattern_kakan_number, f4]
  have hcol' : (pattern_kakan (σ.code c)).color = σ.on (c / 512 / 3 / 9) := by rw [pattern_kakan_color, f1, f4]
  have hnum' : (pattern_kakan (σ.code c)).number = σ.slot (c / 512 / 3) % 9 := by rw [pattern_kakan_number, f2]
  refine ⟨by rw [pattern_kakan_which, pattern_kakan_which, f3], ?_, ?_, ?_, ?_⟩
  · rw [(pattern_kakan_tiles _).1, (pattern_kakan_tiles _).1, hcol, hnum, hcol', hnum', e5]
    exact copies_kind hσ hk [c / 32 % 4] (by simp; omega)
  · rw [Bool.eq_iff_iff, pattern_kakan_red, pattern_kakan_red, hcol, hnum, hcol', hnum']
    exact five_suits' hσ hk
  · rw [hcol, hnum, hcol', hnum', kind_eq hσ hk]
    congr 1
    omega
  · rw [hcol, hnum]; omega

/-- open and closed kans -/
theorem four_high {σ : Suits} {c : Nat} (h : σ.code c = c % 256 + 256 * (4 * σ.slot (c / 256 / 4) + c / 256 % 4)) :
    σ.code c % 256 = c % 256 ∧ σ.code c / 256 / 4 = σ.slot (c / 256 / 4) ∧ σ.code c / 256 % 4 = c / 256 % 4 := by
  rw [h]; omega

theorem four_fields {σ : Suits} (hσ : σ.Proper) {c : Nat} (h : σ.code c = c % 256 + 256 * (4 * σ.slot (c / 256 / 4) + c / 256 % 4))
    (hk : c / 256 / 4 < 34) :
    σ.code c / 256 % 256 / 4 / 9 = σ.on (c / 256 % 256 / 4 / 9) ∧ σ.code c / 256 % 256 / 4 % 9 = σ.slot (c / 256 / 4) % 9 ∧
    σ.code c / 256 % 256 % 4 = c / 256 % 256 % 4 ∧ c / 256 % 256 / 4 = c / 256 / 4 := by
  obtain ⟨_, h2, h3⟩ := four_high h
  have hs := (slot_lt34 hσ (k := c / 256 / 4)).2 hk
  have e1 : σ.code c / 256 % 256 = σ.code c / 256 := by omega
  have e2 : c / 256 % 256 = c / 256 := by omega
  rw [e1, e2, h2, h3, slot_color hσ hk]
  exact ⟨rfl, rfl, rfl, rfl⟩

theorem kanTiles_slot {σ : Suits} {k : Nat} (hk : k < 34) : kanTiles (σ.slot k) = (kanTiles k).map σ.tile := by
  have h0 := tile_copies (σ := σ) hk (j := 0) (by omega)
  have h1 := tile_copies (σ := σ) hk (j := 1) (by omega)
  have h2 := tile_copies (σ := σ) hk (j := 2) (by omega)
  have h3 := tile_copies (σ := σ) hk (j := 3) (by omega)
  simp only [Nat.add_zero] at h0
  simp only [kanTiles, List.map_cons, List.map_nil, h0, h1, h2, h3]

theorem minkan_fields {σ : Suits} (hσ : σ.Proper) {c : Nat} (h0 : is_chi c = false) (h1 : is_pon c = false)
    (h2 : is_kakan c = false) (h : is_minkan c = true) (w : WellFormed c) :
    (pattern_minkan (σ.code c)).which = (pattern_minkan c).which ∧
    (pattern_minkan (σ.code c)).has_red = (pattern_minkan c).has_red ∧
    (pattern_minkan (σ.code c)).color * 9 + (pattern_minkan (σ.code c)).number =
      σ.slot ((pattern_minkan c).color * 9 + (pattern_minkan c).number) ∧
    (pattern_minkan c).color * 9 + (pattern_minkan c).number < 34 := by
  obtain ⟨_, _, hk⟩ := wf_minkan c h0 h1 h2 h w
  have hc := code_kan σ h0 h1 h2 (.inl h)
  obtain ⟨f1, f2, f3, f4⟩ := four_fields hσ hc hk
  have hcol : (pattern_minkan c).color = c / 256 / 4 / 9 := by rw [pattern_minkan_color, f4]
  have hnum : (pattern_minkan c).number = c / 256 / 4 % 9 := by rw [pattern_minkan_number, f4]
  have hcol' : (pattern_minkan (σ.code c)).color = σ.on (c / 256 / 4 / 9) := by rw [pattern_minkan_color, f1, f4]
  have hnum' : (pattern_minkan (σ.code c)).number = σ.slot (c / 256 / 4) % 9 := by rw [pattern_minkan_number, f2]
  refine ⟨by rw [pattern_minkan_which, pattern_minkan_which, f3], ?_, ?_, ?_⟩
  · rw [Bool.eq_iff_iff, pattern_minkan_red, pattern_minkan_red, hcol, hnum, hcol', hnum']
    exact five_suits' hσ hk
  · rw [hcol, hnum, hcol', hnum', kind_eq hσ hk]
    congr 1
    omega
  · rw [hcol, hnum]; omega

theorem ankan_fields {σ : Suits} (hσ : σ.Proper) {c : Nat} (h0 : is_chi c = false) (h1 : is_pon c = false)
    (h2 : is_kakan c = false) (h3 : is_minkan c = false) (h : is_ankan c = true) (w : WellFormed c) :
    (pattern_ankan (σ.code c)).color * 9 + (pattern_ankan (σ.code c)).number =
      σ.slot ((pattern_ankan c).color * 9 + (pattern_ankan c).number) ∧
    (pattern_ankan c).color * 9 + (pattern_ankan c).number < 34 := by
  obtain ⟨_, _, hk⟩ := wf_ankan c h0 h1 h2 h3 h w
  have hc := code_kan σ h0 h1 h2 (.inr h)
  obtain ⟨f1, f2, f3, f4⟩ := four_fields hσ hc hk
  have hcol : (pattern_ankan c).color = c / 256 / 4 / 9 := by rw [pattern_ankan_color, f4]
  have hnum : (pattern_ankan c).number = c / 256 / 4 % 9 := by rw [pattern_ankan_number, f4]
  have hcol' : (pattern_ankan (σ.code c)).color = σ.on (c / 256 / 4 / 9) := by rw [pattern_ankan_color, f1, f4]
  have hnum' : (pattern_ankan (σ.code c)).number = σ.slot (c / 256 / 4) % 9 := by rw [pattern_ankan_number, f2]
  refine ⟨?_, ?_⟩
  · rw [hcol, hnum, hcol', hnum', kind_eq hσ hk]
    congr 1
    omega
  · rw [hcol, hnum]; omega

/-- the type of a well-formed code -/
theorem wf_cases {c : Nat} (w : WellFormed c) : is_chi c = true ∨ (is_chi c = false ∧ is_pon c = true) ∨
    (is_chi c = false ∧ is_pon c = false ∧ is_kakan c = true) ∨
    (is_chi c = false ∧ is_pon c = false ∧ is_kakan c = false ∧ is_minkan c = true) ∨
    (is_chi c = false ∧ is_pon c = false ∧ is_kakan c = false ∧ is_minkan c = false ∧ is_ankan c = true) := by
  have h := w.2
  rw [meldType_eq] at h
  cases h1 : is_chi c <;> cases h2 : is_pon c <;> cases h3 : is_kakan c <;> cases h4 : is_minkan c <;> cases h5 : is_ankan c <;>
    simp [h1, h2, h3, h4, h5] at h ⊢

theorem exposed_code {σ : Suits} (hσ : σ.Proper) {c : Nat} (w : WellFormed c) {ex : List Nat} {acq : Option Nat}
    (h : get_exposed c = .ok (ex, acq)) : get_exposed (σ.code c) = .ok (ex.map σ.tile, acq.map σ.tile) := by
  unfold get_exposed at h ⊢
  simp only [code_is_chi, code_is_pon, code_is_kakan, code_is_minkan, code_is_ankan]
  rcases wf_cases w with h1 | ⟨h1, h2⟩ | ⟨h1, h2, h3⟩ | ⟨h1, h2, h3, h4⟩ | ⟨h1, h2, h3, h4, h5⟩
  · simp only [h1, if_true, Except.ok.injEq, Prod.mk.injEq] at h ⊢
    obtain ⟨rfl, rfl⟩ := h
    rw [(pattern_chi_tiles _).1, (pattern_chi_tiles _).2, (pattern_chi_tiles c).1, (pattern_chi_tiles c).2, chi_tiles hσ h1 w,
      (chi_fields hσ h1 w).2.2.1, map_eraseIdx, List.getElem?_map]
    exact ⟨rfl, rfl⟩
  · simp only [h1, h2, if_true, if_false, Bool.false_eq_true, Except.ok.injEq, Prod.mk.injEq] at h ⊢
    obtain ⟨rfl, rfl⟩ := h
    obtain ⟨_, f3, f4, _⟩ := pon_fields hσ h1 h2 w
    rw [(pattern_pon_tiles _).1, (pattern_pon_tiles _).2, (pattern_pon_tiles c).1, (pattern_pon_tiles c).2, f3, f4,
      map_eraseIdx, List.getElem?_map]
    exact ⟨rfl, rfl⟩
  · simp only [h1, h2, h3, if_true, if_false, Bool.false_eq_true, Except.ok.injEq, Prod.mk.injEq] at h ⊢
    obtain ⟨rfl, rfl⟩ := h
    obtain ⟨_, f2, _⟩ := kakan_fields hσ h1 h2 h3 w
    rw [f2, (pattern_kakan_tiles _).2, (pattern_kakan_tiles c).2]
    exact ⟨rfl, rfl⟩
  · simp only [h1, h2, h3, h4, if_true, if_false, Bool.false_eq_true, Except.ok.injEq, Prod.mk.injEq] at h ⊢
    obtain ⟨rfl, rfl⟩ := h
    obtain ⟨f1, _, f3, f4⟩ := minkan_fields hσ h1 h2 h3 h4 w
    rw [(pattern_minkan_tiles _).1, (pattern_minkan_tiles _).2, (pattern_minkan_tiles c).1, (pattern_minkan_tiles c).2, f1, f3,
      kanTiles_slot f4, map_eraseIdx, List.getElem?_map]
    exact ⟨rfl, rfl⟩
  · simp only [h1, h2, h3, h4, h5, if_true, if_false, Bool.false_eq_true, Except.ok.injEq, Prod.mk.injEq] at h ⊢
    obtain ⟨rfl, rfl⟩ := h
    obtain ⟨f1, f2⟩ := ankan_fields hσ h1 h2 h3 h4 h5 w
    rw [(pattern_ankan_tiles _).1, (pattern_ankan_tiles _).2, (pattern_ankan_tiles c).1, (pattern_ankan_tiles c).2, f1,
      kanTiles_slot f2]
    exact ⟨rfl, rfl⟩

/-! ### canonical codes -/

theorem clean_code {σ : Suits} (hσ : σ.Proper) {c k : Nat} (w : WellFormed c) (h : clean c = .ok k) :
    clean (σ.code c) = .ok (σ.code k) := by
  obtain ⟨t1, t2, t3, t4, t5, _⟩ := clean_class c k h
  rw [clean_ok_iff] at h ⊢
  simp only [code_is_chi, code_is_pon, code_is_kakan, code_is_minkan, code_is_ankan]
  rcases wf_cases w with h1 | ⟨h1, h2⟩ | ⟨h1, h2, h3⟩ | ⟨h1, h2, h3, h4⟩ | ⟨h1, h2, h3, h4, h5⟩
  · have hk : k = clean_chi c := by simpa [h1] using h
    refine .inl ⟨h1, ?_⟩
    rw [h1] at t1
    obtain ⟨l1, l2⟩ := chi_high (σ := σ) h1
    obtain ⟨_, w2, w3⟩ := wf_chi c h1 w
    have e := clean_chi_eq c
    rw [← hk] at e
    have e' := clean_chi_eq (σ.code c)
    rw [chi_red hσ h1 w, (chi_fields hσ h1 w).2.1] at e'
    rw [e', code_chi σ t1]
    have hb : k / 1024 = c / 1024 := by have := (clean_chi_bits c).1; rw [← hk] at this; omega
    rw [hb]
    generalize 21 * σ.on (c / 1024 / 21) + c / 1024 % 21 = x at l2 ⊢
    have e8 : σ.code c / 512 = 2 * x := by omega
    have e9 : σ.code c % 8 = c % 8 := by omega
    rw [e8, e9]
    split at e
    · next hr =>
      rw [if_pos hr]
      split at e
      · next hn => rw [if_pos hn]; omega
      · next hn =>
        rw [if_neg hn]
        split at e
        · next hn' => rw [if_pos hn']; omega
        · next hn' => rw [if_neg hn']; omega
    · next hr => rw [if_neg hr]; omega
  · have hk : k = clean_pon c := by simpa [h1, h2] using h
    refine .inr (.inl ⟨h1, h2, ?_⟩)
    rw [h1] at t1
    rw [h2] at t2
    obtain ⟨_, _, w3, w4⟩ := wf_pon c h1 h2 w
    have hc := code_pon σ h1 h2
    obtain ⟨l1, l2, l3⟩ := three_high hc
    obtain ⟨_, f3, _, f5, _⟩ := pon_fields hσ h1 h2 w
    have e := clean_pon_eq c
    rw [← hk] at e
    have e' := clean_pon_eq (σ.code c)
    rw [f5, f3] at e'
    rw [e', code_pon σ t1 t2]
    have hp : (pattern_pon c).which = c / 512 % 3 := by rw [pattern_pon_which]; omega
    rw [hp] at e ⊢
    split at e
    · next hr =>
      rw [if_pos hr]
      have e1 : k / 512 / 3 = c / 512 / 3 := by omega
      rw [e1]
      generalize σ.slot (c / 512 / 3) = x at *
      omega
    · next hr =>
      rw [if_neg hr]
      have e1 : k / 512 / 3 = c / 512 / 3 := by omega
      rw [e1]
      generalize σ.slot (c / 512 / 3) = x at *
      omega
  · have hk : k = clean_kakan c := by simpa [h1, h2, h3] using h
    refine .inr (.inr (.inl ⟨h1, h2, h3, ?_⟩))
    rw [h1] at t1
    rw [h2] at t2
    rw [h3] at t3
    obtain ⟨_, w3, w4⟩ := wf_kakan c h1 h2 h3 w
    have hc := code_kakan σ h1 h2 h3
    obtain ⟨l1, l2, l3⟩ := three_high hc
    obtain ⟨f1, _, f3, _⟩ := kakan_fields hσ h1 h2 h3 w
    have e := clean_kakan_eq c
    rw [← hk] at e
    have e' := clean_kakan_eq (σ.code c)
    rw [f1, f3] at e'
    rw [e', code_kakan σ t1 t2 t3]
    have e1 : k / 512 = c / 512 := by split at e <;> omega
    rw [e1]
    generalize σ.slot (c / 512 / 3) = x at *
    split at e
    · next hr => rw [if_pos hr]; omega
    · next hr => rw [if_neg hr]; omega
  · have hk : k = clean_minkan c := by simpa [h1, h2, h3, h4] using h
    refine .inr (.inr (.inr (.inl ⟨h1, h2, h3, h4, ?_⟩)))
    rw [h1] at t1
    rw [h2] at t2
    rw [h3] at t3
    rw [h4] at t4
    obtain ⟨_, w3, w4⟩ := wf_minkan c h1 h2 h3 h4 w
    have hc := code_kan σ h1 h2 h3 (.inl h4)
    obtain ⟨l1, l2, l3⟩ := four_high hc
    obtain ⟨f1, f2, _⟩ := minkan_fields hσ h1 h2 h3 h4 w
    have e := clean_minkan_eq c
    rw [← hk] at e
    have e' := clean_minkan_eq (σ.code c)
    rw [f1, f2] at e'
    rw [e', code_kan σ t1 t2 t3 (.inl t4)]
    have hp : (pattern_minkan c).which = c / 256 % 4 := by rw [pattern_minkan_which]; omega
    rw [hp] at e ⊢
    have e1 : k / 256 / 4 = c / 256 / 4 := by split at e <;> omega
    rw [e1]
    generalize σ.slot (c / 256 / 4) = x at *
    split at e
    · next hr => rw [if_pos hr]; omega
    · next hr => rw [if_neg hr]; omega
  · have hk : k = clean_ankan c := by simpa [h1, h2, h3, h4, h5] using h
    refine .inr (.inr (.inr (.inr ⟨h1, h2, h3, h4, h5, ?_⟩)))
    rw [h1] at t1
    rw [h2] at t2
    rw [h3] at t3
    rw [h5] at t5
    have hc := code_kan σ h1 h2 h3 (.inr h5)
    obtain ⟨l1, l2, l3⟩ := four_high hc
    rw [clean_ankan_eq] at hk ⊢
    rw [code_kan σ t1 t2 t3 (.inr t5)]
    have e1 : k / 256 / 4 = c / 256 / 4 := by omega
    rw [e1]
    generalize σ.slot (c / 256 / 4) = x at *
    omega

end Spec.Suits
end MJ
