import Verif.Model.Naki
import Verif.Spec.MeldLog
import Verif.Spec.MeldObs
import Verif.Proofs.NakiArith
/-!
C93: a logged meld is read back with exactly the tiles that were played.
-/
namespace MJ
open Code Spec

theorem kan_filter (t : Nat) : (kanTiles (t / 4)).eraseIdx (t % 4) = (LogMeld.copies (t / 4)).filter (· != t) ∧
    (kanTiles (t / 4))[t % 4]? = some t := by
  have h4 : t % 4 = 0 ∨ t % 4 = 1 ∨ t % 4 = 2 ∨ t % 4 = 3 := by omega
  obtain ⟨q, r, hq, hr⟩ : ∃ q r, t = 4 * q + r ∧ r < 4 := ⟨t / 4, t % 4, by omega, by omega⟩
  have e1 : t / 4 = q := by omega
  have e2 : t % 4 = r := by omega
  rw [e1, e2, hq]
  clear e1 e2 hq h4
  have : r = 0 ∨ r = 1 ∨ r = 2 ∨ r = 3 := by omega
  rcases this with rfl | rfl | rfl | rfl <;>
    simp [kanTiles, LogMeld.copies] <;> omega

/-- For every meld that can occur in a log, whatever copies of the tiles it uses: its code is accepted and
classified as that type only, the source seat is read back, and `get_exposed` returns the tiles from the hand and the
called tile exactly. -/
theorem C93_tiles (m : LogMeld) (hv : m.Valid) :
    get_exposed m.encode = .ok m.tiles ∧ onlyType m.encode m.type ∧ from_who m.encode = m.source ∧
    (∃ n, Naki.mk' m.encode = .ok n ∧ n.naki_code = m.encode) := by
  cases m with
  | chi src k x y z w =>
    obtain ⟨h1, h2, h3, h4, h5, h6, h7⟩ := hv
    obtain ⟨a, b, hk, ha, hb⟩ : ∃ a b, k = 9 * a + b ∧ a < 3 ∧ b < 7 := ⟨k / 9, k % 9, by omega, by omega, by omega⟩
    have e1 : k / 9 = a := by omega
    have e2 : k % 9 = b := by omega
    generalize hc : (LogMeld.chi src k x y z w).encode = c
    have hc' : c = src + 4 + 8 * x + 32 * y + 128 * z + 1024 * ((a * 7 + b) * 3 + w) := by
      rw [← hc, LogMeld.encode, e1, e2]
    have hchi : is_chi c = true := by rw [is_chi_iff]; omega
    have hpat : c / 1024 % 64 = (a * 7 + b) * 3 + w := by omega
    have hw : (pattern_chi c).which = w := by rw [pattern_chi_which, hpat]; omega
    have hcol : (pattern_chi c).color = a := by rw [pattern_chi_color, hpat]; omega
    have hnum : (pattern_chi c).number = b := by rw [pattern_chi_number, hpat]; omega
    have hx : c / 8 % 4 = x := by omega
    have hy : c / 32 % 4 = y := by omega
    have hz : c / 128 % 4 = z := by omega
    have hl : chiTiles c = [4 * k + x, 4 * (k + 1) + y, 4 * (k + 2) + z] := by
      rw [chiTiles, hcol, hnum, hx, hy, hz, hk]
      simp only [List.cons.injEq, and_true]
      omega
    refine ⟨?_, ?_, ?_, ?_⟩
    · rw [get_exposed, if_pos hchi, (pattern_chi_tiles c).1, (pattern_chi_tiles c).2, hl, hw]
      rfl
    · have p1 : is_pon c = false := by rw [is_pon_false]; omega
      have p2 : is_kakan c = false := by rw [is_kakan_false]; omega
      have p3 : is_minkan c = false := by rw [is_minkan_false]; omega
      have p4 : is_ankan c = false := by rw [is_ankan_false]; omega
      simp only [onlyType, hchi, p1, p2, p3, p4, LogMeld.type]
      decide
    · rw [from_who_eq, LogMeld.source]; omega
    · simp [Naki.mk', clean, hchi]
  | pon src k u w =>
    obtain ⟨h1, h2, h3, h4⟩ := hv
    generalize hc : (LogMeld.pon src k u w).encode = c
    have hc' : c = src + 8 + 32 * u + 512 * (k * 3 + w) := by rw [← hc, LogMeld.encode]
    have hchi : is_chi c = false := by rw [is_chi_false]; omega
    have hpon : is_pon c = true := by rw [is_pon_iff]; omega
    have hpat : c / 512 % 128 = k * 3 + w := by omega
    have hw : (pattern_pon c).which = w := by rw [pattern_pon_which, hpat]; omega
    have hk : (pattern_pon c).color * 9 + (pattern_pon c).number = k := by
      rw [pattern_pon_color, pattern_pon_number, hpat]; omega
    have hu : c / 32 % 4 = u := by omega
    have hl : ponTiles c = (LogMeld.copies k).eraseIdx u := by
      rw [ponTiles, hk, hu]
      rcases ponCopies_cases u h3 with ⟨rfl, e⟩ | ⟨rfl, e⟩ | ⟨rfl, e⟩ | ⟨rfl, e⟩ <;>
        simp [e, LogMeld.copies, Nat.mul_comm]
    refine ⟨?_, ?_, ?_, ?_⟩
    · rw [get_exposed, if_neg (by simp [hchi]), if_pos hpon, (pattern_pon_tiles c).1, (pattern_pon_tiles c).2, hl, hw]
      rfl
    · have p2 : is_kakan c = false := by rw [is_kakan_false]; omega
      have p3 : is_minkan c = false := by rw [is_minkan_false]; omega
      have p4 : is_ankan c = false := by rw [is_ankan_false]; omega
      simp only [onlyType, hchi, hpon, p2, p3, p4, LogMeld.type]
      decide
    · rw [from_who_eq, LogMeld.source]; omega
    · simp [Naki.mk', clean, hchi, hpon]
  | kakan src k u w =>
    obtain ⟨h1, h2, h3, h4⟩ := hv
    generalize hc : (LogMeld.kakan src k u w).encode = c
    have hc' : c = src + 16 + 32 * u + 512 * (k * 3 + w) := by rw [← hc, LogMeld.encode]
    have hchi : is_chi c = false := by rw [is_chi_false]; omega
    have hpon : is_pon c = false := by rw [is_pon_false]; omega
    have hkk : is_kakan c = true := by rw [is_kakan_iff]; omega
    have hpat : c / 512 % 128 = k * 3 + w := by omega
    have hk : (pattern_kakan c).color * 9 + (pattern_kakan c).number = k := by
      rw [pattern_kakan_color, pattern_kakan_number, hpat]; omega
    have hu : c / 32 % 4 = u := by omega
    refine ⟨?_, ?_, ?_, ?_⟩
    · rw [get_exposed, if_neg (by simp [hchi]), if_neg (by simp [hpon]), if_pos hkk, (pattern_kakan_tiles c).1,
        (pattern_kakan_tiles c).2, hk, hu, Nat.mul_comm]
      rfl
    · have p3 : is_minkan c = false := by rw [is_minkan_false]; omega
      have p4 : is_ankan c = false := by rw [is_ankan_false]; omega
      simp only [onlyType, hchi, hpon, hkk, p3, p4, LogMeld.type]
      decide
    · rw [from_who_eq, LogMeld.source]; omega
    · simp [Naki.mk', clean, hchi, hpon, hkk]
  | minkan src t =>
    obtain ⟨h1, h2, h3⟩ := hv
    generalize hc : (LogMeld.minkan src t).encode = c
    have hc' : c = src + 256 * t := by rw [← hc, LogMeld.encode]
    have hchi : is_chi c = false := by rw [is_chi_false]; omega
    have hpon : is_pon c = false := by rw [is_pon_false]; omega
    have hkk : is_kakan c = false := by rw [is_kakan_false]; omega
    have hmk : is_minkan c = true := by rw [is_minkan_iff]; omega
    have hpat : c / 256 % 256 = t := by omega
    have hk : (pattern_minkan c).color * 9 + (pattern_minkan c).number = t / 4 := by
      rw [pattern_minkan_color, pattern_minkan_number, hpat]; omega
    have hw : (pattern_minkan c).which = t % 4 := by rw [pattern_minkan_which, hpat]
    refine ⟨?_, ?_, ?_, ?_⟩
    · rw [get_exposed, if_neg (by simp [hchi]), if_neg (by simp [hpon]), if_neg (by simp [hkk]), if_pos hmk,
        (pattern_minkan_tiles c).1, (pattern_minkan_tiles c).2, hk, hw, (kan_filter t).1, (kan_filter t).2]
      rfl
    · have p4 : is_ankan c = false := by rw [is_ankan_false]; omega
      simp only [onlyType, hchi, hpon, hkk, hmk, p4, LogMeld.type]
      decide
    · rw [from_who_eq, LogMeld.source]; omega
    · simp [Naki.mk', clean, hchi, hpon, hkk, hmk]
  | ankan t =>
    have h1 : t < 136 := hv
    generalize hc : (LogMeld.ankan t).encode = c
    have hc' : c = 256 * t := by rw [← hc, LogMeld.encode]
    have hchi : is_chi c = false := by rw [is_chi_false]; omega
    have hpon : is_pon c = false := by rw [is_pon_false]; omega
    have hkk : is_kakan c = false := by rw [is_kakan_false]; omega
    have hmk : is_minkan c = false := by rw [is_minkan_false]; omega
    have hak : is_ankan c = true := by rw [is_ankan_iff]; omega
    have hpat : c / 256 % 256 = t := by omega
    have hk : (pattern_ankan c).color * 9 + (pattern_ankan c).number = t / 4 := by
      rw [pattern_ankan_color, pattern_ankan_number, hpat]; omega
    refine ⟨?_, ?_, ?_, ?_⟩
    · rw [get_exposed, if_neg (by simp [hchi]), if_neg (by simp [hpon]), if_neg (by simp [hkk]), if_neg (by simp [hmk]),
        if_pos hak, (pattern_ankan_tiles c).1, (pattern_ankan_tiles c).2, hk]
      simp only [LogMeld.tiles, kanTiles, LogMeld.copies, Nat.mul_comm]
    · simp only [onlyType, hchi, hpon, hkk, hmk, hak, LogMeld.type]
      decide
    · rw [from_who_eq, LogMeld.source]; omega
    · simp [Naki.mk', clean, hchi, hpon, hkk, hmk, hak]

example : (LogMeld.chi 3 4 0 2 3 1).Valid ∧ (LogMeld.chi 3 4 0 2 3 1).encode = 13767 ∧
    (LogMeld.chi 3 4 0 2 3 1).tiles = ([16, 27], some 22) := by
  simp [LogMeld.Valid, LogMeld.encode, LogMeld.tiles]

theorem wellFormed_cases (c : Nat) : WellFormed c ↔ c < 65536 ∧
    ((c / 4 % 2 = 1 ∧ c / 512 % 2 = 0 ∧ c / 1024 < 63) ∨
     (c / 4 % 8 = 2 ∧ c / 128 % 4 = 0 ∧ c / 512 / 3 < 34) ∨
     (c / 4 % 8 = 4 ∧ c / 128 % 4 = 0 ∧ c / 512 / 3 < 34) ∨
     (c / 4 % 16 = 0 ∧ c / 64 % 4 = 0 ∧ c / 256 / 4 < 34)) := by
  have b4 : c.testBit 4 = decide (c / 16 % 2 = 1) := by rw [Nat.testBit_eq_decide_div_mod_eq]
  have b9 : c.testBit 9 = decide (c / 512 % 2 = 1) := by rw [Nat.testBit_eq_decide_div_mod_eq]
  unfold WellFormed
  rw [meldType_eq, b4, b9]
  by_cases h1 : is_chi c = true
  · have := (is_chi_iff c).1 h1
    simp only [h1, if_true, decide_eq_false_iff_not]
    omega
  have h1' : is_chi c = false := by simpa using h1
  have a1 := (is_chi_false c).1 h1'
  by_cases h2 : is_pon c = true
  · have := (is_pon_iff c).1 h2
    simp only [h1', h2, if_true, Bool.false_eq_true, if_false, decide_eq_false_iff_not]
    omega
  have h2' : is_pon c = false := by simpa using h2
  have a2 := (is_pon_false c).1 h2'
  by_cases h3 : is_kakan c = true
  · have := (is_kakan_iff c).1 h3
    simp only [h1', h2', h3, if_true, Bool.false_eq_true, if_false]
    omega
  have h3' : is_kakan c = false := by simpa using h3
  have a3 := (is_kakan_false c).1 h3'
  by_cases h4 : is_minkan c = true
  · have := (is_minkan_iff c).1 h4
    simp only [h1', h2', h3', h4, if_true, Bool.false_eq_true, if_false]
    omega
  have h4' : is_minkan c = false := by simpa using h4
  have a4 := (is_minkan_false c).1 h4'
  by_cases h5 : is_ankan c = true
  · have := (is_ankan_iff c).1 h5
    simp only [h1', h2', h3', h4', h5, if_true, Bool.false_eq_true, if_false]
    omega
  have h5' : is_ankan c = false := by simpa using h5
  have a5 := (is_ankan_false c).1 h5'
  simp only [h1', h2', h3', h4', h5', Bool.false_eq_true, if_false]
  constructor
  · rintro ⟨_, h⟩
    exact h.elim
  · intro h
    exfalso
    omega

/-- The encoding covers exactly the well-formed codes: every code with the documented layout is the code of a valid
meld, and the codes of valid melds are well-formed. -/
theorem C93_covers (c : Nat) : WellFormed c ↔ ∃ m : LogMeld, m.Valid ∧ m.encode = c := by
  rw [wellFormed_cases]
  constructor
  · rintro ⟨hc, ⟨h1, h2, h3⟩ | ⟨h1, h2, h3⟩ | ⟨h1, h2, h3⟩ | ⟨h1, h2, h3⟩⟩
    · refine ⟨.chi (c % 4) (c / 1024 / 3 / 7 * 9 + c / 1024 / 3 % 7) (c / 8 % 4) (c / 32 % 4) (c / 128 % 4) (c / 1024 % 3), ?_, ?_⟩
      · simp only [LogMeld.Valid]; omega
      · simp only [LogMeld.encode]
        have e1 : (c / 1024 / 3 / 7 * 9 + c / 1024 / 3 % 7) / 9 = c / 1024 / 3 / 7 := by omega
        have e2 : (c / 1024 / 3 / 7 * 9 + c / 1024 / 3 % 7) % 9 = c / 1024 / 3 % 7 := by omega
        rw [e1, e2]
        omega
    · refine ⟨.pon (c % 4) (c / 512 / 3) (c / 32 % 4) (c / 512 % 3), ?_, ?_⟩
      · simp only [LogMeld.Valid]; omega
      · simp only [LogMeld.encode]; omega
    · refine ⟨.kakan (c % 4) (c / 512 / 3) (c / 32 % 4) (c / 512 % 3), ?_, ?_⟩
      · simp only [LogMeld.Valid]; omega
      · simp only [LogMeld.encode]; omega
    · by_cases h0 : c % 4 = 0
      · refine ⟨.ankan (c / 256), ?_, ?_⟩
        · simp only [LogMeld.Valid]; omega
        · simp only [LogMeld.encode]; omega
      · refine ⟨.minkan (c % 4) (c / 256), ?_, ?_⟩
        · simp only [LogMeld.Valid]; omega
        · simp only [LogMeld.encode]; omega
  · rintro ⟨m, hv, rfl⟩
    cases m <;> simp only [LogMeld.Valid] at hv <;> simp only [LogMeld.encode] <;> omega

end MJ
