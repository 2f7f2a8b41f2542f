import Verif.Proofs.NakiArith
/-!
Facts about canonical codes.
-/
namespace MJ
namespace Code

theorem clean_chi_bits (c : Nat) : clean_chi c / 512 = c / 512 ∧ clean_chi c % 8 = c % 8 := by
  rw [clean_chi_eq]
  split
  · split
    · omega
    · split <;> omega
  · omega

theorem clean_chi_fields (c : Nat) :
    (pattern_chi (clean_chi c)).color = (pattern_chi c).color ∧
    (pattern_chi (clean_chi c)).number = (pattern_chi c).number ∧
    (pattern_chi (clean_chi c)).which = (pattern_chi c).which := by
  have := clean_chi_bits c
  simp only [pattern_chi_color, pattern_chi_number, pattern_chi_which]
  have : clean_chi c / 1024 = c / 1024 := by omega
  simp [this]

theorem clean_chi_red (c : Nat) :
    (pattern_chi (clean_chi c)).has_red = (pattern_chi c).has_red := by
  rw [Bool.eq_iff_iff, pattern_chi_red (clean_chi c), (clean_chi_fields c).2.1]
  cases h : (pattern_chi c).has_red
  · have : clean_chi c = c / 512 * 512 + c % 8 + 168 := by rw [clean_chi_eq, h]; simp
    rw [this]
    simp only [Bool.false_eq_true, iff_false]
    omega
  · have hr := (pattern_chi_red c).1 h
    rw [clean_chi_eq, h]
    simp only [if_true, iff_true]
    rcases hr with ⟨hn, _⟩ | ⟨hn, _⟩ | ⟨hn, _⟩ <;> rw [hn] <;> simp <;> omega

theorem clean_chi_idem (c : Nat) : clean_chi (clean_chi c) = clean_chi c := by
  have hf := clean_chi_fields c
  have hb := clean_chi_bits c
  rw [clean_chi_eq (clean_chi c), clean_chi_red, hf.2.1, hb.1, hb.2, ← clean_chi_eq]

/-- reading the fields of a pon/kakan code back from its parts -/
theorem parts512 (A p m u l : Nat) (hp : p < 128) (hm : m < 4) (hu : u < 4) (hl : l < 32) :
    (A * 65536 + p * 512 + m * 128 + u * 32 + l) % 32 = l ∧
    (A * 65536 + p * 512 + m * 128 + u * 32 + l) / 32 % 4 = u ∧
    (A * 65536 + p * 512 + m * 128 + u * 32 + l) / 128 % 4 = m ∧
    (A * 65536 + p * 512 + m * 128 + u * 32 + l) / 512 % 128 = p ∧
    (A * 65536 + p * 512 + m * 128 + u * 32 + l) / 65536 = A := by
  refine ⟨?_, ?_, ?_, ?_, ?_⟩ <;> omega

theorem clean_pon_parts (c : Nat) : clean_pon c =
    c / 65536 * 65536 +
      (if (pattern_pon c).has_red = true then c / 512 % 128 - (c / 512 % 128 % 3 - 1) else c / 512 % 128) * 512 +
      c / 128 % 4 * 128 + (if (pattern_pon c).has_red = true then 3 else 0) * 32 + c % 32 := by
  rw [clean_pon_eq, pattern_pon_which]
  have hc : c = c / 65536 * 65536 + c / 512 % 128 * 512 + c / 128 % 4 * 128 + c / 32 % 4 * 32 + c % 32 := by
    omega
  have hw : c / 512 % 128 % 3 ≤ c / 512 % 128 := Nat.mod_le _ _
  generalize c / 65536 = A at *
  generalize c / 512 % 128 = p at *
  generalize c / 128 % 4 = m at *
  generalize c / 32 % 4 = u at *
  generalize c % 32 = l at *
  generalize p % 3 = w at *
  split <;> omega

theorem clean_pon_bits (c : Nat) :
    clean_pon c % 32 = c % 32 ∧
    clean_pon c / 32 % 4 = (if (pattern_pon c).has_red = true then 3 else 0) ∧
    clean_pon c / 128 % 4 = c / 128 % 4 ∧
    clean_pon c / 512 % 128 =
      (if (pattern_pon c).has_red = true then c / 512 % 128 - (c / 512 % 128 % 3 - 1) else c / 512 % 128) ∧
    clean_pon c / 65536 = c / 65536 := by
  rw [clean_pon_parts]
  apply parts512
  · split <;> omega
  · omega
  · split <;> omega
  · omega

theorem clean_pon_kind (c : Nat) :
    clean_pon c / 512 % 128 / 3 = c / 512 % 128 / 3 ∧
    clean_pon c / 512 % 128 % 3 =
      (if (pattern_pon c).has_red = true then min (c / 512 % 128 % 3) 1 else c / 512 % 128 % 3) := by
  rw [(clean_pon_bits c).2.2.2.1]
  split <;> omega

theorem clean_pon_fields (c : Nat) :
    (pattern_pon (clean_pon c)).color = (pattern_pon c).color ∧
    (pattern_pon (clean_pon c)).number = (pattern_pon c).number := by
  have := clean_pon_kind c
  simp only [pattern_pon_color, pattern_pon_number, this, and_self]

theorem clean_pon_red (c : Nat) :
    (pattern_pon (clean_pon c)).has_red = (pattern_pon c).has_red := by
  rw [Bool.eq_iff_iff, pattern_pon_red (clean_pon c), (clean_pon_fields c).1, (clean_pon_fields c).2,
    (clean_pon_bits c).2.1]
  cases h : (pattern_pon c).has_red
  · simp
  · have := (pattern_pon_red c).1 h
    simp [this]

theorem clean_pon_idem (c : Nat) : clean_pon (clean_pon c) = clean_pon c := by
  have hb := clean_pon_bits c
  have hk := clean_pon_kind c
  rw [clean_pon_parts (clean_pon c), clean_pon_red, hb.1, hb.2.2.1, hb.2.2.2.2, hk.2, hb.2.2.2.1]
  rw [clean_pon_parts c]
  cases h : (pattern_pon c).has_red
  · simp
  · simp only [if_true]
    clear hb hk
    generalize c / 512 % 128 = p
    have : min (p % 3) 1 - 1 = 0 := by omega
    rw [this, Nat.sub_zero]

theorem clean_kakan_parts (c : Nat) : clean_kakan c = c / 128 * 128 +
    (if (pattern_kakan c).has_red = true ∧ (pattern_kakan c).which = 0 then 0 else 1) * 32 + c % 32 := by
  rw [clean_kakan_eq]
  split <;> omega

theorem clean_kakan_bits (c : Nat) :
    clean_kakan c % 32 = c % 32 ∧ clean_kakan c / 128 = c / 128 ∧
    clean_kakan c / 32 % 4 = (if (pattern_kakan c).has_red = true ∧ (pattern_kakan c).which = 0 then 0 else 1) := by
  rw [clean_kakan_parts]
  split <;> omega

theorem clean_kakan_fields (c : Nat) :
    (pattern_kakan (clean_kakan c)).color = (pattern_kakan c).color ∧
    (pattern_kakan (clean_kakan c)).number = (pattern_kakan c).number ∧
    (pattern_kakan (clean_kakan c)).which = (pattern_kakan c).which ∧
    (pattern_kakan (clean_kakan c)).has_red = (pattern_kakan c).has_red := by
  have hb := clean_kakan_bits c
  have h5 : clean_kakan c / 512 = c / 512 := by
    have : ∀ x : Nat, x / 512 = x / 128 / 4 := by omega
    rw [this, this, hb.2.1]
  clear hb
  have h1 : (pattern_kakan (clean_kakan c)).color = (pattern_kakan c).color := by
    simp only [pattern_kakan_color, h5]
  have h2 : (pattern_kakan (clean_kakan c)).number = (pattern_kakan c).number := by
    simp only [pattern_kakan_number, h5]
  refine ⟨h1, h2, by simp only [pattern_kakan_which, h5], ?_⟩
  rw [Bool.eq_iff_iff, pattern_kakan_red, pattern_kakan_red, h1, h2]

theorem clean_kakan_idem (c : Nat) : clean_kakan (clean_kakan c) = clean_kakan c := by
  have hb := clean_kakan_bits c
  have hf := clean_kakan_fields c
  rw [clean_kakan_parts (clean_kakan c), hf.2.2.1, hf.2.2.2, hb.1, hb.2.1, ← clean_kakan_parts]

theorem clean_minkan_parts (c : Nat) : clean_minkan c = c / 1024 * 1024 +
    (if (pattern_minkan c).has_red = true ∧ (pattern_minkan c).which = 0 then 0 else 1) * 256 + c % 256 := by
  rw [clean_minkan_eq]
  have hw : (pattern_minkan c).which = c / 256 % 4 := by rw [pattern_minkan_which]; omega
  split <;> rename_i h
  · have := h.2; omega
  · omega

theorem clean_minkan_bits (c : Nat) :
    clean_minkan c % 256 = c % 256 ∧ clean_minkan c / 1024 = c / 1024 ∧
    clean_minkan c / 256 % 4 =
      (if (pattern_minkan c).has_red = true ∧ (pattern_minkan c).which = 0 then 0 else 1) := by
  rw [clean_minkan_parts]
  split <;> omega

theorem clean_minkan_fields (c : Nat) :
    (pattern_minkan (clean_minkan c)).color = (pattern_minkan c).color ∧
    (pattern_minkan (clean_minkan c)).number = (pattern_minkan c).number ∧
    (pattern_minkan (clean_minkan c)).has_red = (pattern_minkan c).has_red := by
  have hb := clean_minkan_bits c
  have hk : ∀ x : Nat, x / 256 % 256 / 4 = x / 1024 % 64 := by omega
  have h1 : (pattern_minkan (clean_minkan c)).color = (pattern_minkan c).color := by
    simp only [pattern_minkan_color, hk, hb]
  have h2 : (pattern_minkan (clean_minkan c)).number = (pattern_minkan c).number := by
    simp only [pattern_minkan_number, hk, hb]
  refine ⟨h1, h2, ?_⟩
  rw [Bool.eq_iff_iff, pattern_minkan_red, pattern_minkan_red, h1, h2]

theorem clean_minkan_which (c : Nat) : (pattern_minkan (clean_minkan c)).which =
    (if (pattern_minkan c).has_red = true ∧ (pattern_minkan c).which = 0 then 0 else 1) := by
  have hb := clean_minkan_bits c
  have hw : ∀ x : Nat, x / 256 % 256 % 4 = x / 256 % 4 := by omega
  rw [pattern_minkan_which, hw, hb.2.2]

theorem clean_minkan_idem (c : Nat) : clean_minkan (clean_minkan c) = clean_minkan c := by
  have hb := clean_minkan_bits c
  have hf := clean_minkan_fields c
  rw [clean_minkan_parts (clean_minkan c), hf.2.2, clean_minkan_which, hb.1, hb.2.1, clean_minkan_parts c]
  by_cases h : (pattern_minkan c).has_red = true ∧ (pattern_minkan c).which = 0
  · simp [h]
  · simp only [h, if_false]; simp

theorem clean_ankan_bits (c : Nat) :
    clean_ankan c % 256 = c % 256 ∧ clean_ankan c / 1024 = c / 1024 ∧
    clean_ankan c / 256 % 4 = 0 := by
  rw [clean_ankan_eq]; omega

theorem clean_ankan_fields (c : Nat) :
    (pattern_ankan (clean_ankan c)).color = (pattern_ankan c).color ∧
    (pattern_ankan (clean_ankan c)).number = (pattern_ankan c).number ∧
    (pattern_ankan (clean_ankan c)).has_red = (pattern_ankan c).has_red := by
  have hb := clean_ankan_bits c
  have h5 : clean_ankan c / 256 % 256 / 4 = c / 256 % 256 / 4 := by omega
  have h1 : (pattern_ankan (clean_ankan c)).color = (pattern_ankan c).color := by
    simp only [pattern_ankan_color, h5]
  have h2 : (pattern_ankan (clean_ankan c)).number = (pattern_ankan c).number := by
    simp only [pattern_ankan_number, h5]
  refine ⟨h1, h2, ?_⟩
  rw [Bool.eq_iff_iff, pattern_ankan_red, pattern_ankan_red, h1, h2]

theorem clean_ankan_idem (c : Nat) : clean_ankan (clean_ankan c) = clean_ankan c := by
  have := clean_ankan_bits c
  rw [clean_ankan_eq (clean_ankan c)]; omega

/-- the subtractions in the natural-number model of `_clean_pon` and
`_clean_minkan` are exact, so using `Nat` instead of Python's `int` changes nothing -/
theorem clean_no_truncation (c : Nat) :
    ((pattern_pon c).has_red = true → ((pattern_pon c).which - 1) * 512 ≤ c - c / 32 % 4 * 32 + 96) ∧
    (pattern_minkan c).which * 256 ≤ c + 256 := by
  rw [pattern_pon_which, pattern_minkan_which]
  omega

/-- accepted codes and their canonical code, one clause per meld type -/
theorem clean_ok_iff (c k : Nat) : clean c = .ok k ↔
    (is_chi c = true ∧ k = clean_chi c) ∨
    (is_chi c = false ∧ is_pon c = true ∧ k = clean_pon c) ∨
    (is_chi c = false ∧ is_pon c = false ∧ is_kakan c = true ∧ k = clean_kakan c) ∨
    (is_chi c = false ∧ is_pon c = false ∧ is_kakan c = false ∧ is_minkan c = true ∧ k = clean_minkan c) ∨
    (is_chi c = false ∧ is_pon c = false ∧ is_kakan c = false ∧ is_minkan c = false ∧ is_ankan c = true ∧
      k = clean_ankan c) := by
  unfold clean
  cases is_chi c <;> cases is_pon c <;> cases is_kakan c <;> cases is_minkan c <;> cases is_ankan c <;>
    simp [eq_comm]

/-- cleaning does not change the classification bits -/
theorem clean_class (c k : Nat) (h : clean c = .ok k) :
    is_chi k = is_chi c ∧ is_pon k = is_pon c ∧ is_kakan k = is_kakan c ∧
    is_minkan k = is_minkan c ∧ is_ankan k = is_ankan c ∧ from_who k = from_who c := by
  have key : k % 8 = c % 8 ∧ (c / 4 % 2 = 0 → k % 32 = c % 32) ∧ (c / 4 % 8 = 0 → k % 64 = c % 64) := by
    rw [clean_ok_iff] at h
    rcases h with ⟨hc, rfl⟩ | ⟨hc, hp, rfl⟩ | ⟨hc, hp, hk, rfl⟩ | ⟨hc, hp, hk, hm, rfl⟩ | ⟨hc, hp, hk, hm, ha, rfl⟩
    · rw [is_chi_iff] at hc
      have := (clean_chi_bits c).2
      omega
    · rw [is_pon_iff] at hp
      have := (clean_pon_bits c).1
      omega
    · rw [is_kakan_iff] at hk
      have := (clean_kakan_bits c).1
      omega
    · have := (clean_minkan_bits c).1
      omega
    · have := (clean_ankan_bits c).1
      omega
  obtain ⟨k1, k2, k3⟩ := key
  rw [Bool.eq_iff_iff (a := is_chi k), Bool.eq_iff_iff (a := is_pon k), Bool.eq_iff_iff (a := is_kakan k),
    Bool.eq_iff_iff (a := is_minkan k), Bool.eq_iff_iff (a := is_ankan k)]
  simp only [is_chi_iff, is_pon_iff, is_kakan_iff, is_minkan_iff, is_ankan_iff, from_who_eq]
  by_cases h2 : c / 4 % 2 = 0
  · have k2 := k2 h2
    by_cases h8 : c / 4 % 8 = 0
    · have k3 := k3 h8
      refine ⟨?_, ?_, ?_, ?_, ?_, ?_⟩ <;> omega
    · refine ⟨?_, ?_, ?_, ?_, ?_, ?_⟩ <;> omega
  · refine ⟨?_, ?_, ?_, ?_, ?_, ?_⟩ <;> omega

end Code
end MJ
