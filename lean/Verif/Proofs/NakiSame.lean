import Verif.Proofs.NakiView
/-!
Well-formedness in arithmetic form, and canonical codes versus views.
-/
namespace MJ
namespace Code
open Spec

theorem wf_chi (c : Nat) (h : is_chi c = true) (w : WellFormed c) :
    c < 65536 ∧ c / 512 % 2 = 0 ∧ c / 1024 < 63 := by
  have ht : meldType c = some .chi := by rw [meldType_eq]; simp [h]
  have e : c.testBit 9 = decide (c / 512 % 2 = 1) := by rw [Nat.testBit_eq_decide_div_mod_eq]
  simp only [WellFormed, ht, e, decide_eq_false_iff_not] at w
  omega

theorem wf_pon (c : Nat) (hc : is_chi c = false) (h : is_pon c = true) (w : WellFormed c) :
    c < 65536 ∧ c / 16 % 2 = 0 ∧ c / 128 % 4 = 0 ∧ c / 512 / 3 < 34 := by
  have ht : meldType c = some .pon := by rw [meldType_eq]; simp [h, hc]
  have e : c.testBit 4 = decide (c / 16 % 2 = 1) := by rw [Nat.testBit_eq_decide_div_mod_eq]
  simp only [WellFormed, ht, e, decide_eq_false_iff_not] at w
  omega

theorem wf_kakan (c : Nat) (hc : is_chi c = false) (hp : is_pon c = false) (h : is_kakan c = true)
    (w : WellFormed c) : c < 65536 ∧ c / 128 % 4 = 0 ∧ c / 512 / 3 < 34 := by
  have ht : meldType c = some .kakan := by rw [meldType_eq]; simp [h, hc, hp]
  simpa only [WellFormed, ht] using w

theorem wf_minkan (c : Nat) (hc : is_chi c = false) (hp : is_pon c = false) (hk : is_kakan c = false)
    (h : is_minkan c = true)
    (w : WellFormed c) : c < 65536 ∧ c / 64 % 4 = 0 ∧ c / 256 / 4 < 34 := by
  have ht : meldType c = some .minkan := by rw [meldType_eq]; simp [h, hc, hp, hk]
  simpa only [WellFormed, ht] using w

theorem wf_ankan (c : Nat) (hc : is_chi c = false) (hp : is_pon c = false) (hk : is_kakan c = false)
    (hm : is_minkan c = false) (h : is_ankan c = true)
    (w : WellFormed c) : c < 65536 ∧ c / 64 % 4 = 0 ∧ c / 256 / 4 < 34 := by
  have ht : meldType c = some .ankan := by rw [meldType_eq]; simp [h, hc, hp, hk, hm]
  simpa only [WellFormed, ht] using w

/-! ### chi -/

/-- Two well-formed chi codes have the same canonical code iff their fields agree. -/
theorem clean_chi_eq_iff (c d : Nat) (bc : c / 512 % 2 = 0) (bd : d / 512 % 2 = 0) :
    clean_chi c = clean_chi d ↔
      c % 8 = d % 8 ∧ c / 1024 = d / 1024 ∧ (pattern_chi c).has_red = (pattern_chi d).has_red := by
  constructor
  · intro h
    have h1 := clean_chi_bits c
    have h2 := clean_chi_bits d
    have h3 := clean_chi_red c
    have h4 := clean_chi_red d
    rw [h] at h1 h3
    refine ⟨by omega, by omega, by rw [← h3, h4]⟩
  · rintro ⟨h1, h2, h3⟩
    have h5 : c / 512 = d / 512 := by omega
    rw [clean_chi_eq, clean_chi_eq, h1, h5, h3]
    have : (pattern_chi c).number = (pattern_chi d).number := by
      rw [pattern_chi_number, pattern_chi_number, h2]
    rw [this]

/-- the red tile of a chi, as seen from outside -/
theorem chi_red_view (c : Nat) (hcol : c / 1024 < 63) :
    (((chiTiles c).eraseIdx (pattern_chi c).which).any isRedB ||
      ((chiTiles c)[(pattern_chi c).which]?).any isRedB) = (pattern_chi c).has_red := by
  have hw : (pattern_chi c).which < 3 := by rw [pattern_chi_which]; omega
  have hn : (pattern_chi c).number < 7 := by rw [pattern_chi_number]; omega
  have hk : (pattern_chi c).color < 3 := by rw [pattern_chi_color]; omega
  rw [Bool.eq_iff_iff, pattern_chi_red]
  have key : ∀ k n x : Nat, k < 3 → n < 9 → x < 4 →
      (isRedB ((k * 9 + n) * 4 + x) = true ↔ n = 4 ∧ x = 0) := by
    intro k n x hk hn hx
    rw [isRedB_iff]; omega
  have k0 := key _ (pattern_chi c).number (c / 8 % 4) hk (by omega) (by omega)
  have k1 := key _ ((pattern_chi c).number + 1) (c / 32 % 4) hk (by omega) (by omega)
  have k2 := key _ ((pattern_chi c).number + 2) (c / 128 % 4) hk (by omega) (by omega)
  rw [← Nat.add_assoc] at k1 k2
  have e1 : (pattern_chi c).number + 1 = 4 ↔ (pattern_chi c).number = 3 := by omega
  have e2 : (pattern_chi c).number + 2 = 4 ↔ (pattern_chi c).number = 2 := by omega
  rw [e1] at k1
  rw [e2] at k2
  rw [← k0, ← k1, ← k2]
  generalize (pattern_chi c).which = w at hw
  have : w = 0 ∨ w = 1 ∨ w = 2 := by omega
  rcases this with rfl | rfl | rfl <;> simp [chiTiles, List.eraseIdx, or_assoc, or_comm, or_left_comm]

theorem eraseIdx3_inj (K L v w : Nat) (hv : v < 3) (hw : w < 3)
    (h1 : [K, K + 1, K + 2].eraseIdx v = [L, L + 1, L + 2].eraseIdx w) (h2 : K + v = L + w) :
    K = L ∧ v = w := by
  have a : v = 0 ∨ v = 1 ∨ v = 2 := by omega
  have b : w = 0 ∨ w = 1 ∨ w = 2 := by omega
  rcases a with rfl | rfl | rfl <;> rcases b with rfl | rfl | rfl <;> simp at h1 h2 ⊢ <;> omega

theorem chi_view_iff (c d : Nat) (hc : is_chi c = true) (hd : is_chi d = true)
    (wc : WellFormed c) (wd : WellFormed d) :
    clean_chi c = clean_chi d ↔ view c = view d := by
  have wc := wf_chi c hc wc
  have wd := wf_chi d hd wd
  rw [clean_chi_eq_iff c d wc.2.1 wd.2.1, view_chi c hc, view_chi d hd]
  have rc := chi_red_view c wc.2.2
  have rd := chi_red_view d wd.2.2
  rw [is_chi_iff] at hc hd
  constructor
  · rintro ⟨h1, h2, h3⟩
    have e1 : (pattern_chi c).color = (pattern_chi d).color := by
      rw [pattern_chi_color, pattern_chi_color, h2]
    have e2 : (pattern_chi c).number = (pattern_chi d).number := by
      rw [pattern_chi_number, pattern_chi_number, h2]
    have e3 : (pattern_chi c).which = (pattern_chi d).which := by
      rw [pattern_chi_which, pattern_chi_which, h2]
    have e4 : c % 4 = d % 4 := by omega
    rw [h3] at rc
    rw [← rd] at rc
    rw [e3] at rc
    rw [e1, e2, e3, e4]
    -- the red role: both flags agree because only one position can be red
    have key : ∀ x : Nat, x / 1024 < 63 →
        ((chiTiles x)[(pattern_chi x).which]?).any isRedB =
          ((pattern_chi x).has_red && decide ((pattern_chi x).number + (pattern_chi x).which = 4)) := by
      intro x hx
      have hw : (pattern_chi x).which < 3 := by rw [pattern_chi_which]; omega
      have hn : (pattern_chi x).number < 7 := by rw [pattern_chi_number]; omega
      have hk : (pattern_chi x).color < 3 := by rw [pattern_chi_color]; omega
      have hr := pattern_chi_red x
      rw [Bool.eq_iff_iff, Bool.and_eq_true, hr, decide_eq_true_eq]
      generalize (pattern_chi x).which = w at hw
      have : w = 0 ∨ w = 1 ∨ w = 2 := by omega
      rcases this with rfl | rfl | rfl <;> simp [chiTiles, isRedB_iff] <;> omega
    have key2 : ∀ x : Nat, x / 1024 < 63 →
        ((chiTiles x).eraseIdx (pattern_chi x).which).any isRedB =
          ((pattern_chi x).has_red && !decide ((pattern_chi x).number + (pattern_chi x).which = 4)) := by
      intro x hx
      have hw : (pattern_chi x).which < 3 := by rw [pattern_chi_which]; omega
      have hn : (pattern_chi x).number < 7 := by rw [pattern_chi_number]; omega
      have hk : (pattern_chi x).color < 3 := by rw [pattern_chi_color]; omega
      have hr := pattern_chi_red x
      rw [Bool.eq_iff_iff, Bool.and_eq_true, hr, Bool.not_eq_true', decide_eq_false_iff_not]
      generalize (pattern_chi x).which = w at hw
      have : w = 0 ∨ w = 1 ∨ w = 2 := by omega
      rcases this with rfl | rfl | rfl <;> simp [chiTiles, isRedB_iff, List.eraseIdx] <;> omega
    have a1 := key c wc.2.2
    have a2 := key d wd.2.2
    have b1 := key2 c wc.2.2
    have b2 := key2 d wd.2.2
    rw [h3, e2, e3, ← a2] at a1
    rw [h3, e2, e3, ← b2] at b1
    rw [a1, b1]
  · intro h
    simp only [Option.some.injEq, MeldView.mk.injEq] at h
    obtain ⟨_, hs, hh, hk, h1, h2⟩ := h
    have hwc : (pattern_chi c).which < 3 := by rw [pattern_chi_which]; omega
    have hwd : (pattern_chi d).which < 3 := by rw [pattern_chi_which]; omega
    have he := eraseIdx3_inj _ _ _ _ hwc hwd hh hk
    refine ⟨by omega, ?_, by rw [← rc, ← rd, h1, h2]⟩
    have p1 := pattern_chi_color c
    have p2 := pattern_chi_color d
    have p3 := pattern_chi_number c
    have p4 := pattern_chi_number d
    have p5 := pattern_chi_which c
    have p6 := pattern_chi_which d
    have q1 : c / 1024 % 64 = c / 1024 := by omega
    have q2 : d / 1024 % 64 = d / 1024 := by omega
    rw [q1] at p1 p3 p5
    rw [q2] at p2 p4 p6
    generalize (pattern_chi c).color = cc at *
    generalize (pattern_chi d).color = cd at *
    generalize (pattern_chi c).number = nc at *
    generalize (pattern_chi d).number = nd at *
    generalize (pattern_chi c).which = vc at *
    generalize (pattern_chi d).which = vd at *
    clear rc rd h1 h2 hh hk q1 q2
    generalize c / 1024 = x at *
    generalize d / 1024 = y at *
    omega

/-! ### pon -/

theorem pon_kind (c : Nat) (h : c < 65536) :
    (pattern_pon c).color * 9 + (pattern_pon c).number = c / 512 / 3 := by
  rw [pattern_pon_color, pattern_pon_number]; omega

theorem pon_red_iff (c : Nat) (h : c < 65536) :
    (pattern_pon c).has_red = (decide (c / 32 % 4 ≠ 0) && fiveKind (c / 512 / 3)) := by
  rw [Bool.eq_iff_iff, pattern_pon_red, pattern_pon_color, pattern_pon_number]
  have : c / 512 % 128 = c / 512 := by omega
  rw [this]
  simp only [fiveKind, Bool.and_eq_true, decide_eq_true_eq]
  omega

theorem view_pon' (c : Nat) (hc : is_chi c = false) (h : is_pon c = true) (w : WellFormed c) :
    view c = some
      { type := .pon, source := c % 4
        handKinds := [c / 512 / 3, c / 512 / 3], calledKind := some (c / 512 / 3)
        handRed := decide (c / 512 % 3 ≠ 0) && (pattern_pon c).has_red
        calledRed := decide (c / 512 % 3 = 0) && (pattern_pon c).has_red } := by
  have w := wf_pon c hc h w
  have hw : (pattern_pon c).which = c / 512 % 3 := by rw [pattern_pon_which]; omega
  rw [view_pon c hc h, pon_kind c w.1, pon_red_iff c w.1, hw]
  congr 2
  · rw [← Bool.and_assoc]; congr 1; rw [Bool.eq_iff_iff]; simp [and_comm]
  · rw [← Bool.and_assoc]; congr 1; rw [Bool.eq_iff_iff]; simp [and_comm]

theorem clean_pon_eq_iff (c d : Nat) (hc : is_chi c = false) (hpc : is_pon c = true)
    (hd : is_chi d = false) (hpd : is_pon d = true) (wc : WellFormed c) (wd : WellFormed d) :
    clean_pon c = clean_pon d ↔
      c % 4 = d % 4 ∧ c / 512 / 3 = d / 512 / 3 ∧ (pattern_pon c).has_red = (pattern_pon d).has_red ∧
      (if (pattern_pon c).has_red = true then (c / 512 % 3 = 0 ↔ d / 512 % 3 = 0)
        else c / 512 % 3 = d / 512 % 3) := by
  have wc := wf_pon c hc hpc wc
  have wd := wf_pon d hd hpd wd
  rw [is_pon_iff] at hpc hpd
  have c1 : c / 512 % 128 = c / 512 := by omega
  have d1 : d / 512 % 128 = d / 512 := by omega
  have c2 : c / 65536 = 0 := by omega
  have d2 : d / 65536 = 0 := by omega
  have c3 : c % 32 = c % 4 + 8 := by omega
  have d3 : d % 32 = d % 4 + 8 := by omega
  constructor
  · intro h
    have kc := clean_pon_kind c
    have kd := clean_pon_kind d
    have bc := (clean_pon_bits c).1
    have bd := (clean_pon_bits d).1
    have rc := clean_pon_red c
    have rd := clean_pon_red d
    rw [h] at kc bc rc
    have hr : (pattern_pon c).has_red = (pattern_pon d).has_red := by rw [← rc, rd]
    rw [c1] at kc
    rw [d1] at kd
    refine ⟨by clear kc kd; omega, by rw [← kc.1, kd.1], hr, ?_⟩
    have k2 := kc.2.symm.trans kd.2
    rw [← hr] at k2
    split <;> rename_i h
    · rw [if_pos h, if_pos h] at k2
      clear kc kd
      omega
    · rw [if_neg h, if_neg h] at k2
      exact k2
  · rintro ⟨h1, h2, h3, h4⟩
    rw [clean_pon_parts, clean_pon_parts, c1, d1, c2, d2, wc.2.2.1, wd.2.2.1, c3, d3, h1, ← h3]
    split at h4 <;> rename_i h
    · rw [if_pos h, if_pos h, if_pos h]
      have : c / 512 - (c / 512 % 3 - 1) = d / 512 - (d / 512 % 3 - 1) := by
        generalize c / 512 = x at *
        generalize d / 512 = y at *
        omega
      rw [this]
    · rw [if_neg h, if_neg h, if_neg h]
      have : c / 512 = d / 512 := by
        generalize c / 512 = x at *
        generalize d / 512 = y at *
        omega
      rw [this]

theorem pon_view_iff (c d : Nat) (hc : is_chi c = false) (hpc : is_pon c = true)
    (hd : is_chi d = false) (hpd : is_pon d = true) (wc : WellFormed c) (wd : WellFormed d) :
    clean_pon c = clean_pon d ↔
      view c = view d ∧ ((pattern_pon c).has_red = false → (pattern_pon c).which = (pattern_pon d).which) := by
  have hw : ∀ x, x < 65536 → (pattern_pon x).which = x / 512 % 3 := by
    intro x hx; rw [pattern_pon_which]; omega
  have w1 := wf_pon c hc hpc wc
  have w2 := wf_pon d hd hpd wd
  rw [clean_pon_eq_iff c d hc hpc hd hpd wc wd, view_pon' c hc hpc wc, view_pon' d hd hpd wd,
    hw c w1.1, hw d w2.1]
  simp only [Option.some.injEq, MeldView.mk.injEq, true_and, List.cons.injEq, and_true, and_self]
  generalize c / 512 % 3 = x
  generalize d / 512 % 3 = y
  cases hr : (pattern_pon c).has_red <;> cases hs : (pattern_pon d).has_red <;> simp
  rw [and_assoc]

/-! ### kans -/

theorem minkan_kind (c : Nat) (h : c < 65536) :
    (pattern_minkan c).color * 9 + (pattern_minkan c).number = c / 256 / 4 := by
  rw [pattern_minkan_color, pattern_minkan_number]; omega

theorem minkan_view_iff (c d : Nat) (hc : is_chi c = false) (hpc : is_pon c = false)
    (hkc : is_kakan c = false) (hmc : is_minkan c = true)
    (hd : is_chi d = false) (hpd : is_pon d = false)
    (hkd : is_kakan d = false) (hmd : is_minkan d = true) (wc : WellFormed c) (wd : WellFormed d) :
    clean_minkan c = clean_minkan d ↔ view c = view d := by
  have wc := wf_minkan c hc hpc hkc hmc wc
  have wd := wf_minkan d hd hpd hkd hmd wd
  have red : ∀ x, x < 65536 → x / 256 / 4 < 34 → (pattern_minkan x).has_red = fiveKind (x / 256 / 4) := by
    intro x hx h34
    rw [Bool.eq_iff_iff, pattern_minkan_red, pattern_minkan_color, pattern_minkan_number]
    have : x / 256 % 256 = x / 256 := by omega
    rw [this]
    simp only [fiveKind, decide_eq_true_eq]
    generalize x / 256 / 4 = y at *
    omega
  have hw : ∀ x, x < 65536 → (pattern_minkan x).which = x / 256 % 4 := by
    intro x hx; rw [pattern_minkan_which]; omega
  rw [view_minkan c hc hpc hkc hmc, view_minkan d hd hpd hkd hmd, minkan_kind c wc.1, minkan_kind d wd.1,
    hw c wc.1, hw d wd.1, clean_minkan_parts, clean_minkan_parts, red c wc.1 wc.2.2, red d wd.1 wd.2.2,
    hw c wc.1, hw d wd.1]
  rw [is_minkan_iff] at hmc hmd
  have e1 : c % 256 = c % 4 := by omega
  have e2 : d % 256 = d % 4 := by omega
  have f1 : c / 256 / 4 = c / 1024 := by omega
  have f2 : d / 256 / 4 = d / 1024 := by omega
  rw [e1, e2, f1, f2]
  have l1 : c % 4 < 4 := by omega
  have l2 : d % 4 < 4 := by omega
  clear hc hpc hkc hmc hd hpd hkd hmd wc wd e1 e2 f1 f2 red hw
  generalize c / 256 % 4 = x
  generalize d / 256 % 4 = y
  generalize c / 1024 = kc
  generalize d / 1024 = kd
  generalize c % 4 = sc at *
  generalize d % 4 = sd at *
  simp only [Option.some.injEq, MeldView.mk.injEq, true_and, List.replicate, List.cons.injEq, and_true, and_self]
  have key : ∀ p q : Prop, ∀ [Decidable p] [Decidable q],
      (kc * 1024 + (if p then 0 else 1) * 256 + sc = kd * 1024 + (if q then 0 else 1) * 256 + sd ↔
        kc = kd ∧ sc = sd ∧ (p ↔ q)) := by
    intro p q _ _
    by_cases hp : p <;> by_cases hq : q <;> simp [hp, hq] <;> omega
  rw [key]
  constructor
  · rintro ⟨rfl, rfl, h⟩
    cases h5 : fiveKind kc <;> simp [h5] at h ⊢
    simp [h]
  · rintro ⟨rfl, rfl, h1, h2⟩
    cases h5 : fiveKind kc <;> simp [h5] at h1 h2 ⊢
    simp [h2]

theorem ankan_kind (c : Nat) (h : c < 65536) :
    (pattern_ankan c).color * 9 + (pattern_ankan c).number = c / 256 / 4 := by
  rw [pattern_ankan_color, pattern_ankan_number]; omega

theorem ankan_view_iff (c d : Nat) (hc : is_chi c = false) (hpc : is_pon c = false)
    (hkc : is_kakan c = false) (hmc : is_minkan c = false) (hac : is_ankan c = true)
    (hd : is_chi d = false) (hpd : is_pon d = false)
    (hkd : is_kakan d = false) (hmd : is_minkan d = false) (had : is_ankan d = true)
    (wc : WellFormed c) (wd : WellFormed d) :
    clean_ankan c = clean_ankan d ↔ view c = view d := by
  have wc := wf_ankan c hc hpc hkc hmc hac wc
  have wd := wf_ankan d hd hpd hkd hmd had wd
  rw [view_ankan c hc hpc hkc hmc hac, view_ankan d hd hpd hkd hmd had, ankan_kind c wc.1,
    ankan_kind d wd.1]
  rw [is_ankan_iff] at hac had
  have e1 : clean_ankan c = c / 256 / 4 * 1024 := by rw [clean_ankan_eq]; omega
  have e2 : clean_ankan d = d / 256 / 4 * 1024 := by rw [clean_ankan_eq]; omega
  rw [e1, e2, hac.2, had.2]
  simp only [Option.some.injEq, MeldView.mk.injEq, true_and, List.replicate, List.cons.injEq, and_true]
  constructor
  · intro h
    have : c / 256 / 4 = d / 256 / 4 := by omega
    simp [this]
  · rintro ⟨⟨h, _⟩, _⟩
    rw [h]

theorem kakan_kind (c : Nat) (h : c < 65536) :
    (pattern_kakan c).color * 9 + (pattern_kakan c).number = c / 512 / 3 := by
  rw [pattern_kakan_color, pattern_kakan_number]; omega

/-- for added kans the canonical code determines seat, kind and the position field
`which`, and nothing else -/
theorem clean_kakan_eq_iff (c d : Nat) (hc : is_chi c = false) (hpc : is_pon c = false)
    (hkc : is_kakan c = true)
    (hd : is_chi d = false) (hpd : is_pon d = false) (hkd : is_kakan d = true)
    (wc : WellFormed c) (wd : WellFormed d) :
    clean_kakan c = clean_kakan d ↔
      c % 4 = d % 4 ∧ c / 512 / 3 = d / 512 / 3 ∧ c / 512 % 3 = d / 512 % 3 := by
  have wc := wf_kakan c hc hpc hkc wc
  have wd := wf_kakan d hd hpd hkd wd
  rw [is_pon_false] at hpc hpd
  rw [is_kakan_iff] at hkc hkd
  have c3 : c % 32 = c % 4 + 16 := by omega
  have d3 : d % 32 = d % 4 + 16 := by omega
  constructor
  · intro h
    have b1 := clean_kakan_bits c
    have b2 := clean_kakan_bits d
    rw [h] at b1
    have b3 : c / 128 = d / 128 := by rw [← b1.2.1, b2.2.1]
    have b4 : c % 32 = d % 32 := by rw [← b1.1, b2.1]
    clear b1 b2
    have : c / 512 = d / 512 := by omega
    rw [this]
    omega
  · rintro ⟨h1, h2, h3⟩
    have h5 : c / 512 = d / 512 := by
      generalize c / 512 = x at *
      generalize d / 512 = y at *
      omega
    have h6 : c / 128 = d / 128 := by omega
    have h7 : pattern_kakan c = { pattern_kakan d with exposed := (pattern_kakan c).exposed } := by
      simp only [pattern_kakan, sfe, h5]
    have h8 : (pattern_kakan c).has_red = (pattern_kakan d).has_red := by rw [h7]
    have h9 : (pattern_kakan c).which = (pattern_kakan d).which := by rw [h7]
    rw [clean_kakan_parts, clean_kakan_parts, h6, c3, d3, h1, h8, h9]

end Code
end MJ
