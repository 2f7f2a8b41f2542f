import Verif.Spec.Copies
import Verif.Props.MeldLog
import Verif.Proofs.NakiSame
import Verif.Proofs.NakiIdx
import Mathlib.Data.List.Perm.Subperm
import Mathlib.Data.List.Nodup
/-!
Renaming copies: tiles and meld codes.
-/
namespace MJ
open Code Spec
namespace Spec.Copies

variable {π : Nat → Nat}

theorem slots (h : Copies π) (t : Nat) : tile2idx (π t) = tile2idx t := by
  unfold tile2idx
  have e1 : π t = 16 ↔ t = 16 := ⟨fun e => h.inj _ _ (e.trans h.man.symm), fun e => e ▸ h.man⟩
  have e2 : π t = 52 ↔ t = 52 := ⟨fun e => h.inj _ _ (e.trans h.pin.symm), fun e => e ▸ h.pin⟩
  have e3 : π t = 88 ↔ t = 88 := ⟨fun e => h.inj _ _ (e.trans h.sou.symm), fun e => e ▸ h.sou⟩
  simp only [e1, e2, e3, h.kind]

theorem lt_iff (h : Copies π) (n t : Nat) : π t < 4 * n ↔ t < 4 * n := by
  have := h.kind t
  omega

theorem red (h : Copies π) {k : Nat} (hk : k = 4 ∨ k = 13 ∨ k = 22) : π (4 * k) = 4 * k := by
  rcases hk with rfl | rfl | rfl
  · exact h.man
  · exact h.pin
  · exact h.sou

/-- a copy of a red five's kind is the red five before iff after -/
theorem red_iff (h : Copies π) {k x x' : Nat} (hk : k = 4 ∨ k = 13 ∨ k = 22) (e : π (4 * k + x) = 4 * k + x') :
    x' = 0 ↔ x = 0 := by
  constructor
  · intro hx
    have := h.inj (4 * k + x) (4 * k) (by rw [e, h.red hk, hx]; rfl)
    omega
  · intro hx
    subst hx
    have := h.red hk
    rw [Nat.add_zero] at e
    omega

end Spec.Copies

/-- what the later code reads off a meld is the same -/
structure MeldSame (m m' : Naki) : Prop where
  pon : is_pon m'.naki_code = is_pon m.naki_code
  kind : is_pon m.naki_code = true →
    (pattern_pon m'.naki_code).color = (pattern_pon m.naki_code).color ∧
    (pattern_pon m'.naki_code).number = (pattern_pon m.naki_code).number ∧
    9 * (pattern_pon m.naki_code).color + (pattern_pon m.naki_code).number < 34
  arg : nakiToMeld m'.naki_code = nakiToMeld m.naki_code

/-- the facts about two codes of the same call with renamed copies -/
structure CodeSame (π : Nat → Nat) (c c' : Nat) : Prop where
  chi : is_chi c' = is_chi c
  pon : is_pon c' = is_pon c
  kakan : is_kakan c' = is_kakan c
  minkan : is_minkan c' = is_minkan c
  ankan : is_ankan c' = is_ankan c
  source : from_who c' = from_who c
  kind : is_pon c = true →
    (pattern_pon c').color = (pattern_pon c).color ∧ (pattern_pon c').number = (pattern_pon c).number ∧
    9 * (pattern_pon c).color + (pattern_pon c).number < 34
  arg : nakiToMeld c' = nakiToMeld c
  token : ∀ p, naki2idx p c' = naki2idx p c
  clean : ∃ k k', Code.clean c = .ok k ∧ Code.clean c' = .ok k' ∧
    (k' = k ∨ (is_kakan c = true ∧ k % 4 ≠ 0 ∧ k' % 4 ≠ 0))
  exposed : ∃ l l' a, get_exposed c = .ok (l, a) ∧ get_exposed c' = .ok (l', a.map π) ∧ l'.Perm (l.map π) ∧
    l.Nodup ∧ (is_kakan c = true → ∃ t, l = [t] ∧ l' = [π t])

theorem mem_copies (k t : Nat) : t ∈ LogMeld.copies k ↔ t / 4 = k := by
  simp only [LogMeld.copies, List.mem_cons, List.not_mem_nil, or_false]
  omega

theorem map_perm {π : Nat → Nat} (h : Copies π) {l l' : List Nat} (hn : l.Nodup) (hl : l'.length ≤ l.length)
    (hs : ∀ t ∈ l, π t ∈ l') : l'.Perm (l.map π) := by
  have hn' : (l.map π).Nodup := List.Nodup.map (fun _ _ e => h.inj _ _ e) hn
  refine ((List.subperm_of_subset hn' ?_).perm_of_length_le (by simpa using hl)).symm
  intro t ht
  obtain ⟨x, hx, rfl⟩ := List.mem_map.mp ht
  exact hs x hx

/-- the tiles of a pon other than the called one -/
theorem mem_pon {src k u w : Nat} (hu : u < 4) (hw : w < 3) (t : Nat) :
    t ∈ (LogMeld.pon src k u w).tiles.1 ↔ t / 4 = k ∧ t ≠ 4 * k + u ∧ (LogMeld.pon src k u w).tiles.2 ≠ some t := by
  have h1 : u = 0 ∨ u = 1 ∨ u = 2 ∨ u = 3 := by omega
  have h2 : w = 0 ∨ w = 1 ∨ w = 2 := by omega
  rcases h1 with rfl | rfl | rfl | rfl <;> rcases h2 with rfl | rfl | rfl <;>
    simp [LogMeld.tiles, LogMeld.copies, List.eraseIdx] <;> omega

theorem pon_tiles_length {src k u w : Nat} (hu : u < 4) (hw : w < 3) :
    (LogMeld.pon src k u w).tiles.1.length = 2 ∧ (LogMeld.pon src k u w).tiles.1.Nodup := by
  have h1 : u = 0 ∨ u = 1 ∨ u = 2 ∨ u = 3 := by omega
  have h2 : w = 0 ∨ w = 1 ∨ w = 2 := by omega
  rcases h1 with rfl | rfl | rfl | rfl <;> rcases h2 with rfl | rfl | rfl <;>
    simp [LogMeld.tiles, LogMeld.copies, List.eraseIdx]

/-- the tiles of a renamed meld -/
theorem Spec.Renamed.tiles {π : Nat → Nat} (h : Copies π) {m m' : LogMeld} (hr : Renamed π m m') (hv : m.Valid) (hv' : m'.Valid) :
    m'.tiles.1.Perm (m.tiles.1.map π) ∧ m'.tiles.2 = m.tiles.2.map π ∧ m.tiles.1.Nodup ∧
    (m.type = .kakan → ∃ t, m.tiles.1 = [t] ∧ m'.tiles.1 = [π t]) := by
  cases hr with
  | @chi src k x y z x' y' z' w hx hy hz =>
    obtain ⟨-, -, -, h4, h5, h6, h7⟩ := hv
    have h2 : w = 0 ∨ w = 1 ∨ w = 2 := by omega
    rcases h2 with rfl | rfl | rfl <;>
      simp [LogMeld.tiles, List.eraseIdx, hx, hy, hz, LogMeld.type] <;> omega
  | @pon src k u w u' w' hu hc =>
    obtain ⟨-, -, h3, h4⟩ := hv
    obtain ⟨-, -, h3', h4'⟩ := hv'
    have e1 := pon_tiles_length (src := src) (k := k) h3 h4
    have e2 := pon_tiles_length (src := src) (k := k) h3' h4'
    refine ⟨map_perm h e1.2 (by rw [e1.1, e2.1]; exact Nat.le_refl _) ?_, hc, e1.2, fun e => by cases e⟩
    intro t ht
    rw [mem_pon h3 h4] at ht
    rw [mem_pon h3' h4', hc]
    refine ⟨by rw [h.kind]; exact ht.1, ?_, ?_⟩
    · intro e
      rw [← hu] at e
      exact ht.2.1 (h.inj _ _ e)
    · intro e
      apply ht.2.2
      generalize (LogMeld.pon src k u w).tiles.2 = a at e
      cases a with
      | none => simp at e
      | some a =>
        simp only [Option.map_some, Option.some.injEq] at e
        rw [h.inj _ _ e]
  | @kakan src k u w u' w' hs hu =>
    exact ⟨by simp [LogMeld.tiles, hu], rfl, by simp [LogMeld.tiles], fun _ => ⟨4 * k + u, rfl, by simp [LogMeld.tiles, hu]⟩⟩
  | @minkan src t =>
    have hk : π t / 4 = t / 4 := h.kind t
    refine ⟨map_perm h ?_ ?_ ?_, rfl, ?_, fun e => by cases e⟩
    · exact List.Nodup.filter _ (by simp [LogMeld.copies])
    · have : t % 4 = 0 ∨ t % 4 = 1 ∨ t % 4 = 2 ∨ t % 4 = 3 := by omega
      have key : ∀ t, ((LogMeld.copies (t / 4)).filter (· != t)).length = 3 := by
        intro t
        have h4 : t = 4 * (t / 4) + t % 4 := by omega
        have : t % 4 = 0 ∨ t % 4 = 1 ∨ t % 4 = 2 ∨ t % 4 = 3 := by omega
        generalize t / 4 = q at h4
        generalize t % 4 = r at h4 this
        subst h4
        rcases this with rfl | rfl | rfl | rfl <;> simp [LogMeld.copies]
      show ((LogMeld.copies (π t / 4)).filter (· != π t)).length ≤ ((LogMeld.copies (t / 4)).filter (· != t)).length
      rw [key, key]; exact Nat.le_refl _
    · intro x hx
      simp only [LogMeld.tiles, List.mem_filter, mem_copies, bne_iff_ne] at hx ⊢
      exact ⟨by rw [h.kind, h.kind, hx.1], fun e => hx.2 (h.inj _ _ e)⟩
    · exact List.Nodup.filter _ (by simp [LogMeld.copies])
  | @ankan t t' ht =>
    refine ⟨map_perm h (by simp [LogMeld.tiles, LogMeld.copies]) (by simp [LogMeld.tiles, LogMeld.copies]) ?_, rfl,
      by simp [LogMeld.tiles, LogMeld.copies], fun e => by cases e⟩
    intro x hx
    simp only [LogMeld.tiles, mem_copies] at hx ⊢
    rw [h.kind, hx, ht]

theorem Spec.Renamed.type {π : Nat → Nat} {m m' : LogMeld} (hr : Renamed π m m') : m'.type = m.type := by
  cases hr <;> rfl

theorem Spec.Renamed.source {π : Nat → Nat} {m m' : LogMeld} (hr : Renamed π m m') : m'.source = m.source := by
  cases hr <;> rfl

/-! ### the five types -/

theorem onlyType_same {c c' : Nat} {ty : MeldType} (h : onlyType c ty) (h' : onlyType c' ty) :
    is_chi c' = is_chi c ∧ is_pon c' = is_pon c ∧ is_kakan c' = is_kakan c ∧ is_minkan c' = is_minkan c ∧
    is_ankan c' = is_ankan c := by
  obtain ⟨a, b, c, d, e⟩ := h
  obtain ⟨a', b', c', d', e'⟩ := h'
  exact ⟨a'.trans a.symm, b'.trans b.symm, c'.trans c.symm, d'.trans d.symm, e'.trans e.symm⟩

/-- the fields of the code of a chi -/
theorem chi_parts {src k x y z w : Nat} (hv : (LogMeld.chi src k x y z w).Valid) :
    (LogMeld.chi src k x y z w).encode % 8 = src + 4 ∧ (LogMeld.chi src k x y z w).encode / 8 % 4 = x ∧
    (LogMeld.chi src k x y z w).encode / 32 % 4 = y ∧ (LogMeld.chi src k x y z w).encode / 128 % 4 = z ∧
    (LogMeld.chi src k x y z w).encode / 512 % 2 = 0 ∧
    (LogMeld.chi src k x y z w).encode / 1024 = (k / 9 * 7 + k % 9) * 3 + w := by
  obtain ⟨h1, h2, h3, h4, h5, h6, h7⟩ := hv
  simp only [LogMeld.encode]
  generalize (k / 9 * 7 + k % 9) * 3 + w = q
  omega

theorem pon_parts {src k u w : Nat} (hv : (LogMeld.pon src k u w).Valid) :
    (LogMeld.pon src k u w).encode % 4 = src ∧ (LogMeld.pon src k u w).encode / 32 % 4 = u ∧
    (LogMeld.pon src k u w).encode / 512 = k * 3 + w ∧ (LogMeld.pon src k u w).encode < 65536 := by
  obtain ⟨h1, h2, h3, h4⟩ := hv
  simp only [LogMeld.encode]
  omega

theorem kakan_parts {src k u w : Nat} (hv : (LogMeld.kakan src k u w).Valid) :
    (LogMeld.kakan src k u w).encode % 4 = src ∧ (LogMeld.kakan src k u w).encode / 32 % 4 = u ∧
    (LogMeld.kakan src k u w).encode / 512 = k * 3 + w ∧ (LogMeld.kakan src k u w).encode < 65536 := by
  obtain ⟨h1, h2, h3, h4⟩ := hv
  simp only [LogMeld.encode]
  omega

theorem chi_number_of {p q w : Nat} (hp : p < 3) (hq : q ≤ 6) (hw : w < 3) : ((p * 7 + q) * 3 + w) % 64 / 3 % 7 = q := by
  have e1 : ((p * 7 + q) * 3 + w) % 64 = (p * 7 + q) * 3 + w := by omega
  have e2 : ((p * 7 + q) * 3 + w) / 3 = p * 7 + q := by omega
  rw [e1, e2]; omega

theorem chi_same {π : Nat → Nat} (h : Copies π) {k x y z x' y' z' w c c' : Nat} (h2 : k < 27) (h3 : k % 9 ≤ 6) (h7 : w < 3)
    (hx : π (4 * k + x) = 4 * k + x') (hy : π (4 * (k + 1) + y) = 4 * (k + 1) + y')
    (hz : π (4 * (k + 2) + z) = 4 * (k + 2) + z') (a1 : c' % 8 = c % 8) (a2 : c / 8 % 4 = x) (a3 : c / 32 % 4 = y)
    (a4 : c / 128 % 4 = z) (a5 : c / 512 % 2 = 0) (a6 : c / 1024 = (k / 9 * 7 + k % 9) * 3 + w) (b2 : c' / 8 % 4 = x')
    (b3 : c' / 32 % 4 = y') (b4 : c' / 128 % 4 = z') (b5 : c' / 512 % 2 = 0) (b6 : c' / 1024 = c / 1024) :
    (pattern_chi c').has_red = (pattern_chi c).has_red ∧ (pattern_chi c').color = (pattern_chi c).color ∧
    (pattern_chi c').number = (pattern_chi c).number ∧ (pattern_chi c').which = (pattern_chi c).which ∧
    clean_chi c' = clean_chi c := by
  have hn : (pattern_chi c).number = k % 9 := by
    rw [pattern_chi_number, a6]
    have e : k / 9 < 3 := by clear a1 a2 a3 a4 a5 a6 b2 b3 b4 b5 b6 hx hy hz; omega
    exact chi_number_of e h3 h7
  have hn' : (pattern_chi c').number = k % 9 := by
    rw [pattern_chi_number, b6, ← pattern_chi_number, hn]
  have k1 : k % 9 = 4 → (k = 4 ∨ k = 13 ∨ k = 22) := by clear a1 a2 a3 a4 a5 a6 b2 b3 b4 b5 b6 hx hy hz hn hn'; omega
  have k2 : k % 9 = 3 → (k + 1 = 4 ∨ k + 1 = 13 ∨ k + 1 = 22) := by
    clear a1 a2 a3 a4 a5 a6 b2 b3 b4 b5 b6 hx hy hz hn hn'; omega
  have k3 : k % 9 = 2 → (k + 2 = 4 ∨ k + 2 = 13 ∨ k + 2 = 22) := by
    clear a1 a2 a3 a4 a5 a6 b2 b3 b4 b5 b6 hx hy hz hn hn'; omega
  have hred : (pattern_chi c').has_red = (pattern_chi c).has_red := by
    rw [Bool.eq_iff_iff, pattern_chi_red, pattern_chi_red, hn, hn', a2, a3, a4, b2, b3, b4]
    have e1 : k % 9 = 4 → (x' = 0 ↔ x = 0) := fun e => h.red_iff (k1 e) hx
    have e2 : k % 9 = 3 → (y' = 0 ↔ y = 0) := fun e => h.red_iff (k2 e) hy
    have e3 : k % 9 = 2 → (z' = 0 ↔ z = 0) := fun e => h.red_iff (k3 e) hz
    constructor
    · rintro (⟨e, f⟩ | ⟨e, f⟩ | ⟨e, f⟩)
      · exact Or.inl ⟨e, (e1 e).1 f⟩
      · exact Or.inr (Or.inl ⟨e, (e2 e).1 f⟩)
      · exact Or.inr (Or.inr ⟨e, (e3 e).1 f⟩)
    · rintro (⟨e, f⟩ | ⟨e, f⟩ | ⟨e, f⟩)
      · exact Or.inl ⟨e, (e1 e).2 f⟩
      · exact Or.inr (Or.inl ⟨e, (e2 e).2 f⟩)
      · exact Or.inr (Or.inr ⟨e, (e3 e).2 f⟩)
  refine ⟨hred, ?_, by rw [hn, hn'], ?_, ?_⟩
  · rw [pattern_chi_color, pattern_chi_color, b6]
  · rw [pattern_chi_which, pattern_chi_which, b6]
  · rw [clean_chi_eq_iff _ _ b5 a5]
    exact ⟨a1, b6, hred⟩

theorem pon_red {src k u w : Nat} (hv : (LogMeld.pon src k u w).Valid) :
    (pattern_pon (LogMeld.pon src k u w).encode).has_red = redPon k u := by
  obtain ⟨a1, a2, a3, a4⟩ := pon_parts hv
  obtain ⟨h1, h2, h3, h4⟩ := hv
  rw [pon_red_iff _ a4, a2, a3, show (k * 3 + w) / 3 = k by omega]
  unfold fiveKind redPon
  rw [Bool.eq_iff_iff]
  simp only [Bool.and_eq_true, decide_eq_true_eq, Bool.or_eq_true, beq_iff_eq, bne_iff_ne]
  omega

theorem encode_wellFormed {m : LogMeld} (hv : m.Valid) : WellFormed m.encode := (C93_covers _).2 ⟨m, hv, rfl⟩

/-- the place of the red five among the three tiles of a pon is the first one -/
theorem red_called {src k u w : Nat} (hu : u < 4) (hw : w < 3) (hr : u ≠ 0) :
    (LogMeld.pon src k u w).tiles.2 = some (4 * k) ↔ w = 0 := by
  have h1 : u = 0 ∨ u = 1 ∨ u = 2 ∨ u = 3 := by omega
  have h2 : w = 0 ∨ w = 1 ∨ w = 2 := by omega
  rcases h1 with rfl | rfl | rfl | rfl <;> rcases h2 with rfl | rfl | rfl <;>
    simp [LogMeld.tiles, LogMeld.copies, List.eraseIdx] at hr ⊢

/-- the called tile of a pon as the program reads it -/
theorem pon_acquired {src k u w : Nat} (hv : (LogMeld.pon src k u w).Valid) :
    (pattern_pon (LogMeld.pon src k u w).encode).acquired = (LogMeld.pon src k u w).tiles.2 := by
  obtain ⟨h1, ⟨h2, h3, -⟩, -⟩ := C93_tiles _ hv
  simp only [LogMeld.type] at h2 h3
  unfold get_exposed at h1
  rw [h2, h3] at h1
  simp only [show (MeldType.pon == MeldType.chi) = false from rfl, show (MeldType.pon == MeldType.pon) = true from rfl,
    Bool.false_eq_true, if_false, if_true, Except.ok.injEq] at h1
  exact congrArg Prod.snd h1

/-- two pons with the same source, kind and redness: what the program makes of them is the same if the two positions are
told apart alike -/
theorem pon_same {c c' k w w' : Nat} (hp : is_pon c = true) (hp' : is_pon c' = true) (hw : WellFormed c) (hw' : WellFormed c')
    (hs : c' % 4 = c % 4) (hc : c < 65536) (hc' : c' < 65536) (hk : c / 512 = k * 3 + w) (hk' : c' / 512 = k * 3 + w') (h3 : w < 3)
    (h3' : w' < 3) (hr : (pattern_pon c').has_red = (pattern_pon c).has_red) :
    (pattern_pon c').color = (pattern_pon c).color ∧ (pattern_pon c').number = (pattern_pon c).number ∧
    (clean_pon c' = clean_pon c ↔ if (pattern_pon c).has_red = true then (w = 0 ↔ w' = 0) else w' = w) ∧
    (((pattern_pon c).has_red = true → ((pattern_pon c').acquired.map (· % 4) = some 3 ↔
      (pattern_pon c).acquired.map (· % 4) = some 3)) → get_post_turn_filter_idx c' = get_post_turn_filter_idx c) := by
  have hch : is_chi c = false := by
    unfold is_pon at hp
    cases e : is_chi c
    · rfl
    · simp [e] at hp
  have hch' : is_chi c' = false := by
    unfold is_pon at hp'
    cases e : is_chi c'
    · rfl
    · simp [e] at hp'
  have e3 : c' / 512 % 128 / 3 = c / 512 % 128 / 3 := by
    rw [Nat.mod_eq_of_lt (a := c' / 512) (by omega), Nat.mod_eq_of_lt (a := c / 512) (by omega), hk, hk']
    omega
  have ecol : (pattern_pon c').color = (pattern_pon c).color := by rw [pattern_pon_color, pattern_pon_color, e3]
  have enum : (pattern_pon c').number = (pattern_pon c).number := by rw [pattern_pon_number, pattern_pon_number, e3]
  refine ⟨ecol, enum, ?_, ?_⟩
  · rw [clean_pon_eq_iff c' c hch' hp' hch hp hw' hw, hr, hk, hk']
    have d1 : (k * 3 + w') / 3 = (k * 3 + w) / 3 := by omega
    have d2 : (k * 3 + w') % 3 = w' := by omega
    have d3 : (k * 3 + w) % 3 = w := by omega
    rw [d1, d2, d3]
    constructor
    · rintro ⟨-, -, -, h⟩
      split at h
      · rw [if_pos ‹_›]; exact h.symm
      · rw [if_neg ‹_›]; exact h
    · intro h
      refine ⟨hs, rfl, rfl, ?_⟩
      split at h
      · rw [if_pos ‹_›]; exact h.symm
      · rw [if_neg ‹_›]; exact h
  · intro hq
    obtain ⟨a, ha⟩ := ponTiles_which c
    obtain ⟨a', ha'⟩ := ponTiles_which c'
    simp only [ha, ha', Option.map_some, Option.some.injEq] at hq
    unfold get_post_turn_filter_idx
    simp only [hch, hch', hp, hp', if_true, Bool.false_eq_true, if_false, ecol, enum, ha, ha', hr]
    cases hrd : (pattern_pon c).has_red
    · simp
    · have := hq hrd
      simp only [Bool.true_and, beq_iff_eq, this]

theorem kakan_same {c c' k w w' : Nat} (hc : c < 65536) (hc' : c' < 65536) (hk : c / 512 = k * 3 + w) (hk' : c' / 512 = k * 3 + w')
    (h3 : w < 3) (h3' : w' < 3) :
    (pattern_kakan c').color = (pattern_kakan c).color ∧ (pattern_kakan c').number = (pattern_kakan c).number ∧
    clean_kakan c % 4 = c % 4 ∧ clean_kakan c' % 4 = c' % 4 := by
  have e3 : c' / 512 % 128 / 3 = c / 512 % 128 / 3 := by
    rw [Nat.mod_eq_of_lt (a := c' / 512) (by omega), Nat.mod_eq_of_lt (a := c / 512) (by omega), hk, hk']
    omega
  have key : ∀ x, clean_kakan x % 4 = x % 4 := by
    intro x
    rw [clean_kakan_eq]
    split <;> omega
  exact ⟨by rw [pattern_kakan_color, pattern_kakan_color, e3], by rw [pattern_kakan_number, pattern_kakan_number, e3], key _, key _⟩

/-- the canonical code by type -/
def cleanBy (c : Nat) : MeldType → Nat
  | .chi => clean_chi c
  | .pon => clean_pon c
  | .kakan => clean_kakan c
  | .minkan => clean_minkan c
  | .ankan => clean_ankan c

theorem clean_of {c : Nat} {ty : MeldType} (h : onlyType c ty) : Code.clean c = .ok (cleanBy c ty) := by
  obtain ⟨h1, h2, h3, h4, h5⟩ := h
  unfold Code.clean
  rw [h1, h2, h3, h4, h5]
  cases ty <;> rfl

theorem minkan_same {π : Nat → Nat} {src t t' : Nat} (hs : src < 4) (ht : t < 136) (hk : t' / 4 = t / 4)
    (h : Copies π) (e : t' = π t) : 
    (pattern_minkan (src + 256 * t')).color = (pattern_minkan (src + 256 * t)).color ∧
    (pattern_minkan (src + 256 * t')).number = (pattern_minkan (src + 256 * t)).number ∧
    clean_minkan (src + 256 * t') = clean_minkan (src + 256 * t) := by
  have f : ∀ x, x < 136 → (src + 256 * x) / 256 % 256 = x := by intro x hx; omega
  have ht' : t' < 136 := by omega
  have ec : (pattern_minkan (src + 256 * t')).color = (pattern_minkan (src + 256 * t)).color := by
    rw [pattern_minkan_color, pattern_minkan_color, f _ ht, f _ ht', hk]
  have en : (pattern_minkan (src + 256 * t')).number = (pattern_minkan (src + 256 * t)).number := by
    rw [pattern_minkan_number, pattern_minkan_number, f _ ht, f _ ht', hk]
  have er : (pattern_minkan (src + 256 * t')).has_red = (pattern_minkan (src + 256 * t)).has_red := by
    rw [Bool.eq_iff_iff, pattern_minkan_red, pattern_minkan_red, ec, en]
  refine ⟨ec, en, ?_⟩
  rw [clean_minkan_eq, clean_minkan_eq, er, pattern_minkan_which, pattern_minkan_which, f _ ht, f _ ht']
  cases hr : (pattern_minkan (src + 256 * t)).has_red
  · simp only [Bool.false_eq_true, false_and, if_false]
    clear ec en er hr f
    omega
  · have h5 : t / 4 = 4 ∨ t / 4 = 13 ∨ t / 4 = 22 := by
      rw [pattern_minkan_red, pattern_minkan_number, pattern_minkan_color, f _ ht] at hr
      clear ec en er f
      omega
    have hz : t' % 4 = 0 ↔ t % 4 = 0 := by
      refine h.red_iff h5 ?_
      rw [show 4 * (t / 4) + t % 4 = t by omega, ← e]
      omega
    clear ec en er hr f
    by_cases hm : t % 4 = 0
    · rw [if_pos ⟨rfl, hz.2 hm⟩, if_pos ⟨rfl, hm⟩]; omega
    · rw [if_neg (fun x => hm (hz.1 x.2)), if_neg (fun x => hm x.2)]; omega

theorem ankan_same {t t' : Nat} (ht : t < 136) (hk : t' / 4 = t / 4) :
    (pattern_ankan (256 * t')).color = (pattern_ankan (256 * t)).color ∧
    (pattern_ankan (256 * t')).number = (pattern_ankan (256 * t)).number ∧
    clean_ankan (256 * t') = clean_ankan (256 * t) := by
  have f : ∀ x, x < 136 → 256 * x / 256 % 256 = x := by intro x hx; omega
  have ht' : t' < 136 := by omega
  refine ⟨by rw [pattern_ankan_color, pattern_ankan_color, f _ ht, f _ ht', hk],
    by rw [pattern_ankan_number, pattern_ankan_number, f _ ht, f _ ht', hk], ?_⟩
  rw [clean_ankan_eq, clean_ankan_eq]
  omega

theorem naki2idx_of {c c' : Nat} {ty : MeldType} (h : onlyType c ty) (h' : onlyType c' ty)
    (hp : ty = .chi ∨ ty = .pon ∨ ty = .minkan → get_post_turn_filter_idx c' = get_post_turn_filter_idx c)
    (hd : ty = .kakan ∨ ty = .ankan → get_during_turn_filter_idx c' = get_during_turn_filter_idx c) (p : Nat) :
    naki2idx p c' = naki2idx p c := by
  obtain ⟨h1, h2, h3, h4, h5⟩ := h
  obtain ⟨h1', h2', h3', h4', h5'⟩ := h'
  unfold naki2idx
  rw [h1, h2, h3, h4, h5, h1', h2', h3', h4', h5']
  cases ty
  · have e := hp (by simp)
    simp [e]
  · have e := hp (by simp)
    simp [e]
  · have e := hd (by simp)
    simp [e]
  · have e := hp (by simp)
    simp [e]
  · have e := hd (by simp)
    simp [e]

theorem pon_kind_lt {k w : Nat} (hk : k < 34) (hw : w < 3) :
    9 * ((k * 3 + w) % 128 / 3 / 9) + (k * 3 + w) % 128 / 3 % 9 < 34 := by
  rw [Nat.mod_eq_of_lt (a := k * 3 + w) (by omega), show (k * 3 + w) / 3 = k by omega]
  omega

/-- everything the program reads off a call is the same for the renamed call -/
theorem codeSame {π : Nat → Nat} (h : Copies π) {m m' : LogMeld} (hv : m.Valid) (hv' : m'.Valid) (hr : Renamed π m m')
    (ht : Told m m') : CodeSame π m.encode m'.encode := by
  obtain ⟨g1, g2, g3, -⟩ := C93_tiles m hv
  obtain ⟨g1', g2', g3', -⟩ := C93_tiles m' hv'
  obtain ⟨t1, t2, t3, t4⟩ := hr.tiles h hv hv'
  rw [hr.type] at g2'
  rw [hr.source] at g3'
  obtain ⟨q1, q2, q3, q4, q5⟩ := onlyType_same g2 g2'
  have hex : ∃ l l' a, get_exposed m.encode = .ok (l, a) ∧ get_exposed m'.encode = .ok (l', a.map π) ∧ l'.Perm (l.map π) ∧
      l.Nodup ∧ (is_kakan m.encode = true → ∃ t, l = [t] ∧ l' = [π t]) := by
    refine ⟨m.tiles.1, m'.tiles.1, m.tiles.2, g1, by rw [g1', ← t2], t1, t3, ?_⟩
    · intro hk
      rw [g2.2.2.1] at hk
      exact t4 (by simpa using hk)
  have hsrc : from_who m'.encode = from_who m.encode := by rw [g3, g3']
  have noPon : m.type ≠ .pon → is_pon m.encode = true →
      (pattern_pon m'.encode).color = (pattern_pon m.encode).color ∧
      (pattern_pon m'.encode).number = (pattern_pon m.encode).number ∧
      9 * (pattern_pon m.encode).color + (pattern_pon m.encode).number < 34 := by
    intro h1 h2
    rw [g2.2.1] at h2
    exact absurd (by simpa using h2) h1
  cases hr with
  | @chi src k x y z x' y' z' w hx hy hz =>
    obtain ⟨a1, a2, a3, a4, a5, a6⟩ := chi_parts hv
    obtain ⟨b1, b2, b3, b4, b5, b6⟩ := chi_parts hv'
    have noPon := noPon (by simp [LogMeld.type])
    obtain ⟨-, v2, v3, -, -, -, v7⟩ := hv
    generalize (LogMeld.chi src k x y z w).encode = c at *
    generalize (LogMeld.chi src k x' y' z' w).encode = c' at *
    obtain ⟨s1, s2, s3, s4, s5⟩ := chi_same h v2 v3 v7 hx hy hz (b1.trans a1.symm) a2 a3 a4 a5 a6 b2 b3 b4 b5 (b6.trans a6.symm)
    have hc : is_chi c = true := g2.1
    have hc' : is_chi c' = true := g2'.1
    refine ⟨q1, q2, q3, q4, q5, hsrc, noPon, ?_, ?_, ⟨_, _, clean_of g2, clean_of g2', Or.inl s5⟩, hex⟩
    · unfold nakiToMeld
      simp only [hc, hc', if_true, s1, s2, s3]
    · refine naki2idx_of g2 g2' (fun _ => ?_) (fun e => by simp [LogMeld.type] at e)
      unfold get_post_turn_filter_idx
      simp only [hc, hc', if_true, s1, s2, s3, s4]
  | @pon src k u w u' w' hu hcl =>
    obtain ⟨a1, a2, a3, a4⟩ := pon_parts hv
    obtain ⟨b1, b2, b3, b4⟩ := pon_parts hv'
    have r1 := pon_red hv
    have r2 := pon_red hv'
    have c1 := pon_acquired hv
    have c2 := pon_acquired hv'
    have w1 := encode_wellFormed hv
    have w2 := encode_wellFormed hv'
    obtain ⟨-, v2, v3, v4⟩ := hv
    obtain ⟨-, -, v3', v4'⟩ := hv'
    have hz : (k = 4 ∨ k = 13 ∨ k = 22) → (u' = 0 ↔ u = 0) := fun hk => h.red_iff hk hu
    have hrr : redPon k u' = redPon k u := by
      unfold redPon
      rw [Bool.eq_iff_iff]
      simp only [Bool.and_eq_true, Bool.or_eq_true, beq_iff_eq, bne_iff_ne, or_assoc]
      constructor
      · rintro ⟨x, y⟩; exact ⟨x, fun e => y ((hz x).2 e)⟩
      · rintro ⟨x, y⟩; exact ⟨x, fun e => y ((hz x).1 e)⟩
    simp only [Told] at ht
    have hw0 : redPon k u = true → (w = 0 ↔ w' = 0) := by
      intro e
      simp only [redPon, Bool.and_eq_true, Bool.or_eq_true, beq_iff_eq, bne_iff_ne, or_assoc] at e
      have f1 := red_called (src := src) (k := k) v3 v4 e.2
      have f2 := red_called (src := src) (k := k) v3' v4' (fun x => e.2 ((hz e.1).1 x))
      rw [← f1, ← f2, hcl]
      generalize (LogMeld.pon src k u w).tiles.2 = a
      cases a with
      | none => simp
      | some a =>
        simp only [Option.map_some, Option.some.injEq]
        constructor
        · rintro rfl; exact h.red e.1
        · intro x; exact h.inj _ _ (x.trans (h.red e.1).symm)
    unfold calledCopy at ht
    rw [← c1, ← c2] at ht
    generalize (LogMeld.pon src k u w).encode = c at *
    generalize (LogMeld.pon src k u' w').encode = c' at *
    have hc : is_pon c = true := g2.2.1
    have hc' : is_pon c' = true := g2'.2.1
    obtain ⟨s1, s2, s3, s4⟩ := pon_same hc hc' w1 w2 (b1.trans a1.symm) a4 b4 a3 b3 v4 v4' (by rw [r1, r2, hrr])
    refine ⟨q1, q2, q3, q4, q5, hsrc, fun _ => ⟨s1, s2, ?_⟩, ?_, ?_, ⟨_, _, clean_of g2, clean_of g2', Or.inl (s3.2 ?_)⟩, hex⟩
    · rw [pattern_pon_color, pattern_pon_number, a3]
      exact pon_kind_lt v2 v4
    · unfold nakiToMeld
      have hn : is_chi c = false := g2.1
      simp only [q1, hn, Bool.false_eq_true, if_false, hc, hc', if_true, s1, s2, r1, r2, hrr]
    · refine naki2idx_of g2 g2' (fun _ => s4 ?_) (fun e => by simp [LogMeld.type] at e)
      intro e
      rw [r1] at e
      rw [if_pos e] at ht
      exact ht.symm
    · rw [r1]
      by_cases e : redPon k u = true
      · rw [if_pos e]; exact hw0 e
      · rw [if_neg e] at ht ⊢; exact ht
  | @kakan src k u w u' w' hs hu =>
    obtain ⟨a1, a2, a3, a4⟩ := kakan_parts hv
    obtain ⟨b1, b2, b3, b4⟩ := kakan_parts hv'
    have noPon := noPon (by simp [LogMeld.type])
    obtain ⟨-, v2, v3, v4⟩ := hv
    obtain ⟨-, -, v3', v4'⟩ := hv'
    generalize (LogMeld.kakan src k u w).encode = c at *
    generalize (LogMeld.kakan src k u' w').encode = c' at *
    have hc : is_kakan c = true := g2.2.2.1
    have hc' : is_kakan c' = true := g2'.2.2.1
    have hp : is_pon c = false := g2.2.1
    have hn : is_chi c = false := g2.1
    obtain ⟨s1, s2, s3, s4⟩ := kakan_same a4 b4 a3 b3 v4 v4'
    refine ⟨q1, q2, q3, q4, q5, hsrc, noPon, ?_, ?_,
      ⟨_, _, clean_of g2, clean_of g2', Or.inr ⟨hc, ?_, ?_⟩⟩, hex⟩
    · unfold nakiToMeld
      simp only [q1, q2, hn, hp, Bool.false_eq_true, if_false, hc, hc', if_true, s1, s2]
    · refine naki2idx_of g2 g2' (fun e => by simp [LogMeld.type] at e) (fun _ => ?_)
      unfold get_during_turn_filter_idx
      have ha : is_ankan c = false := g2.2.2.2.2
      simp only [q5, ha, Bool.false_eq_true, if_false, hc, hc', if_true, s1, s2]
    · show clean_kakan c % 4 ≠ 0
      rw [s3, a1]; exact hs
    · show clean_kakan c' % 4 ≠ 0
      rw [s4, b1]; exact hs
  | @minkan src t =>
    have noPon := noPon (by simp [LogMeld.type])
    obtain ⟨v1, v2, v3⟩ := hv
    have hn : is_chi (LogMeld.minkan src t).encode = false := g2.1
    have hp : is_pon (LogMeld.minkan src t).encode = false := g2.2.1
    have hk : is_kakan (LogMeld.minkan src t).encode = false := g2.2.2.1
    have hm : is_minkan (LogMeld.minkan src t).encode = true := g2.2.2.2.1
    have hm' : is_minkan (LogMeld.minkan src (π t)).encode = true := g2'.2.2.2.1
    obtain ⟨s1, s2, s3⟩ := minkan_same (src := src) v2 v3 (h.kind t) h rfl
    change (pattern_minkan (LogMeld.minkan src (π t)).encode).color = (pattern_minkan (LogMeld.minkan src t).encode).color at s1
    change (pattern_minkan (LogMeld.minkan src (π t)).encode).number = (pattern_minkan (LogMeld.minkan src t).encode).number at s2
    refine ⟨q1, q2, q3, q4, q5, hsrc, noPon, ?_, ?_, ⟨_, _, clean_of g2, clean_of g2', Or.inl s3⟩, hex⟩
    · unfold nakiToMeld
      simp only [q1, q2, q3, hn, hp, hk, Bool.false_eq_true, if_false, hm, hm', if_true, s1, s2]
    · refine naki2idx_of g2 g2' (fun _ => ?_) (fun e => by simp [LogMeld.type] at e)
      unfold get_post_turn_filter_idx
      simp only [q1, q2, hn, hp, Bool.false_eq_true, if_false, hm, hm', if_true, s1, s2]
  | @ankan t t' hk' =>
    have noPon := noPon (by simp [LogMeld.type])
    have hn : is_chi (LogMeld.ankan t).encode = false := g2.1
    have hp : is_pon (LogMeld.ankan t).encode = false := g2.2.1
    have hk : is_kakan (LogMeld.ankan t).encode = false := g2.2.2.1
    have hm : is_minkan (LogMeld.ankan t).encode = false := g2.2.2.2.1
    have ha : is_ankan (LogMeld.ankan t).encode = true := g2.2.2.2.2
    have ha' : is_ankan (LogMeld.ankan t').encode = true := g2'.2.2.2.2
    obtain ⟨s1, s2, s3⟩ := ankan_same (t := t) hv hk'
    change (pattern_ankan (LogMeld.ankan t').encode).color = (pattern_ankan (LogMeld.ankan t).encode).color at s1
    change (pattern_ankan (LogMeld.ankan t').encode).number = (pattern_ankan (LogMeld.ankan t).encode).number at s2
    refine ⟨q1, q2, q3, q4, q5, hsrc, noPon, ?_, ?_, ⟨_, _, clean_of g2, clean_of g2', Or.inl s3⟩, hex⟩
    · unfold nakiToMeld
      simp only [q1, q2, q3, q4, hn, hp, hk, hm, Bool.false_eq_true, if_false, ha, ha', if_true, s1, s2]
    · refine naki2idx_of g2 g2' (fun e => by simp [LogMeld.type] at e) (fun _ => ?_)
      unfold get_during_turn_filter_idx
      simp only [ha, ha', if_true, s1, s2]

end MJ
