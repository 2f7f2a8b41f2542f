import Verif.Proofs.NakiIdx
import Verif.Props.MeldCodec
/-!
Properties C05 (range), C06-C11: canonical codes and action numbers.
-/
namespace MJ
open Spec Code

set_option synthInstance.maxSize 2000
set_option synthInstance.maxHeartbeats 200000

/-! ## C05, range part -/

/-- The tiles of a well-formed code are tile numbers 0-135. -/
theorem C05_exposed_range (c : Nat) (w : WellFormed c) (ex : List Nat) (acq : Option Nat)
    (h : get_exposed c = .ok (ex, acq)) : ∀ t ∈ ex ++ acq.toList, t < 136 := by
  have hv : ∀ v, view c = some v → (∀ k ∈ v.handKinds, k < 34) → (∀ k ∈ v.calledKind, k < 34) →
      ∀ t ∈ ex ++ acq.toList, t < 136 := by
    intro v hv h1 h2 t ht
    unfold view at hv
    rw [h] at hv
    cases hm : meldType c with
    | none => rw [hm] at hv; simp at hv
    | some ty =>
      rw [hm] at hv
      simp only [Option.some.injEq] at hv
      subst hv
      have : t / 4 < 34 := by
        rcases List.mem_append.1 ht with ht | ht
        · exact h1 _ (List.mem_map.2 ⟨t, ht, rfl⟩)
        · simp only [Option.mem_toList] at ht
          exact h2 _ (by simp only [viewOf]; rw [ht]; rfl)
      omega
  cases hc : is_chi c
  · cases hp : is_pon c
    · cases hk : is_kakan c
      · cases hm : is_minkan c
        · cases ha : is_ankan c
          · unfold get_exposed at h; simp [hc, hp, hk, hm, ha] at h
          · have wf := wf_ankan c hc hp hk hm ha w
            exact hv _ (view_ankan c hc hp hk hm ha) (by simp [ankan_kind c wf.1, wf.2.2]) (by simp)
        · have wf := wf_minkan c hc hp hk hm w
          exact hv _ (view_minkan c hc hp hk hm) (by simp [minkan_kind c wf.1, wf.2.2])
            (by simp [minkan_kind c wf.1, wf.2.2])
      · have wf := wf_kakan c hc hp hk w
        exact hv _ (view_kakan c hc hp hk) (by simp [kakan_kind c wf.1, wf.2.2]) (by simp)
    · have wf := wf_pon c hc hp w
      exact hv _ (view_pon c hc hp) (by simp [pon_kind c wf.1, wf.2.2.2])
        (by simp [pon_kind c wf.1, wf.2.2.2])
  · have wf := wf_chi c hc w
    have hn : (pattern_chi c).number < 7 := by rw [pattern_chi_number]; omega
    have hk : (pattern_chi c).color < 3 := by rw [pattern_chi_color]; omega
    have hw : (pattern_chi c).which < 3 := by rw [pattern_chi_which]; omega
    refine hv _ (view_chi c hc) ?_ ?_
    · intro k hk'
      have := List.mem_of_mem_eraseIdx hk'
      simp only [List.mem_cons, List.not_mem_nil, or_false] at this
      omega
    · intro k hk'
      simp only [Option.mem_def, Option.some.injEq] at hk'
      omega

example : WellFormed 0x1C2F := by
  refine ⟨by decide, ?_⟩
  rw [show meldType 0x1C2F = some .chi by decide]
  decide

/-! ## C06 -/

/-- Cleaning a canonical code changes nothing. -/
theorem C06_clean_idempotent (c k : Nat) (h : clean c = .ok k) : clean k = .ok k := by
  have hcl := clean_class c k h
  rw [clean_ok_iff] at h ⊢
  rw [hcl.1, hcl.2.1, hcl.2.2.1, hcl.2.2.2.1, hcl.2.2.2.2.1]
  rcases h with ⟨hc, rfl⟩ | ⟨hc, hp, rfl⟩ | ⟨hc, hp, hk, rfl⟩ | ⟨hc, hp, hk, hm, rfl⟩ | ⟨hc, hp, hk, hm, ha, rfl⟩
  · exact .inl ⟨hc, (clean_chi_idem c).symm⟩
  · exact .inr (.inl ⟨hc, hp, (clean_pon_idem c).symm⟩)
  · exact .inr (.inr (.inl ⟨hc, hp, hk, (clean_kakan_idem c).symm⟩))
  · exact .inr (.inr (.inr (.inl ⟨hc, hp, hk, hm, (clean_minkan_idem c).symm⟩)))
  · exact .inr (.inr (.inr (.inr ⟨hc, hp, hk, hm, ha, (clean_ankan_idem c).symm⟩)))

/-- Cleaning keeps the type, the source seat and, through the `pattern_*` method of
the type, suit, number, red flag and (chi) the called position. -/
theorem C06_clean_preserves (c k : Nat) (h : clean c = .ok k) :
    meldType k = meldType c ∧ from_who k = from_who c ∧
    (∀ ty, meldType c = some ty →
      let pat := match ty with
        | .chi => pattern_chi | .pon => pattern_pon | .kakan => pattern_kakan
        | .minkan => pattern_minkan | .ankan => pattern_ankan
      (pat k).color = (pat c).color ∧ (pat k).number = (pat c).number ∧ (pat k).has_red = (pat c).has_red ∧
      (ty = .chi → (pat k).which = (pat c).which)) := by
  have hcl := clean_class c k h
  have hmt : meldType k = meldType c := by
    rw [meldType_eq, meldType_eq, hcl.1, hcl.2.1, hcl.2.2.1, hcl.2.2.2.1, hcl.2.2.2.2.1]
  refine ⟨hmt, hcl.2.2.2.2.2, ?_⟩
  intro ty hty
  rw [meldType_eq] at hty
  rw [clean_ok_iff] at h
  rcases h with ⟨hc, rfl⟩ | ⟨hc, hp, rfl⟩ | ⟨hc, hp, hk, rfl⟩ | ⟨hc, hp, hk, hm, rfl⟩ | ⟨hc, hp, hk, hm, ha, rfl⟩
  · simp [hc] at hty; subst hty
    have := clean_chi_fields c
    exact ⟨this.1, this.2.1, clean_chi_red c, fun _ => this.2.2⟩
  · simp [hc, hp] at hty; subst hty
    have := clean_pon_fields c
    exact ⟨this.1, this.2, clean_pon_red c, by simp⟩
  · simp [hc, hp, hk] at hty; subst hty
    have := clean_kakan_fields c
    exact ⟨this.1, this.2.1, this.2.2.2, by simp⟩
  · simp [hc, hp, hk, hm] at hty; subst hty
    have := clean_minkan_fields c
    exact ⟨this.1, this.2.1, this.2.2, by simp⟩
  · simp [hc, hp, hk, hm, ha] at hty; subst hty
    have := clean_ankan_fields c
    exact ⟨this.1, this.2.1, this.2.2, by simp⟩

example : clean 0x1D57 = .ok 0x1CAF := by decide

/-! ## C07 -/

/-- The full statement fails for open kans of ordinary kinds built with `which = 0`,
which is what `decision_mask` does. -/
theorem C07_constructor_canonical_violated :
    ¬ ∀ tile src which, tile < 34 → which < 2 → src % 4 ≠ 0 →
      ∀ n, Naki.from_minkan_info tile src which = .ok n → clean n.naki_code = .ok n.convenient_naki_code := by
  intro h
  have := h 0 1 0 (by decide) (by decide) (by decide) _ rfl
  revert this
  decide

/-- Missing from the full statement: open kans with `which = 0` of a kind without a
red five.  All other constructed melds are canonical. -/
theorem C07_constructor_canonical_partial :
    (∀ color number which red n, color < 3 → number < 7 → which < 3 →
      (red = true → 2 ≤ number ∧ number ≤ 4) →
      Naki.from_chi_info color number which red = .ok n → clean n.naki_code = .ok n.convenient_naki_code) ∧
    (∀ tile which red src n, tile < 34 → which < 2 → (red = true → tile < 27 ∧ tile % 9 = 4) →
      Naki.from_pon_info tile which red src = .ok n → clean n.naki_code = .ok n.convenient_naki_code) ∧
    (∀ tile which n, tile < 34 → which < 2 →
      Naki.from_kakan_info tile which = .ok n → clean n.naki_code = .ok n.convenient_naki_code) ∧
    (∀ tile src which n, tile < 34 → which < 2 → src % 4 ≠ 0 →
      (which = 1 ∨ (tile < 27 ∧ tile % 9 = 4)) →
      Naki.from_minkan_info tile src which = .ok n → clean n.naki_code = .ok n.convenient_naki_code) ∧
    (∀ tile, tile < 34 →
      clean (Naki.from_ankan_info tile).naki_code = .ok (Naki.from_ankan_info tile).convenient_naki_code) := by
  refine ⟨?_, ?_, ?_, ?_, ?_⟩
  · have key : ∀ color < 3, ∀ number < 7, ∀ which < 3, ∀ red : Bool,
        (red = true → 2 ≤ number ∧ number ≤ 4) →
        clean (chiInfo color number which red) = .ok (chiInfo color number which red) := by decide +kernel
    intro color number which red n h1 h2 h3 h4 h
    unfold Naki.from_chi_info at h
    split at h
    · simp at h
    · simp only [Except.ok.injEq] at h
      subst h
      exact key color h1 number h2 which h3 red h4
  · have key : ∀ tile < 34, ∀ which < 2, ∀ red : Bool, (red = true → tile < 27 ∧ tile % 9 = 4) →
        ∀ src < 4, clean (ponInfo tile which red src) = .ok (ponInfo tile which red src) := by decide +kernel
    intro tile which red src n h1 h2 h3 h
    unfold Naki.from_pon_info at h
    split at h
    · simp only [Except.ok.injEq] at h
      subst h
      have := key tile h1 which h2 red h3 (src % 4) (by omega)
      rw [← ponInfo_mod] at this
      exact this
    · simp at h
  · have key : ∀ tile < 34, ∀ which < 2, clean (kakanInfo tile which) = .ok (kakanInfo tile which) := by
      decide +kernel
    intro tile which n h1 h2 h
    unfold Naki.from_kakan_info at h
    split at h
    · simp only [Except.ok.injEq] at h
      subst h
      exact key tile h1 which h2
    · simp at h
  · have key : ∀ tile < 34, ∀ which < 2, ∀ src < 4, src ≠ 0 → (which = 1 ∨ (tile < 27 ∧ tile % 9 = 4)) →
        clean (minkanInfo tile src which) = .ok (minkanInfo tile src which) := by decide +kernel
    intro tile src which n h1 h2 h3 h4 h
    unfold Naki.from_minkan_info at h
    split at h
    · simp only [Except.ok.injEq] at h
      subst h
      have := key tile h1 which h2 (src % 4) (by omega) h3 h4
      rw [← minkanInfo_mod] at this
      exact this
    · simp at h
  · have key : ∀ tile < 34, clean (ankanInfo tile) = .ok (ankanInfo tile) := by decide +kernel
    exact fun tile h => key tile h

/-! ## C08 -/

/-- The full statement fails in both directions.  First: two logged pon codes of the
same meld (1m, from seat 1, no red five) with different canonical codes. -/
theorem C08_canonical_pon_violated :
    ¬ ∀ c d kc kd, WellFormed c → WellFormed d → clean c = .ok kc → clean d = .ok kd →
      view c = view d → kc = kd := by
  intro h
  have w1 : WellFormed 0x0009 := by
    refine ⟨by decide, ?_⟩
    rw [show meldType 0x0009 = some .pon by decide]; decide
  have w2 : WellFormed 0x0209 := by
    refine ⟨by decide, ?_⟩
    rw [show meldType 0x0209 = some .pon by decide]; decide
  exact absurd (h 0x0009 0x0209 0x0009 0x0209 w1 w2 (by decide) (by decide) (by decide)) (by decide)

/-- Second: two different added kans of 5m (the red five added, or a black five added)
with the same canonical code. -/
theorem C08_canonical_kakan_violated :
    ¬ ∀ c d kc kd, WellFormed c → WellFormed d → clean c = .ok kc → clean d = .ok kd →
      kc = kd → view c = view d := by
  intro h
  have w1 : WellFormed 0x1811 := by
    refine ⟨by decide, ?_⟩
    rw [show meldType 0x1811 = some .kakan by decide]; decide
  have w2 : WellFormed 0x1831 := by
    refine ⟨by decide, ?_⟩
    rw [show meldType 0x1831 = some .kakan by decide]; decide
  have := h 0x1811 0x1831 0x1811 0x1811 w1 w2 (by decide) (by decide) rfl
  revert this
  decide

/-- Missing from the full statement: added kans, and equality of canonical codes of
pons without a red five (for those the position of the called copy must agree too).
Otherwise canonical codes are equal exactly when the melds look the same. -/
theorem C08_canonical_partial (c d kc kd : Nat) (wc : WellFormed c) (wd : WellFormed d)
    (hc : clean c = .ok kc) (hd : clean d = .ok kd) :
    (kc = kd → meldType c = meldType d ∧ from_who c = from_who d) ∧
    (meldType c = meldType d → meldType c ≠ some .kakan →
      (kc = kd ↔ view c = view d ∧
        (meldType c = some .pon → (pattern_pon c).has_red = false →
          (pattern_pon c).which = (pattern_pon d).which))) ∧
    (meldType c = some .kakan → meldType d = some .kakan →
      (kc = kd ↔ from_who c = from_who d ∧ (pattern_kakan c).color = (pattern_kakan d).color ∧
        (pattern_kakan c).number = (pattern_kakan d).number ∧
        (pattern_kakan c).which = (pattern_kakan d).which)) := by
  refine ⟨?_, ?_, ?_⟩
  · rintro rfl
    have h1 := C06_clean_preserves c kc hc
    have h2 := C06_clean_preserves d kc hd
    exact ⟨h1.1.symm.trans h2.1, h1.2.1.symm.trans h2.2.1⟩
  · intro ht hk
    rw [meldType_eq, meldType_eq] at ht
    rw [meldType_eq] at hk ⊢
    rw [clean_ok_iff] at hc hd
    rcases hc with ⟨c1, rfl⟩ | ⟨c1, c2, rfl⟩ | ⟨c1, c2, c3, rfl⟩ | ⟨c1, c2, c3, c4, rfl⟩ | ⟨c1, c2, c3, c4, c5, rfl⟩ <;>
    rcases hd with ⟨d1, rfl⟩ | ⟨d1, d2, rfl⟩ | ⟨d1, d2, d3, rfl⟩ | ⟨d1, d2, d3, d4, rfl⟩ | ⟨d1, d2, d3, d4, d5, rfl⟩ <;>
    simp_all
    · exact chi_view_iff c d c1 d1 wc wd
    · exact pon_view_iff c d c1 c2 d1 d2 wc wd
    · exact minkan_view_iff c d c1 c2 c3 c4 d1 d2 d3 d4 wc wd
    · exact ankan_view_iff c d c1 c2 c3 c4 c5 d1 d2 d3 d4 d5 wc wd
  · intro tc td
    rw [meldType_eq] at tc td
    rw [clean_ok_iff] at hc hd
    rcases hc with ⟨c1, rfl⟩ | ⟨c1, c2, rfl⟩ | ⟨c1, c2, c3, rfl⟩ | ⟨c1, c2, c3, c4, rfl⟩ | ⟨c1, c2, c3, c4, c5, rfl⟩ <;>
    rcases hd with ⟨d1, rfl⟩ | ⟨d1, d2, rfl⟩ | ⟨d1, d2, d3, rfl⟩ | ⟨d1, d2, d3, d4, rfl⟩ | ⟨d1, d2, d3, d4, d5, rfl⟩ <;>
    simp_all
    rw [clean_kakan_eq_iff c d c1 c2 c3 d1 d2 d3 wc wd]
    have w1 := wf_kakan c c1 c2 c3 wc
    have w2 := wf_kakan d d1 d2 d3 wd
    simp only [from_who_eq, pattern_kakan_color, pattern_kakan_number, pattern_kakan_which]
    have e1 : c / 512 % 128 = c / 512 := by omega
    have e2 : d / 512 % 128 = d / 512 := by omega
    rw [e1, e2]
    generalize c / 512 = x at *
    generalize d / 512 = y at *
    omega

example : view 0x0009 = view 0x0209 ∧ view 0x1C2F ≠ none := by decide

/-! ## C09 -/

/-- Own-turn action numbers: range for well-formed kans, error for other melds. -/
theorem C09_during_idx_range (c : Nat) (w : WellFormed c) :
    match meldType c with
    | some .ankan => ∃ i, get_during_turn_filter_idx c = .ok i ∧ 3 ≤ i ∧ i ≤ 36
    | some .kakan => ∃ i, get_during_turn_filter_idx c = .ok i ∧ 37 ≤ i ∧ i ≤ 70
    | _ => get_during_turn_filter_idx c = .error .zeroDivision := by
  cases hc : is_chi c
  · cases hp : is_pon c
    · cases hk : is_kakan c
      · cases hm : is_minkan c
        · cases ha : is_ankan c
          · rw [meldType_eq]; simp [hc, hp, hk, hm, ha, during_other c ha hk]
          · have wf := wf_ankan c hc hp hk hm ha w
            rw [meldType_eq]; simp [hc, hp, hk, hm, ha, during_ankan c ha]
            omega
        · have ha : is_ankan c = false := by rw [is_minkan_iff] at hm; rw [is_ankan_false]; omega
          rw [meldType_eq]; simp [hc, hp, hk, hm, during_other c ha hk]
      · have wf := wf_kakan c hc hp hk w
        rw [meldType_eq]; simp [hc, hp, hk, during_kakan c hk]
        omega
    · have wf := wf_pon c hc hp w
      have hk : is_kakan c = false := by rw [is_kakan_false]; omega
      have ha : is_ankan c = false := by rw [is_pon_iff] at hp; rw [is_ankan_false]; omega
      rw [meldType_eq]; simp [hc, hp, during_other c ha hk]
  · have hk : is_kakan c = false := by rw [is_chi_iff] at hc; rw [is_kakan_false]; omega
    have ha : is_ankan c = false := by rw [is_chi_iff] at hc; rw [is_ankan_false]; omega
    rw [meldType_eq]; simp [hc, during_other c ha hk]

/-- Two kans with the same own-turn action number have the same type and kind. -/
theorem C09_during_idx_injective (c d i : Nat) (wc : WellFormed c) (wd : WellFormed d)
    (hc : get_during_turn_filter_idx c = .ok i) (hd : get_during_turn_filter_idx d = .ok i) :
    ∃ vc vd k, view c = some vc ∧ view d = some vd ∧ vc.type = vd.type ∧
      (∀ x ∈ vc.handKinds, x = k) ∧ (∀ x ∈ vd.handKinds, x = k) ∧ vc.handKinds ≠ [] := by
  have form : ∀ x, WellFormed x → get_during_turn_filter_idx x = .ok i →
      ∃ v, view x = some v ∧
        ((v.type = .ankan ∧ i ≤ 36 ∧ 3 ≤ i ∧ v.handKinds = List.replicate 4 (i - 3)) ∨
         (v.type = .kakan ∧ 37 ≤ i ∧ v.handKinds = [i - 37])) := by
    intro x wx hx
    have hr := C09_during_idx_range x wx
    rw [hx] at hr
    rw [meldType_eq] at hr
    cases c1 : is_chi x <;> cases c2 : is_pon x <;> cases c3 : is_kakan x <;> cases c4 : is_minkan x <;>
      cases c5 : is_ankan x <;> simp [c1, c2, c3, c4, c5] at hr
    · have wf := wf_ankan x c1 c2 c3 c4 c5 wx
      refine ⟨_, view_ankan x c1 c2 c3 c4 c5, .inl ⟨rfl, hr.2, hr.1, ?_⟩⟩
      rw [during_ankan x c5] at hx
      simp only [Except.ok.injEq] at hx
      have e : x / 256 / 4 = i - 3 := by omega
      simp only [ankan_kind x wf.1, e, List.replicate]
    all_goals
      have wf := wf_kakan x c1 c2 c3 wx
      refine ⟨_, view_kakan x c1 c2 c3, .inr ⟨rfl, hr.1, ?_⟩⟩
      rw [during_kakan x c3] at hx
      simp only [Except.ok.injEq] at hx
      simp only [kakan_kind x wf.1, List.cons.injEq, and_true]
      omega
  obtain ⟨vc, h1, h2⟩ := form c wc hc
  obtain ⟨vd, h3, h4⟩ := form d wd hd
  rcases h2 with ⟨a1, a2, a3, a4⟩ | ⟨a1, a2, a4⟩ <;> rcases h4 with ⟨b1, b2, b3, b4⟩ | ⟨b1, b2, b4⟩
  · exact ⟨vc, vd, i - 3, h1, h3, by rw [a1, b1], by simp [a4], by simp [b4], by simp [a4]⟩
  · omega
  · omega
  · exact ⟨vc, vd, i - 37, h1, h3, by rw [a1, b1], by simp [a4], by simp [b4], by simp [a4]⟩

example : get_during_turn_filter_idx 0x1811 = .ok 41 ∧ get_during_turn_filter_idx 0x1000 = .ok 7 := by decide

/-! ## C10 -/

/-- Call action numbers: range for well-formed calls, error for other melds. -/
theorem C10_post_idx_range (c : Nat) (w : WellFormed c) :
    match meldType c with
    | some .chi => ∃ i, get_post_turn_filter_idx c = .ok i ∧ 2 ≤ i ∧ i ≤ 86
    | some .pon => ∃ i, get_post_turn_filter_idx c = .ok i ∧ 83 ≤ i ∧ i ≤ 119
    | some .minkan => ∃ i, get_post_turn_filter_idx c = .ok i ∧ 120 ≤ i ∧ i ≤ 153
    | _ => get_post_turn_filter_idx c = .error .zeroDivision := by
  cases hc : is_chi c
  · cases hp : is_pon c
    · cases hk : is_kakan c
      · cases hm : is_minkan c
        · cases ha : is_ankan c
          · rw [meldType_eq]; simp [hc, hp, hk, hm, ha, post_other c hc hp hm]
          · rw [meldType_eq]; simp [hc, hp, hk, hm, ha, post_other c hc hp hm]
        · have wf := wf_minkan c hc hp hk hm w
          rw [meldType_eq]; simp [hc, hp, hk, hm, post_minkan c hc hp hm]
          omega
      · have hm : is_minkan c = false := by rw [is_kakan_iff] at hk; rw [is_minkan_false]; omega
        rw [meldType_eq]; simp [hc, hp, hk, post_other c hc hp hm]
    · have wf := wf_pon c hc hp w
      have p1 := pattern_pon_color c
      have p2 := pattern_pon_number c
      rw [meldType_eq]
      rcases post_pon c hc hp with h | ⟨hr, h⟩
      · simp [hc, hp, h]; split <;> omega
      · rw [pattern_pon_red] at hr
        simp [hc, hp, h]; omega
  · have wf := wf_chi c hc w
    rw [meldType_eq]
    by_cases hr : redHandChi c
    · have hk : (pattern_chi c).color < 3 := by rw [pattern_chi_color]; omega
      have hw : (pattern_chi c).which < 3 := by rw [pattern_chi_which]; omega
      have hn := (pattern_chi_red c).1 hr.2.1
      simp [hc, post_chi_red c hr]; omega
    · simp [hc, post_chi_plain c hc hr]; omega

example : get_post_turn_filter_idx 0x1C2F = .ok 69 := by decide

/-! ## C11 -/

/-- what the caller chooses: the type, the tiles from the hand, and the tile called -/
def callAction (v : MeldView) : MeldType × List Nat × Option Nat × Bool :=
  (v.type, v.handKinds, v.calledKind, v.handRed)

/-- The full statement fails: two different chis of the red 5m with 6m 7m (calling the
6m or the 7m) have the same action number. -/
theorem C11_post_idx_injective_violated :
    ¬ ∀ c d i, WellFormed c → WellFormed d → get_post_turn_filter_idx c = .ok i →
      get_post_turn_filter_idx d = .ok i → (view c).map callAction = (view d).map callAction := by
  intro h
  have w1 : WellFormed 0x34A7 := by
    refine ⟨by decide, ?_⟩
    rw [show meldType 0x34A7 = some .chi by decide]; decide
  have w2 : WellFormed 0x38A7 := by
    refine ⟨by decide, ?_⟩
    rw [show meldType 0x38A7 = some .chi by decide]; decide
  have := h 0x34A7 0x38A7 74 w1 w2 (by decide) (by decide)
  revert this
  decide

/-- It even fails across meld types: a chi of the red 5s and the pon of 1m share a number. -/
theorem C11_post_idx_type_violated :
    ∃ c d i, WellFormed c ∧ WellFormed d ∧ get_post_turn_filter_idx c = .ok i ∧
      get_post_turn_filter_idx d = .ok i ∧ meldType c = some .chi ∧ meldType d = some .pon := by
  refine ⟨0xCC8F, 0x0009, 83, ⟨by decide, ?_⟩, ⟨by decide, ?_⟩, by decide, by decide, by decide, by decide⟩
  · rw [show meldType 0xCC8F = some .chi by decide]; decide
  · rw [show meldType 0x0009 = some .pon by decide]; decide

/-- Missing from the full statement: chis with the red five from the hand, and whether a
pon uses the red five.  For all other calls the action number determines the type, the
kinds taken from the hand and the kind called. -/
theorem C11_post_idx_injective_partial (c d : Nat) (i : Int) (wc : WellFormed c) (wd : WellFormed d)
    (rc : ¬ redHandChi c) (rd : ¬ redHandChi d)
    (hc : get_post_turn_filter_idx c = .ok i) (hd : get_post_turn_filter_idx d = .ok i) :
    ∃ vc vd, view c = some vc ∧ view d = some vd ∧ vc.type = vd.type ∧
      vc.handKinds = vd.handKinds ∧ vc.calledKind = vd.calledKind := by
  have form : ∀ x, WellFormed x → ¬ redHandChi x → get_post_turn_filter_idx x = .ok i →
      ∃ v, view x = some v ∧ ∃ m : Nat,
        ((v.type = .chi ∧ i = 2 + m ∧ m < 63 ∧
          v.handKinds = [m / 3 / 7 * 9 + m / 3 % 7, m / 3 / 7 * 9 + m / 3 % 7 + 1,
            m / 3 / 7 * 9 + m / 3 % 7 + 2].eraseIdx (m % 3) ∧
          v.calledKind = some (m / 3 / 7 * 9 + m / 3 % 7 + m % 3)) ∨
         (v.type = .pon ∧ 83 ≤ i ∧ i ≤ 119 ∧ v.handKinds = [m, m] ∧ v.calledKind = some m ∧
           ((i = 83 + m ∧ m < 27) ∨ (i = 86 + m ∧ 27 ≤ m) ∨ (i = 110 + (m / 9 : Nat) ∧ m % 9 = 4 ∧ m < 27))) ∨
         (v.type = .minkan ∧ i = 120 + m ∧ v.handKinds = List.replicate 3 m ∧ v.calledKind = some m)) := by
    intro x wx rx hx
    have hr := C10_post_idx_range x wx
    rw [hx] at hr
    rw [meldType_eq] at hr
    cases c1 : is_chi x
    · cases c2 : is_pon x
      · cases c3 : is_minkan x
        · rw [post_other x c1 c2 c3] at hx; simp at hx
        · have c4 : is_kakan x = false := by rw [is_minkan_iff] at c3; rw [is_kakan_false]; omega
          have wf := wf_minkan x c1 c2 c4 c3 wx
          refine ⟨_, view_minkan x c1 c2 c4 c3, x / 256 / 4, .inr (.inr ⟨rfl, ?_, ?_, ?_⟩)⟩
          · rw [post_minkan x c1 c2 c3] at hx
            simp only [Except.ok.injEq] at hx
            omega
          · rw [minkan_kind x wf.1]
          · rw [minkan_kind x wf.1]
      · have wf := wf_pon x c1 c2 wx
        simp [c1, c2] at hr
        refine ⟨_, view_pon x c1 c2, x / 512 / 3, .inr (.inl ⟨rfl, hr.1, hr.2, ?_, ?_, ?_⟩)⟩
        · rw [pon_kind x wf.1]
        · rw [pon_kind x wf.1]
        · have p1 := pattern_pon_color x
          have p2 := pattern_pon_number x
          have e : x / 512 % 128 = x / 512 := by omega
          rw [e] at p1 p2
          rcases post_pon x c1 c2 with h | ⟨hred, h⟩
          · rw [h, e] at hx
            simp only [Except.ok.injEq] at hx
            generalize x / 512 / 3 = k at *
            split at hx <;> omega
          · rw [h] at hx
            rw [pattern_pon_red] at hred
            simp only [Except.ok.injEq] at hx
            generalize x / 512 / 3 = k at *
            omega
    · have wf := wf_chi x c1 wx
      have e : x / 1024 % 64 = x / 1024 := by omega
      rw [post_chi_plain x c1 rx, e] at hx
      simp only [Except.ok.injEq] at hx
      refine ⟨_, view_chi x c1, x / 1024, .inl ⟨rfl, by omega, wf.2.2, ?_, ?_⟩⟩
      · rw [pattern_chi_color, pattern_chi_number, pattern_chi_which, e]
      · rw [pattern_chi_color, pattern_chi_number, pattern_chi_which, e]
  obtain ⟨vc, h1, m, h2⟩ := form c wc rc hc
  obtain ⟨vd, h3, n, h4⟩ := form d wd rd hd
  refine ⟨vc, vd, h1, h3, ?_⟩
  have hmn : m = n ∧ vc.type = vd.type := by
    rcases h2 with ⟨a1, a2, a3, a4, a5⟩ | ⟨a1, a2, a3, a4, a5, a6⟩ | ⟨a1, a2, a3, a4⟩ <;>
      rcases h4 with ⟨b1, b2, b3, b4, b5⟩ | ⟨b1, b2, b3, b4, b5, b6⟩ | ⟨b1, b2, b3, b4⟩ <;>
      rw [a1, b1] <;> simp <;> omega
  obtain ⟨rfl, ht⟩ := hmn
  refine ⟨ht, ?_⟩
  rcases h2 with ⟨a1, a2, a3, a4, a5⟩ | ⟨a1, a2, a3, a4, a5, a6⟩ | ⟨a1, a2, a3, a4⟩ <;>
    rcases h4 with ⟨b1, b2, b3, b4, b5⟩ | ⟨b1, b2, b3, b4, b5, b6⟩ | ⟨b1, b2, b3, b4⟩ <;>
    simp_all

example : get_post_turn_filter_idx 0x0009 = .ok 83 ∧ ¬ redHandChi 0x0009 := by
  refine ⟨by decide, ?_⟩
  rintro ⟨h, _⟩
  revert h; decide

end MJ
