import Verif.Spec.Win
import Verif.Props.MeldCanon
/-!
C24-C27: what the hand evaluator is asked and what is made of its answer.
-/
namespace MJ
open Code Spec

/-! ### C27 -/

theorem digits_succ (h : Nat → Int) (base n : Nat) :
    digits h base (n + 1) = digits h base n ++ List.replicate (h (base + n)).toNat (n + 1) := by
  simp [digits, List.range_succ]

theorem digits_spec (h : Nat → Int) (base n : Nat) : SuitDigits (digits h base n) h base n := by
  induction n with
  | zero =>
    refine ⟨by simp [digits], fun d => ?_⟩
    rw [if_neg (by omega)]; simp [digits]
  | succ n ih =>
    rw [digits_succ]
    obtain ⟨ih1, ih2⟩ := ih
    refine ⟨?_, ?_⟩
    · rw [List.pairwise_append]
      refine ⟨ih1, ?_, ?_⟩
      · rw [List.pairwise_replicate]; right; exact Nat.le_refl _
      · intro a ha b hb
        have hb := List.eq_of_mem_replicate hb
        have h1 := ih2 a
        have h2 := List.count_pos_iff.2 ha
        split at h1 <;> omega
    · intro d
      rw [List.count_append, ih2 d, List.count_replicate]
      by_cases h1 : d = n + 1
      · subst h1
        have h3 : ¬ (1 ≤ n + 1 ∧ n + 1 ≤ n) := by omega
        have h4 : 1 ≤ n + 1 ∧ n + 1 ≤ n + 1 := by omega
        rw [if_neg h3, if_pos h4]
        simp
      · have : ¬ (n + 1 = d) := by omega
        by_cases h2 : 1 ≤ d ∧ d ≤ n
        · have h3 : 1 ≤ d ∧ d ≤ n + 1 := by omega
          rw [if_pos h2, if_pos h3]; simp [this]
        · have h3 : ¬ (1 ≤ d ∧ d ≤ n + 1) := by omega
          rw [if_neg h2, if_neg h3]; simp [this]

/-- C27: each string contains digit `d` of its suit as often as the tensor counts the kind, in
non-decreasing order, and nothing else; the red slots 34-36 have no influence. -/
theorem C27_strings (h : Nat → Int) :
    HandStrings (hand_tensor2strs h).1 (hand_tensor2strs h).2.1 (hand_tensor2strs h).2.2.1 (hand_tensor2strs h).2.2.2 h ∧
    ∀ h' : Nat → Int, (∀ k < 34, h' k = h k) → hand_tensor2strs h' = hand_tensor2strs h := by
  refine ⟨⟨digits_spec h 0 9, digits_spec h 9 9, digits_spec h 18 9, digits_spec h 27 7⟩, ?_⟩
  intro h' he
  have key : ∀ base n, base + n ≤ 34 → digits h' base n = digits h base n := by
    intro base n hb
    unfold digits
    congr 1
    apply List.map_congr_left
    intro j hj
    rw [List.mem_range] at hj
    rw [he (base + j) (by omega)]
  simp only [hand_tensor2strs, key 0 9 (by omega), key 9 9 (by omega), key 18 9 (by omega), key 27 7 (by omega)]

/-- Two different hands of natural numbers have different strings. -/
theorem C27_strings_injective (h h' : Nat → Int) (n : ∀ k, 0 ≤ h k) (n' : ∀ k, 0 ≤ h' k)
    (e : hand_tensor2strs h = hand_tensor2strs h') : ∀ k < 34, h k = h' k := by
  have s := (C27_strings h).1
  have s' := (C27_strings h').1
  rw [e] at s
  have key : ∀ ds base m, SuitDigits ds h base m → SuitDigits ds h' base m →
      ∀ j < m, h (base + j) = h' (base + j) := by
    intro ds base m a b j hj
    have a := a.2 (j + 1)
    have b := b.2 (j + 1)
    rw [if_pos (by omega)] at a b
    simp only [Nat.add_sub_cancel] at a b
    have := n (base + j)
    have := n' (base + j)
    omega
  intro k hk
  obtain ⟨a1, a2, a3, a4⟩ := s
  obtain ⟨b1, b2, b3, b4⟩ := s'
  by_cases h1 : k < 9
  · have := key _ _ _ a1 b1 k h1; rwa [Nat.zero_add] at this
  · by_cases h2 : k < 18
    · have := key _ _ _ a2 b2 (k - 9) (by omega); rwa [show 9 + (k - 9) = k by omega] at this
    · by_cases h3 : k < 27
      · have := key _ _ _ a3 b3 (k - 18) (by omega); rwa [show 18 + (k - 18) = k by omega] at this
      · have := key _ _ _ a4 b4 (k - 27) (by omega); rwa [show 27 + (k - 27) = k by omega] at this

example : hand_tensor2strs (fun k => if k = 0 then 3 else if k = 13 then 2 else if k = 33 then 1 else 0) =
    ([1, 1, 1], [5, 5], [], [7]) := by decide

/-! ### C26 -/

theorem perm_eraseIdx (l : List Nat) (w a : Nat) (h : l[w]? = some a) : l.Perm (l.eraseIdx w ++ [a]) := by
  induction l generalizing w with
  | nil => simp at h
  | cons x xs ih =>
    cases w with
    | zero =>
      simp at h
      subst h
      simp only [List.eraseIdx_zero, List.tail_cons]
      exact (List.perm_append_comm (l₁ := [x]) (l₂ := xs))
    | succ w =>
      simp at h
      simp only [List.eraseIdx_cons_succ, List.cons_append]
      exact .cons _ (ih w h)

theorem any_perm {l m : List Nat} (f : Nat → Bool) (h : l.Perm m) : l.any f = m.any f := by
  rw [Bool.eq_iff_iff, List.any_eq_true, List.any_eq_true]
  constructor
  · rintro ⟨x, hx, e⟩; exact ⟨x, h.mem_iff.1 hx, e⟩
  · rintro ⟨x, hx, e⟩; exact ⟨x, h.mem_iff.2 hx, e⟩

theorem red_pon_arg (K x : Nat) (hx : x < 2) :
    ((List.range 3).map (fun i => K * 4 + i + x)).any isRedB = (decide (x = 0) && fiveKind K) := by
  rw [Bool.eq_iff_iff]
  simp [List.range_succ, isRedB_iff, fiveKind]
  omega

theorem red_chi_arg (k n x : Nat) (hk : k < 3) (hn : n < 7) (hx : x < 2) :
    ((List.range 3).map (fun i => (k * 9 + n + i) * 4 + x)).any isRedB = (decide (x = 0) && decide (2 ≤ n ∧ n ≤ 4)) := by
  rw [Bool.eq_iff_iff]
  simp [List.range_succ, isRedB_iff]
  omega

theorem red_ponTiles (u K : Nat) (hu : u < 4) :
    ((ponCopies u).map (fun k => K * 4 + k)).any isRedB = (decide (u ≠ 0) && fiveKind K) := by
  rw [Bool.eq_iff_iff]
  rcases ponCopies_cases u hu with ⟨h, e⟩ | ⟨h, e⟩ | ⟨h, e⟩ | ⟨h, e⟩ <;> rw [e] <;>
    simp [h, isRedB_iff, fiveKind] <;> omega

/-- C26: the argument built for a well-formed meld describes it. -/
theorem C26_melds (c : Nat) (w : WellFormed c) : ∃ m, nakiToMeld c = .ok m ∧ Describes c m := by
  unfold nakiToMeld
  by_cases hc : is_chi c = true
  · have wf := wf_chi c hc w
    have ht : meldType c = some .chi := by rw [meldType_eq]; simp [hc]
    have hw : (pattern_chi c).which < 3 := by rw [pattern_chi_which]; omega
    have hn : (pattern_chi c).number < 7 := by rw [pattern_chi_number]; omega
    have hk : (pattern_chi c).color < 3 := by rw [pattern_chi_color]; omega
    have hg : get_exposed c = .ok ((chiTiles c).eraseIdx (pattern_chi c).which, (chiTiles c)[(pattern_chi c).which]?) := by
      rw [get_exposed, if_pos hc, (pattern_chi_tiles c).1, (pattern_chi_tiles c).2]
    have hsome : ∃ a, (chiTiles c)[(pattern_chi c).which]? = some a := by
      have : (pattern_chi c).which < (chiTiles c).length := by simpa [chiTiles] using hw
      exact ⟨_, List.getElem?_eq_getElem this⟩
    obtain ⟨a, ha⟩ := hsome
    have hperm := perm_eraseIdx _ _ _ ha
    have hred : (chiTiles c).any isRedB = (pattern_chi c).has_red := by
      rw [any_perm isRedB hperm, List.any_append, ← chi_red_view c wf.2.2, ha]
      simp
    simp only [hc, if_true]
    have hr5 := pattern_chi_red c
    have harg := fun x => red_chi_arg _ _ x hk hn
    generalize hK : (pattern_chi c).color * 9 + (pattern_chi c).number = K at *
    have hKm : (chiTiles c).map (· / 4) = [K, K + 1, K + 2] := by
      have hk : ∀ a x : Nat, (a * 4 + x % 4) / 4 = a := by omega
      simp [chiTiles, hK, hk]
    have main : ∀ x, x < 2 → (x = 0 ↔ (pattern_chi c).has_red = true) →
        Describes c ⟨.chi, (List.range 3).map (fun i => (K + i) * 4 + x), true⟩ := by
      intro x hx hx0
      refine ⟨by simp [List.range_succ] <;> omega, by simp [List.range_succ]; omega, _, _, _, hg, ht, rfl, rfl, ?_, ?_⟩
      · have e : ((List.range 3).map (fun i => (K + i) * 4 + x)).map (· / 4) = [K, K + 1, K + 2] := by
          simp [List.range_succ]; try omega
        show (((List.range 3).map (fun i => (K + i) * 4 + x)).map (· / 4)).Perm _
        rw [e, ← hKm, ha]
        exact hperm.map _
      · show ((List.range 3).map (fun i => (K + i) * 4 + x)).any isRedB = _
        rw [ha]
        have : ((chiTiles c).eraseIdx (pattern_chi c).which ++ (some a).toList).any isRedB = (pattern_chi c).has_red := by
          rw [← hred]; exact (any_perm isRedB hperm).symm
        rw [this, harg x hx, Bool.eq_iff_iff, ← hx0]
        rw [← hx0] at hr5
        simp only [Bool.and_eq_true, decide_eq_true_eq]
        clear hKm
        constructor
        · exact fun h => h.1
        · intro h
          have h5 := hr5.1 h
          exact ⟨h, by omega⟩
    cases hr : (pattern_chi c).has_red
    · simp only [Bool.false_eq_true, if_false]
      exact ⟨_, rfl, main 1 (by omega) (by simp [hr])⟩
    · simp only [if_true]
      exact ⟨_, rfl, main 0 (by omega) (by simp [hr])⟩
  · have hc : is_chi c = false := by simpa using hc
    simp only [hc, Bool.false_eq_true, if_false]
    by_cases hp : is_pon c = true
    · have wf := wf_pon c hc hp w
      have ht : meldType c = some .pon := by rw [meldType_eq]; simp [hc, hp]
      have hw : (pattern_pon c).which < 3 := by rw [pattern_pon_which]; omega
      have hg : get_exposed c = .ok ((ponTiles c).eraseIdx (pattern_pon c).which, (ponTiles c)[(pattern_pon c).which]?) := by
        rw [get_exposed, (pattern_pon_tiles c).1, (pattern_pon_tiles c).2]; simp [hc, hp]
      have hsome : ∃ a, (ponTiles c)[(pattern_pon c).which]? = some a := by
        have : (pattern_pon c).which < (ponTiles c).length := by
          rcases ponCopies_cases (c / 32 % 4) (by omega) with ⟨h, e⟩ | ⟨h, e⟩ | ⟨h, e⟩ | ⟨h, e⟩ <;>
            simp [ponTiles, e] <;> omega
        exact ⟨_, List.getElem?_eq_getElem this⟩
      obtain ⟨a, ha⟩ := hsome
      have hperm := perm_eraseIdx _ _ _ ha
      have hkind := pon_kind c wf.1
      have hrf := pon_red_iff c wf.1
      simp only [hp, if_true]
      rw [hkind]
      generalize hK : c / 512 / 3 = K at *
      have hKm : (ponTiles c).map (· / 4) = [K, K, K] := by
        rcases ponCopies_cases (c / 32 % 4) (by omega) with ⟨h, e⟩ | ⟨h, e⟩ | ⟨h, e⟩ | ⟨h, e⟩ <;>
            (simp [ponTiles, e, hkind]; try omega)
      have hred : (ponTiles c).any isRedB = (pattern_pon c).has_red := by
        rw [hrf, ponTiles, hkind]
        exact red_ponTiles _ _ (by omega)
      have main : ∀ x, x < 2 → (x = 0 → (pattern_pon c).has_red = true) → ((pattern_pon c).has_red = true → x = 0) →
          Describes c ⟨.pon, (List.range 3).map (fun i => K * 4 + i + x), true⟩ := by
        intro x hx hx0 hx1
        refine ⟨by simp [List.range_succ] <;> omega, by simp [List.range_succ]; omega, _, _, _, hg, ht, rfl, rfl, ?_, ?_⟩
        · have e : ((List.range 3).map (fun i => K * 4 + i + x)).map (· / 4) = [K, K, K] := by
            simp [List.range_succ]; try omega
          show (((List.range 3).map (fun i => K * 4 + i + x)).map (· / 4)).Perm _
          rw [e, ← hKm, ha]
          exact hperm.map _
        · show ((List.range 3).map (fun i => K * 4 + i + x)).any isRedB = _
          rw [ha]
          have : ((ponTiles c).eraseIdx (pattern_pon c).which ++ (some a).toList).any isRedB = (pattern_pon c).has_red := by
            rw [← hred]; exact (any_perm isRedB hperm).symm
          rw [this, red_pon_arg K x hx, Bool.eq_iff_iff]
          simp only [Bool.and_eq_true, decide_eq_true_eq]
          constructor
          · exact fun h => hx0 h.1
          · intro h
            have h5 := h
            rw [hrf, Bool.and_eq_true] at h5
            exact ⟨hx1 h, h5.2⟩
      cases hr : (pattern_pon c).has_red
      · simp only [Bool.false_eq_true, if_false]
        exact ⟨_, rfl, main 1 (by omega) (by simp) (by simp [hr])⟩
      · simp only [if_true]
        exact ⟨_, rfl, main 0 (by omega) (by simp [hr]) (by simp)⟩
    · have hp : is_pon c = false := by simpa using hp
      simp only [hp, Bool.false_eq_true, if_false]
      have e4 : ∀ K, (List.range 4).map (fun i => K * 4 + i) = kanTiles K := by
        intro K; simp [kanTiles, List.range_succ]
      by_cases hk : is_kakan c = true
      · have wf := wf_kakan c hc hp hk w
        have ht : meldType c = some .kakan := by rw [meldType_eq]; simp [hc, hp, hk]
        have hkind := kakan_kind c wf.1
        simp only [hk, if_true]
        have hg : get_exposed c = .ok ([c / 512 / 3 * 4 + c / 32 % 4], none) := by
          rw [get_exposed, (pattern_kakan_tiles c).1, (pattern_kakan_tiles c).2, hkind]; simp [hc, hp, hk]
        refine ⟨_, rfl, ?_, ?_, _, _, _, hg, ht, rfl, rfl, ?_⟩ <;> rw [hkind] <;>
          simp [List.range_succ] <;> omega
      · have hk : is_kakan c = false := by simpa using hk
        simp only [hk, Bool.false_eq_true, if_false]
        by_cases hm : is_minkan c = true
        · have wf := wf_minkan c hc hp hk hm w
          have ht : meldType c = some .minkan := by rw [meldType_eq]; simp [hc, hp, hk, hm]
          have hkind := minkan_kind c wf.1
          simp only [hm, if_true]
          have hg : get_exposed c = .ok ((kanTiles (c / 256 / 4)).eraseIdx (pattern_minkan c).which, (kanTiles (c / 256 / 4))[(pattern_minkan c).which]?) := by
            rw [get_exposed, (pattern_minkan_tiles c).1, (pattern_minkan_tiles c).2, hkind]; simp [hc, hp, hk, hm]
          have hsome : ∃ a, (kanTiles (c / 256 / 4))[(pattern_minkan c).which]? = some a := by
            have : (pattern_minkan c).which < (kanTiles (c / 256 / 4)).length := by
              rw [pattern_minkan_which]; simp [kanTiles]; omega
            exact ⟨_, List.getElem?_eq_getElem this⟩
          obtain ⟨a, ha⟩ := hsome
          have hperm := perm_eraseIdx _ _ _ ha
          refine ⟨_, rfl, ?_, ?_, _, _, _, hg, ht, rfl, rfl, ?_⟩ <;> rw [hkind, e4]
          · simp [kanTiles]
          · simp [kanTiles]; omega
          · rw [ha]; exact hperm
        · have hm : is_minkan c = false := by simpa using hm
          simp only [hm, Bool.false_eq_true, if_false]
          by_cases ha : is_ankan c = true
          · have wf := wf_ankan c hc hp hk hm ha w
            have ht : meldType c = some .ankan := by rw [meldType_eq]; simp [hc, hp, hk, hm, ha]
            have hkind := ankan_kind c wf.1
            simp only [ha, if_true]
            have hg : get_exposed c = .ok (kanTiles (c / 256 / 4), none) := by
              rw [get_exposed, (pattern_ankan_tiles c).1, (pattern_ankan_tiles c).2, hkind]; simp [hc, hp, hk, hm, ha]
            refine ⟨_, rfl, ?_, ?_, _, _, _, hg, ht, rfl, rfl, ?_⟩ <;> rw [hkind, e4]
            · simp [kanTiles]
            · simp [kanTiles]; omega
          · have ht : meldType c = none := by rw [meldType_eq]; simp [hc, hp, hk, hm, ha]
            simp [WellFormed, ht] at w

/-- the meld's own red flag: the `has_red` of the pattern the code selects -/
def redFlag (c : Nat) : Bool :=
  if is_chi c then (pattern_chi c).has_red
  else if is_pon c then (pattern_pon c).has_red
  else if is_kakan c then (pattern_kakan c).has_red
  else if is_minkan c then (pattern_minkan c).has_red
  else (pattern_ankan c).has_red

theorem red_kan_arg (k n : Nat) (hn : n < 9) (h : k * 9 + n < 34) :
    ((List.range 4).map (fun i => (k * 9 + n) * 4 + i)).any isRedB = true ↔ n = 4 ∧ k ≠ 3 := by
  simp [List.range_succ, isRedB_iff]
  omega

/-- C26: the argument contains a red five iff the meld's own flag says so. -/
theorem C26_red_flag (c : Nat) (w : WellFormed c) (m : MeldArg) (h : nakiToMeld c = .ok m) :
    m.tiles.any isRedB = redFlag c := by
  unfold nakiToMeld at h
  unfold redFlag
  by_cases hc : is_chi c = true
  · have wf := wf_chi c hc w
    have hn : (pattern_chi c).number < 7 := by rw [pattern_chi_number]; omega
    have hk : (pattern_chi c).color < 3 := by rw [pattern_chi_color]; omega
    have hr5 := pattern_chi_red c
    simp only [hc, if_true] at h ⊢
    cases hr : (pattern_chi c).has_red
    · simp only [hr, Bool.false_eq_true, if_false, Except.ok.injEq] at h
      subst h
      exact (red_chi_arg _ _ 1 hk hn (by omega)).trans (by simp)
    · simp only [hr, if_true, Except.ok.injEq] at h
      subst h
      refine (red_chi_arg _ _ 0 hk hn (by omega)).trans ?_
      have := hr5.1 hr
      simp
      omega
  · have hc : is_chi c = false := by simpa using hc
    simp only [hc, Bool.false_eq_true, if_false] at h ⊢
    by_cases hp : is_pon c = true
    · have wf := wf_pon c hc hp w
      have hkind := pon_kind c wf.1
      have hrf := pon_red_iff c wf.1
      simp only [hp, if_true, hkind] at h ⊢
      cases hr : (pattern_pon c).has_red
      · simp only [hr, Bool.false_eq_true, if_false, Except.ok.injEq] at h
        subst h
        exact (red_pon_arg _ 1 (by omega)).trans (by simp)
      · simp only [hr, if_true, Except.ok.injEq] at h
        subst h
        rw [hr, eq_comm, Bool.and_eq_true] at hrf
        exact (red_pon_arg _ 0 (by omega)).trans (by simp [hrf.2])
    · have hp : is_pon c = false := by simpa using hp
      simp only [hp, Bool.false_eq_true, if_false] at h ⊢
      by_cases hk : is_kakan c = true
      · have wf := wf_kakan c hc hp hk w
        have hkind := kakan_kind c wf.1
        have hn : (pattern_kakan c).number < 9 := by rw [pattern_kakan_number]; omega
        simp only [hk, if_true, Except.ok.injEq] at h ⊢
        subst h
        rw [Bool.eq_iff_iff, pattern_kakan_red]
        exact red_kan_arg _ _ hn (by omega)
      · have hk : is_kakan c = false := by simpa using hk
        simp only [hk, Bool.false_eq_true, if_false] at h ⊢
        by_cases hm : is_minkan c = true
        · have wf := wf_minkan c hc hp hk hm w
          have hkind := minkan_kind c wf.1
          have hn : (pattern_minkan c).number < 9 := by rw [pattern_minkan_number]; omega
          simp only [hm, if_true, Except.ok.injEq] at h ⊢
          subst h
          rw [Bool.eq_iff_iff, pattern_minkan_red]
          exact red_kan_arg _ _ hn (by omega)
        · have hm : is_minkan c = false := by simpa using hm
          simp only [hm, Bool.false_eq_true, if_false] at h ⊢
          by_cases ha : is_ankan c = true
          · have wf := wf_ankan c hc hp hk hm ha w
            have hkind := ankan_kind c wf.1
            have hn : (pattern_ankan c).number < 9 := by rw [pattern_ankan_number]; omega
            simp only [ha, if_true, Except.ok.injEq] at h ⊢
            subst h
            rw [Bool.eq_iff_iff, pattern_ankan_red]
            exact red_kan_arg _ _ hn (by omega)
          · simp [ha] at h

/-- the well-formed code `0x1C2F` (Props/MeldCanon) is a chi 3-4-red 5 of man -/
example : (nakiToMeld 0x1C2F).toOption = some ⟨.chi, [8, 12, 16], true⟩ := by decide

/-! ### C24-C25 -/

theorem nakisToMelds_ok (cs : List Nat) (ms : List MeldArg) (h : nakisToMelds cs = .ok ms) :
    ms.map Except.ok = cs.map nakiToMeld := by
  induction cs generalizing ms with
  | nil => simp [nakisToMelds] at h; subst h; rfl
  | cons c cs ih =>
    unfold nakisToMelds at h
    cases h1 : nakiToMeld c with
    | error e => simp [h1] at h
    | ok m =>
      cases h2 : nakisToMelds cs with
      | error e => simp [h1, h2] at h
      | ok ms' =>
        simp [h1, h2] at h
        subst h
        simp [h1, ih ms' h2]

theorem setAt_undo (f : Nat → Nat → Int) (p k : Nat) :
    setAt (setAt f p (setAt (f p) k (f p k + 1))) p
      (setAt (setAt f p (setAt (f p) k (f p k + 1)) p) k (setAt f p (setAt (f p) k (f p k + 1)) p k - 1)) = f := by
  funext i j
  unfold setAt
  by_cases hi : i = p
  · subst hi
    by_cases hj : j = k
    · subst hj; simp
    · simp [hj]
  · simp [hi]

/-- what one step of the loop does -/
theorem ronStep_ok (est : Estimate) (player : Nat) (a : WinArgs) (sutehai : Nat → Nat → Int) (tile idx : Nat)
    (ck : Bool) (rh : Nat → Bool) (p : Nat) (hands : Nat → Nat → Int) (l : List (Option AgariDecision)) (st' : _)
    (h : ronStep est player a sutehai tile idx ck rh p (hands, l) = .ok st') :
    st'.1 = hands ∧
    ((st'.2 = l ∧ ¬ (p ≠ player ∧ sutehai p idx = 0 ∧ ∃ q, RonQuery q (hands p) a p tile idx ck (rh p) ∧ est q = .ok true)) ∨
     (st'.2 = l.set p (some ⟨p, false⟩) ∧
      (p ≠ player ∧ sutehai p idx = 0 ∧ ∃ q, RonQuery q (hands p) a p tile idx ck (rh p) ∧ est q = .ok true))) := by
  unfold ronStep at h
  split at h
  · rename_i hp
    cases h
    exact ⟨rfl, .inl ⟨rfl, fun h => h.1 hp⟩⟩
  · rename_i hp
    split at h
    · rename_i hs
      cases h
      exact ⟨rfl, .inl ⟨rfl, fun h => hs h.2.1⟩⟩
    · rename_i hs
      have hs : sutehai p idx = 0 := by simpa using hs
      dsimp only at h
      have hfix : ∀ f : Nat → Nat → Int, f = setAt hands p (setAt (hands p) idx (hands p idx + 1)) →
          setAt f p (setAt (f p) idx (f p idx - 1)) = hands := by
        rintro f rfl
        exact setAt_undo hands p idx
      rw [hfix _ rfl] at h
      have hhand : (setAt hands p (setAt (hands p) idx (hands p idx + 1))) p = (fun k => if k = idx then hands p k + 1 else hands p k) := by
        funext k
        simp only [setAt, if_true]
        by_cases hk : k = idx
        · subst hk; simp
        · simp [hk]
      rw [hhand] at h
      cases hm : nakisToMelds (a.naki_list p) with
      | error e => simp [hm] at h
      | ok ms =>
        simp only [hm] at h
        generalize hq : (Query.mk _ _ _ _ _ _ _ _) = q at h
        have hQ : RonQuery q (hands p) a p tile idx ck (rh p) := by
          subst hq
          exact ⟨(C27_strings (fun k => if k = idx then hands p k + 1 else hands p k)).1, rfl, rfl,
            nakisToMelds_ok _ _ hm, rfl⟩
        have huniq : ∀ q', RonQuery q' (hands p) a p tile idx ck (rh p) → q' = q := by
          intro q' h'
          obtain ⟨⟨a1, a2, a3, a4⟩, b, c, d, e⟩ := hQ
          obtain ⟨⟨a1', a2', a3', a4'⟩, b', c', d', e'⟩ := h'
          have sort : ∀ l l' : List Nat, ∀ g base n, SuitDigits l g base n → SuitDigits l' g base n → l = l' := by
            intro l l' g base n h h'
            have hp : l.Perm l' := List.perm_iff_count.2 (fun d => by rw [h.2 d, h'.2 d])
            exact hp.eq_of_pairwise (fun a b _ _ h1 h2 => Nat.le_antisymm h1 h2) h.1 h'.1
          have hmap : q'.melds = q.melds := by
            have : q'.melds.map Except.ok = q.melds.map (Except.ok (ε := PyErr)) := by rw [d', d]
            exact (List.map_inj_right (fun x y h => Except.ok.inj h)).1 this
          have i1 := sort _ _ _ _ _ a1' a1
          have i2 := sort _ _ _ _ _ a2' a2
          have i3 := sort _ _ _ _ _ a3' a3
          have i4 := sort _ _ _ _ _ a4' a4
          cases q; cases q'
          simp only at *
          simp only [Query.mk.injEq]
          exact ⟨i1, i2, i3, i4, by rw [b, b'], hmap, by rw [c, c'], by rw [e, e']⟩
        cases hest : est q with
        | error e => simp [hest] at h
        | ok r =>
          cases r
          · simp [hest] at h
            subst h
            refine ⟨rfl, .inl ⟨rfl, ?_⟩⟩
            rintro ⟨_, _, q', h1, h2⟩
            rw [huniq q' h1, hest] at h2
            simp at h2
          · simp [hest] at h
            subst h
            exact ⟨rfl, .inr ⟨rfl, hp, hs, q, hQ, hest⟩⟩

/-- The player `p` gets a ron decision. -/
def RonOffered (est : Estimate) (player : Nat) (hands : Nat → Nat → Int) (a : WinArgs) (sutehai : Nat → Nat → Int)
    (tile : Nat) (ck : Bool) (rh : Nat → Bool) (p : Nat) : Prop :=
  p ≠ player ∧ sutehai p (tile / 4) = 0 ∧
    ∃ q, RonQuery q (hands p) a p tile (tile / 4) ck (rh p) ∧ est q = .ok true

theorem tile2idx_head (t : Nat) : (tile2idx t).headD 0 = t / 4 := by
  unfold tile2idx
  split
  · subst_vars; rfl
  · split
    · subst_vars; rfl
    · split
      · subst_vars; rfl
      · rfl

theorem ronLoop_ok (est : Estimate) (player : Nat) (a : WinArgs) (sutehai : Nat → Nat → Int) (tile : Nat)
    (ck : Bool) (rh : Nat → Bool) (hands : Nat → Nat → Int) (ps : List Nat) (hnd : ps.Nodup) (hlt : ∀ p ∈ ps, p < 4)
    (l : List (Option AgariDecision)) (hl : l.length = 4) (st' : _)
    (h : ronLoop est player a sutehai tile (tile / 4) ck rh ps (hands, l) = .ok st') :
    st'.1 = hands ∧ st'.2.length = 4 ∧
    (∀ p, p ∉ ps → st'.2[p]? = l[p]?) ∧
    (∀ p ∈ ps, (RonOffered est player hands a sutehai tile ck rh p → st'.2[p]? = some (some ⟨p, false⟩)) ∧
      (¬ RonOffered est player hands a sutehai tile ck rh p → st'.2[p]? = l[p]?)) := by
  induction ps generalizing l with
  | nil =>
    simp [ronLoop] at h
    subst h
    exact ⟨rfl, hl, fun _ _ => rfl, fun p hp => by simp at hp⟩
  | cons x xs ih =>
    unfold ronLoop at h
    cases hs : ronStep est player a sutehai tile (tile / 4) ck rh x (hands, l) with
    | error e => simp [hs] at h
    | ok st =>
      simp only [hs] at h
      obtain ⟨e1, e2⟩ := ronStep_ok est player a sutehai tile (tile / 4) ck rh x hands l st hs
      have hst : st = (hands, st.2) := by rw [← e1]
      rw [hst] at h
      rw [List.nodup_cons] at hnd
      have hl2 : st.2.length = 4 := by rcases e2 with ⟨e, _⟩ | ⟨e, _⟩ <;> simp [e, hl]
      obtain ⟨f1, f2, f3, f4⟩ := ih hnd.2 (fun p hp => hlt p (by simp [hp])) st.2 hl2 h
      refine ⟨f1, f2, ?_, ?_⟩
      · intro p hp
        simp only [List.mem_cons, not_or] at hp
        rw [f3 p hp.2]
        rcases e2 with ⟨e, _⟩ | ⟨e, _⟩
        · rw [e]
        · rw [e, List.getElem?_set_ne (by omega)]
      · intro p hp
        by_cases hpx : p = x
        · subst hpx
          rw [f3 p hnd.1]
          rcases e2 with ⟨e, hn⟩ | ⟨e, hn⟩
          · exact ⟨fun h => absurd h hn, fun _ => by rw [e]⟩
          · refine ⟨fun _ => ?_, fun h => absurd hn h⟩
            rw [e, List.getElem?_set_self (by rw [hl]; exact hlt p (by simp))]
        · have hp' : p ∈ xs := by simpa [hpx] using hp
          obtain ⟨g1, g2⟩ := f4 p hp'
          refine ⟨g1, fun h => ?_⟩
          rw [g2 h]
          rcases e2 with ⟨e, _⟩ | ⟨e, _⟩
          · rw [e]
          · rw [e, List.getElem?_set_ne (by omega)]

/-- C24: slot `p` of the result holds a decision (of player `p`, not executed) iff `p` is not the
discarder, does not have the kind in the discard pool, and the evaluator, asked about exactly
the hand of `p` plus the discarded tile, reports no error.  Otherwise the slot is empty. -/
theorem C24_ron_players (est : Estimate) (player : Nat) (hands : Nat → Nat → Int) (a : WinArgs)
    (sutehai : Nat → Nat → Int) (tile : Nat) (ck : Bool) (rh : Nat → Bool) (hands' : Nat → Nat → Int)
    (rons : List (Option AgariDecision)) (h : evaluate_ron est player hands a sutehai tile ck rh = .ok (hands', rons)) :
    rons.length = 4 ∧ ∀ p, p < 4 →
      (RonOffered est player hands a sutehai tile ck rh p → rons[p]? = some (some ⟨p, false⟩)) ∧
      (¬ RonOffered est player hands a sutehai tile ck rh p → rons[p]? = some none) := by
  unfold evaluate_ron at h
  split at h
  · rw [tile2idx_head] at h
    obtain ⟨_, h2, _, h4⟩ := ronLoop_ok est player a sutehai tile ck rh hands [0, 1, 2, 3] (by decide)
      (by simp) [none, none, none, none] rfl _ h
    refine ⟨h2, fun p hp => ?_⟩
    have hp4 : p = 0 ∨ p = 1 ∨ p = 2 ∨ p = 3 := by omega
    obtain ⟨g1, g2⟩ := h4 p (by rcases hp4 with rfl | rfl | rfl | rfl <;> simp)
    refine ⟨g1, fun h => ?_⟩
    rw [g2 h]
    rcases hp4 with rfl | rfl | rfl | rfl <;> rfl
  · simp at h

/-- C25: `evaluate_ron` leaves every hand tensor as it was.  (`evaluate_tsumo` only reads them.) -/
theorem C25_hands_unchanged (est : Estimate) (player : Nat) (hands : Nat → Nat → Int) (a : WinArgs)
    (sutehai : Nat → Nat → Int) (tile : Nat) (ck : Bool) (rh : Nat → Bool) (hands' : Nat → Nat → Int)
    (rons : List (Option AgariDecision)) (h : evaluate_ron est player hands a sutehai tile ck rh = .ok (hands', rons)) :
    hands' = hands := by
  unfold evaluate_ron at h
  split at h
  · rw [tile2idx_head] at h
    exact (ronLoop_ok est player a sutehai tile ck rh hands [0, 1, 2, 3] (by decide)
      (by simp) [none, none, none, none] rfl _ h).1
  · simp at h

/-- C24 for self-drawn wins: the drawing player gets a decision iff the evaluator, asked about
exactly their hand, reports no error; nobody else ever does. -/
theorem C24_tsumo (est : Estimate) (player : Nat) (hands : Nat → Nat → Int) (a : WinArgs) (tile : Nat)
    (rin ten chi : Bool) (l : List AgariDecision) (h : evaluate_tsumo est player hands a tile rin ten chi = .ok l) :
    ∃ q, TsumoQuery q (hands player) a player tile rin ten chi ∧
      ((est q = .ok true ∧ l = [⟨player, false⟩]) ∨ (est q = .ok false ∧ l = [])) := by
  unfold evaluate_tsumo at h
  dsimp only at h
  cases hm : nakisToMelds (a.naki_list player) with
  | error e => simp [hm] at h
  | ok ms =>
    simp only [hm] at h
    generalize hq : (Query.mk _ _ _ _ _ _ _ _) = q at h
    refine ⟨q, ?_, ?_⟩
    · subst hq
      exact ⟨(C27_strings (hands player)).1, rfl, rfl, nakisToMelds_ok _ _ hm, rfl⟩
    · cases hest : est q with
      | error e => simp [hest] at h
      | ok r =>
        cases r
        · simp [hest] at h; exact .inr ⟨rfl, by first | exact h | exact h.symm⟩
        · simp [hest] at h; exact .inl ⟨rfl, h.symm⟩

/-- an evaluator that accepts exactly the hands whose man string is `1 1` -/
def toyEstimate : Estimate := fun q => .ok (q.man == [1, 1])
def toyArgs : WinArgs := ⟨fun _ => [], [0], fun _ => 0, fun _ => 0, fun _ => 0, false, 0, 0, 0, 0⟩

example : (evaluate_ron toyEstimate 0 (fun p k => if p = 2 ∧ k = 0 then 1 else 0) toyArgs (fun _ _ => 0) 1 false
    (fun _ => false)).toOption.map (·.2) = some [none, none, some ⟨2, false⟩, none] := by decide +kernel

end MJ
