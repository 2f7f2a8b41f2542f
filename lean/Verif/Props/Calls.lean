import Verif.Proofs.Calls
/-!
C16-C23: the calls offered on a discard (`decision_mask`).
-/
namespace MJ
open Code Spec

set_option synthInstance.maxSize 2000
set_option synthInstance.maxHeartbeats 200000

theorem chiView_red (color n w : Nat) (r : Bool) :
    ((chiView color n w r).handRed || (chiView color n w r).calledRed) = r := by
  simp only [chiView]
  cases r
  · simp
  · by_cases h : n + w = 4 <;> simp [h]

/-! ### C16 -/

/-- C16: `decision_mask` returns (never raises on a real kind) four lists; the discarder's is
empty; everything in list `p` belongs to `p`, is not executed, is a chi, pon or open kan. -/
theorem C16_offer_lists (q : Nat) (hands : Nat → Hand) (t : Nat) (red : Bool) (hq : q < 4) (ht : t < 34) :
    ∃ ds, decisionMask q hands t red = .ok ds ∧ ds.length = 4 ∧ ds[q]? = some [] ∧
      ∀ p l, ds[p]? = some l → ∀ d ∈ l, d.player = p ∧ d.executed = false ∧ p ≠ q ∧
        d.naki.convenient_naki_code = d.naki.naki_code ∧
        (onlyType d.naki.naki_code .chi ∨ onlyType d.naki.naki_code .pon ∨ onlyType d.naki.naki_code .minkan) := by
  obtain ⟨ds, e, hlen, h⟩ := decisionMask_spec q hands t red ht hq
  refine ⟨ds, e, hlen, ?_, ?_⟩
  · obtain ⟨l, hl, hm⟩ := h q hq
    rw [hl]
    congr 1
    cases l with
    | nil => rfl
    | cons d l => exact absurd ((hm d).1 (by simp)).1 (by simp)
  · intro p l hl d hd
    have hp : p < 4 := by
      rw [← hlen]
      exact (List.getElem?_eq_some_iff.1 hl).1
    obtain ⟨l', hl', hm⟩ := h p hp
    rw [hl] at hl'
    cases hl'
    obtain ⟨hne, c, ho, rfl⟩ := (hm d).1 hd
    refine ⟨rfl, rfl, hne, rfl, ?_⟩
    obtain ⟨wf, h⟩ := offered_view q p (hands p) t red c ht hp hq hne ho
    have hs := source_ne q p hp hq hne
    rcases h with ⟨_, n, w, r, hc, h7, h3, hr, rfl, _⟩ | ⟨w, r, hc, h2, hr, rfl, _⟩ | ⟨w, hc, h2, rfl, _⟩
    · left
      have : ∀ color < 3, ∀ number < 7, ∀ which < 3, ∀ r : Bool, (r = true → 2 ≤ number ∧ number ≤ 4) →
          onlyType (chiInfo color number which r) .chi := by decide +kernel
      exact this _ (by have := (chiOffer_bounds hc).2.2.2; omega) _ h7 _ h3 _ hr
    · right; left
      have : ∀ t < 34, ∀ which < 2, ∀ r : Bool, ∀ src < 4, onlyType (ponInfo t which r src) .pon := by
        decide +kernel
      exact this _ ht _ h2 _ _ hs.2
    · right; right
      have : ∀ t < 34, ∀ src < 4, ∀ which < 2, src ≠ 0 → onlyType (minkanInfo t src which) .minkan := by
        decide +kernel
      exact this _ ht _ hs.2 _ h2 (by omega)

/-! ### C17-C18 -/

/-- C17: offered calls point at the discarder; a chi is offered to the next seat only. -/
theorem C17_source (q : Nat) (hands : Nat → Hand) (t : Nat) (red : Bool) (p : Nat) (v : MeldView)
    (hq : q < 4) (hp : p < 4) (ht : t < 34) (h : Offers q hands t red p v) :
    (v.source : Int) = ((q : Int) - p) % 4 ∧ (v.type = .chi → ((p : Int) - q) % 4 = 1) := by
  obtain ⟨hne, h⟩ := (offers_cases q hands t red p v hq hp ht).1 h
  have hs := source_eq q p
  rcases h with ⟨hx, n, w, r, hc, rfl⟩ | ⟨w, r, hc, rfl⟩ | ⟨w, hc, rfl⟩
  · rw [isNext_iff] at hx
    refine ⟨?_, fun _ => hx⟩
    show (3 : Int) = _
    omega
  · exact ⟨hs, fun h => by simp [ponView] at h⟩
  · exact ⟨hs, fun h => by simp [minkanView] at h⟩

/-- C18: an offered pon (open kan) is of the discarded kind and its player holds two (three)
of them. -/
theorem C18_backed (q : Nat) (hands : Nat → Hand) (t : Nat) (red : Bool) (p : Nat) (v : MeldView)
    (hq : q < 4) (hp : p < 4) (ht : t < 34) (h : Offers q hands t red p v) :
    (v.type = .pon → v.handKinds = [t, t] ∧ v.calledKind = some t ∧ 2 ≤ hands p t) ∧
    (v.type = .minkan → v.handKinds = [t, t, t] ∧ v.calledKind = some t ∧ 3 ≤ hands p t) := by
  obtain ⟨hne, h⟩ := (offers_cases q hands t red p v hq hp ht).1 h
  rcases h with ⟨hx, n, w, r, hc, rfl⟩ | ⟨w, r, hc, rfl⟩ | ⟨w, hc, rfl⟩
  · simp [chiView]
  · refine ⟨fun _ => ⟨rfl, rfl, ?_⟩, fun h => by simp [ponView] at h⟩
    unfold PonOffer at hc
    split at hc
    · split at hc <;> omega
    · omega
  · exact ⟨fun h => by simp [minkanView] at h, fun _ => ⟨rfl, rfl, by have := hc.1; omega⟩⟩

/-! ### C19-C20 -/

/-- the tiles of the meld are the run starting at kind `k` -/
def RunFrom (v : MeldView) (k : Nat) : Prop := (v.calledKind.toList ++ v.handKinds).Perm [k, k + 1, k + 2]

/-- the middle-wait case in which the code names the wrong tile: a 4 (6) discarded, the run
345 (567), and the red five of the suit held -/
def MiddleBug (h : Hand) (t k : Nat) : Prop :=
  ((t % 9 = 3 ∧ k + 1 = t) ∨ (t % 9 = 5 ∧ k + 1 = t)) ∧ 0 < h (34 + t / 9)

theorem runFrom_chiView (color n w : Nat) (r : Bool) (k : Nat) (hw : w < 3) :
    RunFrom (chiView color n w r) k ↔ k = 9 * color + n := by
  unfold RunFrom chiView
  have h3 : w = 0 ∨ w = 1 ∨ w = 2 := by omega
  constructor
  · intro h
    have h := h.sum_nat
    rcases h3 with rfl | rfl | rfl <;> simp at h <;> omega
  · rintro rfl
    rcases h3 with rfl | rfl | rfl
    · exact .refl _
    · exact .swap _ _ _
    · exact (List.Perm.swap _ _ _).trans (.cons _ (.swap _ _ _))

theorem offers_chi (q : Nat) (hands : Nat → Hand) (t : Nat) (red : Bool) (p : Nat) (v : MeldView)
    (hq : q < 4) (hp : p < 4) (ht : t < 34) :
    (Offers q hands t red p v ∧ v.type = .chi) ↔ p ≠ q ∧ isNext q p = true ∧
      ∃ n w r, ChiOffer (hands p) t red n w r ∧ v = chiView (t / 9) n w r := by
  rw [offers_cases q hands t red p v hq hp ht]
  constructor
  · rintro ⟨⟨hne, h⟩, hv⟩
    rcases h with ⟨hx, h⟩ | ⟨w, r, hc, rfl⟩ | ⟨w, hc, rfl⟩
    · exact ⟨hne, hx, h⟩
    · simp [ponView] at hv
    · simp [minkanView] at hv
  · rintro ⟨hne, hx, n, w, r, hc, rfl⟩
    exact ⟨⟨hne, .inl ⟨hx, n, w, r, hc, rfl⟩⟩, rfl⟩

theorem hasRed_iff (h : Hand) (t : Nat) : hasRed h t = true ↔ 0 < h (34 + t / 9) := by simp [hasRed]

theorem chiOffer_which {h : Hand} {t : Nat} {red : Bool} {n w : Nat} {r : Bool} (hc : ChiOffer h t red n w r) :
    (MiddleBug h t (9 * (t / 9) + n) → n + w ≠ t % 9) ∧ (¬ MiddleBug h t (9 * (t / 9) + n) → n + w = t % 9) := by
  obtain ⟨h1, h2, h3, h4, h5, h6, h7⟩ := hc
  simp only [hasRed_iff] at h7
  unfold MiddleBug
  constructor
  · rintro ⟨hb, hr⟩
    rw [h7]
    rcases hb with hb | hb
    · rw [if_pos ⟨hb.1, by omega, hr⟩]; omega
    · rw [if_neg (by omega), if_pos ⟨hb.1, by omega, hr⟩]; omega
  · intro hb
    rw [h7, if_neg, if_neg]
    · omega
    · rintro ⟨a, b, c⟩; exact hb ⟨.inr ⟨a, by omega⟩, c⟩
    · rintro ⟨a, b, c⟩; exact hb ⟨.inl ⟨a, by omega⟩, c⟩

/-- two players: seat 1 holds the red and 3 of man: `0m 3m`, discard of 4m by seat 0 -/
def middleHands : Nat → Hand := fun p i =>
  if p = 1 ∧ (i = 2 ∨ i = 4 ∨ i = 34) then 1 else 0

/-- C19 fails: with the red five and a 3 in hand, on a discarded 4 the code offers the run
345 as if the 3 had been called. -/
theorem C19_chi_takes_discard_violated :
    ¬ ∀ (q : Nat) (hands : Nat → Hand) (t : Nat) (red : Bool) (p : Nat) (v : MeldView),
      q < 4 → p < 4 → t < 34 → (∀ p, HandOk (hands p)) → Offers q hands t red p v → v.type = .chi →
      v.calledKind = some t := by
  intro h
  have := h 0 middleHands 3 false 1 (chiView 0 2 0 true) (by omega) (by omega) (by omega)
    (by
      intro p
      refine ⟨fun k => ?_, fun s hs => ?_⟩
      · unfold middleHands; split <;> omega
      · unfold middleHands
        have : s = 0 ∨ s = 1 ∨ s = 2 := by omega
        rcases this with rfl | rfl | rfl <;> simp <;> split <;> omega)
    (by
      refine ((offers_chi 0 middleHands 3 false 1 _ (by omega) (by omega) (by omega)).2 ⟨by omega, by decide, 2, 0, true, ?_, rfl⟩).1
      refine ⟨by omega, by omega, by omega, by omega, by decide +kernel, by decide +kernel, by decide +kernel⟩)
    rfl
  revert this; decide

/-- C19 except for the middle-wait case: every offered chi is a run containing the discarded
kind inside the discard's suit, the two other kinds are held, and unless `MiddleBug` the
called tile is the discard and the tiles shown from the hand are held.  In the bug case the
called tile is always wrong. -/
theorem C19_chi_takes_discard_partial (q : Nat) (hands : Nat → Hand) (t : Nat) (red : Bool) (p : Nat) (v : MeldView)
    (hq : q < 4) (hp : p < 4) (ht : t < 34) (h : Offers q hands t red p v) (hv : v.type = .chi) :
    ∃ k, RunFrom v k ∧ k ≤ t ∧ t ≤ k + 2 ∧ t < 27 ∧ k % 9 < 7 ∧
      (∀ i, k ≤ i → i ≤ k + 2 → i ≠ t → hands p i ≠ 0) ∧
      (MiddleBug (hands p) t k → v.calledKind ≠ some t) ∧
      (¬ MiddleBug (hands p) t k → v.calledKind = some t ∧ ∀ i ∈ v.handKinds, hands p i ≠ 0) := by
  obtain ⟨hne, hx, n, w, r, hc, rfl⟩ := (offers_chi q hands t red p v hq hp ht).1 ⟨h, hv⟩
  have b := chiOffer_bounds hc
  have hw := chiOffer_which hc
  obtain ⟨h1, h2, h3, h4, h5, h6, h7⟩ := hc
  have h5' : ∀ i, 9 * (t / 9) + n ≤ i → i ≤ 9 * (t / 9) + n + 2 → i ≠ t → hands p i ≠ 0 := by
    intro i a b c
    have := h5 (i - (9 * (t / 9) + n)) (by omega) (by omega)
    rwa [show 9 * (t / 9) + n + (i - (9 * (t / 9) + n)) = i by omega] at this
  refine ⟨9 * (t / 9) + n, (runFrom_chiView _ _ _ _ _ b.2.1).2 rfl, by omega, by omega, h1, by omega, h5', ?_, ?_⟩
  · intro hb
    have := hw.1 hb
    simp only [chiView, ne_eq, Option.some.injEq]
    omega
  · intro hb
    have hw := hw.2 hb
    refine ⟨by simp only [chiView, Option.some.injEq]; omega, ?_⟩
    intro i hi
    have hi' : i ∈ [9 * (t / 9) + n, 9 * (t / 9) + n + 1, 9 * (t / 9) + n + 2].eraseIdx w := hi
    have h3w : w = 0 ∨ w = 1 ∨ w = 2 := by omega
    apply h5' i
    · rcases h3w with rfl | rfl | rfl <;> simp at hi' <;> omega
    · rcases h3w with rfl | rfl | rfl <;> simp at hi' <;> omega
    · rcases h3w with rfl | rfl | rfl <;> simp at hi' <;> omega

example : ∃ v, Offers 0 middleHands 3 false 1 v ∧ v.type = .chi ∧ RunFrom v 2 :=
  ⟨chiView 0 2 0 true, by
    refine ((offers_chi 0 middleHands 3 false 1 _ (by omega) (by omega) (by omega)).2 ⟨by omega, by decide, 2, 0, true, ?_, rfl⟩).1
    exact ⟨by omega, by omega, by omega, by omega, by decide +kernel, by decide +kernel, by decide +kernel⟩, rfl,
    (runFrom_chiView _ _ _ _ _ (by omega)).2 rfl⟩

/-- the seat after `q` holds the two other kinds of the run `k, k+1, k+2` around `t` -/
def CanChi (q p : Nat) (h : Hand) (t k : Nat) : Prop :=
  ((p : Int) - q) % 4 = 1 ∧ t < 27 ∧ k / 9 = t / 9 ∧ k % 9 < 7 ∧ k ≤ t ∧ t ≤ k + 2 ∧
  ∀ i, k ≤ i → i ≤ k + 2 → i ≠ t → 0 < h i

/-- the offered runs, exactly -/
theorem offered_runs (q : Nat) (hands : Nat → Hand) (t : Nat) (red : Bool) (p k : Nat)
    (hq : q < 4) (hp : p < 4) (hc : CanChi q p (hands p) t k) (r : Bool) :
    (∃ v, Offers q hands t red p v ∧ v.type = .chi ∧ RunFrom v k ∧ (v.handRed || v.calledRed) = r ∧
        (¬ MiddleBug (hands p) t k → v.calledKind = some t)) ↔
      (if t % 9 = 4 then r = red
       else if k % 9 ≤ 4 ∧ 4 ≤ k % 9 + 2 then
         (if 0 < hands p (34 + t / 9) then r = true ∨ 2 ≤ hands p t else r = false)
       else r = false) := by
  obtain ⟨hx, h1, h2, h3, h4, h5, h6⟩ := hc
  have hbf : hasRed (hands p) t = true → (0 < blackFives (hands p) t ↔ 2 ≤ hands p t) := by
    intro h; unfold blackFives; rw [h]; simp; omega
  constructor
  · rintro ⟨v, ho, hv, hr, hred, _⟩
    obtain ⟨hne, hx, n, w, r', hc, rfl⟩ := (offers_chi q hands t red p v hq hp (by omega)).1 ⟨ho, hv⟩
    have b := chiOffer_bounds hc
    have hk := (runFrom_chiView _ _ _ _ _ b.2.1).1 hr
    have hn : n = k % 9 := by omega
    have hr' : r' = r := by rw [← hred, chiView_red]
    have h6 := hc.2.2.2.2.2.1
    rw [hr', hn] at h6
    simp only [hasRed_iff] at h6
    split
    · simpa [*] using h6
    · rename_i h
      rw [if_neg h] at h6
      split
      · rename_i h'
        rw [if_pos h'] at h6
        split
        · rename_i hR
          rw [if_pos hR] at h6
          rw [← hbf ((hasRed_iff _ _).2 hR)]
          exact h6
        · rename_i hR
          rw [if_neg hR] at h6
          exact h6
      · rename_i h'
        rw [if_neg h'] at h6
        exact h6
  · intro hr
    have hc : ChiOffer (hands p) t red (k % 9) (if t % 9 = 3 ∧ k % 9 = 2 ∧ hasRed (hands p) t then 0 else if t % 9 = 5 ∧ k % 9 = 4 ∧ hasRed (hands p) t then 2 else t % 9 - k % 9) r := by
      refine ⟨h1, h3, by omega, by omega, ?_, ?_, rfl⟩
      · intro j hj hne
        have := h6 (k + j) (by omega) (by omega) (by omega)
        rw [show 9 * (t / 9) + k % 9 + j = k + j by omega]
        omega
      · simp only [hasRed_iff]
        split
        · simpa [*] using hr
        · rename_i h
          rw [if_neg h] at hr
          split
          · rename_i h'
            rw [if_pos h'] at hr
            split
            · rename_i hR
              rw [if_pos hR] at hr
              rw [hbf ((hasRed_iff _ _).2 hR)]
              exact hr
            · rename_i hR
              rw [if_neg hR] at hr
              exact hr
          · rename_i h'
            rw [if_neg h'] at hr
            exact hr
    have b := chiOffer_bounds hc
    have hw := chiOffer_which hc
    refine ⟨_, ((offers_chi q hands t red p _ hq hp (by omega)).2 ⟨by omega, (isNext_iff q p).2 hx, _, _, r, hc, rfl⟩).1,
      rfl, (runFrom_chiView _ _ _ _ _ b.2.1).2 (by omega), ?_, ?_⟩
    · exact chiView_red _ _ _ _
    · rw [show 9 * (t / 9) + k % 9 = k by omega] at hw
      intro hb
      have := hw.2 hb
      simp only [chiView, Option.some.injEq]
      omega

/-- C20 fails for the middle wait with the red five. -/
theorem C20_every_chi_offered_violated :
    ¬ ∀ (q : Nat) (hands : Nat → Hand) (t : Nat) (red : Bool) (p k : Nat), q < 4 → p < 4 →
      (∀ p, HandOk (hands p)) → CanChi q p (hands p) t k →
      ∃ v, Offers q hands t red p v ∧ v.type = .chi ∧ RunFrom v k ∧ v.calledKind = some t := by
  intro h
  obtain ⟨v, ho, hv, hr, hc⟩ := h 0 middleHands 3 false 1 2 (by omega) (by omega)
    (by
      intro p
      refine ⟨fun k => ?_, fun s hs => ?_⟩
      · unfold middleHands; split <;> omega
      · unfold middleHands
        have : s = 0 ∨ s = 1 ∨ s = 2 := by omega
        rcases this with rfl | rfl | rfl <;> simp <;> split <;> omega)
    ⟨by decide, by omega, by omega, by omega, by omega, by omega, by
      intro i h1 h2 h3
      have : i = 2 ∨ i = 4 := by omega
      rcases this with rfl | rfl <;> decide⟩
  obtain ⟨k, hk, _, _, _, _, _, hb, _⟩ := C19_chi_takes_discard_partial 0 middleHands 3 false 1 v (by omega) (by omega) (by omega) ho hv
  have : k = 2 := by
    have a := hr.sum_nat
    have b := hk.sum_nat
    simp at a b
    omega
  subst this
  exact hb ⟨.inl ⟨rfl, rfl⟩, by decide⟩ hc

/-- C20: every possible run is offered, and it calls the discarded tile except in the
middle-wait case. -/
theorem C20_every_chi_offered_partial (q : Nat) (hands : Nat → Hand) (t : Nat) (red : Bool) (p k : Nat)
    (hq : q < 4) (hp : p < 4) (hc : CanChi q p (hands p) t k) :
    ∃ v, Offers q hands t red p v ∧ v.type = .chi ∧ RunFrom v k ∧
      (¬ MiddleBug (hands p) t k → v.calledKind = some t) := by
  have : ∃ r : Bool, (if t % 9 = 4 then r = red
       else if k % 9 ≤ 4 ∧ 4 ≤ k % 9 + 2 then
         (if 0 < hands p (34 + t / 9) then r = true ∨ 2 ≤ hands p t else r = false)
       else r = false) := by
    split
    · exact ⟨_, rfl⟩
    · split
      · split
        · exact ⟨true, .inl rfl⟩
        · exact ⟨_, rfl⟩
      · exact ⟨_, rfl⟩
  obtain ⟨r, hr⟩ := this
  obtain ⟨v, a, b, c, _, d⟩ := (offered_runs q hands t red p k hq hp hc r).2 hr
  exact ⟨v, a, b, c, d⟩

example : CanChi 0 1 (middleHands 1) 3 2 :=
  ⟨by decide, by omega, by omega, by omega, by omega, by omega, by
      intro i h1 h2 h3
      have : i = 2 ∨ i = 4 := by omega
      rcases this with rfl | rfl <;> decide⟩

/-! ### C21 -/

theorem offers_pon (q : Nat) (hands : Nat → Hand) (t : Nat) (red : Bool) (p : Nat)
    (hq : q < 4) (hp : p < 4) (ht : t < 34) :
    (∃ v, Offers q hands t red p v ∧ v.type = .pon) ↔ p ≠ q ∧ ∃ w r, PonOffer (hands p) t red w r := by
  simp only [offers_cases q hands t red p _ hq hp ht]
  constructor
  · rintro ⟨v, ⟨hne, h⟩, hv⟩
    rcases h with ⟨hx, n, w, r, hc, rfl⟩ | ⟨w, r, hc, rfl⟩ | ⟨w, hc, rfl⟩
    · simp [chiView] at hv
    · exact ⟨hne, w, r, hc⟩
    · simp [minkanView] at hv
  · rintro ⟨hne, w, r, hc⟩
    exact ⟨_, ⟨hne, .inr (.inl ⟨w, r, hc, rfl⟩)⟩, rfl⟩

theorem offers_kan (q : Nat) (hands : Nat → Hand) (t : Nat) (red : Bool) (p : Nat)
    (hq : q < 4) (hp : p < 4) (ht : t < 34) :
    (∃ v, Offers q hands t red p v ∧ v.type = .minkan) ↔ p ≠ q ∧ hands p t = 3 := by
  simp only [offers_cases q hands t red p _ hq hp ht]
  constructor
  · rintro ⟨v, ⟨hne, h⟩, hv⟩
    rcases h with ⟨hx, n, w, r, hc, rfl⟩ | ⟨w, r, hc, rfl⟩ | ⟨w, hc, rfl⟩
    · simp [chiView] at hv
    · simp [ponView] at hv
    · exact ⟨hne, hc.1⟩
  · rintro ⟨hne, hc⟩
    exact ⟨_, ⟨hne, .inr (.inr ⟨_, ⟨hc, rfl⟩, rfl⟩)⟩, rfl⟩

def threeEast : Nat → Hand := fun p i => if p = 1 ∧ i = 27 then 3 else 0

theorem threeEast_ok (p : Nat) : HandOk (threeEast p) := by
  refine ⟨fun k => ?_, fun s hs => ?_⟩
  · unfold threeEast; split <;> omega
  · unfold threeEast
    have : s = 0 ∨ s = 1 ∨ s = 2 := by omega
    rcases this with rfl | rfl | rfl <;> simp

/-- C21 fails: holding three copies, a pon is not offered. -/
theorem C21_every_pon_offered_violated :
    ¬ ∀ (q : Nat) (hands : Nat → Hand) (t : Nat) (red : Bool) (p : Nat), q < 4 → p < 4 → t < 34 → p ≠ q →
      (∀ p, HandOk (hands p)) → 2 ≤ hands p t → ∃ v, Offers q hands t red p v ∧ v.type = .pon := by
  intro h
  have := h 0 threeEast 27 false 1 (by omega) (by omega) (by omega) (by omega) threeEast_ok (by decide)
  obtain ⟨_, w, r, h⟩ := (offers_pon 0 threeEast 27 false 1 (by omega) (by omega) (by omega)).1 this
  have : threeEast 1 27 = 3 := by decide
  simp [PonOffer, this] at h

/-- C21, exactly what is offered: an open kan iff the player holds exactly three; a pon iff
exactly two, or exactly three fives one of which is red.  Hands of real games hold at most
three of a kind that somebody else discards, so every possible open kan and every pon from
two copies is offered. -/
theorem C21_every_pon_offered_partial (q : Nat) (hands : Nat → Hand) (t : Nat) (red : Bool) (p : Nat)
    (hq : q < 4) (hp : p < 4) (ht : t < 34) (hne : p ≠ q) :
    ((∃ v, Offers q hands t red p v ∧ v.type = .minkan) ↔ hands p t = 3) ∧
    ((∃ v, Offers q hands t red p v ∧ v.type = .pon) ↔
      hands p t = 2 ∨ (hands p t = 3 ∧ t < 27 ∧ t % 9 = 4 ∧ 0 < hands p (34 + t / 9))) := by
  rw [offers_kan q hands t red p hq hp ht, offers_pon q hands t red p hq hp ht]
  refine ⟨by simp [hne], ?_⟩
  simp only [ne_eq, hne, not_false_eq_true, true_and]
  unfold PonOffer
  by_cases h5 : t < 27 ∧ t % 9 = 4
  · simp only [if_pos h5, hasRed_iff]
    by_cases hr : 0 < hands p (34 + t / 9)
    · simp only [if_pos hr]
      constructor
      · rintro ⟨w, r, h | h⟩
        · exact .inl h.1
        · exact .inr ⟨h.1, h5.1, h5.2, hr⟩
      · rintro (h | h)
        · exact ⟨1, true, .inl ⟨h, rfl, rfl⟩⟩
        · exact ⟨0, false, .inr ⟨h.1, rfl, rfl⟩⟩
    · simp only [if_neg hr]
      constructor
      · rintro ⟨w, r, h⟩; exact .inl h.1
      · rintro (h | h)
        · exact ⟨_, _, h, rfl, rfl⟩
        · exact absurd h.2.2.2 hr
  · simp only [if_neg h5]
    constructor
    · rintro ⟨w, r, h⟩; exact .inl h.1
    · rintro (h | h)
      · exact ⟨0, false, h, rfl, rfl⟩
      · exact absurd ⟨h.2.1, h.2.2.1⟩ h5

example : (∃ v, Offers 0 threeEast 27 false 1 v ∧ v.type = .minkan) :=
  (C21_every_pon_offered_partial 0 threeEast 27 false 1 (by omega) (by omega) (by omega) (by omega)).1.2 (by decide)

/-! ### C22 -/

/-- a run around `t` with the five of the suit taken from the hand -/
def FiveFromHand (t k : Nat) : Prop := t % 9 ≠ 4 ∧ k % 9 ≤ 4 ∧ 4 ≤ k % 9 + 2

/-- offered with (`r`) or without the red five of the hand -/
def OffersRun (q : Nat) (hands : Nat → Hand) (t : Nat) (red : Bool) (p k : Nat) (r : Bool) : Prop :=
  ∃ v, Offers q hands t red p v ∧ v.type = .chi ∧ RunFrom v k ∧ (v.handRed || v.calledRed) = r

theorem offersRun_iff (q : Nat) (hands : Nat → Hand) (t : Nat) (red : Bool) (p k : Nat) (r : Bool)
    (hq : q < 4) (hp : p < 4) (hc : CanChi q p (hands p) t k) (hf : FiveFromHand t k) :
    OffersRun q hands t red p k r ↔
      (if 0 < hands p (34 + t / 9) then r = true ∨ 2 ≤ hands p t else r = false) := by
  have h := offered_runs q hands t red p k hq hp hc r
  rw [if_neg hf.1, if_pos hf.2] at h
  rw [← h]
  constructor
  · rintro ⟨v, a, b, c, d⟩
    refine ⟨v, a, b, c, d, ?_⟩
    obtain ⟨k', hk, _, _, _, _, _, _, hb⟩ := C19_chi_takes_discard_partial q hands t red p v hq hp (by have := hc.2.1; omega) a b
    have : k = k' := by
      have a := c.sum_nat
      have b := hk.sum_nat
      simp at a b
      omega
    subst this
    exact fun h => (hb h).1
  · rintro ⟨v, a, b, c, d, _⟩
    exact ⟨v, a, b, c, d⟩

/-- seat 1 holds 4m, red 5m and a black 5m -/
def bothFives : Nat → Hand := fun p i =>
  if p = 1 ∧ (i = 3 ∨ i = 34) then 1 else if p = 1 ∧ i = 4 then 2 else 0

theorem bothFives_ok (p : Nat) : HandOk (bothFives p) := by
  refine ⟨fun k => ?_, fun s hs => ?_⟩
  · unfold bothFives; split
    · omega
    · split <;> omega
  · unfold bothFives
    have : s = 0 ∨ s = 1 ∨ s = 2 := by omega
    rcases this with rfl | rfl | rfl <;> simp <;> split <;> simp_all

/-- C22 fails: 4m, red 5m, black 5m in hand, 3m discarded: the run with the black five is
not offered (the code looks at the number of 3m held). -/
theorem C22_black_five_violated :
    ¬ ∀ (q : Nat) (hands : Nat → Hand) (t : Nat) (red : Bool) (p k : Nat), q < 4 → p < 4 →
      (∀ p, HandOk (hands p)) → CanChi q p (hands p) t k → FiveFromHand t k →
      (OffersRun q hands t red p k false ↔ 0 < hands p (9 * (t / 9) + 4) - hands p (34 + t / 9)) := by
  intro h
  have hc : CanChi 0 1 (bothFives 1) 2 2 :=
    ⟨by decide, by omega, by omega, by omega, by omega, by omega, by
      intro i h1 h2 h3
      have : i = 3 ∨ i = 4 := by omega
      rcases this with rfl | rfl <;> decide⟩
  have hf : FiveFromHand 2 2 := ⟨by omega, by omega, by omega⟩
  have := (h 0 bothFives 2 false 1 2 (by omega) (by omega) bothFives_ok hc hf).2 (by decide)
  rw [offersRun_iff 0 bothFives 2 false 1 2 false (by omega) (by omega) hc hf] at this
  revert this; decide

/-- C22, what holds: the version with the red five is offered iff the red five is held; without
the red five held the other version is always offered (and the five held is black); with the
red five held the black version is offered iff two or more tiles *of the discarded kind* are
held. -/
theorem C22_black_five_partial (q : Nat) (hands : Nat → Hand) (t : Nat) (red : Bool) (p k : Nat)
    (hq : q < 4) (hp : p < 4) (hc : CanChi q p (hands p) t k) (hf : FiveFromHand t k) (hok : HandOk (hands p)) :
    (OffersRun q hands t red p k true ↔ 0 < hands p (34 + t / 9)) ∧
    (¬ 0 < hands p (34 + t / 9) →
      (OffersRun q hands t red p k false ∧ 0 < hands p (9 * (t / 9) + 4) - hands p (34 + t / 9))) ∧
    (0 < hands p (34 + t / 9) → (OffersRun q hands t red p k false ↔ 2 ≤ hands p t)) := by
  rw [offersRun_iff q hands t red p k true hq hp hc hf, offersRun_iff q hands t red p k false hq hp hc hf]
  refine ⟨?_, ?_, ?_⟩
  · split <;> simp [*]
  · intro h
    rw [if_neg h]
    have h5 := hc.2.2.2.2.2.2 (9 * (t / 9) + 4) (by have := hc.2.2.1; have := hf.2; omega)
      (by have := hc.2.2.1; have := hf.2; omega) (by have := hf.1; omega)
    exact ⟨rfl, by omega⟩
  · intro h
    rw [if_pos h]
    simp

example : CanChi 0 1 (bothFives 1) 2 2 ∧ FiveFromHand 2 2 ∧ HandOk (bothFives 1) :=
  ⟨⟨by decide, by omega, by omega, by omega, by omega, by omega, by
      intro i h1 h2 h3
      have : i = 3 ∨ i = 4 := by omega
      rcases this with rfl | rfl <;> decide⟩, ⟨by omega, by omega, by omega⟩, bothFives_ok 1⟩

/-! ### C23 -/

/-- When a legal logged call `c` that looks like `v` is found among the offers. -/
def FoundWhen (h : Hand) (t : Nat) (v : MeldView) (c : Nat) : Prop :=
  match v.type with
  | .chi =>
    ¬ (v.handKinds = [t - 1, t + 1] ∧ (t % 9 = 3 ∨ t % 9 = 5) ∧ 0 < h (34 + t / 9)) ∧
    ¬ (9 * (t / 9) + 4 ∈ v.handKinds ∧ v.handRed = false ∧ 0 < h (34 + t / 9) ∧ h t < 2)
  | .pon =>
    if v.calledRed then False
    else if v.handRed then h t = 2
    else (pattern_pon c).which = 0 ∧
      h t = (if t < 27 ∧ t % 9 = 4 ∧ 0 < h (34 + t / 9) then 3 else 2)
  | _ => False

theorem view_type {c : Nat} {v : MeldView} (h : view c = some v) : meldType c = some v.type ∧ v.source = from_who c := by
  unfold view at h
  cases hm : meldType c with
  | none => simp [hm] at h
  | some ty =>
    cases he : get_exposed c with
    | error e => simp [hm, he] at h
    | ok x =>
      rw [hm, he] at h
      cases h
      exact ⟨rfl, rfl⟩

theorem meldType_chi {c : Nat} (h : meldType c = some .chi) : is_chi c = true := by
  rw [meldType_eq] at h
  revert h; repeat' split
  all_goals simp_all

theorem meldType_pon {c : Nat} (h : meldType c = some .pon) : is_chi c = false ∧ is_pon c = true := by
  rw [meldType_eq] at h
  revert h; repeat' split
  all_goals simp_all

theorem meldType_minkan {c : Nat} (h : meldType c = some .minkan) :
    is_chi c = false ∧ is_pon c = false ∧ is_kakan c = false ∧ is_minkan c = true := by
  rw [meldType_eq] at h
  revert h; repeat' split
  all_goals simp_all

theorem chiView_inj {a n w : Nat} {r : Bool} {a' n' w' : Nat} {r' : Bool} (hw : w < 3) (hw' : w' < 3)
    (h : chiView a n w r = chiView a' n' w' r') : 9 * a + n = 9 * a' + n' ∧ w = w' ∧ r = r' := by
  have h1 : RunFrom (chiView a n w r) (9 * a' + n') := by
    rw [h]; exact (runFrom_chiView _ _ _ _ _ hw').2 rfl
  have h1 := (runFrom_chiView _ _ _ _ _ hw).1 h1
  have h2 : (chiView a n w r).calledKind = (chiView a' n' w' r').calledKind := by rw [h]
  have h3 := chiView_red a n w r
  rw [h, chiView_red] at h3
  simp only [chiView, Option.some.injEq] at h2
  exact ⟨by omega, by omega, h3.symm⟩

theorem found_chi (q p : Nat) (hands : Nat → Hand) (t : Nat) (red : Bool) (c : Nat) (v : MeldView)
    (h : LegalCall q p (hands p) t red c) (hv : view c = some v) (ty : v.type = .chi) (ht : t < 34) :
    Recognised q hands t red p c ↔ FoundWhen (hands p) t v c := by
  obtain ⟨hp, hq, hne, wf, hok, v', hv', _, hk, hr, hs, hnx, hb⟩ := h
  rw [hv] at hv'
  cases hv'
  have hvt := view_type hv
  rw [ty] at hvt
  have hchi := meldType_chi hvt.1
  have hnx' := hnx ty
  have hsrc : from_who c = 3 := by rw [← hvt.2]; omega
  obtain ⟨color, n, w, r, hc3, hn7, hw3, hr', hcl, hview⟩ := chi_form c wf hchi hsrc
  rw [hv] at hview
  cases hview
  have hk' : 9 * color + n + w = t := by simpa [chiView] using hk
  have hcol : color = t / 9 := by omega
  subst hcol
  have hnw : n + w = t % 9 := by omega
  -- reduce to the offer predicate
  have step : Recognised q hands t red p c ↔ ChiOffer (hands p) t red n w r := by
    rw [recognised_iff q hands t red p c hq hp ht]
    constructor
    · rintro ⟨_, d, ho, hd⟩
      rw [hcl] at hd
      cases hd
      obtain ⟨_, h⟩ := offered_view q p (hands p) t red _ ht hp hq hne ho
      have hvw := (view_chiInfo (t / 9) n w r (by omega) hn7 hw3 hr').1
      rcases h with ⟨_, n', w', r', hc, _, hw', _, _, e⟩ | ⟨w', r', hc, _, _, _, e⟩ | ⟨w', hc, _, _, e⟩
      · rw [hvw] at e
        have e := chiView_inj hw3 hw' (Option.some.inj e)
        have : n = n' := by omega
        rw [this, e.2.1, e.2.2]; exact hc
      · rw [hvw] at e
        simp [chiView, ponView] at e
      · rw [hvw] at e
        simp [chiView, minkanView] at e
    · intro hc
      exact ⟨hne, _, .inl ⟨(isNext_iff q p).2 hnx', n, w, r, hc, rfl⟩, hcl⟩
  rw [step]
  have hmid : (chiView (t / 9) n w r).handKinds = [t - 1, t + 1] ↔ w = 1 := by
    have : w = 0 ∨ w = 1 ∨ w = 2 := by omega
    rcases this with rfl | rfl | rfl <;> simp [chiView] <;> omega
  have hfive : 9 * (t / 9) + 4 ∈ (chiView (t / 9) n w r).handKinds ↔ t % 9 ≠ 4 ∧ n ≤ 4 ∧ 4 ≤ n + 2 := by
    have : w = 0 ∨ w = 1 ∨ w = 2 := by omega
    rcases this with rfl | rfl | rfl <;> simp [chiView] <;> omega
  have held : ∀ j < 3, n + j ≠ t % 9 → 0 < hands p (9 * (t / 9) + n + j) := by
    intro j hj hne
    have hm : 9 * (t / 9) + n + j ∈ (chiView (t / 9) n w r).handKinds := by
      have : w = 0 ∨ w = 1 ∨ w = 2 := by omega
      rcases this with rfl | rfl | rfl <;> simp [chiView] <;> omega
    have h1 := hb.1 _ hm
    have h2 := List.count_pos_iff.2 hm
    omega
  have hredB := hb.2 (t / 9) (by omega)
  have hhr : (chiView (t / 9) n w r).handRed = (r && decide (t % 9 ≠ 4)) := by
    simp only [chiView, hnw]
    by_cases h4 : t % 9 = 4 <;> simp [h4]
  have hcr : (chiView (t / 9) n w r).calledRed = (r && decide (t % 9 = 4)) := by
    simp only [chiView, hnw]
    by_cases h4 : t % 9 = 4 <;> simp [h4]
  rw [hcr] at hr
  rw [hhr] at hredB
  unfold FoundWhen
  rw [ty]
  simp only [hmid, hfive, hhr]
  unfold ChiOffer
  simp only [hasRed_iff]
  have hbf : 0 < hands p (34 + t / 9) → (0 < blackFives (hands p) t ↔ ¬ hands p t < 2) := by
    intro h; unfold blackFives; rw [(hasRed_iff _ _).2 h]; simp; omega
  have hw_iff : (w = if t % 9 = 3 ∧ n = 2 ∧ 0 < hands p (34 + t / 9) then 0
      else if t % 9 = 5 ∧ n = 4 ∧ 0 < hands p (34 + t / 9) then 2 else t % 9 - n) ↔
      ¬ (w = 1 ∧ (t % 9 = 3 ∨ t % 9 = 5) ∧ 0 < hands p (34 + t / 9)) := by
    by_cases hR : 0 < hands p (34 + t / 9)
    · simp only [hR, and_true]
      split
      · omega
      · split <;> omega
    · simp only [hR, and_false, if_false, not_false_eq_true, iff_true]
      omega
  have hr_iff : (if t % 9 = 4 then r = red
      else if n ≤ 4 ∧ 4 ≤ n + 2 then
        if 0 < hands p (34 + t / 9) then r = true ∨ 0 < blackFives (hands p) t else r = false
      else r = false) ↔
      ¬ ((t % 9 ≠ 4 ∧ n ≤ 4 ∧ 4 ≤ n + 2) ∧ (r && decide (t % 9 ≠ 4)) = false ∧ 0 < hands p (34 + t / 9) ∧ hands p t < 2) := by
    by_cases h4 : t % 9 = 4
    · simp [h4] at hr ⊢; exact hr
    · simp only [h4, decide_false, Bool.and_false, ne_eq, not_false_eq_true, decide_true, Bool.and_true, true_and, if_false] at hr hredB ⊢
      by_cases h5 : n ≤ 4 ∧ 4 ≤ n + 2
      · have hredB := hredB (hfive.2 ⟨h4, h5⟩)
        simp only [h5, and_self, if_true, true_and]
        by_cases hR : 0 < hands p (34 + t / 9)
        · simp only [hR, if_true, true_and, hbf hR]
          cases r <;> simp
        · simp only [hR, if_false, false_and, and_false, not_false_eq_true, iff_true]
          cases r
          · rfl
          · simp at hredB; omega
      · simp only [h5, if_false, false_and, not_false_eq_true, iff_true]
        cases r
        · rfl
        · exact absurd (hr' rfl) (by omega)
  rw [hw_iff, hr_iff]
  constructor
  · rintro ⟨_, _, _, _, _, h6, h7⟩
    exact ⟨h7, h6⟩
  · rintro ⟨h7, h6⟩
    exact ⟨by omega, hn7, by omega, by omega, fun j hj hne => by have := held j hj hne; omega, h6, h7⟩

theorem found_pon (q p : Nat) (hands : Nat → Hand) (t : Nat) (red : Bool) (c : Nat) (v : MeldView)
    (h : LegalCall q p (hands p) t red c) (hv : view c = some v) (ty : v.type = .pon) (ht : t < 34) :
    Recognised q hands t red p c ↔ FoundWhen (hands p) t v c := by
  obtain ⟨hp, hq, hne, wf, hok, v', hv', _, hk, hr, hs, hnx, hb⟩ := h
  rw [hv] at hv'
  cases hv'
  have hvt := view_type hv
  rw [ty] at hvt
  obtain ⟨hc, hpon⟩ := meldType_pon hvt.1
  have hvp := view_pon' c hc hpon wf
  have hsrc := source_ne q p hp hq hne
  have hse := source_eq q p
  have hsv : v.source = source q p := by omega
  have hcl : clean c = .ok (clean_pon c) := by simp [clean, hc, hpon]
  have w := wf_pon c hc hpon wf
  have hwc : (pattern_pon c).which = c / 512 % 3 := by rw [pattern_pon_which]; omega
  -- the views of the pon offers
  have step : Recognised q hands t red p c ↔ ∃ w r, PonOffer (hands p) t red w r ∧
      v = ponView t w r (source q p) ∧ ((pattern_pon c).has_red = false → (pattern_pon c).which = w) := by
    rw [recognised_iff q hands t red p c hq hp ht]
    have info : ∀ w r, PonOffer (hands p) t red w r → (clean c = .ok (ponInfo t w r (source q p)) ↔
        v = ponView t w r (source q p) ∧ ((pattern_pon c).has_red = false → (pattern_pon c).which = w)) := by
      intro w r hc'
      have b := ponOffer_bounds hc'
      have vi := view_ponInfo t w r (source q p) ht b.1 b.2 hsrc.2
      obtain ⟨m, hm, h2⟩ := C02_pon_roundtrip t w (source q p) r ht b.1 b.2
      have hm2 : m = Naki.raw (ponInfo t w r (source q p)) := by
        unfold Naki.from_pon_info at hm
        split at hm
        · simpa using hm.symm
        · simp at hm
      subst hm2
      simp only [Naki.raw] at h2
      have ht' := h2.2.2.2.2.2.1
      have d1 : is_chi (ponInfo t w r (source q p)) = false := ht'.1
      have d2 : is_pon (ponInfo t w r (source q p)) = true := ht'.2.1
      have hcd : clean (ponInfo t w r (source q p)) = .ok (clean_pon (ponInfo t w r (source q p))) := by
        simp [clean, d1, d2]
      have hfix : clean_pon (ponInfo t w r (source q p)) = ponInfo t w r (source q p) := by
        have := vi.2.2
        rw [hcd] at this
        exact Except.ok.inj this
      have pv := pon_view_iff c _ hc hpon d1 d2 wf vi.2.1
      rw [hfix, h2.2.2.1, hv, vi.1] at pv
      rw [hcl]
      constructor
      · intro h
        have := pv.1 (Except.ok.inj h)
        exact ⟨Option.some.inj this.1, this.2⟩
      · intro h
        rw [pv.2 ⟨congrArg some h.1, h.2⟩]
    constructor
    · rintro ⟨_, d, ho, hd⟩
      have hmt := (C06_clean_preserves c d hd).1
      rw [hvt.1] at hmt
      obtain ⟨_, h⟩ := offered_view q p (hands p) t red _ ht hp hq hne ho
      rcases h with ⟨_, n', w', r', hc, _, hw', _, _, e⟩ | ⟨w', r', hc', _, _, rfl, e⟩ | ⟨w', hc, _, _, e⟩
      · have := (view_type e).1
        rw [hmt] at this
        simp [chiView] at this
      · exact ⟨w', r', hc', (info w' r' hc').1 hd⟩
      · have := (view_type e).1
        rw [hmt] at this
        simp [minkanView] at this
    · rintro ⟨w, r, hc', h⟩
      exact ⟨hne, _, .inr (.inl ⟨w, r, hc', rfl⟩), (info w r hc').2 h⟩
  rw [step]
  rw [hv] at hvp
  have hvp := Option.some.inj hvp
  have hkind : c / 512 / 3 = t := by rw [hvp] at hk; simpa using hk
  have hB1 := hb.1 t (by rw [hvp]; simp [hkind])
  have hB2 := hb.2 (t / 9) 
  have hcount : v.handKinds.count t = 2 := by rw [hvp]; simp [hkind]
  rw [hcount] at hB1
  have hredf := pon_red_iff c w.1
  rw [hkind] at hredf
  have hH : v.handRed = (decide (c / 512 % 3 ≠ 0) && (pattern_pon c).has_red) := by rw [hvp]
  have hC : v.calledRed = (decide (c / 512 % 3 = 0) && (pattern_pon c).has_red) := by rw [hvp]
  have veq : ∀ w r, v = ponView t w r (source q p) ↔
      (v.handRed = (r && w == 1) ∧ v.calledRed = (r && w == 0)) := by
    intro w r
    constructor
    · intro h; rw [h]; exact ⟨rfl, rfl⟩
    · rintro ⟨h1, h2⟩
      have e1 : v.handKinds = [t, t] := by rw [hvp]; simp [hkind]
      cases v
      simp only [ponView, MeldView.mk.injEq] at *
      exact ⟨ty, hsv, e1, hk, h1, h2⟩
  simp only [veq]
  unfold FoundWhen
  rw [ty]
  simp only
  rw [hwc]
  have h5 : fiveKind t = true ↔ t < 27 ∧ t % 9 = 4 := by simp [fiveKind]; omega
  have hok2 := hok.2 (t / 9)
  cases hrd : (pattern_pon c).has_red
  · -- no red five in the meld
    rw [hrd] at hH hC
    simp only [Bool.and_false] at hH hC
    rw [hC] at hr
    rw [hH, hC, ← hr]
    simp only [Bool.false_eq_true, if_false, forall_const]
    unfold PonOffer
    by_cases hf : t < 27 ∧ t % 9 = 4
    · simp only [if_pos hf, hasRed_iff]
      by_cases hR : 0 < hands p (34 + t / 9)
      · simp only [if_pos hR]
        rw [if_pos ⟨hf.1, hf.2, hR⟩]
        constructor
        · rintro ⟨w, r, h | h, h1, h2⟩
          · obtain ⟨_, rfl, rfl⟩ := h
            simp at h1
          · obtain ⟨h3, rfl, rfl⟩ := h
            exact ⟨h2, h3⟩
        · rintro ⟨h1, h2⟩
          exact ⟨0, false, .inr ⟨h2, rfl, rfl⟩, by simp, h1⟩
      · simp only [if_neg hR]
        rw [if_neg (by rintro ⟨_, _, h⟩; exact hR h)]
        constructor
        · rintro ⟨w, r, ⟨h3, rfl, rfl⟩, h1, h2⟩
          exact ⟨h2, h3⟩
        · rintro ⟨h1, h2⟩
          exact ⟨0, false, ⟨h2, rfl, rfl⟩, by simp, h1⟩
    · simp only [if_neg hf]
      rw [if_neg (by rintro ⟨a, b, _⟩; exact hf ⟨a, b⟩)]
      constructor
      · rintro ⟨w, r, ⟨h3, rfl, rfl⟩, h1, h2⟩
        exact ⟨h2, h3⟩
      · rintro ⟨h1, h2⟩
        exact ⟨0, false, ⟨h2, rfl, rfl⟩, by simp, h1⟩
  · rw [hrd] at hredf hH hC
    have hf : t < 27 ∧ t % 9 = 4 := by
      rw [← h5]
      cases h : fiveKind t
      · rw [h] at hredf; simp at hredf
      · rfl
    have ht4 : 9 * (t / 9) + 4 = t := by omega
    rw [ht4] at hB2 hok2
    have hB2 := hB2 (by omega) (by rw [hvp]; simp [hkind])
    rw [hcount] at hB2
    by_cases hz : c / 512 % 3 = 0
    · -- the red five is the called tile
      simp only [hz, decide_true, ne_eq, not_true_eq_false, decide_false, Bool.and_true] at hH hC
      rw [hH, hC]
      simp only [if_true, iff_false]
      rw [hH] at hB2
      rintro ⟨w, r, ho, ⟨h1, h2⟩, _⟩
      unfold PonOffer at ho
      rw [if_pos hf] at ho
      simp only [hasRed_iff] at ho
      rw [hC] at hr
      rw [← hr] at ho
      split at ho
      · rcases ho with ⟨_, rfl, rfl⟩ | ⟨_, rfl, rfl⟩ <;> simp at h1 h2
      · obtain ⟨_, rfl, rfl⟩ := ho
        simp at h1
    · simp only [hz, ne_eq, not_false_eq_true, decide_true, decide_false, Bool.and_true] at hH hC
      rw [hH, hC]
      rw [hH] at hB2
      simp only [Bool.false_eq_true, if_false, if_true]
      rw [hC] at hr
      have hR : 0 < hands p (34 + t / 9) := by simp at hB2; omega
      unfold PonOffer
      simp only [if_pos hf, hasRed_iff, if_pos hR]
      constructor
      · rintro ⟨w, r, h | h, h1, h2⟩
        · exact h.1
        · obtain ⟨_, rfl, rfl⟩ := h
          simp at h1
      · intro h
        exact ⟨1, true, .inl ⟨h, rfl, rfl⟩, by simp, by simp⟩

theorem found_minkan (q p : Nat) (hands : Nat → Hand) (t : Nat) (red : Bool) (c : Nat) (v : MeldView)
    (h : LegalCall q p (hands p) t red c) (hv : view c = some v) (ty : v.type = .minkan) (ht : t < 34) :
    ¬ Recognised q hands t red p c := by
  obtain ⟨hp, hq, hne, wf, hok, v', hv', _, hk, hr, hs, hnx, hb⟩ := h
  rw [hv] at hv'
  cases hv'
  have hvt := view_type hv
  rw [ty] at hvt
  obtain ⟨hc, hpon, hkk, hmk⟩ := meldType_minkan hvt.1
  have hsrc := source_ne q p hp hq hne
  rw [recognised_iff q hands t red p c hq hp ht]
  rintro ⟨_, d, ho, hd⟩
  have hmt := (C06_clean_preserves c d hd).1
  rw [hvt.1] at hmt
  obtain ⟨wfd, h⟩ := offered_view q p (hands p) t red _ ht hp hq hne ho
  rcases h with ⟨_, n', w', r', hc, _, hw', _, _, e⟩ | ⟨w', r', hc', _, _, rfl, e⟩ | ⟨w', hc', hw', hdd, e⟩
  · have := (view_type e).1
    rw [hmt] at this
    simp [chiView] at this
  · have := (view_type e).1
    rw [hmt] at this
    simp [ponView] at this
  · have hid := C06_clean_idempotent c d hd
    by_cases hf : t < 27 ∧ t % 9 = 4
    · obtain ⟨d1, d2, d3, d4⟩ := meldType_minkan hmt
      have c1 : clean c = .ok (clean_minkan c) := by simp [clean, hc, hpon, hkk, hmk]
      have c2 : clean d = .ok (clean_minkan d) := by simp [clean, d1, d2, d3, d4]
      have e1 : clean_minkan c = clean_minkan d := by
        rw [c1] at hd
        rw [c2] at hid
        rw [Except.ok.inj hd, Except.ok.inj hid]
      have e2 := (minkan_view_iff c d hc hpon hkk hmk d1 d2 d3 d4 wf wfd).1 e1
      rw [hv, e] at e2
      have e2 := Option.some.inj e2
      have hw := hc'.2
      rw [if_pos hf] at hw
      rw [e2] at hr
      simp only [minkanView, hf, and_self, decide_true, Bool.true_and] at hr
      rw [hw] at hr
      cases red <;> simp at hr
    · have hw := hc'.2
      rw [if_neg hf] at hw
      subst hw
      have key : ∀ t < 34, ¬ (t < 27 ∧ t % 9 = 4) → ∀ src < 4, src ≠ 0 →
          clean (minkanInfo t src 0) ≠ .ok (minkanInfo t src 0) := by decide +kernel
      rw [hdd] at hid
      exact key t ht hf _ hsrc.2 (by omega) hid

theorem legal_kind {q p : Nat} {h : Hand} {t : Nat} {red : Bool} {c : Nat} (hl : LegalCall q p h t red c) : t < 34 := by
  obtain ⟨hp, hq, hne, wf, _, v, hv, ty, hk, hr, hs, hnx, hb⟩ := hl
  have hvt := view_type hv
  rcases ty with ty | ty | ty <;> rw [ty] at hvt
  · have hchi := meldType_chi hvt.1
    have hnx := hnx ty
    have hsrc : from_who c = 3 := by rw [← hvt.2]; omega
    obtain ⟨color, n, w, r, hc3, hn7, hw3, hr', hcl, hview⟩ := chi_form c wf hchi hsrc
    rw [hv] at hview
    cases hview
    have hk' : 9 * color + n + w = t := by simpa [chiView] using hk
    omega
  · obtain ⟨hc, hpon⟩ := meldType_pon hvt.1
    have hvp := view_pon' c hc hpon wf
    rw [hv] at hvp
    have hvp := Option.some.inj hvp
    have hkind : c / 512 / 3 = t := by rw [hvp] at hk; simpa using hk
    have w := wf_pon c hc hpon wf
    omega
  · obtain ⟨hc, hpon, hkk, hmk⟩ := meldType_minkan hvt.1
    have hvp := view_minkan c hc hpon hkk hmk
    have w := wf_minkan c hc hpon hkk hmk wf
    rw [minkan_kind c w.1, hv] at hvp
    have hvp := Option.some.inj hvp
    have hkind : c / 256 / 4 = t := by rw [hvp] at hk; simpa using hk
    omega

/-- C23, exactly: a legal logged call is found among the offers iff `FoundWhen`.  A chi is
missed in the middle-wait case with the red five held, and when it uses a black five while the
red five is held and fewer than two tiles of the discarded kind are; a pon is missed unless
exactly two tiles are held (three for fives with the red one kept back) and, without red five,
the called copy is the lowest of the three; a pon on a discarded red five and every open kan
are always missed. -/
theorem C23_recognised_partial (q p : Nat) (hands : Nat → Hand) (t : Nat) (red : Bool) (c : Nat) (v : MeldView)
    (h : LegalCall q p (hands p) t red c) (hv : view c = some v) :
    Recognised q hands t red p c ↔ FoundWhen (hands p) t v c := by
  have ht := legal_kind h
  have ty := h
  obtain ⟨_, _, _, _, _, v', hv', ty, _⟩ := ty
  rw [hv] at hv'
  cases hv'
  rcases ty with ty | ty | ty
  · exact found_chi q p hands t red c v h hv ty ht
  · exact found_pon q p hands t red c v h hv ty ht
  · have := found_minkan q p hands t red c v h hv ty ht
    unfold FoundWhen
    rw [ty]
    simp [this]

/-- C23, open kans: no legal open kan is ever recognised. -/
theorem C23_open_kan_never (q p : Nat) (hands : Nat → Hand) (t : Nat) (red : Bool) (c : Nat) (v : MeldView)
    (h : LegalCall q p (hands p) t red c) (hv : view c = some v) (ty : v.type = .minkan) :
    ¬ Recognised q hands t red p c :=
  found_minkan q p hands t red c v h hv ty (legal_kind h)

/-- the legal open kan used as a witness: three east held by seat 1, east discarded by seat 0 -/
theorem threeEast_legal : LegalCall 0 1 (threeEast 1) 27 false 0x6C03 := by
  refine ⟨by omega, by omega, by omega, by decide +kernel, threeEast_ok 1, minkanView 27 3 0, by decide +kernel,
    by simp [minkanView], rfl, by decide, by decide, by simp [minkanView], ?_, ?_⟩
  · intro k hk
    have : k = 27 := by simpa [minkanView] using hk
    subst this; decide
  · intro s hs hm
    have : 9 * s + 4 = 27 := by simpa [minkanView] using hm
    omega

/-- C23 fails. -/
theorem C23_recognised_violated :
    ¬ ∀ (q p : Nat) (hands : Nat → Hand) (t : Nat) (red : Bool) (c : Nat),
      LegalCall q p (hands p) t red c → Recognised q hands t red p c := by
  intro h
  exact C23_open_kan_never 0 1 threeEast 27 false 0x6C03 (minkanView 27 3 0) threeEast_legal (by decide +kernel) rfl
    (h 0 1 threeEast 27 false 0x6C03 threeEast_legal)

/-- seat 1 holds 1m 2m; a legal chi on 3m that is recognised -/
def oneTwo : Nat → Hand := fun p i => if p = 1 ∧ i < 2 then 1 else 0

theorem oneTwo_legal : LegalCall 0 1 (oneTwo 1) 2 false (chiInfo 0 0 2 false) := by
  have vi := view_chiInfo 0 0 2 false (by omega) (by omega) (by omega) (by simp)
  refine ⟨by omega, by omega, by omega, vi.2.1, ?_, chiView 0 0 2 false, vi.1, .inl rfl, rfl, rfl, by decide,
    fun _ => by decide, ?_, ?_⟩
  · refine ⟨fun k => ?_, fun s hs => ?_⟩
    · unfold oneTwo; split <;> omega
    · have : s = 0 ∨ s = 1 ∨ s = 2 := by omega
      rcases this with rfl | rfl | rfl <;> decide
  · intro k hk
    have : k = 0 ∨ k = 1 := by simpa [chiView] using hk
    rcases this with rfl | rfl <;> decide
  · intro s hs hm
    have : 9 * s + 4 = 0 ∨ 9 * s + 4 = 1 := by simpa [chiView] using hm
    omega

example : Recognised 0 oneTwo 2 false 1 (chiInfo 0 0 2 false) :=
  (C23_recognised_partial 0 1 oneTwo 2 false _ _ oneTwo_legal
    (view_chiInfo 0 0 2 false (by omega) (by omega) (by omega) (by simp)).1).2
    ⟨by simp [chiView], by simp [chiView]⟩

end MJ
