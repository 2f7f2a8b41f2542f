import Verif.Proofs.InfoViews
/-!
Offers of `decision_mask` in terms of what they look like.
-/
namespace MJ
open Code Spec

/-- On `q`'s discard of kind `t` player `p` is offered a call that looks like `v`. -/
def Offers (q : Nat) (hands : Nat → Hand) (t : Nat) (red : Bool) (p : Nat) (v : MeldView) : Prop :=
  ∃ ds l d, decisionMask q hands t red = .ok ds ∧ ds[p]? = some l ∧ d ∈ l ∧ view d.naki.naki_code = some v

/-- One of the calls offered to `p` has the canonical code of the logged call `c`. -/
def Recognised (q : Nat) (hands : Nat → Hand) (t : Nat) (red : Bool) (p c : Nat) : Prop :=
  ∃ ds l d, decisionMask q hands t red = .ok ds ∧ ds[p]? = some l ∧ d ∈ l ∧
    clean c = .ok d.naki.convenient_naki_code

theorem offers_iff (q : Nat) (hands : Nat → Hand) (t : Nat) (red : Bool) (p : Nat) (v : MeldView)
    (hq : q < 4) (hp : p < 4) (ht : t < 34) :
    Offers q hands t red p v ↔ p ≠ q ∧ ∃ c, Offered q p (hands p) t red c ∧ view c = some v := by
  obtain ⟨ds, e, _, h⟩ := decisionMask_spec q hands t red ht hq
  obtain ⟨l, hl, hm⟩ := h p hp
  constructor
  · rintro ⟨ds', l', d, e', hl', hd, hv⟩
    rw [e] at e'
    cases e'
    rw [hl] at hl'
    cases hl'
    obtain ⟨hne, c, ho, rfl⟩ := (hm d).1 hd
    exact ⟨hne, c, ho, hv⟩
  · rintro ⟨hne, c, ho, hv⟩
    exact ⟨ds, l, _, e, hl, (hm _).2 ⟨hne, c, ho, rfl⟩, hv⟩

theorem recognised_iff (q : Nat) (hands : Nat → Hand) (t : Nat) (red : Bool) (p c : Nat)
    (hq : q < 4) (hp : p < 4) (ht : t < 34) :
    Recognised q hands t red p c ↔ p ≠ q ∧ ∃ d, Offered q p (hands p) t red d ∧ clean c = .ok d := by
  obtain ⟨ds, e, _, h⟩ := decisionMask_spec q hands t red ht hq
  obtain ⟨l, hl, hm⟩ := h p hp
  constructor
  · rintro ⟨ds', l', d, e', hl', hd, hv⟩
    rw [e] at e'
    cases e'
    rw [hl] at hl'
    cases hl'
    obtain ⟨hne, c, ho, rfl⟩ := (hm d).1 hd
    exact ⟨hne, c, ho, hv⟩
  · rintro ⟨hne, c, ho, hv⟩
    exact ⟨ds, l, _, e, hl, (hm _).2 ⟨hne, c, ho, rfl⟩, hv⟩

theorem source_eq (q p : Nat) : ((source q p : Nat) : Int) = ((q : Int) - p) % 4 := by
  unfold source; omega

theorem isNext_iff (q p : Nat) : isNext q p = true ↔ ((p : Int) - q) % 4 = 1 := by
  unfold isNext; simp

theorem chiOffer_bounds {h : Hand} {t : Nat} {red : Bool} {n w : Nat} {r : Bool} (hc : ChiOffer h t red n w r) :
    n < 7 ∧ w < 3 ∧ (r = true → 2 ≤ n ∧ n ≤ 4) ∧ t < 27 := by
  obtain ⟨h1, h2, h3, h4, h5, h6, h7⟩ := hc
  refine ⟨h2, ?_, ?_, h1⟩
  · rw [h7]; split
    · omega
    · split <;> omega
  · intro hr
    split at h6
    · omega
    · split at h6
      · omega
      · rw [hr] at h6; exact absurd h6 (by simp)

theorem ponOffer_bounds {h : Hand} {t : Nat} {red : Bool} {w : Nat} {r : Bool} (hc : PonOffer h t red w r) :
    w < 2 ∧ (r = true → t < 27 ∧ t % 9 = 4) := by
  have hb := Bool.toNat_le red
  unfold PonOffer at hc
  split at hc
  · split at hc
    · rcases hc with h | h
      · exact ⟨by omega, fun _ => by assumption⟩
      · exact ⟨by omega, fun _ => by assumption⟩
    · exact ⟨by omega, fun _ => by assumption⟩
  · exact ⟨by omega, fun hr => by rw [hr] at hc; simp at hc⟩

theorem kanOffer_bounds {h : Hand} {t : Nat} {red : Bool} {w : Nat} (hc : KanOffer h t red w) : w < 2 := by
  have hb := Bool.toNat_le red
  have := hc.2
  split at this <;> omega

/-- The offers, by look. -/
theorem offers_cases (q : Nat) (hands : Nat → Hand) (t : Nat) (red : Bool) (p : Nat) (v : MeldView)
    (hq : q < 4) (hp : p < 4) (ht : t < 34) :
    Offers q hands t red p v ↔ p ≠ q ∧
      ((isNext q p = true ∧ ∃ n w r, ChiOffer (hands p) t red n w r ∧ v = chiView (t / 9) n w r) ∨
       (∃ w r, PonOffer (hands p) t red w r ∧ v = ponView t w r (source q p)) ∨
       (∃ w, KanOffer (hands p) t red w ∧ v = minkanView t (source q p) w)) := by
  rw [offers_iff q hands t red p v hq hp ht]
  constructor
  · rintro ⟨hne, c, ho, hv⟩
    refine ⟨hne, ?_⟩
    obtain ⟨_, h⟩ := offered_view q p (hands p) t red c ht hp hq hne ho
    rcases h with ⟨hx, n, w, r, hc, _, _, _, _, e⟩ | ⟨w, r, hc, _, _, _, e⟩ | ⟨w, hc, _, _, e⟩ <;>
      rw [e] at hv <;> cases hv
    · exact .inl ⟨hx, n, w, r, hc, rfl⟩
    · exact .inr (.inl ⟨w, r, hc, rfl⟩)
    · exact .inr (.inr ⟨w, hc, rfl⟩)
  · rintro ⟨hne, h⟩
    refine ⟨hne, ?_⟩
    have hs := source_ne q p hp hq hne
    rcases h with ⟨hx, n, w, r, hc, rfl⟩ | ⟨w, r, hc, rfl⟩ | ⟨w, hc, rfl⟩
    · have b := chiOffer_bounds hc
      exact ⟨_, .inl ⟨hx, n, w, r, hc, rfl⟩, (view_chiInfo (t / 9) n w r (by omega) b.1 b.2.1 b.2.2.1).1⟩
    · have b := ponOffer_bounds hc
      exact ⟨_, .inr (.inl ⟨w, r, hc, rfl⟩), (view_ponInfo t w r _ ht b.1 b.2 hs.2).1⟩
    · have b := kanOffer_bounds hc
      exact ⟨_, .inr (.inr ⟨w, hc, rfl⟩), (view_minkanInfo t _ w ht b hs.2 (by omega)).1⟩

end MJ
