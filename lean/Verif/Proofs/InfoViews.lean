import Verif.Proofs.DecisionMask
import Verif.Spec.Calls
/-!
Views of the codes built by `decision_mask`.
-/
namespace MJ
open Code Spec

set_option synthInstance.maxSize 2000
set_option synthInstance.maxHeartbeats 200000

def chiView (color number which : Nat) (r : Bool) : MeldView :=
  { type := .chi, source := 3
    handKinds := [9 * color + number, 9 * color + number + 1, 9 * color + number + 2].eraseIdx which
    calledKind := some (9 * color + number + which)
    handRed := r && number + which != 4, calledRed := r && number + which == 4 }

def ponView (t which : Nat) (r : Bool) (src : Nat) : MeldView :=
  { type := .pon, source := src, handKinds := [t, t], calledKind := some t
    handRed := r && which == 1, calledRed := r && which == 0 }

def minkanView (t src which : Nat) : MeldView :=
  { type := .minkan, source := src, handKinds := [t, t, t], calledKind := some t
    handRed := decide (t < 27 ∧ t % 9 = 4) && which != 0, calledRed := decide (t < 27 ∧ t % 9 = 4) && which == 0 }

theorem view_chiInfo (color number which : Nat) (r : Bool) (hc : color < 3) (hn : number < 7) (hw : which < 3)
    (hr : r = true → 2 ≤ number ∧ number ≤ 4) :
    view (chiInfo color number which r) = some (chiView color number which r) ∧
    WellFormed (chiInfo color number which r) ∧ clean (chiInfo color number which r) = .ok (chiInfo color number which r) := by
  have key : ∀ color < 3, ∀ number < 7, ∀ which < 3, ∀ r : Bool, (r = true → 2 ≤ number ∧ number ≤ 4) →
      view (chiInfo color number which r) = some (chiView color number which r) ∧
      WellFormed (chiInfo color number which r) ∧
      clean (chiInfo color number which r) = .ok (chiInfo color number which r) := by decide +kernel
  exact key color hc number hn which hw r hr

theorem view_ponInfo (t which : Nat) (r : Bool) (src : Nat) (ht : t < 34) (hw : which < 2)
    (hr : r = true → t < 27 ∧ t % 9 = 4) (hs : src < 4) :
    view (ponInfo t which r src) = some (ponView t which r src) ∧
    WellFormed (ponInfo t which r src) ∧ clean (ponInfo t which r src) = .ok (ponInfo t which r src) := by
  have key : ∀ t < 34, ∀ which < 2, ∀ r : Bool, (r = true → t < 27 ∧ t % 9 = 4) → ∀ src < 4,
      view (ponInfo t which r src) = some (ponView t which r src) ∧
      WellFormed (ponInfo t which r src) ∧ clean (ponInfo t which r src) = .ok (ponInfo t which r src) := by
    decide +kernel
  exact key t ht which hw r hr src hs

theorem view_minkanInfo (t src which : Nat) (ht : t < 34) (hw : which < 2) (hs : src < 4) (hs0 : src ≠ 0) :
    view (minkanInfo t src which) = some (minkanView t src which) ∧ WellFormed (minkanInfo t src which) := by
  have key : ∀ t < 34, ∀ src < 4, ∀ which < 2, src ≠ 0 →
      view (minkanInfo t src which) = some (minkanView t src which) ∧ WellFormed (minkanInfo t src which) := by
    decide +kernel
  exact key t ht src hs which hw hs0

/-- the offered codes, with their views -/
theorem offered_view (player p : Nat) (h : Hand) (t : Nat) (is_red : Bool) (c : Nat) (ht : t < 34) (hp : p < 4)
    (hpl : player < 4) (hne : p ≠ player) (ho : Offered player p h t is_red c) :
    WellFormed c ∧
    ((isNext player p = true ∧ ∃ n w r, ChiOffer h t is_red n w r ∧ n < 7 ∧ w < 3 ∧ (r = true → 2 ≤ n ∧ n ≤ 4) ∧ c = chiInfo (t / 9) n w r ∧
        view c = some (chiView (t / 9) n w r)) ∨
     (∃ w r, PonOffer h t is_red w r ∧ w < 2 ∧ (r = true → t < 27 ∧ t % 9 = 4) ∧ c = ponInfo t w r (source player p) ∧
        view c = some (ponView t w r (source player p))) ∨
     (∃ w, KanOffer h t is_red w ∧ w < 2 ∧ c = minkanInfo t (source player p) w ∧
        view c = some (minkanView t (source player p) w))) := by
  have hs := source_ne player p hp hpl hne
  have hb := Bool.toNat_le is_red
  rcases ho with ⟨hx, n, w, r, hc, rfl⟩ | ⟨w, r, hc, rfl⟩ | ⟨w, hc, rfl⟩
  · obtain ⟨h1, h2, h3, h4, h5, h6, h7⟩ := hc
    have hw : w < 3 := by
      rw [h7]; split
      · omega
      · split <;> omega
    have hr : r = true → 2 ≤ n ∧ n ≤ 4 := by
      intro hr
      split at h6
      · omega
      · split at h6
        · omega
        · rw [hr] at h6; exact absurd h6 (by simp)
    have := view_chiInfo (t / 9) n w r (by omega) h2 hw hr
    exact ⟨this.2.1, .inl ⟨hx, n, w, r, ⟨h1, h2, h3, h4, h5, h6, h7⟩, h2, hw, hr, rfl, this.1⟩⟩
  · have hw : w < 2 ∧ (r = true → t < 27 ∧ t % 9 = 4) := by
      unfold PonOffer at hc
      split at hc
      · split at hc
        · rcases hc with h | h
          · exact ⟨by omega, fun _ => by assumption⟩
          · exact ⟨by omega, fun _ => by assumption⟩
        · exact ⟨by omega, fun _ => by assumption⟩
      · exact ⟨by omega, fun hr => by rw [hr] at hc; simp at hc⟩
    have := view_ponInfo t w r (source player p) ht hw.1 hw.2 hs.2
    exact ⟨this.2.1, .inr (.inl ⟨w, r, hc, hw.1, hw.2, rfl, this.1⟩)⟩
  · have hw : w < 2 := by
      have := hc.2
      split at this <;> omega
    have := view_minkanInfo t (source player p) w ht hw hs.2 (by omega)
    exact ⟨this.2, .inr (.inr ⟨w, hc, hw, rfl, this.1⟩)⟩

/-- canonical code and view of a logged chi from the previous player -/
theorem chi_form (c : Nat) (w : WellFormed c) (hc : is_chi c = true) (hs : from_who c = 3) :
    ∃ color number which r, color < 3 ∧ number < 7 ∧ which < 3 ∧ (r = true → 2 ≤ number ∧ number ≤ 4) ∧
      clean c = .ok (chiInfo color number which r) ∧ view c = some (chiView color number which r) := by
  have wf := wf_chi c hc w
  have hn : (pattern_chi c).number < 7 := by rw [pattern_chi_number]; omega
  have hk : (pattern_chi c).color < 3 := by rw [pattern_chi_color]; omega
  have hw : (pattern_chi c).which < 3 := by rw [pattern_chi_which]; omega
  have hr : (pattern_chi c).has_red = true → 2 ≤ (pattern_chi c).number ∧ (pattern_chi c).number ≤ 4 := by
    intro h; rw [pattern_chi_red] at h; omega
  refine ⟨_, _, _, _, hk, hn, hw, hr, ?_⟩
  have v := view_chiInfo _ _ _ _ hk hn hw hr
  obtain ⟨n, hn', h⟩ := C01_chi_roundtrip _ _ _ _ hk hn hw hr
  have h2 : n = Naki.raw (chiInfo (pattern_chi c).color (pattern_chi c).number (pattern_chi c).which (pattern_chi c).has_red) := by
    unfold Naki.from_chi_info at hn'
    split at hn'
    · simp at hn'
    · simpa using hn'.symm
  subst h2
  simp only [Naki.raw] at h
  generalize hd : chiInfo (pattern_chi c).color (pattern_chi c).number (pattern_chi c).which (pattern_chi c).has_red = d at *
  have hdc : is_chi d = true := by simpa using h.2.2.2.2.2.1.1
  have wfd := wf_chi d hdc v.2.1
  have e : clean_chi c = clean_chi d := by
    rw [clean_chi_eq_iff c d wf.2.1 wfd.2.1]
    rw [from_who_eq] at hs
    have h5 := h.2.2.2.2.1
    rw [from_who_eq] at h5
    rw [is_chi_iff] at hc hdc
    have h1 := h.1
    have h2 := h.2.1
    have h3 := h.2.2.1
    rw [pattern_chi_color, pattern_chi_color] at h1
    rw [pattern_chi_number, pattern_chi_number] at h2
    rw [pattern_chi_which, pattern_chi_which] at h3
    have e1 : c / 1024 % 64 = c / 1024 := by omega
    have e2 : d / 1024 % 64 = d / 1024 := by omega
    rw [e1, e2] at h1 h2 h3
    exact ⟨by omega, by omega, h.2.2.2.1.symm⟩
  have hcc : clean c = .ok (clean_chi c) := by simp [clean, hc]
  have hcd : clean d = .ok (clean_chi d) := by simp [clean, hdc]
  refine ⟨?_, ?_⟩
  · rw [hcc, e, ← hcd, v.2.2]
  · rw [← v.1]
    exact (chi_view_iff c d hc hdc w v.2.1).1 e

end MJ
