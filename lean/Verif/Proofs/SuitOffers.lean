import Verif.Proofs.SuitCodes
import Verif.Proofs.Seats
/-!
Exchanging the suits: offers and questions to the evaluators.
-/
namespace MJ
open Code Spec Spec.Suits

/-! ### offered melds -/

set_option synthInstance.maxHeartbeats 400000 in
set_option synthInstance.maxSize 2000 in
theorem chiInfo_parts (red : Bool) : ∀ col < 3, ∀ n < 7, ∀ w < 3, red = false ∨ (2 ≤ n ∧ n ≤ 4) →
    is_chi (chiInfo col n w red) = true ∧ chiInfo col n w red % 1024 = chiInfo 0 n 0 red % 1024 ∧
    chiInfo col n w red / 1024 = 21 * col + 3 * n + w := by
  cases red <;> decide +kernel

theorem ponInfo_parts (red : Bool) : ∀ t < 34, ∀ w < 2, ∀ src < 4, is_chi (ponInfo t w red src) = false ∧
    is_pon (ponInfo t w red src) = true ∧ ponInfo t w red src % 512 = ponInfo 0 0 red src % 512 ∧
    ponInfo t w red src / 512 = 3 * t + w := by
  cases red <;> decide +kernel

set_option synthInstance.maxHeartbeats 400000 in
set_option synthInstance.maxSize 2000 in
theorem minkanInfo_parts : ∀ t < 34, ∀ w < 2, ∀ src < 4, src ≠ 0 → is_chi (minkanInfo t src w) = false ∧
    is_pon (minkanInfo t src w) = false ∧ is_kakan (minkanInfo t src w) = false ∧ is_minkan (minkanInfo t src w) = true ∧
    minkanInfo t src w % 256 = src ∧ minkanInfo t src w / 256 = 4 * t + w := by
  decide +kernel

theorem ankanInfo_parts : ∀ t < 37, is_chi (ankanInfo t) = false ∧ is_pon (ankanInfo t) = false ∧
    is_kakan (ankanInfo t) = false ∧ is_ankan (ankanInfo t) = true ∧ ankanInfo t % 256 = 0 ∧ ankanInfo t / 256 = 4 * t := by
  decide +kernel

theorem chiInfo_suits {σ : Suits} (hσ : σ.Proper) {col n w : Nat} (hc : col < 3) (hn : n < 7) (hw : w < 3) (red : Bool)
    (hr : red = false ∨ (2 ≤ n ∧ n ≤ 4)) : σ.code (chiInfo col n w red) = chiInfo (σ.on col) n w red := by
  obtain ⟨a1, a2, a3⟩ := chiInfo_parts red col hc n hn w hw hr
  obtain ⟨_, b2, b3⟩ := chiInfo_parts red _ (on_lt hσ hc) n hn w hw hr
  rw [code_chi σ a1, a2, a3, show (21 * col + 3 * n + w) / 21 = col by omega]
  generalize chiInfo (σ.on col) n w red = y at *
  generalize σ.on col = z at *
  omega

theorem ponInfo_suits {σ : Suits} (hσ : σ.Proper) {t w src : Nat} (ht : t < 34) (hw : w < 2) (hs : src < 4) (red : Bool) :
    σ.code (ponInfo t w red src) = ponInfo (σ.slot t) w red src := by
  obtain ⟨a0, a1, a2, a3⟩ := ponInfo_parts red t ht w hw src hs
  obtain ⟨_, _, b2, b3⟩ := ponInfo_parts red _ ((slot_lt34 hσ).2 ht) w hw src hs
  rw [code_pon σ a0 a1, a2, a3, show (3 * t + w) / 3 = t by omega]
  generalize ponInfo (σ.slot t) w red src = y at *
  generalize σ.slot t = z at *
  omega

theorem minkanInfo_suits {σ : Suits} (hσ : σ.Proper) {t w src : Nat} (ht : t < 34) (hw : w < 2) (hs : src < 4) (h0 : src ≠ 0) :
    σ.code (minkanInfo t src w) = minkanInfo (σ.slot t) src w := by
  obtain ⟨a0, a1, a2, a3, a4, a5⟩ := minkanInfo_parts t ht w hw src hs h0
  obtain ⟨_, _, _, _, b4, b5⟩ := minkanInfo_parts _ ((slot_lt34 hσ).2 ht) w hw src hs h0
  rw [code_kan σ a0 a1 a2 (.inl a3), a4, a5, show (4 * t + w) / 4 = t by omega]
  generalize minkanInfo (σ.slot t) src w = y at *
  generalize σ.slot t = z at *
  omega

theorem ankanInfo_suits {σ : Suits} (hσ : σ.Proper) {k : Nat} (hk : k < 37) :
    σ.code (ankanInfo k) = ankanInfo (σ.slot k) := by
  obtain ⟨a0, a1, a2, a3, a4, a5⟩ := ankanInfo_parts k hk
  obtain ⟨_, _, _, _, b4, b5⟩ := ankanInfo_parts _ ((slot_lt37 hσ).2 hk)
  rw [code_kan σ a0 a1 a2 (.inr a3), a4, a5, show (4 * k) / 4 = k by omega]
  generalize ankanInfo (σ.slot k) = y at *
  generalize σ.slot k = z at *
  omega

theorem kakanInfo_parts : ∀ t < 34, is_chi (kakanInfo t 0) = false ∧ is_pon (kakanInfo t 0) = false ∧
    is_kakan (kakanInfo t 0) = true ∧ kakanInfo t 0 % 512 = (if t / 9 < 3 ∧ t % 9 = 4 then 16 else 48) ∧
    kakanInfo t 0 / 512 = 3 * t := by
  decide +kernel

theorem kakanInfo_suits {σ : Suits} (hσ : σ.Proper) {k : Nat} (hk : k < 34) :
    σ.code (kakanInfo k 0) = kakanInfo (σ.slot k) 0 := by
  obtain ⟨a0, a1, a2, a3, a4⟩ := kakanInfo_parts k hk
  obtain ⟨_, _, _, b3, b4⟩ := kakanInfo_parts _ ((slot_lt34 hσ).2 hk)
  rw [slot_color hσ hk] at b3
  simp only [five_suits hσ hk] at b3
  rw [code_kakan σ a0 a1 a2, a3, a4, show (3 * k) / 3 = k by omega, ← b3]
  generalize kakanInfo (σ.slot k) 0 = y at *
  generalize σ.slot k = z at *
  omega

/-- the result with the suits of all decisions exchanged -/
def suitsE (σ : Suits) : Except PyErr (List NakiDecision) → Except PyErr (List NakiDecision)
  | .ok l => .ok (l.map σ.call)
  | .error e => .error e

@[inherit_doc suitsE]
def nakiE (σ : Suits) : Except PyErr Naki → Except PyErr Naki
  | .ok n => .ok (σ.naki n)
  | .error e => .error e

theorem raw_suits (σ : Suits) (c : Nat) : σ.naki (Naki.raw c) = Naki.raw (σ.code c) := rfl

theorem fromChi_suits {σ : Suits} (hσ : σ.Proper) {col n w : Nat} (hc : col < 3) (hn : n < 7) (hw : w < 3) (red : Bool)
    (hr : red = false ∨ (2 ≤ n ∧ n ≤ 4)) :
    Naki.from_chi_info (σ.on col) n w red = nakiE σ (Naki.from_chi_info col n w red) := by
  unfold Naki.from_chi_info
  split
  · rfl
  · simp only [nakiE, raw_suits, chiInfo_suits hσ hc hn hw red hr]

theorem fromPon_suits {σ : Suits} (hσ : σ.Proper) {t w src : Nat} (ht : t < 34) (hs : src < 4) (red : Bool) :
    Naki.from_pon_info (σ.slot t) w red src = nakiE σ (Naki.from_pon_info t w red src) := by
  unfold Naki.from_pon_info
  split
  · simp only [nakiE, raw_suits, ponInfo_suits hσ ht (by omega : w < 2) hs]
  · rfl

theorem fromMinkan_suits {σ : Suits} (hσ : σ.Proper) {t w src : Nat} (ht : t < 34) (hs : src < 4) (h0 : src ≠ 0) :
    Naki.from_minkan_info (σ.slot t) src w = nakiE σ (Naki.from_minkan_info t src w) := by
  unfold Naki.from_minkan_info
  split
  · simp only [nakiE, raw_suits, minkanInfo_suits hσ ht (by omega : w < 2) hs h0]
  · rfl

theorem offer_suits {σ : Suits} (p : Nat) (b : Bool) (mk : Except PyErr Naki) {chk : Nat → Bool}
    (hc : ∀ c, chk (σ.code c) = chk c) : offer p b (nakiE σ mk) chk = suitsE σ (offer p b mk chk) := by
  unfold offer
  cases b
  · rfl
  · cases mk with
    | error e => rfl
    | ok n =>
      simp only [if_true, nakiE, naki, hc]
      split <;> rfl

theorem whenE_suits (σ : Suits) (b : Bool) (x : Except PyErr (List NakiDecision)) : whenE b (suitsE σ x) = suitsE σ (whenE b x) := by
  cases b <;> rfl

theorem append_suits (σ : Suits) (x y : Except PyErr (List NakiDecision)) :
    (do let a ← suitsE σ x; let b ← suitsE σ y; return a ++ b) = suitsE σ (do let a ← x; let b ← y; return a ++ b) := by
  cases x <;> cases y <;> simp [suitsE, bind, Except.bind, pure, Except.pure]

theorem append3_suits (σ : Suits) (x y z : Except PyErr (List NakiDecision)) :
    (do let a ← suitsE σ x; let b ← suitsE σ y; let c ← suitsE σ z; return a ++ b ++ c) =
      suitsE σ (do let a ← x; let b ← y; let c ← z; return a ++ b ++ c) := by
  cases x <;> cases y <;> cases z <;> simp [suitsE, bind, Except.bind, pure, Except.pure]

theorem source_pos {q p : Nat} (hq : q < 4) (hp : p < 4) (h : p ≠ q) : source q p < 4 ∧ source q p ≠ 0 := by
  unfold source; omega

theorem chi_offer {σ : Suits} (hσ : σ.Proper) (p : Nat) (b : Bool) {col n w : Nat} (hc : col < 3) (hn : n < 7) (hw : w < 3)
    {red : Bool} (hr : red = false ∨ (2 ≤ n ∧ n ≤ 4)) :
     offer p b (Naki.from_chi_info (σ.on col) n w red) is_chi = suitsE σ (offer p b (Naki.from_chi_info col n w red) is_chi) := by
  rw [fromChi_suits hσ hc hn hw red hr, offer_suits _ _ _ (code_is_chi σ)]

theorem chi_offer' {σ : Suits} (hσ : σ.Proper) (p : Nat) (b : Bool) {col n w : Nat} (hc : col < 3) (hn : n < 7) (hw : w < 3)
    {red : Bool} (hr : red = false ∨ (2 ≤ n ∧ n ≤ 4)) :
     offer p b (Naki.from_chi_info (σ.on col) n w red) (fun _ => true) =
      suitsE σ (offer p b (Naki.from_chi_info col n w red) (fun _ => true)) := by
  rw [fromChi_suits hσ hc hn hw red hr, offer_suits _ _ _ (fun _ => rfl)]

theorem pon_offer {σ : Suits} (hσ : σ.Proper) (p : Nat) (b : Bool) {t w src : Nat} (ht : t < 34) (hs : src < 4)
    (red : Bool) : offer p b (Naki.from_pon_info (σ.slot t) w red src) is_pon = suitsE σ (offer p b (Naki.from_pon_info t w red src) is_pon) := by
  rw [fromPon_suits hσ ht hs, offer_suits _ _ _ (code_is_pon σ)]

theorem minkan_offer {σ : Suits} (hσ : σ.Proper) (p : Nat) (b : Bool) {t w src : Nat} (ht : t < 34) (hs : src < 4) (h0 : src ≠ 0) :
    offer p b (Naki.from_minkan_info (σ.slot t) src w) is_minkan = suitsE σ (offer p b (Naki.from_minkan_info t src w) is_minkan) := by
  rw [fromMinkan_suits hσ ht hs h0, offer_suits _ _ _ (code_is_minkan σ)]

theorem ponKan_suits {σ : Suits} (hσ : σ.Proper) {q p : Nat} (hq : q < 4) (hp : p < 4) (hn : p ≠ q) {h h' : Hand}
    (hh : SlotsMoved σ h h') {t : Nat} (ht : t < 34) : ponKan q p h' (σ.slot t) = suitsE σ (ponKan q p h t) := by
  obtain ⟨s1, s2⟩ := source_pos hq hp hn
  unfold ponKan
  rw [hh t, pon_offer hσ _ _ ht s1, minkan_offer hσ _ _ ht s1 s2, append_suits]

theorem hasRed_suits {σ : Suits} (hσ : σ.Proper) {h h' : Hand} (hh : SlotsMoved σ h h') {t : Nat} (ht : t < 34) : hasRed h' (σ.slot t) = hasRed h t := by
  unfold hasRed
  rw [slot_color hσ ht, ← slot_red, hh]

theorem blackFives_suits {σ : Suits} (hσ : σ.Proper) {h h' : Hand} (hh : SlotsMoved σ h h') {t : Nat} (ht : t < 34) :
    blackFives h' (σ.slot t) = blackFives h t := by
  unfold blackFives
  rw [hasRed_suits hσ hh ht, hh]

theorem fiveRun_suits {σ : Suits} (hσ : σ.Proper) (p : Nat) {h h' : Hand} (hh : SlotsMoved σ h h') {t : Nat} (ht : t < 27)
    {a b c : Nat} (ha : 2 ≤ a ∧ a ≤ 4) (hb : b < 3) (hc : c < 3) : fiveRun p h' (σ.slot t) a b c = suitsE σ (fiveRun p h t a b c) := by
  unfold fiveRun
  rw [hasRed_suits hσ hh (by omega), blackFives_suits hσ hh (by omega), slot_color hσ (by omega), chi_offer hσ _ _ (by omega) (by omega) hb (.inr ha),
    chi_offer hσ _ _ (by omega) (by omega) hb (.inl rfl), chi_offer hσ _ _ (by omega) (by omega) hc (.inl rfl)]
  split
  · rw [append_suits]
  · rfl

theorem fivePon_suits {σ : Suits} (hσ : σ.Proper) (p : Nat) {h h' : Hand} (hh : SlotsMoved σ h h') {t : Nat} (ht : t < 34)
    (red : Bool) {src : Nat} (hs : src < 4) : fivePon p h' (σ.slot t) red src = suitsE σ (fivePon p h t red src) := by
  unfold fivePon
  rw [hasRed_suits hσ hh ht, blackFives_suits hσ hh ht, hh t, pon_offer hσ _ _ ht hs, pon_offer hσ _ _ ht hs, pon_offer hσ _ _ ht hs]
  split
  · rw [append_suits]
  · rfl

theorem near_suits {σ : Suits} {h h' : Hand} (hh : SlotsMoved σ h h') {t : Nat} (ht : t < 27) (d : Int)
    (h1 : 0 ≤ (t % 9 : Nat) + d) (h2 : (t % 9 : Nat) + d ≤ 8) : h' ((σ.slot t : Int) + d).toNat = h ((t : Int) + d).toNat := by
  obtain ⟨j, hj⟩ : ∃ j : Nat, (j : Int) = (t % 9 : Nat) + d := ⟨((t % 9 : Nat) + d).toNat, by omega⟩
  have hjl : j < 9 := by omega
  have e1 : ((t : Int) + d).toNat = 9 * (t / 9) + j := by omega
  have e2 : ((σ.slot t : Int) + d).toNat = 9 * σ.on (t / 9) + j := by
    have : σ.slot t = 9 * σ.on (t / 9) + t % 9 := by unfold Suits.slot; rw [if_pos ht]
    omega
  rw [e1, e2, ← slot_suit (by omega) hjl, hh]

theorem slot_suits {σ : Suits} {h h' : Hand} (hh : SlotsMoved σ h h') {t : Nat} (ht : t < 27) {x y : Int} (d : Int)
    (hx : x = (σ.slot t : Int) + d) (hy : y = (t : Int) + d)
    (h1 : 0 ≤ (t % 9 : Nat) + d) (h2 : (t % 9 : Nat) + d ≤ 8) : MJ.slot h' x = MJ.slot h y := by
  subst hx; subst hy
  exact near_suits hh ht d h1 h2

theorem maskFor_suits {σ : Suits} (hσ : σ.Proper) {q p : Nat} (hq : q < 4) (hp : p < 4) {h h' : Hand}
    (hh : SlotsMoved σ h h') {t : Nat} (ht : t < 34) (red : Bool) :
    maskFor q p h' (σ.slot t) red = suitsE σ (maskFor q p h t red) := by
  unfold maskFor
  by_cases hn : p = q
  · rw [if_pos hn, if_pos hn]; rfl
  rw [if_neg hn, if_neg hn]
  obtain ⟨s1, s2⟩ := source_pos hq hp hn
  have h26 : σ.slot t > 26 ↔ t > 26 := by have := slot_lt27 hσ (k := t); omega
  by_cases h27 : t > 26
  · rw [if_pos h27, if_pos (h26.2 h27), ponKan_suits hσ hq hp hn hh ht]
  have ht27 : t < 27 := by omega
  have hcol : t / 9 < 3 := by omega
  rw [if_neg h27, if_neg (fun e => h27 (h26.1 e)), (slot_split ht27).1]
  have hpk := ponKan_suits hσ hq hp hn hh ht
  have hr := fun a b c ha hb hc => fiveRun_suits hσ p hh ht27 (a := a) (b := b) (c := c) ha hb hc
  have hfp := fivePon_suits hσ p hh ht red s1
  have near := fun {x y : Int} (d : Int) => slot_suits hh ht27 (x := x) (y := y) d
  have h9 : t % 9 = 0 ∨ t % 9 = 8 ∨ t % 9 = 1 ∨ t % 9 = 7 ∨ t % 9 = 2 ∨ t % 9 = 6 ∨ t % 9 = 3 ∨ t % 9 = 5 ∨ t % 9 = 4 := by omega
  rcases h9 with e | e | e | e | e | e | e | e | e
  · simp only [e, oneAndNine, true_or, if_true, beq_self_eq_true, slot_color hσ ht, hpk]
    rw [near 1 (by omega) (y := (t : Int) + 1) (by omega) (by omega) (by omega),
      near 2 (by omega) (y := (t : Int) + 1 * 2) (by omega) (by omega) (by omega),
      chi_offer hσ _ _ hcol (by omega) (by omega) (.inl rfl), append_suits]
  · simp only [e, oneAndNine, or_true, if_true, show ((8 : Nat) == 0) = false from rfl, Bool.false_eq_true, if_false, slot_color hσ ht, hpk]
    rw [near (-1) (by omega) (y := (t : Int) + -1) (by omega) (by omega) (by omega),
      near (-2) (by omega) (y := (t : Int) + -1 * 2) (by omega) (by omega) (by omega),
      chi_offer hσ _ _ hcol (by omega) (by omega) (.inl rfl), append_suits]
  · simp only [e, twoAndEight, show ¬((1 : Nat) = 0 ∨ 1 = 8) by omega, if_false, true_or, if_true, beq_self_eq_true, slot_color hσ ht, hpk]
    rw [near (-1) (by omega) (y := (t : Int) - 1) (by omega) (by omega) (by omega),
      near 1 (by omega) (y := (t : Int) + 1) (by omega) (by omega) (by omega),
      near 2 (by omega) (y := (t : Int) + 1 * 2) (by omega) (by omega) (by omega),
      chi_offer hσ _ _ hcol (by omega) (by omega) (.inl rfl), chi_offer hσ _ _ hcol (by omega) (by omega) (.inl rfl),
      append_suits, whenE_suits, append_suits]
  · simp only [e, twoAndEight, show ¬((7 : Nat) = 0 ∨ 7 = 8) by omega, if_false, or_true, if_true,
      show ((7 : Nat) == 1) = false from rfl, Bool.false_eq_true, slot_color hσ ht, hpk]
    rw [near (-1) (by omega) (y := (t : Int) - 1) (by omega) (by omega) (by omega),
      near 1 (by omega) (y := (t : Int) + 1) (by omega) (by omega) (by omega),
      near (-1) (by omega) (y := (t : Int) + -1) (by omega) (by omega) (by omega),
      near (-2) (by omega) (y := (t : Int) + -1 * 2) (by omega) (by omega) (by omega),
      chi_offer hσ _ _ hcol (by omega) (by omega) (.inl rfl), chi_offer hσ _ _ hcol (by omega) (by omega) (.inl rfl),
      append_suits, whenE_suits, append_suits]
  · simp only [e, threeAndSeven, show ¬((2 : Nat) = 0 ∨ 2 = 8) by omega, show ¬((2 : Nat) = 1 ∨ 2 = 7) by omega, if_false, true_or,
      if_true, beq_self_eq_true, slot_color hσ ht, hpk, hr 2 0 0 (by omega) (by omega) (by omega)]
    rw [near (-2) (by omega) (y := (t : Int) - 2 * 1) (by omega) (by omega) (by omega),
      near (-1) (by omega) (y := (t : Int) - 1) (by omega) (by omega) (by omega),
      near 1 (by omega) (y := (t : Int) + 1) (by omega) (by omega) (by omega),
      near 2 (by omega) (y := (t : Int) + 2 * 1) (by omega) (by omega) (by omega),
      chi_offer hσ _ _ hcol (by omega) (by omega) (.inl rfl), chi_offer' hσ _ _ hcol (by omega) (by omega) (.inl rfl),
      whenE_suits, append3_suits, whenE_suits, append_suits]
  · simp only [e, threeAndSeven, show ¬((6 : Nat) = 0 ∨ 6 = 8) by omega, show ¬((6 : Nat) = 1 ∨ 6 = 7) by omega, if_false, or_true,
      if_true, show ((6 : Nat) == 2) = false from rfl, Bool.false_eq_true, slot_color hσ ht, hpk, hr 4 2 2 (by omega) (by omega) (by omega)]
    rw [near 2 (by omega) (y := (t : Int) - 2 * -1) (by omega) (by omega) (by omega),
      near 1 (by omega) (y := (t : Int) - -1) (by omega) (by omega) (by omega),
      near (-1) (by omega) (y := (t : Int) - 1) (by omega) (by omega) (by omega),
      near 1 (by omega) (y := (t : Int) + 1) (by omega) (by omega) (by omega),
      near (-1) (by omega) (y := (t : Int) + -1) (by omega) (by omega) (by omega),
      near (-2) (by omega) (y := (t : Int) + 2 * -1) (by omega) (by omega) (by omega),
      chi_offer hσ _ _ hcol (by omega) (by omega) (.inl rfl), chi_offer' hσ _ _ hcol (by omega) (by omega) (.inl rfl),
      whenE_suits, append3_suits, whenE_suits, append_suits]
  · simp only [e, fourAndSix, show ¬((3 : Nat) = 0 ∨ 3 = 8) by omega, show ¬((3 : Nat) = 1 ∨ 3 = 7) by omega,
      show ¬((3 : Nat) = 2 ∨ 3 = 6) by omega, if_false, true_or,
      if_true, beq_self_eq_true, slot_color hσ ht, hpk, hr 2 0 1 (by omega) (by omega) (by omega), hr 3 0 0 (by omega) (by omega) (by omega)]
    rw [near (-2) (by omega) (y := (t : Int) - 2 * 1) (by omega) (by omega) (by omega),
      near (-1) (by omega) (y := (t : Int) - 1) (by omega) (by omega) (by omega),
      near 1 (by omega) (y := (t : Int) + 1) (by omega) (by omega) (by omega),
      near 2 (by omega) (y := (t : Int) + 2 * 1) (by omega) (by omega) (by omega),
      chi_offer hσ _ _ hcol (by omega) (by omega) (.inl rfl),
      whenE_suits, whenE_suits, append3_suits, whenE_suits, append_suits]
  · simp only [e, fourAndSix, show ¬((5 : Nat) = 0 ∨ 5 = 8) by omega, show ¬((5 : Nat) = 1 ∨ 5 = 7) by omega,
      show ¬((5 : Nat) = 2 ∨ 5 = 6) by omega, if_false, or_true,
      if_true, show ((5 : Nat) == 3) = false from rfl, Bool.false_eq_true, slot_color hσ ht, hpk,
      hr 4 2 1 (by omega) (by omega) (by omega), hr 3 2 2 (by omega) (by omega) (by omega)]
    rw [near 2 (by omega) (y := (t : Int) - 2 * -1) (by omega) (by omega) (by omega),
      near 1 (by omega) (y := (t : Int) - -1) (by omega) (by omega) (by omega),
      near (-1) (by omega) (y := (t : Int) - 1) (by omega) (by omega) (by omega),
      near 1 (by omega) (y := (t : Int) + 1) (by omega) (by omega) (by omega),
      near (-1) (by omega) (y := (t : Int) + -1) (by omega) (by omega) (by omega),
      near (-2) (by omega) (y := (t : Int) + 2 * -1) (by omega) (by omega) (by omega),
      chi_offer hσ _ _ hcol (by omega) (by omega) (.inl rfl),
      whenE_suits, whenE_suits, append3_suits, whenE_suits, append_suits]
  · simp only [e, five, show ¬((4 : Nat) = 0 ∨ 4 = 8) by omega, show ¬((4 : Nat) = 1 ∨ 4 = 7) by omega,
      show ¬((4 : Nat) = 2 ∨ 4 = 6) by omega, show ¬((4 : Nat) = 3 ∨ 4 = 5) by omega, if_false, slot_color hσ ht, hfp]
    rw [near (-2) (by omega) (y := (t : Int) - 2) (by omega) (by omega) (by omega),
      near (-1) (by omega) (y := (t : Int) - 1) (by omega) (by omega) (by omega),
      near 1 (by omega) (y := (t : Int) + 1) (by omega) (by omega) (by omega),
      near 2 (by omega) (y := (t : Int) + 2) (by omega) (by omega) (by omega), hh t,
      chi_offer hσ _ _ hcol (by omega) (by omega) (.inr (by omega)), chi_offer hσ _ _ hcol (by omega) (by omega) (.inr (by omega)),
      chi_offer hσ _ _ hcol (by omega) (by omega) (.inr (by omega)), minkan_offer hσ _ _ ht s1 s2,
      append3_suits, whenE_suits, append3_suits]

theorem decisionMask_suits {σ : Suits} (hσ : σ.Proper) {q : Nat} (hq : q < 4) {h h' : Nat → Hand}
    (hm : ∀ p, SlotsMoved σ (h p) (h' p)) {t : Nat} (ht : t < 34) {red : Bool} {o o' : List (List NakiDecision)}
    (e : decisionMask q h t red = .ok o) (e' : decisionMask q h' (σ.slot t) red = .ok o') (p : Nat) (hp : p < 4) :
    callsOf o' p = (callsOf o p).map σ.call := by
  have h1 := decisionMask_seat e p hp
  have h2 := decisionMask_seat e' p hp
  rw [maskFor_suits hσ hq hp (hm p) ht, h1] at h2
  simpa [suitsE] using h2.symm

/-! ### questions to the evaluators -/

/-- the arguments of `Meld` with the suits exchanged -/
def Spec.Suits.meld (σ : Suits) (m : MeldArg) : MeldArg := { m with tiles := m.tiles.map σ.tile }

theorem pon_kind_suits {c : Nat} (h0 : is_chi c = false) (h : is_pon c = true) (w : WellFormed c) :
    (pattern_pon c).color * 9 + (pattern_pon c).number < 34 := by
  obtain ⟨_, _, _, hk⟩ := wf_pon c h0 h w
  rw [pattern_pon_color, pattern_pon_number]
  omega

theorem copies_suits (σ : Suits) {k : Nat} (hk : k < 34) (n d : Nat) (hd : n + d ≤ 4) :
    (List.range n).map (fun i => σ.slot k * 4 + i + d) = ((List.range n).map (fun i => k * 4 + i + d)).map σ.tile := by
  rw [List.map_map]
  refine List.map_congr_left (fun i hi => ?_)
  have hi := List.mem_range.1 hi
  simp only [Function.comp, Nat.add_assoc]
  exact (tile_copies hk (by omega)).symm

theorem run_suits (σ : Suits) {col n : Nat} (hc : col < 3) (hn : n < 7) (d : Nat) (hd : d < 4) :
    (List.range 3).map (fun i => (σ.on col * 9 + n + i) * 4 + d) = ((List.range 3).map (fun i => (col * 9 + n + i) * 4 + d)).map σ.tile := by
  rw [List.map_map]
  refine List.map_congr_left (fun i hi => ?_)
  have hi := List.mem_range.1 hi
  simp only [Function.comp, Nat.add_assoc]
  exact tile_run hc (by omega) hd

theorem nakiToMeld_suits {σ : Suits} (hσ : σ.Proper) {c : Nat} (w : WellFormed c) {m : MeldArg} (h : nakiToMeld c = .ok m) :
    nakiToMeld (σ.code c) = .ok (σ.meld m) := by
  unfold nakiToMeld at h ⊢
  rw [code_is_chi, code_is_pon, code_is_kakan, code_is_minkan, code_is_ankan]
  rcases wf_cases w with h1 | ⟨h1, h2⟩ | ⟨h1, h2, h3⟩ | ⟨h1, h2, h3, h4⟩ | ⟨h1, h2, h3, h4, h5⟩
  · obtain ⟨f1, f2, _, f4, f5⟩ := chi_fields hσ h1 w
    simp only [h1, if_true] at h ⊢
    rw [chi_red hσ h1 w, f1, f2]
    have r0 := run_suits σ f4 f5 0 (by omega)
    have r1 := run_suits σ f4 f5 1 (by omega)
    simp only [Nat.add_zero] at r0
    rw [r0, r1]
    split at h
    · next hr => simp only [Except.ok.injEq] at h; subst h; rw [if_pos hr]; rfl
    · next hr => simp only [Except.ok.injEq] at h; subst h; rw [if_neg hr]; rfl
  · obtain ⟨_, _, _, f5, f6⟩ := pon_fields hσ h1 h2 w
    have hk := pon_kind_suits h1 h2 w
    simp only [h1, h2, if_true, if_false, Bool.false_eq_true] at h ⊢
    rw [f5, f6]
    have r0 := copies_suits σ hk 3 0 (by omega)
    have r1 := copies_suits σ hk 3 1 (by omega)
    simp only [Nat.add_zero] at r0
    rw [r0, r1]
    split at h
    · next hr => simp only [Except.ok.injEq] at h; subst h; rw [if_pos hr]; rfl
    · next hr => simp only [Except.ok.injEq] at h; subst h; rw [if_neg hr]; rfl
  · obtain ⟨_, _, _, f6, hk⟩ := kakan_fields hσ h1 h2 h3 w
    simp only [h1, h2, h3, if_true, if_false, Bool.false_eq_true] at h ⊢
    rw [f6]
    have r0 := copies_suits σ hk 4 0 (by omega)
    simp only [Nat.add_zero] at r0
    rw [r0]
    simp only [Except.ok.injEq] at h; subst h; rfl
  · obtain ⟨_, _, f6, hk⟩ := minkan_fields hσ h1 h2 h3 h4 w
    simp only [h1, h2, h3, h4, if_true, if_false, Bool.false_eq_true] at h ⊢
    rw [f6]
    have r0 := copies_suits σ hk 4 0 (by omega)
    simp only [Nat.add_zero] at r0
    rw [r0]
    simp only [Except.ok.injEq] at h; subst h; rfl
  · obtain ⟨f6, hk⟩ := ankan_fields hσ h1 h2 h3 h4 h5 w
    simp only [h1, h2, h3, h4, h5, if_true, if_false, Bool.false_eq_true] at h ⊢
    rw [f6]
    have r0 := copies_suits σ hk 4 0 (by omega)
    simp only [Nat.add_zero] at r0
    rw [r0]
    simp only [Except.ok.injEq] at h; subst h; rfl

theorem nakisToMelds_suits {σ : Suits} (hσ : σ.Proper) : ∀ (l : List Nat) (_ : ∀ c ∈ l, WellFormed c) {ms : List MeldArg},
    nakisToMelds l = .ok ms → nakisToMelds (l.map σ.code) = .ok (ms.map σ.meld)
  | [], _, ms, h => by
    simp only [nakisToMelds, Except.ok.injEq] at h
    subst h; rfl
  | c :: l, hw, ms, h => by
    simp only [nakisToMelds, List.map_cons] at h ⊢
    split at h
    · simp at h
    · next m hm =>
      split at h
      · simp at h
      · next ms' hms =>
        simp only [Except.ok.injEq] at h
        subst h
        rw [nakiToMeld_suits hσ (hw c (by simp)) hm, nakisToMelds_suits hσ l (fun x hx => hw x (by simp [hx])) hms]
        rfl

theorem ok_map_suits {σ : Suits} (hσ : σ.Proper) : ∀ (l : List Nat) (_ : ∀ c ∈ l, WellFormed c) {ms ms' : List MeldArg},
    ms.map Except.ok = l.map nakiToMeld → ms'.map Except.ok = (l.map σ.code).map nakiToMeld → ms' = ms.map σ.meld
  | [], _, ms, ms', h, h' => by
    simp at h h'
    subst h; subst h'; rfl
  | c :: l, hw, ms, ms', h, h' => by
    cases ms with
    | nil => simp at h
    | cons m ms =>
      cases ms' with
      | nil => simp at h'
      | cons m' ms' =>
        simp only [List.map_cons, List.cons.injEq] at h h' ⊢
        have h1 := nakiToMeld_suits hσ (hw c (by simp)) h.1.symm
        rw [h1] at h'
        exact ⟨Except.ok.inj h'.1, ok_map_suits hσ l (fun x hx => hw x (by simp [hx])) h.2 h'.2⟩

theorem suitDigits_unique {l l' : List Nat} {g : Nat → Int} {base n : Nat} (h : SuitDigits l g base n)
    (h' : SuitDigits l' g base n) : l = l' := by
  have hp : l.Perm l' := List.perm_iff_count.2 (fun d => by rw [h.2 d, h'.2 d])
  exact hp.eq_of_pairwise (fun a b _ _ h1 h2 => Nat.le_antisymm h1 h2) h.1 h'.1

theorem suitDigits_same {l : List Nat} {g g' : Nat → Int} {b b' n : Nat} (h : SuitDigits l g b n)
    (e : ∀ j < n, g' (b' + j) = g (b + j)) : SuitDigits l g' b' n := by
  refine ⟨h.1, fun d => ?_⟩
  rw [h.2 d]
  split
  · rw [e _ (by omega)]
  · rfl

theorem strings_suits {σ : Suits} (hσ : σ.Proper) {m p s z m' p' s' z' : List Nat} {h h' : Nat → Int}
    (hh : ∀ k < 34, h' (σ.slot k) = h k) (a : HandStrings m p s z h) (a' : HandStrings m' p' s' z' h') :
    [m', p', s'][σ.on 0]? = some m ∧ [m', p', s'][σ.on 1]? = some p ∧ [m', p', s'][σ.on 2]? = some s ∧ HonoursMoved σ z z' := by
  obtain ⟨a1, a2, a3, a4⟩ := a
  obtain ⟨b1, b2, b3, b4⟩ := a'
  have key : ∀ x < 3, ∀ l, SuitDigits l h (9 * x) 9 → [m', p', s'][σ.on x]? = some l := by
    intro x hx l hl
    have hl' : SuitDigits l h' (9 * σ.on x) 9 := by
      refine suitDigits_same hl (fun j hj => ?_)
      rw [← slot_suit hx hj]
      exact hh _ (by omega)
    have h3 := on_lt hσ hx
    have : σ.on x = 0 ∨ σ.on x = 1 ∨ σ.on x = 2 := by omega
    rcases this with e | e | e <;> rw [e] at hl' ⊢
    · rw [suitDigits_unique hl' b1]; rfl
    · rw [suitDigits_unique hl' b2]; rfl
    · rw [suitDigits_unique hl' b3]; rfl
  refine ⟨key 0 (by omega) _ a1, key 1 (by omega) _ a2, key 2 (by omega) _ a3, ?_⟩
  have dig : ∀ (l : List Nat) (g : Nat → Int), SuitDigits l g 27 7 → ∀ d ∈ l, 1 ≤ d ∧ d ≤ 7 := by
    intro l g hl d hd
    have hc := List.count_pos_iff.2 hd
    rw [hl.2 d] at hc
    split at hc
    · assumption
    · omega
  refine ⟨a4.1, b4.1, dig _ _ a4, dig _ _ b4, fun x hx => ?_⟩
  have hz := hσ.honours x hx
  rw [a4.2, b4.2, if_pos (by omega), if_pos (by omega), show 1 + σ.z x - 1 = σ.z x by omega, show 1 + x - 1 = x by omega,
    ← slot_honour σ hx, hh _ (by omega)]

/-- the arguments of the evaluators with the suits exchanged -/
structure ArgsSuits (σ : Suits) (a a' : WinArgs) : Prop where
  naki : ∀ p, a'.naki_list p = (a.naki_list p).map σ.code
  wf : ∀ p, ∀ c ∈ a.naki_list p, WellFormed c
  doras : a'.doras = a.doras.map σ.tile
  reaches : a'.reaches = a.reaches
  ippatsu : a'.ippatsu = a.ippatsu
  double : a'.double_reaches = a.double_reaches
  haitei : a'.is_haitei = a.is_haitei
  player_wind : a'.player_wind = a.player_wind
  round_wind : a'.round_wind = a.round_wind
  kyotaku : a'.kyotaku = a.kyotaku
  honba : a'.honba = a.honba

theorem ron_suits {est est' : Estimate} {σ : Suits} (hσ : σ.Proper) (hest : EvalSuits σ est est') {q : Nat}
    {h1 h2 : Nat → Nat → Int} {a a' : WinArgs} {sut sut' : Nat → Nat → Int} {tile : Nat} (ht : tile < 136) {ck : Bool}
    {rh : Nat → Bool} {x1 x2 : Nat → Nat → Int} {r1 r2 : List (Option AgariDecision)} (hh : ∀ p, SlotsMoved σ (h1 p) (h2 p))
    (ha : ArgsSuits σ a a') (hs : ∀ p, SlotsMoved σ (sut p) (sut' p))
    (e1 : evaluate_ron est q h1 a sut tile ck rh = .ok (x1, r1))
    (e2 : evaluate_ron est' q h2 a' sut' (σ.tile tile) ck rh = .ok (x2, r2)) (p : Nat) (hp : p < 4) :
    winsOf (spread r2) p = winsOf (spread r1) p := by
  obtain ⟨k1, k2⟩ := ron_seats e1 p hp
  obtain ⟨l1, l2⟩ := ron_seats e2 p hp
  rw [tile_kind ht] at l1 l2
  rw [hs p] at l1 l2
  have key : (spread r2)[p]? = (spread r1)[p]? := by
    by_cases hno : p = q ∨ sut p (tile / 4) ≠ 0
    · rw [k1 hno, l1 hno]
    · simp only [not_or, Decidable.not_not] at hno
      obtain ⟨w, hw, hc⟩ := k2 hno.1 hno.2
      obtain ⟨w', hw', hc'⟩ := l2 hno.1 hno.2
      have hq : QuerySuits σ w w' := by
        obtain ⟨b1, b2, b3, b4, b5⟩ := hw
        obtain ⟨d1, d2, d3, d4, d5⟩ := hw'
        obtain ⟨s1, s2, s3, s4⟩ := strings_suits hσ (fun k _ => by
          simp only [slot_inj hσ]
          split
          · rw [hh p k]
          · exact hh p k) b1 d1
        refine ⟨s1, s2, s3, s4, by rw [d2, b2], ?_, by rw [d3, b3, ha.doras], ?_⟩
        · rw [ha.naki] at d4
          exact ok_map_suits hσ _ (ha.wf p) b4 d4
        · rw [d5, b5, ha.reaches, ha.ippatsu, ha.double, ha.haitei, ha.player_wind, ha.round_wind, ha.kyotaku, ha.honba]
      rw [hest w w' hq] at hc'
      rcases hc with ⟨u1, u2⟩ | ⟨u1, u2⟩ <;> rcases hc' with ⟨v1, v2⟩ | ⟨v1, v2⟩
      · rw [u2, v2]
      · rw [u1] at v1; simp at v1
      · rw [u1] at v1; simp at v1
      · rw [u2, v2]
  simp only [winsOf, List.getD_eq_getElem?_getD, key]

theorem answer_suits {est est' : Estimate} {σ : Suits} (hest : EvalSuits σ est est') {q : Nat} {w w' : Query} (h : QuerySuits σ w w')
    {l l' : List AgariDecision}
    (e : (match est w with | .error e => .error e | .ok true => .ok [⟨q, false⟩] | .ok false => .ok [] : Except PyErr (List AgariDecision)) = .ok l)
    (e' : (match est' w' with | .error e => .error e | .ok true => .ok [⟨q, false⟩] | .ok false => .ok [] : Except PyErr (List AgariDecision)) = .ok l') :
    l' = l := by
  rw [hest w w' h] at e'
  rw [e] at e'
  exact (Except.ok.inj e').symm

theorem tsumo_suits {est est' : Estimate} {σ : Suits} (hσ : σ.Proper) (hest : EvalSuits σ est est') {q : Nat}
    {h1 h2 : Nat → Nat → Int} {a a' : WinArgs} {t : Nat} {x y z : Bool} {l l' : List AgariDecision}
    (hh : ∀ p, SlotsMoved σ (h1 p) (h2 p)) (ha : ArgsSuits σ a a') (e : evaluate_tsumo est q h1 a t x y z = .ok l)
    (e' : evaluate_tsumo est' q h2 a' (σ.tile t) x y z = .ok l') : l' = l := by
  unfold evaluate_tsumo at e e'
  rw [ha.naki q, ha.reaches, ha.ippatsu, ha.double, ha.haitei, ha.player_wind, ha.round_wind,
    ha.kyotaku, ha.honba, ha.doras] at e'
  dsimp only at e e'
  cases hm : nakisToMelds (a.naki_list q) with
  | error x => simp [hm] at e
  | ok ms =>
    rw [hm] at e
    rw [nakisToMelds_suits hσ _ (ha.wf q) hm] at e'
    dsimp only at e e'
    have hst := strings_suits hσ (h := h1 q) (h' := h2 q) (fun k _ => hh q k)
      ⟨digits_spec (h1 q) 0 9, digits_spec (h1 q) 9 9, digits_spec (h1 q) 18 9, digits_spec (h1 q) 27 7⟩
      ⟨digits_spec (h2 q) 0 9, digits_spec (h2 q) 9 9, digits_spec (h2 q) 18 9, digits_spec (h2 q) 27 7⟩
    obtain ⟨s1, s2, s3, s4⟩ := hst
    refine answer_suits hest ?_ e e'
    exact ⟨s1, s2, s3, s4, rfl, rfl, rfl, rfl⟩

end MJ
