import Verif.Spec.Mirror
import Verif.Props.RoundCalls
/-!
C157: calls are offered on low and on high tiles alike.
-/
namespace MJ
open Code Spec

theorem mirrorKind_mirrorKind (k : Nat) : mirrorKind (mirrorKind k) = k := by
  unfold mirrorKind
  (repeat' split) <;> omega

theorem mirrorKind_lt {k : Nat} (h : k < 34) : mirrorKind k < 34 := by
  unfold mirrorKind
  split <;> omega

theorem mirrorTile_mirrorTile (t : Nat) : mirrorTile (mirrorTile t) = t := by
  have := mirrorKind_mirrorKind (t / 4)
  unfold mirrorTile
  have e : (4 * mirrorKind (t / 4) + t % 4) / 4 = mirrorKind (t / 4) := by omega
  rw [e, this]
  omega

theorem mirrorTile_div (t : Nat) : mirrorTile t / 4 = mirrorKind (t / 4) := by unfold mirrorTile; omega

theorem mirrorTile_lt {t : Nat} (h : t < 136) : mirrorTile t < 136 := by
  have := mirrorKind_lt (k := t / 4) (by omega)
  unfold mirrorTile
  omega

theorem mirrorView_mirrorView (v : MeldView) : v.mirror.mirror = v := by
  have e : mirrorKind ∘ mirrorKind = id := by funext k; exact mirrorKind_mirrorKind k
  cases v
  simp only [MeldView.mirror, List.map_reverse, List.reverse_reverse, List.map_map, Option.map_map, e, List.map_id, Option.map_id, id]

/-- two hands, the second the mirror image of the first; for the suit of `t`, both with or both without the red five -/
structure MirrorHands (h h' : Hand) (t : Nat) : Prop where
  kinds : ∀ k < 34, h' (mirrorKind k) = h k
  red : t < 27 → (0 < h' (34 + t / 9) ↔ 0 < h (34 + t / 9))

theorem MirrorHands.symm {h h' : Hand} {t : Nat} (m : MirrorHands h h' t) : MirrorHands h' h (mirrorKind t) := by
  refine ⟨?_, ?_⟩
  · intro k hk
    have := m.kinds (mirrorKind k) (mirrorKind_lt hk)
    rw [mirrorKind_mirrorKind] at this
    exact this.symm
  · intro h27
    have ht : t < 27 := by unfold mirrorKind at h27; split at h27 <;> omega
    have e : mirrorKind t / 9 = t / 9 := by unfold mirrorKind; rw [if_pos ht]; omega
    rw [e]
    exact (m.red ht).symm

theorem chiOffer_mirror {h h' : Hand} {t : Nat} {red : Bool} {n w : Nat} {r : Bool} (m : MirrorHands h h' t)
    (ho : ChiOffer h t red n w r) : ChiOffer h' (mirrorKind t) red (6 - n) (2 - w) r := by
  have hb := chiOffer_bounds ho
  obtain ⟨h1, h2, h3, h4, h5, h6, h7⟩ := ho
  have e0 : mirrorKind t = 9 * (t / 9) + (8 - t % 9) := by unfold mirrorKind; rw [if_pos h1]
  have e1 : mirrorKind t / 9 = t / 9 := by omega
  have e2 : mirrorKind t % 9 = 8 - t % 9 := by omega
  have er : hasRed h' (mirrorKind t) = hasRed h t := by
    unfold hasRed
    rw [e1]
    exact decide_eq_decide.2 (m.red h1)
  have eb : blackFives h' (mirrorKind t) = blackFives h t := by
    unfold blackFives
    rw [er, m.kinds t (by omega)]
  unfold ChiOffer
  rw [e1, e2, er, eb]
  refine ⟨by omega, by omega, by omega, by omega, ?_, ?_, ?_⟩
  · intro j hj hne
    have hk := m.kinds (9 * (t / 9) + n + (2 - j)) (by omega)
    have ek : mirrorKind (9 * (t / 9) + n + (2 - j)) = 9 * (t / 9) + (6 - n) + j := by
      unfold mirrorKind
      rw [if_pos (by omega)]
      omega
    rw [ek] at hk
    rw [hk]
    exact h5 (2 - j) (by omega) (by omega)
  · by_cases a4 : t % 9 = 4
    · rw [if_pos (by omega)]
      rw [if_pos a4] at h6
      exact h6
    · rw [if_neg (by omega)]
      rw [if_neg a4] at h6
      by_cases a5 : n ≤ 4 ∧ 4 ≤ n + 2
      · rw [if_pos (by omega)]
        rw [if_pos a5] at h6
        exact h6
      · rw [if_neg (by omega)]
        rw [if_neg a5] at h6
        exact h6
  · rw [h7]
    by_cases hR : hasRed h t = true
    · simp only [hR, and_true]
      (repeat' split) <;> omega
    · simp only [hR, and_false, if_false, Bool.false_eq_true]
      omega

theorem chiView_mirror {color n w : Nat} {r : Bool} (hc : color < 3) (hn : n < 7) (hw : w < 3) :
    (chiView color n w r).mirror = chiView color (6 - n) (2 - w) r := by
  have key : ∀ color < 3, ∀ n < 7, ∀ w < 3, ∀ r : Bool, (chiView color n w r).mirror = chiView color (6 - n) (2 - w) r := by
    decide +kernel
  exact key color hc n hn w hw r

theorem five_mirror (t : Nat) : (mirrorKind t < 27 ∧ mirrorKind t % 9 = 4) ↔ (t < 27 ∧ t % 9 = 4) := by
  unfold mirrorKind
  split <;> omega

theorem hasRed_mirror {h h' : Hand} {t : Nat} (m : MirrorHands h h' t) (h27 : t < 27) :
    hasRed h' (mirrorKind t) = hasRed h t := by
  have e1 : mirrorKind t / 9 = t / 9 := by unfold mirrorKind; rw [if_pos h27]; omega
  unfold hasRed
  rw [e1]
  exact decide_eq_decide.2 (m.red h27)

theorem ponOffer_mirror {h h' : Hand} {t : Nat} {red : Bool} {w : Nat} {r : Bool} (ht : t < 34) (m : MirrorHands h h' t)
    (ho : PonOffer h t red w r) : PonOffer h' (mirrorKind t) red w r := by
  unfold PonOffer at ho ⊢
  rw [m.kinds t ht]
  by_cases h5 : t < 27 ∧ t % 9 = 4
  · rw [if_pos ((five_mirror t).2 h5), hasRed_mirror m h5.1]
    rw [if_pos h5] at ho
    exact ho
  · rw [if_neg (fun h => h5 ((five_mirror t).1 h))]
    rw [if_neg h5] at ho
    exact ho

theorem kanOffer_mirror {h h' : Hand} {t : Nat} {red : Bool} {w : Nat} (ht : t < 34) (m : MirrorHands h h' t)
    (ho : KanOffer h t red w) : KanOffer h' (mirrorKind t) red w := by
  unfold KanOffer at ho ⊢
  rw [m.kinds t ht]
  simp only [five_mirror]
  exact ho

theorem ponView_mirror (t w : Nat) (r : Bool) (src : Nat) : (ponView t w r src).mirror = ponView (mirrorKind t) w r src := rfl

theorem minkanView_mirror (t w src : Nat) : (minkanView t src w).mirror = minkanView (mirrorKind t) src w := by
  simp only [minkanView, MeldView.mirror, five_mirror]
  rfl

theorem offers_mirror {q : Nat} {hands hands' : Nat → Hand} {t : Nat} {red : Bool} {p : Nat} {v : MeldView} (hq : q < 4)
    (hp : p < 4) (ht : t < 34) (m : MirrorHands (hands p) (hands' p) t) (h : Offers q hands t red p v) :
    Offers q hands' (mirrorKind t) red p v.mirror := by
  rw [offers_cases _ _ _ _ _ _ hq hp ht] at h
  rw [offers_cases _ _ _ _ _ _ hq hp (mirrorKind_lt ht)]
  obtain ⟨hne, h⟩ := h
  refine ⟨hne, ?_⟩
  rcases h with ⟨hx, n, w, r, ho, rfl⟩ | ⟨w, r, ho, rfl⟩ | ⟨w, ho, rfl⟩
  · have b := chiOffer_bounds ho
    have e : mirrorKind t / 9 = t / 9 := by unfold mirrorKind; rw [if_pos b.2.2.2]; omega
    exact .inl ⟨hx, 6 - n, 2 - w, r, chiOffer_mirror m ho, by rw [e, chiView_mirror (by omega) b.1 b.2.1]⟩
  · exact .inr (.inl ⟨w, r, ponOffer_mirror ht m ho, ponView_mirror _ _ _ _⟩)
  · exact .inr (.inr ⟨w, kanOffer_mirror ht m ho, minkanView_mirror _ _ _⟩)

/-- C157: whatever the hands: if a player holds the mirror image of a hand and the mirror image of a tile is discarded,
exactly the mirror images of the calls are offered (chis at the low and at the high end, with the same treatment of red
fives, right or wrong). -/
theorem C157_offers (q : Nat) (hands hands' : Nat → Hand) (t : Nat) (red : Bool) (p : Nat) (v : MeldView) (hq : q < 4)
    (hp : p < 4) (ht : t < 34) (m : MirrorHands (hands p) (hands' p) t) :
    Offers q hands' (mirrorKind t) red p v.mirror ↔ Offers q hands t red p v := by
  constructor
  · intro h
    have := offers_mirror hq hp (mirrorKind_lt ht) m.symm h
    rw [mirrorKind_mirrorKind, mirrorView_mirrorView] at this
    exact this
  · exact offers_mirror hq hp ht m

theorem mirror_held {hai hai' : Nat → List Nat} {pre pre' : List Act} {q : Nat} (h : MirrorHeld hai hai' pre pre' q)
    {held held' : List Nat} (hc : Concealed hai pre q held) (hc' : Concealed hai' pre' q held')
    (hlt : ∀ u ∈ held, u < 136) (hlt' : ∀ u ∈ held', u < 136) : held'.Perm (held.map mirrorTile) := by
  have inj : ∀ x y, mirrorTile x = mirrorTile y → x = y := by
    intro x y e
    rw [← mirrorTile_mirrorTile x, e, mirrorTile_mirrorTile]
  rw [List.perm_ext_iff_of_nodup hc'.1 (by
    rw [List.nodup_iff_pairwise_ne, List.pairwise_map]
    exact List.Pairwise.imp (fun h e => h (inj _ _ e)) hc.1)]
  intro u
  rw [List.mem_map]
  constructor
  · intro hu
    refine ⟨mirrorTile u, ?_, mirrorTile_mirrorTile u⟩
    rw [hc.2, ← h _ (mirrorTile_lt (hlt' u hu)), mirrorTile_mirrorTile]
    exact (hc'.2 u).1 hu
  · rintro ⟨x, hx, rfl⟩
    rw [hc'.2, h x (hlt x hx)]
    exact (hc.2 x).1 hx

theorem kindCount_mirror (l : List Nat) (k : Nat) : kindCount (l.map mirrorTile) (mirrorKind k) = kindCount l k := by
  unfold kindCount
  rw [List.countP_map]
  congr 1
  funext t
  simp only [Function.comp_apply, mirrorTile_div]
  rw [Bool.eq_iff_iff, beq_iff_eq, beq_iff_eq]
  constructor
  · intro e
    rw [← mirrorKind_mirrorKind (t / 4), e, mirrorKind_mirrorKind]
  · intro e
    rw [e]

/-- C157, in rounds: after the discards of a tile and of its mirror image in two rounds, a player who holds the mirror
image of the other's concealed hand is offered the mirror images of the calls, and nothing else. -/
theorem C157_rounds {est est' : Estimate} {sh sh' : List Int → Except PyErr Int} {g g' : GameInfo} {a a' : InitAttr}
    {c c' : RoundCfg} {s0 s0' : RoundSt} (hi : initRound est sh g a = .ok (c, s0)) (hi' : initRound est' sh' g' a' = .ok (c', s0'))
    {hai hai' : Nat → List Nat} (hhai : ∀ p < 4, a.hai p = .ok (hai p)) (hhai' : ∀ p < 4, a'.hai p = .ok (hai' p))
    {pre post pre' post' : List Act} {p t : Nat} {s s' : RoundSt} (hr : Reached c s0 (pre ++ .discard p t :: post) s)
    (hr' : Reached c' s0' (pre' ++ .discard p (mirrorTile t) :: post') s') :
    ∃ s1 s2 o e ag offers s1' s2' o' e' ag' offers', Reached c s0 pre s1 ∧ Reached c s0 (pre ++ [.discard p t]) s2 ∧
      s2.halfturns = s1.halfturns ++ [.discard p o e t, .post p o e ag offers] ∧
      Reached c' s0' pre' s1' ∧ Reached c' s0' (pre' ++ [.discard p (mirrorTile t)]) s2' ∧
      s2'.halfturns = s1'.halfturns ++ [.discard p o' e' (mirrorTile t), .post p o' e' ag' offers'] ∧
      ∀ q < 4, q ≠ p → MirrorHeld hai hai' pre pre' q →
        ∃ l l', offers[q]? = some l ∧ offers'[q]? = some l' ∧ ∀ v : MeldView, Lists l' v.mirror ↔ Lists l v := by
  obtain ⟨s1, s2, h1, he, h2, _⟩ := hr.at
  obtain ⟨s1', s2', h1', he', h2', _⟩ := hr'.at
  cases he with
  | discard hp e =>
    cases he' with
    | discard hp' e' =>
      have hk34 : t / 4 < 34 := by have := e.tile_lt; omega
      have hk34' : mirrorTile t / 4 < 34 := by have := e'.tile_lt; omega
      obtain ⟨ds, hds, hlen, hown, hmem⟩ := C16_offer_lists p (discardTile s1 p t).hand_tensors (t / 4)
        ((tile2idx t).length == 2) hp hk34
      obtain ⟨ds', hds', hlen', hown', hmem'⟩ := C16_offer_lists p (discardTile s1' p (mirrorTile t)).hand_tensors (mirrorTile t / 4)
        ((tile2idx (mirrorTile t)).length == 2) hp hk34'
      have heq : ds = e.offers := Except.ok.inj (hds.symm.trans e.offers_eq)
      have heq' : ds' = e'.offers := Except.ok.inj (hds'.symm.trans e'.offers_eq)
      subst heq
      subst heq'
      refine ⟨s1, s2, e.o, _, _, e.offers, s1', s2', e'.o, _, _, e'.offers, h1, h2, congrArg RoundSt.halfturns e.state_eq,
        h1', h2', congrArg RoundSt.halfturns e'.state_eq, ?_⟩
      intro q hq hqp hm
      obtain ⟨held, hc, hkind, hred⟩ := discard_hands hi hhai h1 (p := p) (t := t) hq hqp
      obtain ⟨held', hc', hkind', hred'⟩ := discard_hands hi' hhai' h1' (p := p) (t := mirrorTile t) hq hqp
      obtain ⟨l, hl⟩ : ∃ l, e.offers[q]? = some l := ⟨_, List.getElem?_eq_getElem (by omega)⟩
      obtain ⟨l', hl'⟩ : ∃ l, e'.offers[q]? = some l := ⟨_, List.getElem?_eq_getElem (by omega)⟩
      have hlt : ∀ u ∈ held, u < 136 := by
        intro u hu
        have := (C34_concealed hi hhai h1 q u hq).2 ((hc.2 u).1 hu)
        by_cases h136 : u < 136
        · exact h136
        · have := (C33_hand_tensors hi h1 q).2.1 u (by omega)
          omega
      have hlt' : ∀ u ∈ held', u < 136 := by
        intro u hu
        have := (C34_concealed hi' hhai' h1' q u hq).2 ((hc'.2 u).1 hu)
        by_cases h136 : u < 136
        · exact h136
        · have := (C33_hand_tensors hi' h1' q).2.1 u (by omega)
          omega
      have hperm := mirror_held hm hc hc' hlt hlt'
      have m : MirrorHands ((discardTile s1 p t).hand_tensors q) ((discardTile s1' p (mirrorTile t)).hand_tensors q) (t / 4) := by
        refine ⟨?_, ?_⟩
        · intro k hk
          rw [hkind k hk, hkind' _ (mirrorKind_lt hk), ← kindCount_mirror held k]
          unfold kindCount
          rw [hperm.countP_eq]
        · intro h27
          have e1 : mirrorTile t / 4 / 9 = t / 4 / 9 := by
            rw [mirrorTile_div]; unfold mirrorKind; rw [if_pos h27]; omega
          have h27' : mirrorTile t / 4 < 27 := by
            rw [mirrorTile_div]; unfold mirrorKind; rw [if_pos h27]; omega
          have r1 := hred h27
          have r2 := hred' h27'
          rw [e1] at r2
          rw [r1, r2, hperm.mem_iff, List.mem_map]
          have er : mirrorTile (redFive (t / 4 / 9)) = redFive (t / 4 / 9) := by
            have : t / 4 / 9 = 0 ∨ t / 4 / 9 = 1 ∨ t / 4 / 9 = 2 := by omega
            rcases this with h | h | h <;> rw [h] <;> decide
          constructor
          · rintro ⟨x, hx, e⟩
            have : x = redFive (t / 4 / 9) := by rw [← mirrorTile_mirrorTile x, e, er]
            rw [← this]
            exact hx
          · intro hx
            exact ⟨_, hx, er⟩
      have hflag : ((tile2idx (mirrorTile t)).length == 2) = ((tile2idx t).length == 2) := by
        have : ∀ t < 136, ((tile2idx (mirrorTile t)).length == 2) = ((tile2idx t).length == 2) := by decide +kernel
        exact this t e.tile_lt
      refine ⟨l, l', hl, hl', fun v => ?_⟩
      rw [lists_offers e.offers_eq hl, lists_offers e'.offers_eq hl', hflag, mirrorTile_div]
      exact C157_offers p _ _ (t / 4) _ q v hp hq hk34 m

/-- the calls on a discarded 4 by a player with 5 and 6, and on a discarded 6 by one with 4 and 5 -/
example : ∃ hands hands' : Nat → Hand, MirrorHands (hands 1) (hands' 1) 3 ∧
    Offers 0 hands 3 false 1 (chiView 0 3 0 false) ∧ Offers 0 hands' 5 false 1 (chiView 0 3 2 false) := by
  have h1 : Offers 0 (fun _ k => if k = 4 ∨ k = 5 then 1 else 0) 3 false 1 (chiView 0 3 0 false) := by
    rw [offers_cases _ _ _ _ _ _ (by omega) (by omega) (by omega)]
    refine ⟨by omega, .inl ⟨by decide, 3, 0, false, ?_, rfl⟩⟩
    refine ⟨by omega, by omega, by omega, by omega, by decide +kernel, by decide +kernel, by decide +kernel⟩
  have m : MirrorHands (fun k => if k = 4 ∨ k = 5 then 1 else 0) (fun k => if k = 4 ∨ k = 3 then 1 else 0) 3 := by
    refine ⟨by decide +kernel, by decide +kernel⟩
  refine ⟨_, fun _ k => if k = 4 ∨ k = 3 then 1 else 0, m, h1, ?_⟩
  exact offers_mirror (hands' := fun _ k => if k = 4 ∨ k = 3 then 1 else 0) (by omega) (by omega) (by omega) m h1

end MJ
