import Verif.Spec.CallMarks
import Verif.Props.RoundMoment
import Verif.Props.Calls
/-!
C118: the calls offered after a discard are those the concealed hands allow.
-/
namespace MJ
open Code Spec

/-- among the decisions `l` there is one for the meld `v` -/
def Lists (l : List NakiDecision) (v : MeldView) : Prop := ∃ d ∈ l, view d.naki.naki_code = some v

theorem red_flag {t : Nat} (ht : t < 136) : ((tile2idx t).length == 2) = decide (t = 16 ∨ t = 52 ∨ t = 88) := by
  revert t
  decide

theorem kindCount_pos {l : List Nat} {k : Nat} : 0 < kindCount l k ↔ ∃ u ∈ l, u / 4 = k := by
  unfold kindCount
  rw [List.countP_pos_iff]
  simp

/-- the hands that the offers are computed from -/
theorem discard_hands {est : Estimate} {sh : List Int → Except PyErr Int} {g : GameInfo} {a : InitAttr}
    {c : RoundCfg} {s0 : RoundSt} (hi : initRound est sh g a = .ok (c, s0)) {hai : Nat → List Nat}
    (hhai : ∀ p < 4, a.hai p = .ok (hai p)) {acts : List Act} {s1 : RoundSt} (h1 : Reached c s0 acts s1) {p q t : Nat}
    (hq : q < 4) (hqp : q ≠ p) :
    ∃ held, Concealed hai acts q held ∧ (∀ k < 34, (discardTile s1 p t).hand_tensors q k = (kindCount held k : Nat)) ∧
      (t / 4 < 27 → (0 < (discardTile s1 p t).hand_tensors q (34 + t / 4 / 9) ↔ redFive (t / 4 / 9) ∈ held)) := by
  obtain ⟨held, hc, hcount⟩ := concealed_list hi hhai h1 q hq
  have hsame : (discardTile s1 p t).hand_tensors q = s1.hand_tensors q := by
    show addRow s1.hand_tensors p _ _ q = _
    unfold addRow
    exact setAt_ne _ _ _ _ hqp
  refine ⟨held, hc, ?_, ?_⟩
  · intro k hk
    rw [hsame]
    exact hcount k hk
  · intro h27
    obtain ⟨hbit, _, _, r1, r2, r3⟩ := C33_hand_tensors hi h1 q
    have key : ∀ u, (0 < s1.hands q u) ↔ u ∈ held := by
      intro u
      rw [hc.2 u, ← C34_concealed hi hhai h1 q u hq]
      have := hbit u
      omega
    rw [hsame]
    have : t / 4 / 9 = 0 ∨ t / 4 / 9 = 1 ∨ t / 4 / 9 = 2 := by omega
    unfold Spec.redFive
    rcases this with h | h | h
    · rw [h, r1]; exact key 16
    · rw [h, r2]; exact key 52
    · rw [h, r3]; exact key 88

theorem lists_offers {p t q : Nat} {hands : Nat → Hand} {red : Bool} {offers : List (List NakiDecision)}
    (ho : decisionMask p hands t red = .ok offers) {l : List NakiDecision} (hl : offers[q]? = some l) (v : MeldView) :
    Lists l v ↔ Offers p hands t red q v := by
  constructor
  · rintro ⟨d, hd, hv⟩
    exact ⟨_, l, d, ho, hl, hd, hv⟩
  · rintro ⟨ds', l', d, e1, e2, hd, hv⟩
    have := Except.ok.inj (e1.symm.trans ho)
    subst this
    rw [hl] at e2
    cases e2
    exact ⟨d, hd, hv⟩

/-- C118: after every discard there is a half-turn with a list of possible calls for each player: none for the player who
discards; for everybody else, with `held` the concealed tiles by the log, an open kan iff three tiles of the kind are
held; a pon iff two are, or three fives including the red one; a chi of a run iff the player is next and holds the other
two kinds of it. -/
theorem C118_offers {est : Estimate} {sh : List Int → Except PyErr Int} {g : GameInfo} {a : InitAttr}
    {c : RoundCfg} {s0 : RoundSt} (hi : initRound est sh g a = .ok (c, s0)) {hai : Nat → List Nat}
    (hhai : ∀ p < 4, a.hai p = .ok (hai p)) {pre post : List Act} {p t : Nat} {s : RoundSt}
    (hr : Reached c s0 (pre ++ .discard p t :: post) s) :
    ∃ s1 s2 o e ag offers, Reached c s0 pre s1 ∧ Reached c s0 (pre ++ [.discard p t]) s2 ∧
      s2.halfturns = s1.halfturns ++ [.discard p o e t, .post p o e ag offers] ∧ offers.length = 4 ∧ offers[p]? = some [] ∧
      ∀ q < 4, q ≠ p → ∃ held l, Concealed hai pre q held ∧ offers[q]? = some l ∧
        (∀ d ∈ l, d.player = q ∧ d.executed = false) ∧
        ((∃ v, Lists l v ∧ v.type = .minkan) ↔ kindCount held (t / 4) = 3) ∧
        ((∃ v, Lists l v ∧ v.type = .pon) ↔ kindCount held (t / 4) = 2 ∨
          (kindCount held (t / 4) = 3 ∧ t / 4 < 27 ∧ t / 4 % 9 = 4 ∧ redFive (t / 4 / 9) ∈ held)) ∧
        ∀ k, (∃ v, Lists l v ∧ v.type = .chi ∧ RunFrom v k) ↔ RunPossible held p q (t / 4) k := by
  obtain ⟨s1, s2, h1, he, h2, _⟩ := hr.at
  cases he with
  | discard hp e =>
    have hk34 : t / 4 < 34 := by have := e.tile_lt; omega
    obtain ⟨ds, hds, hlen, hown, hmem⟩ := C16_offer_lists p (discardTile s1 p t).hand_tensors (t / 4)
      ((tile2idx t).length == 2) hp hk34
    have heq : ds = e.offers := Except.ok.inj (hds.symm.trans e.offers_eq)
    subst heq
    refine ⟨s1, s2, e.o, _, _, e.offers, h1, h2, congrArg RoundSt.halfturns e.state_eq, hlen, hown, ?_⟩
    intro q hq hqp
    obtain ⟨held, hc, hkind, hred⟩ := discard_hands hi hhai h1 (p := p) (t := t) hq hqp
    obtain ⟨l, hl⟩ : ∃ l, e.offers[q]? = some l := ⟨_, List.getElem?_eq_getElem (by omega)⟩
    have hoff := lists_offers e.offers_eq hl
    obtain ⟨k1, k2⟩ := C21_every_pon_offered_partial p (discardTile s1 p t).hand_tensors (t / 4)
      ((tile2idx t).length == 2) q hp hq hk34 hqp
    refine ⟨held, l, hc, hl, fun d hd => ⟨(hmem q l hl d hd).1, (hmem q l hl d hd).2.1⟩, ?_, ?_, ?_⟩
    · simp only [hoff]
      rw [k1, hkind _ hk34]
      omega
    · simp only [hoff]
      rw [k2, hkind _ hk34]
      by_cases h27 : t / 4 < 27
      · rw [hred h27]
        refine or_congr (by omega) (and_congr (by omega) Iff.rfl)
      · simp only [h27, false_and, and_false, or_false]
        omega
    · intro k
      have hnext : ((q : Int) - p) % 4 = 1 ↔ q = (p + 1) % 4 := by omega
      simp only [hoff]
      constructor
      · rintro ⟨v, hv, hty, hrun⟩
        obtain ⟨k', a1, a2, a3, a4, a5, a6, _⟩ := C19_chi_takes_discard_partial p _ (t / 4) _ q v hp hq hk34 hv hty
        have hkk : k = k' := by
          have a := hrun.sum_nat
          have b := a1.sum_nat
          simp at a b
          omega
        subst hkk
        refine ⟨hnext.1 ((C17_source p _ (t / 4) _ q v hp hq hk34 hv).2 hty), a4, by omega, a5, a2, a3, ?_⟩
        intro i i1 i2 i3
        rw [← kindCount_pos]
        have := a6 i i1 i2 i3
        rw [hkind i (by omega)] at this
        omega
      · rintro ⟨b1, b2, b3, b4, b5, b6, b7⟩
        obtain ⟨v, c1, c2, c3, _⟩ := C20_every_chi_offered_partial p (discardTile s1 p t).hand_tensors (t / 4)
          ((tile2idx t).length == 2) q k hp hq ⟨hnext.2 b1, b2, b3, b4, b5, b6, by
            intro i i1 i2 i3
            rw [hkind i (by omega)]
            have := kindCount_pos.2 (b7 i i1 i2 i3)
            omega⟩
        exact ⟨v, c1, c2, c3⟩

/-- C118, red fives: a chi or pon of fives is offered as one with the red five if the discarded tile is the red five; and
only then, when the player does not hold the red five. -/
theorem C118_red {est : Estimate} {sh : List Int → Except PyErr Int} {g : GameInfo} {a : InitAttr}
    {c : RoundCfg} {s0 : RoundSt} (hi : initRound est sh g a = .ok (c, s0)) {hai : Nat → List Nat}
    (hhai : ∀ p < 4, a.hai p = .ok (hai p)) {pre post : List Act} {p t : Nat} {s : RoundSt}
    (hr : Reached c s0 (pre ++ .discard p t :: post) s) (h27 : t / 4 < 27) (h5 : t / 4 % 9 = 4) :
    ∃ s1 s2 o e ag offers, Reached c s0 pre s1 ∧ Reached c s0 (pre ++ [.discard p t]) s2 ∧
      s2.halfturns = s1.halfturns ++ [.discard p o e t, .post p o e ag offers] ∧
      ∀ q < 4, q ≠ p → ∃ l, offers[q]? = some l ∧
        (∀ v, Lists l v → v.type = .chi → ((v.handRed || v.calledRed) = true ↔ t = redFive (t / 4 / 9))) ∧
        (¬ Holds hai pre q (redFive (t / 4 / 9)) →
          ∀ v, Lists l v → v.type = .pon → ((v.handRed || v.calledRed) = true ↔ t = redFive (t / 4 / 9))) := by
  obtain ⟨s1, s2, h1, he, h2, _⟩ := hr.at
  cases he with
  | discard hp e =>
    have hk34 : t / 4 < 34 := by omega
    obtain ⟨ds, hds, hlen, _, _⟩ := C16_offer_lists p (discardTile s1 p t).hand_tensors (t / 4)
      ((tile2idx t).length == 2) hp hk34
    have heq : ds = e.offers := Except.ok.inj (hds.symm.trans e.offers_eq)
    subst heq
    have hflag : ((tile2idx t).length == 2) = true ↔ t = redFive (t / 4 / 9) := by
      rw [red_flag e.tile_lt, decide_eq_true_eq]
      unfold Spec.redFive
      omega
    refine ⟨s1, s2, e.o, _, _, e.offers, h1, h2, congrArg RoundSt.halfturns e.state_eq, ?_⟩
    intro q hq hqp
    obtain ⟨held, hc, hkind, hred⟩ := discard_hands hi hhai h1 (p := p) (t := t) hq hqp
    obtain ⟨l, hl⟩ : ∃ l, e.offers[q]? = some l := ⟨_, List.getElem?_eq_getElem (by omega)⟩
    refine ⟨l, hl, ?_, ?_⟩
    · intro v hv hty
      obtain ⟨_, h⟩ := (offers_cases p _ _ _ q v hp hq hk34).1 ((lists_offers e.offers_eq hl v).1 hv)
      rcases h with ⟨_, n, w, r, ho, rfl⟩ | ⟨w, r, _, rfl⟩ | ⟨w, _, rfl⟩
      · rw [chiView_red]
        have := ho.2.2.2.2.2.1
        rw [if_pos h5] at this
        rw [this, hflag]
      · simp [ponView] at hty
      · simp [minkanView] at hty
    · intro hno v hv hty
      obtain ⟨_, h⟩ := (offers_cases p _ _ _ q v hp hq hk34).1 ((lists_offers e.offers_eq hl v).1 hv)
      rcases h with ⟨_, n, w, r, ho, rfl⟩ | ⟨w, r, ho, rfl⟩ | ⟨w, _, rfl⟩
      · simp [chiView] at hty
      · unfold PonOffer at ho
        have hnr : ¬ hasRed ((discardTile s1 p t).hand_tensors q) (t / 4) = true := by
          rw [hasRed_iff, hred h27, hc.2]
          exact hno
        rw [if_pos ⟨h27, h5⟩, if_neg hnr] at ho
        obtain ⟨_, rfl, rfl⟩ := ho
        rw [← hflag]
        cases (tile2idx t).length == 2 <;> simp [ponView]
      · simp [minkanView] at hty

/-! ### which calls are noticed -/

theorem isRedB_isRed {t : Nat} : isRedB t = true ↔ IsRed t := by
  unfold isRedB IsRed Spec.redFive
  simp only [Bool.or_eq_true, beq_iff_eq]
  constructor
  · rintro ((h | h) | h)
    · exact ⟨0, by omega, by omega⟩
    · exact ⟨1, by omega, by omega⟩
    · exact ⟨2, by omega, by omega⟩
  · rintro ⟨s, h1, h2⟩
    omega

theorem view_encode (m : LogMeld) (hv : m.Valid) : view m.encode = some (viewOf m.type m.source m.tiles.1 m.tiles.2) := by
  obtain ⟨h1, ⟨a1, a2, a3, a4, a5⟩, h3, _⟩ := C93_tiles m hv
  have : meldType m.encode = some m.type := by
    rw [meldType_eq, a1, a2, a3, a4, a5]
    cases m.type <;> rfl
  unfold view
  rw [this, h1, h3]

/-- sublist counting: different tiles of the hand are counted in the hand -/
theorem countP_le_of_subset {l held : List Nat} (f : Nat → Bool) (hn : l.Nodup) (hs : ∀ t ∈ l, t ∈ held) :
    l.countP f ≤ held.countP f := by
  obtain ⟨r, h1, h2⟩ := List.subperm_of_subset hn (fun t ht => hs t ht)
  rw [← h1.countP_eq]
  exact h2.countP_le

/-- the tiles of an open call lie in one suit -/
theorem one_suit (m : LogMeld) (hv : m.Valid) (ho : m.own = false) :
    ∃ s, (∀ x ∈ m.tiles.1, x / 36 = s) ∧ (∀ t ∈ m.tiles.2, t / 36 = s) ∧ (m.type = .chi → s < 3) := by
  cases m with
  | chi src k x y z w =>
    obtain ⟨h1, h2, h3, h4, h5, h6, h7⟩ := hv
    have key : ∀ u ∈ [4 * k + x, 4 * (k + 1) + y, 4 * (k + 2) + z], u / 36 = k / 9 := by
      intro u hu
      simp only [List.mem_cons, List.not_mem_nil, or_false] at hu
      omega
    refine ⟨k / 9, fun u hu => key u (List.mem_of_mem_eraseIdx hu), fun t ht => key t (List.mem_of_getElem? ht), ?_⟩
    intro _
    omega
  | pon src k u w =>
    obtain ⟨h1, h2, h3, h4⟩ := hv
    have key : ∀ x ∈ (LogMeld.copies k).eraseIdx u, x / 36 = k / 9 := by
      intro x hx
      have := List.mem_of_mem_eraseIdx hx
      simp only [LogMeld.copies, List.mem_cons, List.not_mem_nil, or_false] at this
      omega
    exact ⟨k / 9, fun x hx => key x (List.mem_of_mem_eraseIdx hx), fun t ht => key t (List.mem_of_getElem? ht), fun h => by cases h⟩
  | kakan => cases ho
  | minkan src t =>
    obtain ⟨h1, h2, h3⟩ := hv
    refine ⟨t / 36, ?_, ?_, fun h => by cases h⟩
    · intro x hx
      have := List.mem_of_mem_filter hx
      simp only [LogMeld.copies, List.mem_cons, List.not_mem_nil, or_false] at this
      omega
    · intro u hu
      simp only [LogMeld.tiles, Option.mem_def, Option.some.injEq] at hu
      rw [hu]
  | ankan => cases ho

theorem count_kinds (l : List Nat) (k : Nat) : (l.map (· / 4)).count k = kindCount l k := by
  unfold kindCount
  rw [List.count, List.countP_map]
  apply List.countP_congr
  intro t _
  simp

/-- black fives -/
def blackCount (l : List Nat) (s : Nat) : Nat := l.countP (fun t => decide (t / 4 = 9 * s + 4 ∧ t ≠ Spec.redFive s))

theorem black_count {l : List Nat} (hn : l.Nodup) (s : Nat) :
    kindCount l (9 * s + 4) = blackCount l s + if Spec.redFive s ∈ l then 1 else 0 := by
  induction l with
  | nil => simp [kindCount, blackCount]
  | cons t l ih =>
    obtain ⟨h1, h2⟩ := List.nodup_cons.1 hn
    have ih := ih h2
    unfold kindCount blackCount at ih ⊢
    rw [List.countP_cons, List.countP_cons, ih]
    by_cases hr : t = Spec.redFive s
    · have h5 : t / 4 = 9 * s + 4 := by rw [hr]; unfold Spec.redFive; omega
      rw [← hr]
      simp [h5, h1]
    · have hr' : ¬ Spec.redFive s = t := fun h => hr h.symm
      by_cases h5 : t / 4 = 9 * s + 4
      · have e1 : decide (t / 4 = 9 * s + 4 ∧ t ≠ Spec.redFive s) = true := decide_eq_true ⟨h5, hr⟩
        have e2 : (t / 4 == 9 * s + 4) = true := by simp [h5]
        have e3 : (Spec.redFive s ∈ t :: l) ↔ Spec.redFive s ∈ l := by simp [hr']
        rw [if_pos e1, if_pos e2]
        simp only [e3]
        omega
      · simp [h5, hr']

/-- the hand has the tiles of a call -/
theorem backs_of_held {h : Hand} {held : List Nat} (hn : held.Nodup) (hk : ∀ k < 34, h k = (kindCount held k : Nat))
    (hr : ∀ s < 3, h (34 + s) = if Spec.redFive s ∈ held then 1 else 0) {m : LogMeld} (hv : m.Valid) (ho : m.own = false)
    (hs : ∀ t ∈ m.tiles.1, t ∈ held) : Backs h (viewOf m.type m.source m.tiles.1 m.tiles.2) := by
  have hnd := tiles_nodup m hv
  have hlt := (tiles_lt m hv).1
  obtain ⟨su, hsu, _, _⟩ := one_suit m hv ho
  constructor
  · intro k hkm
    show (((m.tiles.1.map (· / 4)).count k : Nat) : Int) ≤ h k
    have hk34 : k < 34 := by
      obtain ⟨t, ht, rfl⟩ := List.mem_map.1 hkm
      have := hlt t ht
      omega
    rw [hk k hk34, count_kinds]
    exact Int.ofNat_le.2 (countP_le_of_subset _ hnd hs)
  · intro s hs3 hm
    show if m.tiles.1.any isRedB = true then _ else _
    have hm' : 9 * s + 4 ∈ m.tiles.1.map (· / 4) := hm
    obtain ⟨x, hx, hx5⟩ := List.mem_map.1 hm'
    have hsus : su = s := by
      have := hsu x hx
      have : x / 4 = 9 * s + 4 := hx5
      omega
    have hcnt : (((viewOf m.type m.source m.tiles.1 m.tiles.2).handKinds).count (9 * s + 4)) = kindCount m.tiles.1 (9 * s + 4) :=
      count_kinds _ _
    rw [hcnt, hk (9 * s + 4) (by omega), hr s hs3, black_count hn s, black_count hnd s]
    have hble : blackCount m.tiles.1 s ≤ blackCount held s := countP_le_of_subset _ hnd hs
    have hred : m.tiles.1.any isRedB = true ↔ Spec.redFive s ∈ m.tiles.1 := by
      rw [List.any_eq_true]
      constructor
      · rintro ⟨u, hu, hur⟩
        obtain ⟨s', hs', rfl⟩ := isRedB_isRed.1 hur
        have : s' = s := by
          have := hsu _ hu
          unfold Spec.redFive at this
          omega
        rw [← this]
        exact hu
      · intro h
        exact ⟨_, h, isRedB_isRed.2 ⟨s, hs3, rfl⟩⟩
    by_cases hin : Spec.redFive s ∈ m.tiles.1
    · have hin' := hs _ hin
      rw [if_pos (hred.2 hin)]
      simp only [hin, hin', if_true]
      omega
    · rw [if_neg (fun h => hin (hred.1 h))]
      by_cases hin' : Spec.redFive s ∈ held
      · simp only [hin, hin', if_true, if_false]
        omega
      · simp only [hin, hin', if_false]
        omega

/-- between a discard and the next move the half-turns stay as they are -/
theorem post_keeps {c : RoundCfg} {s s' : RoundSt} {mid : List Act} (hr : Reached c s mid s') {i : Nat} {h : HalfTurn}
    (hc : s.curr_halfturn = some i) (hh : s.halfturns[i]? = some h) (hp : h.isPost = true)
    (hm : ∀ b ∈ mid, b.isMove = false) :
    s'.halfturns = s.halfturns ∧ s'.curr_halfturn = some i ∧ s'.hands = s.hands ∧ s'.hand_tensors = s.hand_tensors := by
  revert hm
  refine hr.induct (P := fun mid s' => (∀ b ∈ mid, b.isMove = false) → s'.halfturns = s.halfturns ∧
    s'.curr_halfturn = some i ∧ s'.hands = s.hands ∧ s'.hand_tensors = s.hand_tensors) (fun _ => ⟨rfl, hc, rfl, rfl⟩) ?_
  intro acts s1 act s2 _ ih he hm
  obtain ⟨i1, i2, i3, i4⟩ := ih (fun b hb => hm b (by simp [hb]))
  have ha := hm act (by simp)
  cases he with
  | dora | accept => exact ⟨i1, i2, i3, i4⟩
  | declare _ h1 h2 h3 =>
    rw [i2] at h1
    cases h1
    rw [i1, hh] at h2
    cases h2
    rw [during_not_post _ h3] at hp
    cases hp
  | draw | discard | call => simp [Act.isMove] at ha

theorem foundWhen_iff {h : Hand} {held : List Nat} (hk : ∀ k < 34, h k = (kindCount held k : Nat))
    {m : LogMeld} {t : Nat} (hv : m.Valid) (ho : m.own = false) (ht : m.tiles.2 = some t)
    (hr : t / 4 < 27 → (0 < h (34 + t / 4 / 9) ↔ Spec.redFive (t / 4 / 9) ∈ held)) :
    FoundWhen h (t / 4) (viewOf m.type m.source m.tiles.1 m.tiles.2) m.encode ↔ Noticed held t m := by
  have h36 : t / 36 = t / 4 / 9 := by omega
  have htlt : t < 136 := (tiles_lt m hv).2 t (by rw [ht]; simp)
  obtain ⟨su, hsu1, hsu2, hsu3⟩ := one_suit m hv ho
  have hst : t / 36 = su := hsu2 t (by rw [ht]; rfl)
  cases m with
  | chi src k x y z w =>
    have h3 : t / 36 < 3 := by rw [hst]; exact hsu3 rfl
    have h27 : t / 4 < 27 := by omega
    have hred : (LogMeld.chi src k x y z w).tiles.1.any isRedB = false ↔
        Spec.redFive (t / 36) ∉ (LogMeld.chi src k x y z w).tiles.1 := by
      rw [List.any_eq_false]
      constructor
      · intro hall hmem
        exact hall _ hmem (isRedB_isRed.2 ⟨_, h3, rfl⟩)
      · intro hno u hu hur
        obtain ⟨s', hs', rfl⟩ := isRedB_isRed.1 hur
        have : s' = t / 36 := by
          have := hsu1 _ hu
          unfold Spec.redFive at this
          omega
        rw [this] at hu
        exact hno hu
    unfold FoundWhen Noticed
    simp only [LogMeld.type, viewOf]
    rw [hr h27, hred, hk (t / 4) (by omega), ← h36]
    simp only [Int.ofNat_lt, show ((kindCount held (t / 4) : Nat) : Int) < 2 ↔ kindCount held (t / 4) < 2 by omega]
  | pon src k u w =>
    have hwh : (pattern_pon (LogMeld.pon src k u w).encode).which = w := by
      obtain ⟨h1, h2, h3, h4⟩ := hv
      rw [pattern_pon_which, LogMeld.encode]
      have e1 : (src + 8 + 32 * u + 512 * (k * 3 + w)) / 512 = k * 3 + w := by omega
      rw [e1, Nat.mod_eq_of_lt (show k * 3 + w < 128 by omega), show (k * 3 + w) % 3 = w by omega]
    unfold FoundWhen Noticed
    simp only [LogMeld.type, viewOf, ht, Option.any_some]
    rw [hwh, hk (t / 4) (by omega)]
    have hcr : isRedB t = true ↔ IsRed t := isRedB_isRed
    by_cases hrt : IsRed t
    · simp [hcr.2 hrt, hrt]
    · have hb : isRedB t = false := by
        cases hx : isRedB t with
        | false => rfl
        | true => exact absurd (hcr.1 hx) hrt
      rw [hb]
      simp only [Bool.false_eq_true, if_false, hrt, not_false_eq_true, true_and]
      have hcond : (t / 4 < 27 ∧ t / 4 % 9 = 4 ∧ 0 < h (34 + t / 4 / 9)) ↔
          (t / 4 < 27 ∧ t / 4 % 9 = 4 ∧ Spec.redFive (t / 36) ∈ held) := by
        rw [h36]
        constructor
        · rintro ⟨a, b, c⟩; exact ⟨a, b, (hr a).1 c⟩
        · rintro ⟨a, b, c⟩; exact ⟨a, b, (hr a).2 c⟩
      by_cases hany : ∃ x ∈ (LogMeld.pon src k u w).tiles.1, IsRed x
      · have hb2 : (LogMeld.pon src k u w).tiles.1.any isRedB = true := by
          obtain ⟨x, hx, hxr⟩ := hany
          exact List.any_eq_true.2 ⟨x, hx, isRedB_isRed.2 hxr⟩
        rw [hb2, if_pos rfl]
        constructor
        · intro h2
          refine ⟨fun _ => by omega, fun hno => ?_⟩
          obtain ⟨x, hx, hxr⟩ := hany
          exact absurd hxr (hno x hx)
        · intro h2
          have := h2.1 hany
          omega
      · have hb2 : (LogMeld.pon src k u w).tiles.1.any isRedB = false := by
          rw [List.any_eq_false]
          intro x hx hxr
          exact hany ⟨x, hx, isRedB_isRed.1 hxr⟩
        rw [hb2]
        simp only [Bool.false_eq_true, if_false]
        have hno : ∀ x ∈ (LogMeld.pon src k u w).tiles.1, ¬ IsRed x := fun x hx hxr => hany ⟨x, hx, hxr⟩
        by_cases hcd : t / 4 < 27 ∧ t / 4 % 9 = 4 ∧ Spec.redFive (t / 36) ∈ held
        · rw [if_pos (hcond.2 hcd)]
          constructor
          · rintro ⟨a, b⟩
            exact ⟨fun hx => absurd hx hany, fun _ => ⟨a, fun _ => by omega, fun hx => absurd hcd hx⟩⟩
          · rintro ⟨_, b⟩
            have := (b hno).2.1 hcd
            exact ⟨(b hno).1, by omega⟩
        · rw [if_neg (fun hx => hcd (hcond.1 hx))]
          constructor
          · rintro ⟨a, b⟩
            exact ⟨fun hx => absurd hx hany, fun _ => ⟨a, fun hx => absurd hx hcd, fun _ => by omega⟩⟩
          · rintro ⟨_, b⟩
            have := (b hno).2.2 hcd
            exact ⟨(b hno).1, by omega⟩
  | kakan => cases ho
  | minkan => simp [FoundWhen, Noticed, LogMeld.type, viewOf]
  | ankan => cases ho

theorem marked_iff {k : Nat} {l : List NakiDecision} (h : ∀ d ∈ l, d.executed = false) :
    (∃ d ∈ markNaki k l, d.executed = true) ↔ ∃ d ∈ l, d.naki.convenient_naki_code = k := by
  rcases markNaki_first k l with ⟨e, h'⟩ | ⟨l1, x, l2, e1, e2, e3, e4⟩
  · rw [e]
    constructor
    · rintro ⟨d, hd, hx⟩
      rw [h d hd] at hx
      cases hx
    · rintro ⟨d, hd, hx⟩
      exact absurd hx (h' d hd)
  · constructor
    · intro _
      exact ⟨x, by rw [e1]; simp, e3⟩
    · intro _
      exact ⟨{ x with executed := true }, by rw [e2]; simp, rfl⟩

/-- C119, exactly which calls are noticed: when player `p` calls player `q`'s discard `t`, the half-turn of that discard in
the finished round has a decision of `p` marked as executed iff the call is one of those described by `Noticed`. -/
theorem C119_call_noticed_partial {est : Estimate} {sh : List Int → Except PyErr Int} {g : GameInfo} {a : InitAttr}
    {c : RoundCfg} {s0 : RoundSt} (hi : initRound est sh g a = .ok (c, s0)) {hai : Nat → List Nat}
    (hhai : ∀ p < 4, a.hai p = .ok (hai p)) {pre post : List Act} {p q t : Nat} {s : RoundSt} {m : LogMeld}
    (hl : lastMove pre = some (.discard q t)) (hm : Takes m p q t)
    (hr : Reached c s0 (pre ++ .call p m.encode :: post) s) :
    ∃ s1 i o e ag n l held, Reached c s0 pre s1 ∧ s1.curr_halfturn = some i ∧ s.halfturns[i]? = some (.post q o e ag n) ∧
      n[p]? = some l ∧ Concealed hai pre p held ∧ ((∃ d ∈ l, d.executed = true) ↔ Noticed held t m) := by
  obtain ⟨s1, s2, h1, he, h2, h3⟩ := hr.at
  obtain ⟨pre1, mid, rfl, _, hmid⟩ := lastMove_split pre _ hl
  obtain ⟨sa, sb, b1, bE, b2, b3⟩ := h1.at
  cases he with
  | call e =>
  cases bE with
  | discard hq ed =>
    have hp := e.player_lt
    have htlt := ed.tile_lt
    have hqp : p ≠ q := by
      have := hm.source
      have := hm.other
      have hs4 : m.source < 4 := by
        have := hm.valid
        cases m <;> simp_all [LogMeld.Valid, LogMeld.source]
      omega
    have hcurr : sb.curr_halfturn = some (sa.halfturns.length + 1) := by
      rw [congrArg RoundSt.curr_halfturn ed.state_eq]
    have hturn : sb.halfturns[sa.halfturns.length + 1]? =
        some (.post q ed.o sa.encoding_tokens.length (spread ed.rons) ed.offers) := by
      rw [congrArg RoundSt.halfturns ed.state_eq]
      show (sa.halfturns ++ _)[sa.halfturns.length + 1]? = _
      rw [List.getElem?_append_right (by omega), Nat.add_sub_cancel_left]
      rfl
    obtain ⟨k1, k2, k3, k4⟩ := post_keeps b3 hcurr hturn rfl hmid
    have hei : e.i = sa.halfturns.length + 1 := by
      have := e.curr_eq
      rw [k2] at this
      simpa using this.symm
    have het : e.t = .post q ed.o sa.encoding_tokens.length (spread ed.rons) ed.offers := by
      have := e.turn_eq
      rw [k1, hei, hturn] at this
      simpa using this.symm
    have hlt1 : sa.halfturns.length + 1 < s1.halfturns.length := by
      rw [k1]
      exact (List.getElem?_eq_some_iff.1 hturn).1
    -- the half-turn after the call and at the end
    have hs2 : s2.halfturns[sa.halfturns.length + 1]? =
        some (.post q ed.o sa.encoding_tokens.length (spread ed.rons) (ed.offers.map (markNaki e.naki.convenient_naki_code))) := by
      rw [congrArg RoundSt.halfturns e.state_eq]
      show (s1.halfturns.set e.i (e.t.mark e.naki.convenient_naki_code) ++ _)[sa.halfturns.length + 1]? = _
      rw [List.getElem?_append_left (by simpa using hlt1), hei, List.getElem?_set_self (by simpa using hlt1), het]
      rfl
    have hs : s.halfturns[sa.halfturns.length + 1]? = s2.halfturns[sa.halfturns.length + 1]? := by
      refine (frozen h3 _ (List.getElem?_eq_some_iff.1 hs2).1 ?_).1
      rw [congrArg RoundSt.curr_halfturn e.state_eq]
      simp
    -- the offers
    have hk34 : t / 4 < 34 := by omega
    obtain ⟨ds, hds, hlen, _, hmem⟩ := C16_offer_lists q (discardTile sa q t).hand_tensors (t / 4)
      ((tile2idx t).length == 2) hq hk34
    have heq : ds = ed.offers := Except.ok.inj (hds.symm.trans ed.offers_eq)
    subst heq
    obtain ⟨l, hl0⟩ : ∃ l, ed.offers[p]? = some l := ⟨_, List.getElem?_eq_getElem (by omega)⟩
    obtain ⟨held, hc, hkind, hred⟩ := discard_hands hi hhai b1 (p := q) (t := t) hp hqp
    -- the hand is the same at the call
    have hheld : ∀ x, Holds hai pre1 p x ↔ Holds hai (pre1 ++ .discard q t :: mid) p x := by
      intro x
      rw [← C34_concealed hi hhai b1 p x hp, ← C34_concealed hi hhai h1 p x hp, k3, congrArg RoundSt.hands ed.state_eq]
      show sa.hands p x = 1 ↔ setAt sa.hands q _ p x = 1
      rw [setAt_ne _ _ _ _ hqp]
    refine ⟨s1, sa.halfturns.length + 1, ed.o, _, _, _, markNaki e.naki.convenient_naki_code l, held, h1, k2, hs.trans hs2, ?_,
      ⟨hc.1, fun x => (hc.2 x).trans (hheld x)⟩, ?_⟩
    · rw [List.getElem?_map, hl0]
      rfl
    rw [marked_iff (fun d hd => (hmem p l hl0 d hd).2.1)]
    -- recognised
    have hredx : ∀ s' < 3, (discardTile sa q t).hand_tensors p (34 + s') = if Spec.redFive s' ∈ held then 1 else 0 := by
      intro s' hs'
      obtain ⟨hbit, _, _, r1, r2, r3⟩ := C33_hand_tensors hi b1 p
      have hsame : (discardTile sa q t).hand_tensors p = sa.hand_tensors p := by
        show addRow sa.hand_tensors q _ _ p = _
        unfold addRow
        exact setAt_ne _ _ _ _ hqp
      have key : ∀ u, sa.hands p u = if u ∈ held then 1 else 0 := by
        intro u
        have h1 : u ∈ held ↔ sa.hands p u = 1 := by rw [hc.2 u, ← C34_concealed hi hhai b1 p u hp]
        have h2 := hbit u
        by_cases h : u ∈ held
        · rw [if_pos h]; exact h1.1 h
        · rw [if_neg h]
          have : sa.hands p u ≠ 1 := fun hx => h (h1.2 hx)
          omega
      rw [hsame]
      have : s' = 0 ∨ s' = 1 ∨ s' = 2 := by omega
      rcases this with rfl | rfl | rfl
      · rw [r1, key]; rfl
      · rw [r2, key]; rfl
      · rw [r3, key]; rfl
    have hexp : ∀ x ∈ m.tiles.1, x ∈ held := by
      intro x hx
      rw [hc.2 x, hheld x, ← C34_concealed hi hhai h1 p x hp]
      have hex := e.exposed_eq
      rw [(C93_tiles m hm.valid).1] at hex
      have : e.ex = m.tiles.1 := (congrArg Prod.fst (Except.ok.inj hex)).symm
      exact (expose_ok e.expose_eq).2.1 x (by rw [this]; exact hx)
    have hbacks := backs_of_held hc.1 hkind hredx hm.valid hm.open_ hexp
    have hview := view_encode m hm.valid
    have hok : HandOk ((discardTile sa q t).hand_tensors p) := by
      constructor
      · intro k
        show 0 ≤ addRow sa.hand_tensors q _ _ p k
        unfold addRow
        rw [setAt_ne _ _ _ _ hqp, (tableOk_reached hi b1).count p k]
        exact Int.natCast_nonneg _
      · intro s' hs'
        rw [hredx s' hs', hkind (9 * s' + 4) (by omega), black_count hc.1 s']
        by_cases hin : Spec.redFive s' ∈ held
        · simp only [hin, if_true]
          omega
        · simp only [hin, if_false]
          omega
    have hlegal : LegalCall q p ((discardTile sa q t).hand_tensors p) (t / 4) ((tile2idx t).length == 2) m.encode := by
      refine ⟨hp, hq, hqp, (C93_covers _).2 ⟨m, hm.valid, rfl⟩, hok, _, hview, ?_, ?_, ?_, ?_, ?_, hbacks⟩
      · have := hm.open_
        show m.type = .chi ∨ m.type = .pon ∨ m.type = .minkan
        cases m <;> simp_all [LogMeld.own, LogMeld.type]
      · show m.tiles.2.map (· / 4) = _
        rw [hm.called]
        rfl
      · show m.tiles.2.any isRedB = _
        rw [hm.called, red_flag htlt, Bool.eq_iff_iff]
        simp [isRedB, or_assoc]
      · show (m.source : Int) = _
        have := hm.source
        have hs4 : m.source < 4 := by
          have := hm.valid
          cases m <;> simp_all [LogMeld.Valid, LogMeld.source]
        omega
      · intro hty
        have := hm.left hty
        have := hm.source
        omega
    have hrec := C23_recognised_partial q p (discardTile sa q t).hand_tensors (t / 4) ((tile2idx t).length == 2) m.encode _
      hlegal hview
    rw [foundWhen_iff hkind hm.valid hm.open_ hm.called hred] at hrec
    rw [← hrec]
    constructor
    · rintro ⟨d, hd, hcd⟩
      exact ⟨_, l, d, ed.offers_eq, hl0, hd, by rw [hcd]; exact e.clean_eq⟩
    · rintro ⟨ds', l', d, e1, e2, hd, hcl⟩
      have := Except.ok.inj (e1.symm.trans ed.offers_eq)
      subst this
      rw [hl0] at e2
      cases e2
      refine ⟨d, hd, ?_⟩
      rw [e.clean_eq] at hcl
      exact (Except.ok.inj hcl).symm

theorem legalActs_unmarked : accepts (processRound noWin farAway ⟨0⟩ dealKan (logOf legalActs ++ [.result false (.ok [])]))
    (fun s => s.halfturns.all fun h => match h with
      | .post _ _ _ _ n => n.all fun l => l.all fun d => !d.executed
      | _ => true) = true := by
  decide +kernel

theorem legalActs_takes : Takes (.pon 1 10 3 2) 1 2 42 :=
  ⟨⟨by decide, by decide, by decide, by decide⟩, rfl, rfl, rfl, by decide, by intro h; cases h⟩

/-- C119 does not hold: player 1 calls pon on player 2's 3-pin in a legally played round, but no decision of player 1 at
that discard (and no decision on a discard at all) is marked as executed. -/
theorem C119_call_noticed_violated :
    ¬ ∀ (est : Estimate) (sh : List Int → Except PyErr Int) (g : GameInfo) (a : InitAttr) (c : RoundCfg) (s0 s : RoundSt)
      (pre post : List Act) (p q t : Nat) (m : LogMeld), initRound est sh g a = .ok (c, s0) →
      lastMove pre = some (.discard q t) → Takes m p q t → Reached c s0 (pre ++ .call p m.encode :: post) s →
      ∃ (i : Nat) (o : _) (e : _) (ag : _) (n : _) (l : _), s.halfturns[i]? = some (HalfTurn.post q o e ag n) ∧ n[p]? = some l ∧ ∃ d ∈ l, d.executed = true := by
  intro h
  obtain ⟨s, h1, h2⟩ := accepts_ok legalActs_unmarked
  obtain ⟨c, s0, h3, h4⟩ := accepted_exact (acts := legalActs) h1 rfl
  obtain ⟨i, o, e, ag, n, l, e1, e2, d, e3, e4⟩ := h noWin farAway ⟨0⟩ dealKan c s0 s (legalActs.take 11) [.discard 1 85]
    1 2 42 (.pon 1 10 3 2) h3 rfl legalActs_takes h4
  rw [List.all_eq_true] at h2
  have h5 := h2 _ (List.mem_of_getElem? e1)
  simp only [List.all_eq_true] at h5
  have h6 := h5 _ (List.mem_of_getElem? e2) _ e3
  rw [e4] at h6
  cases h6

/-- the hypotheses of C118 and C119 can be met -/
example : ∃ c s0 s, initRound noWin farAway ⟨0⟩ dealKan = .ok (c, s0) ∧
    Reached c s0 (legalActs.take 10 ++ .discard 2 42 :: [.call 1 (LogMeld.pon 1 10 3 2).encode, .discard 1 85]) s ∧
    Takes (.pon 1 10 3 2) 1 2 42 := by
  obtain ⟨s, h1, h2⟩ := accepts_ok legalActs_unmarked
  obtain ⟨c, s0, h3, h4⟩ := accepted_exact (acts := legalActs) h1 rfl
  exact ⟨c, s0, s, h3, h4, legalActs_takes⟩

instance (t : Nat) : Decidable (IsRed t) := decidable_of_iff (isRedB t = true) isRedB_isRed

/-- some calls are noticed: this pon, had it been written with the called tile as the lowest copy -/
example : Noticed [40, 41] 42 (.pon 1 10 3 0) ∧ ¬ Noticed [40, 41] 42 (.pon 1 10 3 2) := by
  constructor
  · refine ⟨by decide, by decide, fun _ => ⟨rfl, by decide, by decide⟩⟩
  · intro h
    exact absurd (h.2.2 (by decide)).1 (by decide)

end MJ
