import Verif.Spec.Tale
import Verif.Proofs.SuitCodes
import Verif.Props.Tokens
import Verif.Props.RoundOrder
import Verif.Props.RoundCalls
import Verif.Proofs.RulesCheck
import Verif.Props.RoundQuestions
/-!
Property C158: what can be read back from the tokens of a round.
-/
namespace MJ
open Spec Code

/-- a chi shows a red five from the hand iff it has one and does not call it -/
theorem chi_hand_red (x : Nat) (hx : x / 1024 < 63) :
    ((chiTiles x).eraseIdx (pattern_chi x).which).any isRedB =
      ((pattern_chi x).has_red && !decide ((pattern_chi x).number + (pattern_chi x).which = 4)) := by
  have hw : (pattern_chi x).which < 3 := by rw [pattern_chi_which]; omega
  have hn : (pattern_chi x).number < 7 := by rw [pattern_chi_number]; omega
  have hk : (pattern_chi x).color < 3 := by rw [pattern_chi_color]; omega
  have hr := pattern_chi_red x
  rw [Bool.eq_iff_iff, Bool.and_eq_true, hr, Bool.not_eq_true', decide_eq_false_iff_not]
  generalize (pattern_chi x).which = w at hw
  have : w = 0 ∨ w = 1 ∨ w = 2 := by omega
  rcases this with rfl | rfl | rfl <;> simp [chiTiles, isRedB_iff, List.eraseIdx] <;> omega

/-- the number of a chi: its lowest tile is number `n` of suit `a`, the tile in place `w` is called -/
def chiNumber (a n w : Nat) (r : Bool) : Int :=
  if r then 65 + 6 * a + n * 2 + ((n : Int) + w - 3) / 2 else 2 + 21 * a + 3 * n + w

/-- the number of a pon of kind `k` -/
def ponNumber (k : Nat) (r : Bool) : Int := if r then 110 + (k / 9 : Nat) else if 27 ≤ k then 86 + k else 83 + k

/-- a meld with all that is told about it and its number, before the player is added -/
inductive MeldTold (v : MeldView) (r : Bool) : Nat → Int → Prop
  | chi (a n w : Nat) : a < 3 → n < 7 → w < 3 → (r = true → 2 ≤ n ∧ n ≤ 4 ∧ n + w ≠ 4) → v.type = .chi →
      v.handKinds = [a * 9 + n, a * 9 + n + 1, a * 9 + n + 2].eraseIdx w → v.calledKind = some (a * 9 + n + w) →
      MeldTold v r 3 (chiNumber a n w r)
  | pon (k : Nat) : k < 34 → (r = true → k < 27 ∧ k % 9 = 4) → v.type = .pon → v.handKinds = [k, k] →
      v.calledKind = some k → MeldTold v r 3 (ponNumber k r)
  | minkan (k : Nat) : k < 34 → r = false → v.type = .minkan → v.handKinds = List.replicate 3 k →
      v.calledKind = some k → MeldTold v r 3 (120 + k)
  | kakan (k : Nat) : k < 34 → r = false → v.type = .kakan → v.handKinds = [k] → v.calledKind = none → MeldTold v r 2 (37 + k)
  | ankan (k : Nat) : k < 34 → r = false → v.type = .ankan → v.handKinds = List.replicate 4 k → v.calledKind = none →
      MeldTold v r 2 (3 + k)

theorem chi_told {c : Nat} (h : is_chi c = true) (w : WellFormed c) :
    ∃ v i, view c = some v ∧ v.type = .chi ∧ get_post_turn_filter_idx c = .ok i ∧ MeldTold v (redTold c v) 3 i := by
  obtain ⟨_, _, w3⟩ := wf_chi c h w
  have hr := chi_hand_red c w3
  have p1 := pattern_chi_color c
  have p2 := pattern_chi_number c
  have p3 := pattern_chi_which c
  refine ⟨_, chiNumber (pattern_chi c).color (pattern_chi c).number (pattern_chi c).which
    ((pattern_chi c).has_red && !decide ((pattern_chi c).number + (pattern_chi c).which = 4)), view_chi c h, rfl, ?_, ?_⟩
  · by_cases hx : redHandChi c
    · rw [post_chi_red c hx]
      simp [chiNumber, hx.2.1, hx.2.2]
    · rw [post_chi_plain c h hx]
      have : ((pattern_chi c).has_red && !decide ((pattern_chi c).number + (pattern_chi c).which = 4)) = false := by
        rw [← Bool.not_eq_true]
        intro hh
        simp at hh
        exact hx ⟨h, hh⟩
      rw [this, chiNumber, if_neg (by simp)]
      congr 1
      omega
  · have e : ∀ v : MeldView, v.type = .chi → redTold c v = v.handRed := by
      intro v hv; unfold redTold; rw [hv]
    rw [e _ rfl]
    show MeldTold _ (((chiTiles c).eraseIdx (pattern_chi c).which).any isRedB) _ _
    rw [← hr]
    refine .chi (pattern_chi c).color (pattern_chi c).number (pattern_chi c).which (by omega) (by omega) (by omega) ?_ rfl rfl rfl
    intro hh
    rw [hr] at hh
    simp only [Bool.and_eq_true, Bool.not_eq_true', decide_eq_false_iff_not, pattern_chi_red] at hh
    omega

theorem pon_told {c : Nat} (hc : is_chi c = false) (h : is_pon c = true) (w : WellFormed c) :
    ∃ v i, view c = some v ∧ v.type = .pon ∧ get_post_turn_filter_idx c = .ok i ∧ MeldTold v (redTold c v) 3 i := by
  have wf := wf_pon c hc h w
  have hk := pon_kind c wf.1
  obtain ⟨a, ha⟩ := ponTiles_which c
  have hcalled : calledTile c = some a := by simp [calledTile, get_exposed, hc, h, ha]
  have hred := pattern_pon_red c
  have hcp := pattern_pon_color c
  have hnp := pattern_pon_number c
  have hwp : (pattern_pon c).which = c / 512 % 3 := by rw [pattern_pon_which]; omega
  -- the last copy is called only in the last place
  have hlast : a % 4 = 3 → c / 512 % 3 ≠ 0 := by
    intro h3 h0
    rw [(pattern_pon_tiles c).2, ponTiles, hwp, h0] at ha
    rcases ponCopies_cases (c / 32 % 4) (by omega) with ⟨_, e⟩ | ⟨_, e⟩ | ⟨_, e⟩ | ⟨_, e⟩ <;> rw [e] at ha <;>
      simp at ha <;> omega
  have e : ∀ v : MeldView, v.type = .pon → v.handRed = (decide (c / 512 % 3 ≠ 0) && (pattern_pon c).has_red) →
      redTold c v = ((pattern_pon c).has_red && a % 4 == 3) := by
    intro v hv hh
    unfold redTold
    rw [hv, hcalled, hh]
    simp only [Option.any_some]
    by_cases h3 : a % 4 = 3
    · simp [h3, hlast h3]
    · have : (a % 4 == 3) = false := by simpa using h3
      rw [this, Bool.and_false, Bool.and_false]
  refine ⟨_, ponNumber (c / 512 / 3) ((pattern_pon c).has_red && a % 4 == 3), view_pon' c hc h w, rfl, ?_, ?_⟩
  · simp only [get_post_turn_filter_idx, hc, h, if_true, Bool.false_eq_true, if_false, ha]
    unfold ponNumber
    generalize hrr : ((pattern_pon c).has_red && a % 4 == 3) = rr
    have hr3 : rr = true → (pattern_pon c).color < 3 := by
      intro hh; rw [hh, Bool.and_eq_true] at hrr; exact (hred.1 hrr.1).1
    clear hred e hrr hlast
    generalize (pattern_pon c).color = col at *
    generalize (pattern_pon c).number = num at *
    by_cases h3 : col = 3
    · have : rr = false := by
        rw [← Bool.not_eq_true]; intro hh; have := hr3 hh; omega
      subst this
      simp only [h3, beq_self_eq_true, if_true, Bool.false_eq_true, if_false]
      rw [if_pos (by omega)]
      congr 1
      omega
    · have : (col == 3) = false := by simpa using h3
      rw [this]
      simp only [Bool.false_eq_true, if_false]
      cases rr
      · simp only [Bool.false_eq_true, if_false]
        rw [if_neg (by omega)]
        congr 1
        omega
      · simp only [if_true]
        congr 1
        omega
  · rw [e _ rfl rfl]
    refine .pon (c / 512 / 3) wf.2.2.2 ?_ rfl rfl rfl
    intro hh
    rw [Bool.and_eq_true] at hh
    obtain ⟨g1, g2, _⟩ := hred.1 hh.1
    omega

/-- every well-formed meld is of one of the five forms, and its token is made of its number -/
theorem naki_told {p c : Nat} (hp : p < 4) (w : WellFormed c) :
    ∃ v s i, view c = some v ∧ MeldTold v (redTold c v) s i ∧ 0 ≤ i ∧ i < 256 ∧ (s = 2 ∨ s = 3) ∧
      naki2idx p c = .ok (s * 8192 + 2 * 1024 + p * 256 + i.toNat) := by
  have flat : ∀ v : MeldView, v.type ≠ .chi → v.type ≠ .pon → redTold c v = false := by
    intro v h1 h2; unfold redTold; cases hv : v.type <;> simp_all
  have post : ∀ v i ty, meldType c = some ty → (ty = .chi ∨ ty = .pon ∨ ty = .minkan) → view c = some v →
      get_post_turn_filter_idx c = .ok i → MeldTold v (redTold c v) 3 i →
      ∃ v s i, view c = some v ∧ MeldTold v (redTold c v) s i ∧ 0 ≤ i ∧ i < 256 ∧ (s = 2 ∨ s = 3) ∧
      naki2idx p c = .ok (s * 8192 + 2 * 1024 + p * 256 + i.toNat) := by
    intro v i ty hty ht hv hi hm
    obtain ⟨n, hn, _, h2⟩ := naki_token p c hp ty hty
    obtain ⟨_, b2, b3⟩ := h2 ht
    rw [hi] at b2
    simp only [Except.ok.injEq] at b2
    subst b2
    exact ⟨v, 3, n, hv, hm, by omega, by omega, .inr rfl, by simpa using b3⟩
  have during : ∀ v (i : Nat) ty, meldType c = some ty → (ty = .kakan ∨ ty = .ankan) → view c = some v →
      get_during_turn_filter_idx c = .ok i → MeldTold v (redTold c v) 2 i →
      ∃ v s i, view c = some v ∧ MeldTold v (redTold c v) s i ∧ 0 ≤ i ∧ i < 256 ∧ (s = 2 ∨ s = 3) ∧
      naki2idx p c = .ok (s * 8192 + 2 * 1024 + p * 256 + i.toNat) := by
    intro v i ty hty ht hv hi hm
    obtain ⟨n, hn, h1, _⟩ := naki_token p c hp ty hty
    obtain ⟨_, b2, b3⟩ := h1 ht
    rw [hi] at b2
    simp only [Except.ok.injEq] at b2
    subst b2
    exact ⟨v, 2, i, hv, hm, by omega, by omega, .inl rfl, by simpa using b3⟩
  rcases Suits.wf_cases w with h0 | ⟨h0, h1⟩ | ⟨h0, h1, h2⟩ | ⟨h0, h1, h2, h3⟩ | ⟨h0, h1, h2, h3, h4⟩
  · obtain ⟨v, i, a1, a2, a3, a4⟩ := chi_told h0 w
    exact post v i .chi (by rw [meldType_eq]; simp [h0]) (.inl rfl) a1 a3 a4
  · obtain ⟨v, i, a1, a2, a3, a4⟩ := pon_told h0 h1 w
    exact post v i .pon (by rw [meldType_eq]; simp [h0, h1]) (.inr (.inl rfl)) a1 a3 a4
  · have wf := wf_kakan c h0 h1 h2 w
    refine during _ _ .kakan (by rw [meldType_eq]; simp [h0, h1, h2]) (.inl rfl) (view_kakan c h0 h1 h2) (during_kakan c h2) ?_
    rw [flat _ (by simp) (by simp)]
    have := MeldTold.kakan (v := { type := .kakan, source := c % 4
                                   handKinds := [(pattern_kakan c).color * 9 + (pattern_kakan c).number]
                                   calledKind := none
                                   handRed := decide (c / 32 % 4 = 0) &&
                                     fiveKind ((pattern_kakan c).color * 9 + (pattern_kakan c).number)
                                   calledRed := false }) (r := false) (c / 512 / 3) wf.2.2 rfl rfl
      (by show [_] = _; rw [kakan_kind c wf.1]) rfl
    rwa [show ((37 : Int) + (c / 512 / 3 : Nat)) = ((37 + c / 512 % 128 / 3 : Nat) : Int) by omega] at this
  · have wf := wf_minkan c h0 h1 h2 h3 w
    refine post _ _ .minkan (by rw [meldType_eq]; simp [h0, h1, h2, h3]) (.inr (.inr rfl)) (view_minkan c h0 h1 h2 h3)
      (post_minkan c h0 h1 h3) ?_
    rw [flat _ (by simp) (by simp)]
    have hk := minkan_kind c wf.1
    rw [hk]
    have := MeldTold.minkan (v := { type := .minkan, source := c % 4, handKinds := List.replicate 3 (c / 256 / 4)
                                    calledKind := some (c / 256 / 4)
                                    handRed := decide ((pattern_minkan c).which ≠ 0) && fiveKind (c / 256 / 4)
                                    calledRed := decide ((pattern_minkan c).which = 0) && fiveKind (c / 256 / 4) })
      (r := false) (c / 256 / 4) wf.2.2 rfl rfl rfl rfl
    rwa [show ((120 : Int) + (c / 256 / 4 : Nat)) = 120 + ((c / 256 % 256 / 4 : Nat) : Int) by omega] at this
  · have wf := wf_ankan c h0 h1 h2 h3 h4 w
    refine during _ _ .ankan (by rw [meldType_eq]; simp [h0, h1, h2, h3, h4]) (.inr rfl) (view_ankan c h0 h1 h2 h3 h4)
      (during_ankan c h4) ?_
    rw [flat _ (by simp) (by simp)]
    have hk := ankan_kind c wf.1
    rw [hk]
    have := MeldTold.ankan (v := { type := .ankan, source := c % 4, handKinds := List.replicate 4 (c / 256 / 4)
                                   calledKind := none, handRed := fiveKind (c / 256 / 4), calledRed := false })
      (r := false) (c / 256 / 4) wf.2.2 rfl rfl rfl rfl
    rwa [show ((3 : Int) + (c / 256 / 4 : Nat)) = ((3 + c / 256 % 256 / 4 : Nat) : Int) by omega] at this

/-- two melds on tiles of the same kind have the same number iff they agree in what is told about them -/
theorem same_told {v v' : MeldView} {r r' : Bool} {s s' : Nat} {i i' : Int} (h : MeldTold v r s i) (h' : MeldTold v' r' s' i')
    (hk : ∀ k k', v.calledKind = some k → v'.calledKind = some k' → k = k') :
    (s = s' ∧ i = i') ↔ (v.type = v'.type ∧ v.handKinds = v'.handKinds ∧ v.calledKind = v'.calledKind ∧ r = r') := by
  cases h with
  | chi a n w ha hn hw hr ht hh hc =>
    cases h' with
    | chi a' n' w' ha' hn' hw' hr' ht' hh' hc' =>
      have e := hk _ _ hc hc'
      rw [ht, ht', hh, hh', hc, hc']
      unfold chiNumber
      constructor
      · rintro ⟨_, h⟩
        have : a = a' ∧ n = n' ∧ w = w' ∧ r = r' := by
          cases r <;> cases r' <;> simp only [Bool.false_eq_true, if_false, if_true, false_implies, true_implies] at * <;>
            refine ⟨?_, ?_, ?_, ?_⟩ <;> first | rfl | omega
        obtain ⟨rfl, rfl, rfl, rfl⟩ := this
        exact ⟨rfl, rfl, rfl, rfl⟩
      · rintro ⟨_, h, _, rfl⟩
        obtain ⟨h1, rfl⟩ := eraseIdx3_inj _ _ _ _ hw hw' h e
        have : a = a' ∧ n = n' := by omega
        obtain ⟨rfl, rfl⟩ := this
        exact ⟨rfl, rfl⟩
    | pon k' hk' hr' ht' hh' hc' =>
      have e := hk _ _ hc hc'
      rw [ht, ht']
      simp only [reduceCtorEq, false_and, iff_false, not_and]
      unfold chiNumber ponNumber
      intro _
      cases r <;> cases r' <;> simp only [Bool.false_eq_true, if_false, if_true, false_implies, true_implies] at * <;>
        repeat' split
      all_goals omega
    | minkan k' hk' hr' ht' hh' hc' =>
      rw [ht, ht']
      simp only [reduceCtorEq, false_and, iff_false, not_and]
      unfold chiNumber
      intro _
      split <;> omega
    | kakan k' hk' hr' ht' => rw [ht, ht']; simp
    | ankan k' hk' hr' ht' => rw [ht, ht']; simp
  | pon k hk0 hr ht hh hc =>
    cases h' with
    | chi a' n' w' ha' hn' hw' hr' ht' hh' hc' =>
      have e := hk _ _ hc hc'
      rw [ht, ht']
      simp only [reduceCtorEq, false_and, iff_false, not_and]
      unfold chiNumber ponNumber
      intro _
      cases r <;> cases r' <;> simp only [Bool.false_eq_true, if_false, if_true, false_implies, true_implies] at * <;>
        repeat' split
      all_goals omega
    | pon k' hk' hr' ht' hh' hc' =>
      obtain rfl := hk _ _ hc hc'
      rw [ht, ht', hh, hh', hc, hc']
      unfold ponNumber
      constructor
      · rintro ⟨_, h⟩
        refine ⟨rfl, rfl, rfl, ?_⟩
        cases r <;> cases r' <;> simp only [Bool.false_eq_true, if_false, if_true, false_implies, true_implies] at * <;>
          (split at h <;> omega)
      · rintro ⟨_, _, _, rfl⟩
        exact ⟨rfl, rfl⟩
    | minkan k' hk' hr' ht' hh' hc' =>
      rw [ht, ht']
      simp only [reduceCtorEq, false_and, iff_false, not_and]
      unfold ponNumber
      intro _
      split
      · omega
      · split <;> omega
    | kakan k' hk' hr' ht' => rw [ht, ht']; simp
    | ankan k' hk' hr' ht' => rw [ht, ht']; simp
  | minkan k hk0 hr ht hh hc =>
    cases h' with
    | chi a' n' w' ha' hn' hw' hr' ht' hh' hc' =>
      rw [ht, ht']
      simp only [reduceCtorEq, false_and, iff_false, not_and]
      unfold chiNumber
      intro _
      split <;> omega
    | pon k' hk' hr' ht' hh' hc' =>
      rw [ht, ht']
      simp only [reduceCtorEq, false_and, iff_false, not_and]
      unfold ponNumber
      intro _
      split
      · omega
      · split <;> omega
    | minkan k' hk' hr' ht' hh' hc' =>
      obtain rfl := hk _ _ hc hc'
      rw [ht, ht', hh, hh', hc, hc', hr, hr']
      simp
    | kakan k' hk' hr' ht' => rw [ht, ht']; simp
    | ankan k' hk' hr' ht' => rw [ht, ht']; simp
  | kakan k hk0 hr ht hh hc =>
    cases h' with
    | kakan k' hk' hr' ht' hh' hc' =>
      rw [ht, ht', hh, hh', hc, hc', hr, hr']
      simp only [List.cons.injEq, and_true, true_and]
      omega
    | ankan k' hk' hr' ht' hh' hc' =>
      rw [ht, ht']
      simp only [reduceCtorEq, false_and, iff_false, not_and]
      omega
    | chi a' n' w' _ _ _ _ ht' => rw [ht, ht']; simp
    | pon k' _ _ ht' => rw [ht, ht']; simp
    | minkan k' _ _ ht' => rw [ht, ht']; simp
  | ankan k hk0 hr ht hh hc =>
    cases h' with
    | kakan k' hk' hr' ht' hh' hc' =>
      rw [ht, ht']
      simp only [reduceCtorEq, false_and, iff_false, not_and]
      omega
    | ankan k' hk' hr' ht' hh' hc' =>
      rw [ht, ht', hh, hh', hc, hc', hr, hr']
      simp only [List.replicate_succ, List.replicate_zero, List.cons.injEq, and_true, true_and, and_self]
      omega
    | chi a' n' w' _ _ _ _ ht' => rw [ht, ht']; simp
    | pon k' _ _ ht' => rw [ht, ht']; simp
    | minkan k' _ _ ht' => rw [ht, ht']; simp

/-! ### streams -/

/-- players, tiles and melds as they occur in logs, and calls of tiles of the kind discarded last -/
structure PlainLog (acts : List Act) : Prop where
  discard : ∀ p t, Act.discard p t ∈ acts → p < 4 ∧ t < 136
  accept : ∀ p, Act.accept p ∈ acts → p < 4
  dora : ∀ t, Act.dora t ∈ acts → t < 136
  call : ∀ p c, Act.call p c ∈ acts → p < 4 ∧ WellFormed c
  kinds : KindsCalled acts

theorem PlainLog.init {l : List Act} {x : Act} (h : PlainLog (l ++ [x])) : PlainLog l where
  discard p t hm := h.discard p t (List.mem_append_left _ hm)
  accept p hm := h.accept p (List.mem_append_left _ hm)
  dora t hm := h.dora t (List.mem_append_left _ hm)
  call p c hm := h.call p c (List.mem_append_left _ hm)
  kinds pre p c post v k e := h.kinds pre p c (post ++ [x]) v k (by rw [e]; simp)

theorem tale_snoc (last : Option Act) (l : List Act) (a : Act) :
    tale last (l ++ [a]) = tale last l ++ taleOf ((lastMove l).or last) a := by
  induction l generalizing last with
  | nil => simp [tale, lastMove]
  | cons b bs ih =>
    rw [List.cons_append, tale, ih, tale, List.append_assoc]
    congr 3
    unfold lastMove
    by_cases hb : b.isMove = true
    · rw [List.filter_cons_of_pos hb, if_pos hb, List.getLast?_cons]
      cases (bs.filter Act.isMove).getLast? <;> simp
    · rw [List.filter_cons_of_neg hb, if_neg hb]

/-- the kind of the discard, if it is one -/
def TaleEvent.thrown : TaleEvent → Option Nat
  | .discard _ k _ => some k
  | _ => none

/-- what was discarded last is told -/
theorem tale_last {l : List Act} {q t : Nat} (h : lastMove l = some (.discard q t)) :
    ((tale none l).filterMap TaleEvent.thrown).getLast? = some (t / 4) := by
  induction l using List.reverseRecOn with
  | nil => simp [lastMove] at h
  | append_singleton l x ih =>
    rw [tale_snoc, List.filterMap_append]
    rw [lastMove_snoc] at h
    cases x with
    | discard p u =>
      simp [Act.isMove] at h
      simp [taleOf, TaleEvent.thrown, h.2]
    | draw p u => simp [Act.isMove] at h
    | call p c => simp [Act.isMove] at h
    | dora u => simpa [taleOf, TaleEvent.thrown] using ih (by simpa [Act.isMove] using h)
    | declare p => simpa [taleOf, TaleEvent.thrown] using ih (by simpa [Act.isMove] using h)
    | accept p => simpa [taleOf, TaleEvent.thrown] using ih (by simpa [Act.isMove] using h)

/-- an event that is told, with its token and what is told of it -/
inductive Loud (last : Option Act) : Act → Nat → TaleEvent → Prop
  | dora (t : Nat) : t < 136 → Loud last (.dora t) (4 * 8192 + 4 * 1024 + t / 4) (.dora (t / 4))
  | accept (p : Nat) : p < 4 → Loud last (.accept p) (2 * 8192 + 3 * 1024 + p * 256 + 2) (.riichi p)
  | discard (p t : Nat) (b : Bool) : p < 4 → t < 136 →
      Loud last (.discard p t) (1 * 8192 + 2 * 1024 + p * 256 + (b.toNat * 128 + t / 4)) (.discard p (t / 4) b)
  | call (p c : Nat) (v : MeldView) (s : Nat) (i : Int) : p < 4 → view c = some v → MeldTold v (redTold c v) s i → 0 ≤ i →
      i < 256 → s = 2 ∨ s = 3 →
      Loud last (.call p c) (s * 8192 + 2 * 1024 + p * 256 + i.toNat)
        (.meld p v.type v.handKinds v.calledKind (redTold c v))

/-- every event of a log is told, with a token, or leaves no trace -/
theorem loud_or_silent {l : List Act} {x : Act} (h : PlainLog (l ++ [x])) (last : Option Act) :
    (tokenOf last x = [] ∧ taleOf last x = []) ∨
    ∃ n e, tokenOf last x = [.ok n] ∧ taleOf last x = [e] ∧ Loud last x n e := by
  have hm : x ∈ l ++ [x] := by simp
  cases x with
  | dora t =>
    have ht := h.dora t hm
    refine .inr ⟨_, _, ?_, rfl, .dora t ht⟩
    rw [tokenOf, dora_token _ (by omega)]
  | accept p =>
    have hp := h.accept p hm
    exact .inr ⟨_, _, by rw [tokenOf, reach_token _ hp], rfl, .accept p hp⟩
  | discard p t =>
    obtain ⟨hp, ht⟩ := h.discard p t hm
    exact .inr ⟨_, _, by rw [tokenOf, discard_token _ _ _ hp (by omega)], rfl, .discard p t _ hp ht⟩
  | call p c =>
    obtain ⟨hp, w⟩ := h.call p c hm
    obtain ⟨v, s, i, a1, a2, a3, a4, a5, a6⟩ := naki_told hp w
    exact .inr ⟨_, _, by rw [tokenOf, a6], by rw [taleOf, a1]; rfl, .call p c v s i hp a1 a2 a3 a4 a5⟩
  | declare p => exact .inl ⟨rfl, rfl⟩
  | draw p t => exact .inl ⟨rfl, rfl⟩

theorem loud_iff {l l' : List Act} {x x' : Act} (h : PlainLog (l ++ [x])) (h' : PlainLog (l' ++ [x']))
    (hl : tale none l = tale none l') {last last' : Option Act} {n n' : Nat} {e e' : TaleEvent} (hx : Loud last x n e)
    (hx' : Loud last' x' n' e') : n = n' ↔ e = e' := by
  cases hx with
  | dora t ht =>
    cases hx' with
    | dora t' ht' => simp only [TaleEvent.dora.injEq]; omega
    | accept p' hp' => simp only [reduceCtorEq, iff_false]; omega
    | discard p' t' b' hp' ht' => have := Bool.toNat_le b'; simp only [reduceCtorEq, iff_false]; omega
    | call p' c' v' s' i' hp' hv' hm' h0' h1' hs' => simp only [reduceCtorEq, iff_false]; omega
  | accept p hp =>
    cases hx' with
    | dora t' ht' => simp only [reduceCtorEq, iff_false]; omega
    | accept p' hp' => simp only [TaleEvent.riichi.injEq]; omega
    | discard p' t' b' hp' ht' => have := Bool.toNat_le b'; simp only [reduceCtorEq, iff_false]; omega
    | call p' c' v' s' i' hp' hv' hm' h0' h1' hs' => simp only [reduceCtorEq, iff_false]; omega
  | discard p t b hp ht =>
    have hb := Bool.toNat_le b
    cases hx' with
    | dora t' ht' => simp only [reduceCtorEq, iff_false]; omega
    | accept p' hp' => simp only [reduceCtorEq, iff_false]; omega
    | discard p' t' b' hp' ht' =>
      have := Bool.toNat_le b'
      simp only [TaleEvent.discard.injEq]
      constructor
      · intro hh
        refine ⟨by omega, by omega, ?_⟩
        have : b.toNat = b'.toNat := by omega
        cases b <;> cases b' <;> simp_all
      · rintro ⟨rfl, e, rfl⟩
        rw [e]
    | call p' c' v' s' i' hp' hv' hm' h0' h1' hs' => simp only [reduceCtorEq, iff_false]; omega
  | call p c v s i hp hv hm h0 h1 hs =>
    cases hx' with
    | dora t' ht' => simp only [reduceCtorEq, iff_false]; omega
    | accept p' hp' => simp only [reduceCtorEq, iff_false]; omega
    | discard p' t' b' hp' ht' => have := Bool.toNat_le b'; simp only [reduceCtorEq, iff_false]; omega
    | call p' c' v' s' i' hp' hv' hm' h0' h1' hs' =>
      have hk : ∀ k k', v.calledKind = some k → v'.calledKind = some k' → k = k' := by
        intro k k' e1 e2
        obtain ⟨q, t, g1, g2⟩ := h.kinds l p c [] v k rfl hv e1
        obtain ⟨q', t', g3, g4⟩ := h'.kinds l' p' c' [] v' k' rfl hv' e2
        have j1 := tale_last g1
        have j2 := tale_last g3
        rw [hl, j2] at j1
        simp only [Option.some.injEq] at j1
        omega
      have key := same_told hm hm' hk
      simp only [TaleEvent.meld.injEq]
      constructor
      · intro hh
        exact ⟨by omega, key.1 ⟨by omega, by omega⟩⟩
      · rintro ⟨rfl, hh⟩
        obtain ⟨rfl, rfl⟩ := key.2 hh
        rfl

theorem snoc_iff {α β : Type} {a a' : List α} {x x' : α} {b b' : List β} {y y' : β} (h : a = a' ↔ b = b')
    (h2 : b = b' → (x = x' ↔ y = y')) : a ++ [x] = a' ++ [x'] ↔ b ++ [y] = b' ++ [y'] := by
  rw [List.append_singleton_inj, List.append_singleton_inj, h]
  exact ⟨fun ⟨h3, h4⟩ => ⟨h3, (h2 h3).1 h4⟩, fun ⟨h3, h4⟩ => ⟨h3, (h2 h3).2 h4⟩⟩

/-- C158: two logs have the same tokens iff they tell the same: the same players discard tiles of the same kinds, drawn or
not, make melds of the same types with tiles of the same kinds, pay for a riichi, and the same kinds of indicators are
turned, in the same order.  Missing from the full statement: what `redTold` leaves out of the red fives. -/
theorem C158_tale_partial {acts acts' : List Act} (h : PlainLog acts) (h' : PlainLog acts') :
    tokenStream none acts = tokenStream none acts' ↔ tale none acts = tale none acts' := by
  generalize hn : acts.length + acts'.length = n
  induction n using Nat.strongRecOn generalizing acts acts' with
  | _ n ih =>
    rcases List.eq_nil_or_concat acts with rfl | ⟨l, x, e⟩
    · rcases List.eq_nil_or_concat acts' with rfl | ⟨l', x', e'⟩
      · simp [tokenStream, tale]
      · rw [List.concat_eq_append] at e'
        subst e'
        have := ih _ (by simp at hn ⊢; omega) h h'.init rfl
        rw [tokenStream_snoc, tale_snoc]
        rcases loud_or_silent h' ((lastMove l').or none) with ⟨g1, g2⟩ | ⟨n', e', g1, g2, _⟩
        · rw [g1, g2, List.append_nil, List.append_nil]; exact this
        · rw [g1, g2]; simp [tokenStream, tale]
    · rw [List.concat_eq_append] at e
      subst e
      rcases loud_or_silent h ((lastMove l).or none) with ⟨k1, k2⟩ | ⟨m, e, k1, k2, k3⟩
      · have := ih _ (by simp at hn ⊢; omega) h.init h' rfl
        rw [tokenStream_snoc, tale_snoc, k1, k2, List.append_nil, List.append_nil]
        exact this
      · rcases List.eq_nil_or_concat acts' with rfl | ⟨l', x', e'⟩
        · rw [tokenStream_snoc, tale_snoc, k1, k2]; simp [tokenStream, tale]
        · rw [List.concat_eq_append] at e'
          subst e'
          rcases loud_or_silent h' ((lastMove l').or none) with ⟨g1, g2⟩ | ⟨m', e', g1, g2, g3⟩
          · have := ih _ (by simp at hn ⊢; omega) h h'.init rfl
            rw [tokenStream_snoc none l', tale_snoc none l', g1, g2, List.append_nil, List.append_nil]
            exact this
          · have := ih _ (by simp at hn ⊢; omega) h.init h'.init rfl
            rw [tokenStream_snoc, tale_snoc, tokenStream_snoc, tale_snoc, k1, k2, g1, g2]
            refine snoc_iff this ?_
            intro hl
            rw [Except.ok.injEq]
            exact loud_iff h h' hl k3 g3

/-- a called tile is the one discarded last -/
theorem kinds_of_claims {acts : List Act} (hw : ∀ p c, Act.call p c ∈ acts → WellFormed c) (hp : ProperCalls acts) :
    KindsCalled acts := by
  intro pre p c post v k e hv hk
  obtain ⟨m, hm, rfl⟩ := (C93_covers c).1 (hw p c (by rw [e]; simp))
  rw [view_encode m hm] at hv
  simp only [Option.some.injEq] at hv
  subst hv
  simp only [viewOf] at hk
  cases ht : m.tiles.2 with
  | none => rw [ht] at hk; simp at hk
  | some t =>
    rw [ht] at hk
    simp only [Option.map_some, Option.some.injEq] at hk
    obtain ⟨q, _, hl⟩ := hp.claims pre p m post t e hm ht
    exact ⟨q, t, hl, hk⟩

/-- the log of an accepted round, with calls by the rules, is as required -/
theorem plain_of_round {c : RoundCfg} {s0 : RoundSt} {acts : List Act} {s : RoundSt}
    (hr : Reached c s0 acts s) (hw : ∀ p c, Act.call p c ∈ acts → WellFormed c) (hp : ProperCalls acts) : PlainLog acts where
  discard p t hm := by
    obtain ⟨pre, post, rfl⟩ := List.append_of_mem hm
    obtain ⟨s1, s2, _, he, _⟩ := hr.at
    cases he with
    | discard hp e => exact ⟨hp, e.tile_lt⟩
  accept p hm := by
    obtain ⟨pre, post, rfl⟩ := List.append_of_mem hm
    obtain ⟨s1, s2, _, he, _⟩ := hr.at
    cases he with
    | accept hp => exact hp
  dora t hm := by
    obtain ⟨pre, post, rfl⟩ := List.append_of_mem hm
    obtain ⟨s1, s2, _, he, _⟩ := hr.at
    cases he with
    | dora ht => exact ht
  call p c hm := by
    refine ⟨?_, hw p c hm⟩
    obtain ⟨pre, post, rfl⟩ := List.append_of_mem hm
    obtain ⟨s1, s2, _, he, _⟩ := hr.at
    cases he with
    | call e => exact e.player_lt
  kinds := kinds_of_claims hw hp

/-- C158: rounds that were read have the same tokens iff they tell the same. -/
theorem C158_rounds_partial {est est' : Estimate} {sh sh' : List Int → Except PyErr Int} {g g' : GameInfo} {a a' : InitAttr}
    {c c' : RoundCfg} {s0 s0' : RoundSt} (hi : initRound est sh g a = .ok (c, s0))
    (hi' : initRound est' sh' g' a' = .ok (c', s0')) {acts acts' : List Act} {s s' : RoundSt} (hr : Reached c s0 acts s)
    (hr' : Reached c' s0' acts' s') (hw : ∀ p c, Act.call p c ∈ acts → WellFormed c)
    (hw' : ∀ p c, Act.call p c ∈ acts' → WellFormed c) (hp : ProperCalls acts) (hp' : ProperCalls acts') :
    s.encoding_tokens = s'.encoding_tokens ↔ tale none acts = tale none acts' := by
  rw [← C158_tale_partial (plain_of_round hr hw hp) (plain_of_round hr' hw' hp'), ← C44_tokens hi hr, ← C44_tokens hi' hr']
  constructor
  · intro h; rw [h]
  · intro h
    exact List.map_injective_iff.2 (fun x y h => by simpa using h) h

/-- the log of a round that was played by the rules is as required -/
theorem plain_of_rules {r : LogRound} (h : PlayedByRules r) : PlainLog r.acts := by
  obtain ⟨_, _, _, _, _, first, _, hd, hl⟩ := h.deal
  have at' : ∀ x ∈ r.acts, ∃ pre, MayFollow r.hai first pre x := by
    intro x hx
    obtain ⟨pre, post, e⟩ := List.append_of_mem hx
    exact ⟨pre, hl pre x post e⟩
  have hw : ∀ p c, Act.call p c ∈ r.acts → p < 4 ∧ WellFormed c := by
    intro p c hm
    obtain ⟨pre, hp, m, hv, e, _⟩ := at' _ hm
    exact ⟨hp, (C93_covers c).2 ⟨m, hv, e.symm⟩⟩
  refine ⟨?_, ?_, ?_, hw, kinds_of_claims (fun p c hm => (hw p c hm).2) h.calls⟩
  · intro p t hm
    obtain ⟨pre, post, e⟩ := List.append_of_mem hm
    obtain ⟨hp, _, hh⟩ := hl pre _ post e
    refine ⟨hp, ?_⟩
    rcases hh with ⟨h1, _⟩ | ⟨p1, p2, h1, _⟩
    · refine hd.tiles t ?_
      have : p = 0 ∨ p = 1 ∨ p = 2 ∨ p = 3 := by omega
      rcases this with rfl | rfl | rfl | rfl <;> simp [h1]
    · obtain ⟨_, _, hu⟩ := hl p1 (.draw p t) (p2 ++ .discard p t :: post) (by rw [e, h1]; simp)
      exact hu.1
  · intro p hm
    obtain ⟨pre, hp, _⟩ := at' _ hm
    exact hp
  · intro t hm
    obtain ⟨pre, hp, _⟩ := at' _ hm
    exact hp

/-- C158: rounds played by the rules have the same tokens iff they tell the same. -/
theorem C158_rules_partial {r r' : LogRound} (h : PlayedByRules r) (h' : PlayedByRules r') :
    tokenStream none r.acts = tokenStream none r'.acts ↔ tale none r.acts = tale none r'.acts :=
  C158_tale_partial (plain_of_rules h) (plain_of_rules h')

/-! ### what is not told -/

/-- the other tiles of the deals below -/
def otherDeal (t : Nat) (own : List Nat) : LogRound :=
  { hai := fun p => if p = 1 then own ++ List.range' 33 11 else List.range' (60 + 13 * p) 13
    ten := [250, 250, 250, 250], dealer := 0, seed := [0, 0, 0, 1, 1, 130], acts := [.draw 0 t, .discard 0 t]
    results := [(false, [0, 0, 0, 0])] }

/-- C158: whether a discard is a red five is not told: drawing and discarding the red or a black five of characters. -/
theorem C158_discard_violated : ∃ r r' : LogRound, PlayedByRules r ∧ PlayedByRules r' ∧
    tokenStream none r.acts = tokenStream none r'.acts ∧ Act.discard 0 16 ∈ r.acts ∧ ∀ p, Act.discard p 16 ∉ r'.acts := by
  refine ⟨otherDeal 16 [20, 21], otherDeal 17 [20, 21], ?_, ?_, ?_, ?_, ?_⟩
  · rw [← checkRules_iff]; decide +kernel
  · rw [← checkRules_iff]; decide +kernel
  · decide +kernel
  · simp [otherDeal]
  · intro p; simp [otherDeal]

/-- the same with a pon by the next player -/
def ponDeal (own : List Nat) (m : LogMeld) : LogRound :=
  { otherDeal 18 own with acts := [.draw 0 18, .discard 0 18, .call 1 m.encode] }

/-- C158: whether a pon takes the red five from the hand is not told either: the third five is called by somebody with
the red and a black five, or with two black ones. -/
theorem C158_pon_violated : ∃ (r r' : LogRound) (pre : List Act) (m m' : LogMeld), PlayedByRules r ∧ PlayedByRules r' ∧
    tokenStream none r.acts = tokenStream none r'.acts ∧ m.Valid ∧ m'.Valid ∧ r.acts = pre ++ [.call 1 m.encode] ∧
    r'.acts = pre ++ [.call 1 m'.encode] ∧ m.tiles = ([16, 17], some 18) ∧ m'.tiles = ([17, 19], some 18) := by
  refine ⟨ponDeal [16, 17] (.pon 3 4 3 2), ponDeal [17, 19] (.pon 3 4 0 1), [.draw 0 18, .discard 0 18],
    .pon 3 4 3 2, .pon 3 4 0 1, ?_, ?_, ?_, by simp [LogMeld.Valid], by simp [LogMeld.Valid], rfl, rfl, by decide, by decide⟩
  · rw [← checkRules_iff]; decide +kernel
  · rw [← checkRules_iff]; decide +kernel
  · decide +kernel

/-- When the last copy is called, the red five of a pon is told. -/
example : tokenStream none [.draw 0 19, .discard 0 19, .call 1 (LogMeld.pon 3 4 2 2).encode] ≠
    tokenStream none [.draw 0 19, .discard 0 19, .call 1 (LogMeld.pon 3 4 0 2).encode] ∧
    tale none [.draw 0 19, .discard 0 19, .call 1 (LogMeld.pon 3 4 2 2).encode] =
      [.discard 0 4 true, .meld 1 .pon [4, 4] (some 4) true] := by decide +kernel

/-- Out of context the numbers say less: the token of the same call can mean a chi of the 6 or of the 7. -/
example : naki2idx 1 0x34A7 = naki2idx 1 0x38A7 ∧ (view 0x34A7).map (·.calledKind) ≠ (view 0x38A7).map (·.calledKind) ∧
    tale none [.draw 0 20, .discard 0 20, .call 1 0x34A7] = [.discard 0 5 true, .meld 1 .chi [4, 6] (some 5) true] := by
  decide +kernel

end MJ
