import Verif.Spec.OwnTurn
import Verif.Props.RoundFlags
import Verif.Props.RoundTiles
import Verif.Props.RoundTurns
import Verif.Props.MeldCodec
import Verif.Props.MeldLog
/-!
C103-C106: what is offered in the own turn.
-/
namespace MJ
open Code Spec

/-- the during-turn that a draw appends -/
theorem draw_turn {c : RoundCfg} {s0 : RoundSt} {pre post : List Act} {p t : Nat} {s : RoundSt}
    (hr : Reached c s0 (pre ++ .draw p t :: post) s) :
    ∃ s1 s2, Reached c s0 pre s1 ∧ Reached c s0 (pre ++ [.draw p t]) s2 ∧ Reached c s2 post s ∧ p < 4 ∧
      Nonempty (DrawDone c s1 s2 p t) := by
  obtain ⟨s1, s2, h1, h2, h3, h4⟩ := hr.at
  cases h2 with
  | draw hp e => exact ⟨s1, s2, h1, h3, h4, hp, ⟨e⟩⟩

theorem any_open {acts : List Act} {p : Nat} : acts.any (openCallBy p) = true ↔ HasOpened acts p := by
  unfold HasOpened
  rw [List.any_eq_true]
  constructor
  · rintro ⟨b, hb, h⟩
    cases b with
    | call q c =>
      simp only [openCallBy, Bool.and_eq_true, beq_iff_eq, bne_iff_ne, decide_eq_true_eq] at h
      obtain ⟨rfl, h⟩ := h
      exact ⟨c, hb, h⟩
    | _ => simp [openCallBy] at h
  · rintro ⟨c, hb, h⟩
    exact ⟨_, hb, by simp [openCallBy, h]⟩

/-- the concealed tiles as a list -/
theorem concealed_list {est : Estimate} {sh : List Int → Except PyErr Int} {g : GameInfo} {a : InitAttr}
    {c : RoundCfg} {s0 : RoundSt} (hi : initRound est sh g a = .ok (c, s0)) {hai : Nat → List Nat}
    (hhai : ∀ p < 4, a.hai p = .ok (hai p)) {acts : List Act} {s : RoundSt} (hr : Reached c s0 acts s)
    (p : Nat) (hp : p < 4) :
    ∃ held, Concealed hai acts p held ∧ ∀ k < 34, s.hand_tensors p k = (kindCount held k : Nat) := by
  obtain ⟨_, hbig, hk, _⟩ := C33_hand_tensors hi hr p
  refine ⟨(List.range 136).filter (fun t => s.hands p t == 1), ⟨List.Pairwise.filter _ List.nodup_range, ?_⟩, ?_⟩
  · intro t
    rw [List.mem_filter, List.mem_range, beq_iff_eq, ← C34_concealed hi hhai hr p t hp]
    constructor
    · exact fun h => h.2
    · intro h
      refine ⟨?_, h⟩
      by_cases ht : t < 136
      · exact ht
      · have := hbig t (by omega)
        omega
  · intro k hk'
    rw [hk k hk', kindCount, List.countP_eq_length_filter, List.filter_filter]
    congr 3
    funext t
    rw [Bool.and_comm]

/-! ### C103 -/

/-- C103, what holds: at a draw riichi is offered, once and to the player who drew, exactly if the player has not
declared, has made no open call, and the shanten calculator, asked about the concealed tiles, says 0 or less. -/
theorem C103_riichi_offer_partial {est : Estimate} {sh : List Int → Except PyErr Int} {g : GameInfo} {a : InitAttr}
    {c : RoundCfg} {s0 : RoundSt} (hi : initRound est sh g a = .ok (c, s0)) {hai : Nat → List Nat}
    (hhai : ∀ p < 4, a.hai p = .ok (hai p)) {pre post : List Act} {p t : Nat} {s : RoundSt}
    (hr : Reached c s0 (pre ++ .draw p t :: post) s) :
    ∃ s1 s2 o e ag r n held, Reached c s0 pre s1 ∧ Reached c s0 (pre ++ [.draw p t]) s2 ∧
      s2.halfturns = s1.halfturns ++ [.during p o e ag r n] ∧ Concealed hai (pre ++ [.draw p t]) p held ∧
      (r = [⟨p, false⟩] ∨ r = []) ∧
      (r = [⟨p, false⟩] ↔ Act.accept p ∉ pre ∧ ¬ HasOpened pre p ∧
        ∃ v, sh ((List.range 34).map (fun k => (kindCount held k : Int))) = .ok v ∧ v ≤ 0) := by
  obtain ⟨s1, s2, h1, h2, _, hp, ⟨e⟩⟩ := draw_turn hr
  obtain ⟨held, hc, hk⟩ := concealed_list hi hhai h2 p hp
  have hsh : c.shanten = sh := by
    obtain ⟨d⟩ := initRound_ok hi
    rw [congrArg RoundCfg.shanten d.cfg_eq]
  have hcounts : (List.range 34).map ((drawTile s1 p t).hand_tensors p) =
      (List.range 34).map (fun k => (kindCount held k : Int)) := by
    apply List.map_congr_left
    intro k hk'
    rw [← hk k (List.mem_range.1 hk'), congrArg RoundSt.hand_tensors e.state_eq]
  refine ⟨s1, s2, _, _, _, e.reach, _, held, h1, h2, congrArg RoundSt.halfturns e.state_eq, hc, ?_⟩
  have hre := e.reach_eq
  unfold reachOffers at hre
  rw [hcounts, hsh] at hre
  have hreach : (drawTile s1 p t).reaches p = if Act.accept p ∈ pre then 1 else 0 := (C40_riichi hi h1 p).1
  have hmen : (drawTile s1 p t).is_menzen p = if pre.any (openCallBy p) then 0 else 1 := C41_menzen hi h1 p
  rw [hreach, hmen] at hre
  by_cases hcond : Act.accept p ∉ pre ∧ ¬ HasOpened pre p
  · have hno : pre.any (openCallBy p) = false := by
      cases hx : pre.any (openCallBy p) with
      | false => rfl
      | true => exact absurd (any_open.1 hx) hcond.2
    rw [if_neg hcond.1, hno] at hre
    simp only [Bool.false_eq_true, if_false, ne_eq, Nat.one_ne_zero, not_false_eq_true, and_self, if_true] at hre
    cases hv : sh ((List.range 34).map (fun k => (kindCount held k : Int))) with
    | error x => rw [hv] at hre; simp at hre
    | ok v =>
      rw [hv] at hre
      simp only [Except.ok.injEq] at hre
      rw [← hre]
      by_cases hle : v ≤ 0
      · rw [if_pos hle]
        exact ⟨.inl rfl, fun _ => ⟨hcond.1, hcond.2, v, rfl, hle⟩, fun _ => rfl⟩
      · rw [if_neg hle]
        refine ⟨.inr rfl, fun h => by simp at h, ?_⟩
        rintro ⟨_, _, v', hv', hle'⟩
        cases hv'
        exact absurd hle' hle
  · have hif : ¬ ((if Act.accept p ∈ pre then 1 else 0) = 0 ∧ (if pre.any (openCallBy p) = true then 0 else 1) ≠ 0) := by
      intro ⟨x1, x2⟩
      apply hcond
      refine ⟨?_, ?_⟩
      · intro hm; rw [if_pos hm] at x1; cases x1
      · intro hm; rw [if_pos (any_open.2 hm)] at x2; exact x2 rfl
    rw [if_neg hif] at hre
    simp only [Except.ok.injEq] at hre
    rw [← hre]
    refine ⟨.inr rfl, fun h => by simp at h, ?_⟩
    rintro ⟨x1, x2, _⟩
    exact absurd ⟨x1, x2⟩ hcond

/-! ### C104 -/

theorem kind_tiles : ∀ k < 34, (List.range 136).filter (fun t => t / 4 == k) = [4 * k, 4 * k + 1, 4 * k + 2, 4 * k + 3] := by
  decide +kernel

theorem four_held (f : Nat → Int) (k : Nat) (hk : k < 34) :
    ((List.range 136).filter (fun t => f t == 1 && t / 4 == k)).length = 4 ↔ ∀ t, t / 4 = k → f t = 1 := by
  have : (List.range 136).filter (fun t => f t == 1 && t / 4 == k) =
      [4 * k, 4 * k + 1, 4 * k + 2, 4 * k + 3].filter (fun t => f t == 1) := by
    rw [← kind_tiles k hk, List.filter_filter]
  rw [this]
  constructor
  · intro h t ht
    have h4 : ∀ x ∈ [4 * k, 4 * k + 1, 4 * k + 2, 4 * k + 3], (f x == 1) = true :=
      List.filter_eq_self.1 ((List.filter_sublist).eq_of_length (by rw [h]; rfl))
    have : t = 4 * k ∨ t = 4 * k + 1 ∨ t = 4 * k + 2 ∨ t = 4 * k + 3 := by omega
    have hm : t ∈ [4 * k, 4 * k + 1, 4 * k + 2, 4 * k + 3] := by simpa using this
    simpa using h4 t hm
  · intro h
    rw [List.filter_eq_self.2]
    · rfl
    · intro x hx
      have : x = 4 * k ∨ x = 4 * k + 1 ∨ x = 4 * k + 2 ∨ x = 4 * k + 3 := by simpa using hx
      simpa using h x (by omega)

/-- C104: at a draw the kan decisions are a closed kan for each kind of which the player who drew holds all four
tiles concealed, in ascending order, and after them the added kans. -/
theorem C104_closed_kans {est : Estimate} {sh : List Int → Except PyErr Int} {g : GameInfo} {a : InitAttr}
    {c : RoundCfg} {s0 : RoundSt} (hi : initRound est sh g a = .ok (c, s0)) {hai : Nat → List Nat}
    (hhai : ∀ p < 4, a.hai p = .ok (hai p)) {pre post : List Act} {p t : Nat} {s : RoundSt}
    (hr : Reached c s0 (pre ++ .draw p t :: post) s) :
    ∃ s1 s2 o e ag r, ∃ (kinds : List Nat) (added : List NakiDecision), Reached c s0 pre s1 ∧ Reached c s0 (pre ++ [.draw p t]) s2 ∧
      s2.halfturns = s1.halfturns ++
        [.during p o e ag r (kinds.map (fun k => ⟨p, Naki.from_ankan_info k, false⟩) ++ added)] ∧
      kinds.Pairwise (· < ·) ∧ (∀ k, k ∈ kinds ↔ k < 34 ∧ HoldsFour hai (pre ++ [.draw p t]) p k) ∧
      kakanOffers s2.hands p (s2.melds p) = .ok added := by
  obtain ⟨s1, s2, h1, h2, _, hp, ⟨e⟩⟩ := draw_turn hr
  have hh : (drawTile s1 p t).hand_tensors p = s2.hand_tensors p := by rw [congrArg RoundSt.hand_tensors e.state_eq]
  refine ⟨s1, s2, _, _, e.agari, e.reach, (List.range 37).filter (fun k => (drawTile s1 p t).hand_tensors p k == 4), e.kakan, h1, h2,
    congrArg RoundSt.halfturns e.state_eq, List.Pairwise.filter _ List.pairwise_lt_range, ?_, ?_⟩
  · intro k
    rw [List.mem_filter, List.mem_range, beq_iff_eq, hh]
    obtain ⟨hbit, hbig, hk, r1, r2, r3⟩ := C33_hand_tensors hi h2 p
    by_cases hk34 : k < 34
    · rw [hk k hk34]
      have := four_held (s2.hands p) k hk34
      constructor
      · rintro ⟨_, hf⟩
        refine ⟨hk34, fun x hx => (C34_concealed hi hhai h2 p x hp).1 (this.1 (by omega) x hx)⟩
      · rintro ⟨_, hf⟩
        refine ⟨by omega, ?_⟩
        rw [this.2 (fun x hx => (C34_concealed hi hhai h2 p x hp).2 (hf x hx))]
        rfl
    · constructor
      · rintro ⟨h37, hf⟩
        exfalso
        have b1 := hbit 16
        have b2 := hbit 52
        have b3 := hbit 88
        rcases (show k = 34 ∨ k = 35 ∨ k = 36 by omega) with rfl | rfl | rfl <;> omega
      · rintro ⟨h34, _⟩
        exact absurd h34 hk34
  · have := e.kakan_eq
    rw [congrArg RoundSt.hands e.state_eq, congrArg RoundSt.melds e.state_eq]
    exact this

/-! ### C105 -/

/-- the kind of a recorded pon -/
def meldPonKind (m : Naki) : Nat := 9 * (pattern_pon m.naki_code).color + (pattern_pon m.naki_code).number

theorem kakanOffers_eq {hands : Nat → Nat → Int} {p : Nat} {ms : List Naki} {l : List NakiDecision}
    (h : kakanOffers hands p ms = .ok l) :
    l = (ms.filter (fun m => is_pon m.naki_code && hands p (meldPonKind m) == 1)).map
      (fun m => ⟨p, Naki.raw (kakanInfo (meldPonKind m) 0), false⟩) := by
  induction ms generalizing l with
  | nil => simp [kakanOffers] at h; simp [← h]
  | cons m ms ih =>
    unfold kakanOffers at h
    by_cases hc : (is_pon m.naki_code && hands p (meldPonKind m) == 1) = true
    · have hc' : (is_pon m.naki_code && hands p (9 * (pattern_pon m.naki_code).color + (pattern_pon m.naki_code).number) == 1) = true := hc
      simp only [hc', if_true, Naki.from_kakan_info, true_or, bind_ok, pure_ok, Except.ok.injEq] at h
      obtain ⟨_, rfl, rest, h1, rfl⟩ := h
      simp only [List.filter_cons, hc, if_true, List.map_cons, ih h1]
      rfl
    · have hc' : (is_pon m.naki_code && hands p (9 * (pattern_pon m.naki_code).color + (pattern_pon m.naki_code).number) == 1) = false := by
        simpa [meldPonKind] using hc
      simp only [hc', Bool.false_eq_true, if_false, bind_ok, pure_ok, Except.ok.injEq] at h
      obtain ⟨_, rfl, rest, h1, rfl⟩ := h
      simp only [List.filter_cons, hc, Bool.false_eq_true, if_false, ih h1]
      try rfl

/-- C105, what is done: after the closed kans, an added kan of kind `k` is offered for each recorded pon of kind `k`
whose player holds the tile *number* `k` (a tile of kind `k / 4`). -/
theorem C105_added_kan_partial {est : Estimate} {sh : List Int → Except PyErr Int} {g : GameInfo} {a : InitAttr}
    {c : RoundCfg} {s0 : RoundSt} (hi : initRound est sh g a = .ok (c, s0)) {hai : Nat → List Nat}
    (hhai : ∀ p < 4, a.hai p = .ok (hai p)) {pre post : List Act} {p t : Nat} {s : RoundSt}
    (hr : Reached c s0 (pre ++ .draw p t :: post) s) :
    ∃ s1 s2 o e ag r, ∃ (closed : List NakiDecision) (pons : List Naki), Reached c s0 pre s1 ∧ Reached c s0 (pre ++ [.draw p t]) s2 ∧
      s2.halfturns = s1.halfturns ++ [.during p o e ag r
        (closed ++ pons.map (fun m => ⟨p, Naki.raw (kakanInfo (meldPonKind m) 0), false⟩))] ∧
      (∀ d ∈ closed, is_ankan d.naki.naki_code = true ∧ is_kakan d.naki.naki_code = false) ∧
      pons.Sublist (s1.melds p) ∧
      ∀ m, m ∈ pons ↔ m ∈ s1.melds p ∧ is_pon m.naki_code = true ∧ Holds hai (pre ++ [.draw p t]) p (meldPonKind m) := by
  obtain ⟨s1, s2, h1, h2, _, hp, ⟨e⟩⟩ := draw_turn hr
  have hh : (drawTile s1 p t).hands p = s2.hands p := by rw [congrArg RoundSt.hands e.state_eq]
  refine ⟨s1, s2, mkStateObj c (drawTile s1 p t) p, s1.encoding_tokens.length, e.agari, e.reach, ankanOffers (drawTile s1 p t) p,
    (s1.melds p).filter (fun m => is_pon m.naki_code && (drawTile s1 p t).hands p (meldPonKind m) == 1), h1, h2, ?_, ?_,
    List.filter_sublist, ?_⟩
  · rw [congrArg RoundSt.halfturns e.state_eq]
    show s1.halfturns ++ _ = _
    rw [← kakanOffers_eq e.kakan_eq]
  · intro d hd
    obtain ⟨k, hk, rfl⟩ := List.mem_map.1 hd
    have := C03_ankan_roundtrip k
    have e1 : (Naki.from_ankan_info k).naki_code = k * 1024 := by
      show (k * 4) <<< 8 = _
      rw [Nat.shiftLeft_eq]; omega
    show is_ankan (Naki.from_ankan_info k).naki_code = true ∧ is_kakan (Naki.from_ankan_info k).naki_code = false
    rw [e1, is_ankan_iff, is_kakan_false]
    omega
  · intro m
    rw [List.mem_filter, Bool.and_eq_true, beq_iff_eq, hh, C34_concealed hi hhai h2 p _ hp]

/-! ### C106 -/

/-- what happens between two moves leaves the hands and the current half-turn alone -/
theorem no_move_keeps {c : RoundCfg} {s s' : RoundSt} {mid : List Act} (hr : Reached c s mid s')
    (hm : ∀ b ∈ mid, b.isMove = false) : s'.hands = s.hands ∧ s'.curr_halfturn = s.curr_halfturn := by
  revert hm
  refine hr.induct (P := fun mid s' => (∀ b ∈ mid, b.isMove = false) → s'.hands = s.hands ∧
    s'.curr_halfturn = s.curr_halfturn) (fun _ => ⟨rfl, rfl⟩) ?_
  intro acts s1 act s2 _ ih he hm
  have ih := ih (fun b hb => hm b (by simp [hb]))
  have ha := hm act (by simp)
  cases he with
  | dora | declare | accept => exact ih
  | draw | discard | call => simp [Act.isMove] at ha

/-- how a logged closed kan is read -/
theorem ankan_read : ∀ t < 136, is_ankan ((LogMeld.ankan t).encode) = true ∧
    clean ((LogMeld.ankan t).encode) = .ok (ankanInfo (t / 4)) ∧
    get_exposed ((LogMeld.ankan t).encode) = .ok (LogMeld.copies (t / 4), none) := by
  decide +kernel

theorem markNaki_hit {k : Nat} {l : List NakiDecision} {d : NakiDecision} (hd : d ∈ l)
    (hk : d.naki.convenient_naki_code = k) :
    ∃ d' ∈ markNaki k l, d'.executed = true ∧ d'.naki.convenient_naki_code = k ∧ ∃ x ∈ l, d' = { x with executed := true } := by
  rcases markNaki_first k l with ⟨_, h⟩ | ⟨l1, x, l2, h1, h2, h3, _⟩
  · exact absurd hk (h d hd)
  · exact ⟨{ x with executed := true }, by rw [h2]; simp, rfl, h3, x, by rw [h1]; simp, rfl⟩

theorem kakanInfo_low (k : Nat) : kakanInfo k 0 % 32 = 16 := by
  have h : ∀ b : Bool, (if b = true then (16 ||| (k * 3) <<< 9) ||| 32 else 16 ||| (k * 3) <<< 9) % 32 = 16 := by
    have e : (16 ||| (k * 3) <<< 9) % 32 = 16 := by
      rw [show (32 : Nat) = 2 ^ 5 from rfl, Nat.or_mod_two_pow, Nat.shiftLeft_eq,
        show k * 3 * 2 ^ 9 % 2 ^ 5 = 0 by omega]
      rfl
    intro b
    cases b with
    | false => exact e
    | true =>
      rw [if_pos rfl, show (32 : Nat) = 2 ^ 5 from rfl, Nat.or_mod_two_pow, show (16 ||| (k * 3) <<< 9) % 2 ^ 5 = 16 from e]
      rfl
  exact h _

theorem unmarked_during {t : HalfTurn} {p : Nat} {o : StateObj} {e : Nat} {a : List AgariDecision}
    {r : List ReachDecision} {n : List NakiDecision} (h : t.unmarked = (HalfTurn.during p o e a r n).unmarked) :
    ∃ r' n', t = .during p o e a r' n' ∧
      n'.map (fun d => { d with executed := false }) = n.map (fun d => { d with executed := false }) := by
  cases t with
  | during p' o' e' a' r' n' =>
    simp only [HalfTurn.unmarked, HalfTurn.during.injEq] at h
    obtain ⟨rfl, rfl, rfl, rfl, _, h⟩ := h
    exact ⟨r', n', rfl, h⟩
  | discard => simp [HalfTurn.unmarked] at h
  | post => simp [HalfTurn.unmarked] at h

/-- C106, what holds: when a player who has just drawn makes a closed kan, the player holds its four tiles, the kan was
among the decisions of the player's turn, and the decision that gets marked as executed is that one. -/
theorem C106_closed_kan_partial {est : Estimate} {sh : List Int → Except PyErr Int} {g : GameInfo} {a : InitAttr}
    {c : RoundCfg} {s0 : RoundSt} (hi : initRound est sh g a = .ok (c, s0)) {hai : Nat → List Nat}
    (hhai : ∀ p < 4, a.hai p = .ok (hai p)) {pre post : List Act} {p u t : Nat} {s : RoundSt} (ht : t < 136)
    (hl : lastMove pre = some (.draw p u))
    (hr : Reached c s0 (pre ++ .call p (LogMeld.ankan t).encode :: post) s) :
    HoldsFour hai pre p (t / 4) ∧ ∃ s1 i o e ag r n, Reached c s0 pre s1 ∧ s1.curr_halfturn = some i ∧
      s.halfturns[i]? = some (.during p o e ag r n) ∧ (⟨p, Naki.from_ankan_info (t / 4), true⟩ : NakiDecision) ∈ n := by
  obtain ⟨a1, a2, a3⟩ := ankan_read t ht
  obtain ⟨s1, s2, h1, he, h2, h3⟩ := hr.at
  cases he with
  | call e =>
    have hex := e.exposed_eq
    rw [a3] at hex
    simp only [Except.ok.injEq, Prod.mk.injEq] at hex
    obtain ⟨_, hheld, _, _⟩ := expose_ok e.expose_eq
    rw [← hex.1] at hheld
    have hfour : ∀ x, x / 4 = t / 4 → s1.hands p x = 1 := by
      intro x hx
      apply hheld
      have : x = 4 * (t / 4) ∨ x = 4 * (t / 4) + 1 ∨ x = 4 * (t / 4) + 2 ∨ x = 4 * (t / 4) + 3 := by omega
      simpa [LogMeld.copies] using this
    refine ⟨fun x hx => (C34_concealed hi hhai h1 p x e.player_lt).1 (hfour x hx), ?_⟩
    -- the turn that the last draw opened
    obtain ⟨pre1, mid, rfl, _, hmid⟩ := lastMove_split pre _ hl
    obtain ⟨sa, sb, b1, b2, b3, b4, ⟨ed⟩⟩ := draw_turn h1
    have hkeep := no_move_keeps b3 hmid
    have hcurr : s1.curr_halfturn = some sa.halfturns.length := by
      rw [hkeep.2, congrArg RoundSt.curr_halfturn ed.state_eq]
    have hbturn : sb.halfturns[sa.halfturns.length]? = some (.during p (mkStateObj c (drawTile sa p u) p)
        sa.encoding_tokens.length ed.agari ed.reach (ankanOffers (drawTile sa p u) p ++ ed.kakan)) := by
      rw [congrArg RoundSt.halfturns ed.state_eq]
      show (sa.halfturns ++ _)[sa.halfturns.length]? = _
      rw [List.getElem?_append_right (Nat.le_refl _), Nat.sub_self]
      rfl
    have hei : e.i = sa.halfturns.length := by
      have := e.curr_eq
      rw [hcurr] at this
      simpa using this.symm
    have hun : e.t.unmarked = (HalfTurn.during p (mkStateObj c (drawTile sa p u) p)
        sa.encoding_tokens.length ed.agari ed.reach (ankanOffers (drawTile sa p u) p ++ ed.kakan)).unmarked := by
      obtain ⟨rest, hp⟩ := C48_unmarked b3
      have hg : (s1.halfturns.map HalfTurn.unmarked)[sa.halfturns.length]? =
          (sb.halfturns.map HalfTurn.unmarked)[sa.halfturns.length]? := by
        rw [← hp]
        apply List.getElem?_append_left
        rw [List.length_map]
        exact (List.getElem?_eq_some_iff.1 hbturn).1
      rw [List.getElem?_map, List.getElem?_map, hbturn, ← hei, e.turn_eq] at hg
      simpa using hg
    obtain ⟨r', n', htn, hn'⟩ := unmarked_during hun
    -- the offer
    have hoff : (⟨p, Naki.from_ankan_info (t / 4), false⟩ : NakiDecision) ∈
        n'.map (fun d => { d with executed := false }) := by
      rw [hn']
      apply List.mem_map.2
      refine ⟨⟨p, Naki.from_ankan_info (t / 4), false⟩, List.mem_append_left _ ?_, rfl⟩
      apply List.mem_map.2
      refine ⟨t / 4, ?_, rfl⟩
      rw [List.mem_filter, List.mem_range, beq_iff_eq]
      refine ⟨by omega, ?_⟩
      have hk := (C33_hand_tensors hi b2 p).2.2.1 (t / 4) (by omega)
      have e1 : sb.hand_tensors p = (drawTile sa p u).hand_tensors p := by rw [congrArg RoundSt.hand_tensors ed.state_eq]
      rw [← e1, hk, (four_held (sb.hands p) (t / 4) (by omega)).2 (fun x hx => by rw [← hkeep.1]; exact hfour x hx)]
      rfl
    obtain ⟨d0, hd0, hd0'⟩ := List.mem_map.1 hoff
    have hclean : e.naki.convenient_naki_code = ankanInfo (t / 4) := by
      have := e.clean_eq
      rw [a2] at this
      simpa using this.symm
    have hd0n : d0.naki = Naki.from_ankan_info (t / 4) := congrArg NakiDecision.naki hd0'
    obtain ⟨d', m1, m2, m3, x, hx, rfl⟩ := markNaki_hit hd0 (by rw [hd0n]; rfl : d0.naki.convenient_naki_code = ankanInfo (t / 4))
    have hs2 : s2.halfturns[e.i]? = some (.during p (mkStateObj c (drawTile sa p u) p)
        sa.encoding_tokens.length ed.agari r' (markNaki (ankanInfo (t / 4)) n')) := by
      rw [congrArg RoundSt.halfturns e.state_eq]
      have hlt := (List.getElem?_eq_some_iff.1 e.turn_eq).1
      rw [List.getElem?_append_left (by simpa using hlt), List.getElem?_set_self hlt, htn, hclean]
      rfl
    have hfin : s.halfturns[e.i]? = s2.halfturns[e.i]? := by
      refine (frozen h3 e.i ((List.getElem?_eq_some_iff.1 hs2).1) ?_).1
      rw [congrArg RoundSt.curr_halfturn e.state_eq]
      simp
    refine ⟨s1, e.i, _, _, _, _, _, h1, e.curr_eq, hfin.trans hs2, ?_⟩
    -- the marked decision is by the player who drew, and has the code of the kan
    have hx' : { x with executed := false } ∈ n'.map (fun d : NakiDecision => { d with executed := false }) :=
      List.mem_map.2 ⟨x, hx, rfl⟩
    rw [hn'] at hx'
    obtain ⟨y, hy, hyx⟩ := List.mem_map.1 hx'
    have hyn : y.naki = x.naki := by injection hyx
    have hyp : y.player = x.player := by injection hyx
    have m3 : x.naki.convenient_naki_code = ankanInfo (t / 4) := m3
    have key : x.player = p ∧ x.naki = Naki.from_ankan_info (t / 4) := by
      rcases List.mem_append.1 hy with hy | hy
      · obtain ⟨k, _, rfl⟩ := List.mem_map.1 hy
        refine ⟨hyp.symm, ?_⟩
        rw [← hyn] at m3 ⊢
        show Naki.raw (ankanInfo k) = Naki.raw (ankanInfo (t / 4))
        have m3 : ankanInfo k = ankanInfo (t / 4) := m3
        rw [m3]
      · rw [kakanOffers_eq ed.kakan_eq] at hy
        obtain ⟨m, _, rfl⟩ := List.mem_map.1 hy
        exfalso
        rw [← hyn] at m3
        have m3 : kakanInfo (meldPonKind m) 0 = ankanInfo (t / 4) := m3
        have k1 := kakanInfo_low (meldPonKind m)
        have k2 : ankanInfo (t / 4) % 32 = 0 := by
          unfold ankanInfo
          rw [Nat.shiftLeft_eq]; omega
        rw [m3] at k1
        omega
    have : ({ x with executed := true } : NakiDecision) = ⟨p, Naki.from_ankan_info (t / 4), true⟩ := by
      rw [← key.1, ← key.2]
    rw [← this]
    exact m1

/-- the codes of own-turn offers name no source -/
def OwnCodes : HalfTurn → Prop
  | .during _ _ _ _ _ n => ∀ d ∈ n, d.naki.convenient_naki_code % 4 = 0
  | _ => True

theorem ownCodes_unmarked (t : HalfTurn) : OwnCodes t.unmarked ↔ OwnCodes t := by
  cases t with
  | during p o e a r n =>
    constructor
    · intro h d hd
      exact h { d with executed := false } (List.mem_map.2 ⟨d, hd, rfl⟩)
    · intro h d hd
      obtain ⟨x, hx, rfl⟩ := List.mem_map.1 hd
      exact h x hx
  | discard => rfl
  | post => rfl

theorem ownCodes_set {l : List HalfTurn} {i : Nat} {t t' : HalfTurn} (hl : ∀ h ∈ l, OwnCodes h) (ht : l[i]? = some t)
    (hu : t'.unmarked = t.unmarked) : ∀ h ∈ l.set i t', OwnCodes h := by
  intro h hh
  rcases List.mem_or_eq_of_mem_set hh with hh | rfl
  · exact hl h hh
  · rw [← ownCodes_unmarked, hu, ownCodes_unmarked]
    exact hl t (List.mem_of_getElem? ht)

theorem ownCodes_reached {est : Estimate} {sh : List Int → Except PyErr Int} {g : GameInfo} {a : InitAttr}
    {c : RoundCfg} {s0 : RoundSt} (hi : initRound est sh g a = .ok (c, s0)) {acts : List Act} {s : RoundSt}
    (hr : Reached c s0 acts s) : ∀ h ∈ s.halfturns, OwnCodes h := by
  obtain ⟨d⟩ := initRound_ok hi
  refine hr.induct (P := fun _ s => ∀ h ∈ s.halfturns, OwnCodes h) ?_ ?_
  · rw [congrArg RoundSt.halfturns d.state_eq]
    simp
  intro acts s act s' _ ih he
  cases he with
  | dora => exact ih
  | accept => exact ih
  | declare h1 h2 h3 => exact ownCodes_set ih h3 (unmarked_markReach _)
  | draw hp e =>
    rw [congrArg RoundSt.halfturns e.state_eq]
    intro h hh
    rcases List.mem_append.1 hh with hh | hh
    · exact ih h hh
    · rw [List.mem_singleton] at hh
      subst hh
      intro d hd
      rcases List.mem_append.1 hd with hd | hd
      · obtain ⟨k, _, rfl⟩ := List.mem_map.1 hd
        show ankanInfo k % 4 = 0
        unfold ankanInfo
        rw [Nat.shiftLeft_eq]; omega
      · rw [kakanOffers_eq e.kakan_eq] at hd
        obtain ⟨m, _, rfl⟩ := List.mem_map.1 hd
        have := kakanInfo_low (meldPonKind m)
        show kakanInfo (meldPonKind m) 0 % 4 = 0
        omega
  | discard hp e =>
    rw [congrArg RoundSt.halfturns e.state_eq]
    intro h hh
    rcases List.mem_append.1 hh with hh | hh
    · exact ih h hh
    · rcases List.mem_cons.1 hh with rfl | hh
      · trivial
      · rw [List.mem_singleton] at hh
        subst hh
        trivial
  | call e =>
    rw [congrArg RoundSt.halfturns e.state_eq]
    intro h hh
    rcases List.mem_append.1 hh with hh | hh
    · exact ownCodes_set ih e.turn_eq (unmarked_mark _ _) h hh
    · unfold chankanTurn at hh
      split at hh
      · rw [List.mem_singleton] at hh
        subst hh
        trivial
      · simp at hh

theorem markNaki_miss {k : Nat} {l : List NakiDecision} (h : ∀ d ∈ l, d.naki.convenient_naki_code ≠ k) :
    markNaki k l = l := by
  induction l with
  | nil => rfl
  | cons x xs ih =>
    unfold markNaki
    rw [if_neg (h x (by simp)), ih (fun d hd => h d (by simp [hd]))]

/-- C106, where it fails, exactly: an added kan is never recognised.  When it is made, no decision is marked: all
half-turns so far stay as they were. -/
theorem C106_added_kan_never {est : Estimate} {sh : List Int → Except PyErr Int} {g : GameInfo} {a : InitAttr}
    {c : RoundCfg} {s0 : RoundSt} (hi : initRound est sh g a = .ok (c, s0)) {acts : List Act} {p code : Nat}
    {s s' : RoundSt} (hr : Reached c s0 acts s) (he : Effect c s (.call p code) s') (hk : is_kakan code = true)
    (hc : is_chi code = false) (hp : is_pon code = false) (hw : from_who code ≠ 0) :
    ∃ app, s'.halfturns = s.halfturns ++ app := by
  cases he with
  | call e =>
    refine ⟨chankanTurn c s code p e.rons, (congrArg RoundSt.halfturns e.state_eq).trans ?_⟩
    show s.halfturns.set e.i (e.t.mark e.naki.convenient_naki_code) ++ _ = _ ++ chankanTurn c s code p e.rons
    have hsame : e.t.mark e.naki.convenient_naki_code = e.t := by
      have hd : e.t.isDuring = true := by
        have := e.kind_eq
        rw [hk, Bool.or_true, if_pos rfl] at this
        exact this
      have hown := ownCodes_reached hi hr e.t (List.mem_of_getElem? e.turn_eq)
      have hcl : e.naki.convenient_naki_code % 4 = code % 4 := by
        have := e.clean_eq
        unfold clean at this
        simp only [hc, hp, hk, Bool.false_eq_true, if_false, if_true, Except.ok.injEq] at this
        rw [← this]
        have := (clean_kakan_bits code).1
        omega
      have hw4 : code % 4 ≠ 0 := by
        intro h
        apply hw
        rw [from_who_eq]
        exact h
      generalize e.t = t at hd hown ⊢
      cases t with
      | during p o x a r n =>
        show HalfTurn.during p o x a r (markNaki _ n) = _
        rw [markNaki_miss]
        intro d hdm h
        have := hown d hdm
        rw [h, hcl] at this
        exact hw4 this
      | discard => simp [HalfTurn.isDuring] at hd
      | post => simp [HalfTurn.isDuring] at hd
    rw [hsame]
    congr 1
    apply List.ext_getElem?
    intro j
    by_cases hj : e.i = j
    · subst hj
      have hlt := (List.getElem?_eq_some_iff.1 e.turn_eq).1
      rw [List.getElem?_set_self hlt, e.turn_eq]
    · rw [List.getElem?_set_ne hj]

/-! ### Concrete logs -/

/-- Player 0 has 500 points and is dealt 111 222 333 444 5 of the first suit; player `p > 0` copies `p` of the kinds
10..22; the first indicator is tile 132. -/
def dealPoor : InitAttr :=
  { ten := .ok [5, 250, 250, 495], oya := .ok 0, seed := .ok [0, 0, 0, 0, 0, 132]
    hai := fun p => .ok (if p = 0 then [0, 1, 2, 4, 5, 6, 8, 9, 10, 12, 13, 14, 17]
      else (List.range 13).map (fun i => 4 * (i + 10) + p)) }

/-- a shanten calculator for which every hand is waiting -/
def waiting : List Int → Except PyErr Int := fun _ => .ok 0

/-- the riichi decisions of the first half-turn, if that is an own turn -/
def firstReach (s : RoundSt) : Option (Nat × List ReachDecision) :=
  match s.halfturns.head? with
  | some (.during p _ _ _ r _) => some (p, r)
  | _ => none

theorem poor_accepted : accepts (processRound noWin waiting ⟨0⟩ dealPoor ([.draw 0 (.ok 120)] ++ [.result false (.ok [])]))
    (fun s => decide (firstReach s = some (0, [⟨0, false⟩]))) = true := by decide +kernel

/-- C103 is violated: a riichi costs 1000 points, and it is offered to a player who has less. -/
theorem C103_points_violated :
    ¬ ∀ (est : Estimate) (sh : List Int → Except PyErr Int) (g : GameInfo) (a : InitAttr) (c : RoundCfg) (s0 s : RoundSt)
      (ten : List Int) (p t : Nat), initRound est sh g a = .ok (c, s0) → a.ten = .ok ten → Reached c s0 [.draw p t] s →
      firstReach s = some (p, [⟨p, false⟩]) → ∃ v, ten[p]? = some v ∧ 10 ≤ v := by
  intro h
  obtain ⟨s, h1, h2⟩ := accepts_ok poor_accepted
  obtain ⟨c, s0, h3, h4⟩ := accepted_exact (acts := [.draw 0 120]) h1 rfl
  obtain ⟨v, hv, hle⟩ := h noWin waiting ⟨0⟩ dealPoor c s0 s [5, 250, 250, 495] 0 120 h3 rfl h4 (by simpa using h2)
  simp at hv
  omega

/-- Player 0 is dealt tile 82 (kind 20) and copies 0 of the kinds 0..4 and 6..12; player 1 the tiles 80, 81 (kind 20)
and 20 (kind 5) and copies 1 of the kinds 0..9; players 2 and 3 copies 2 and 3 of the kinds 0..12. -/
def dealtAdd (p : Nat) : List Nat :=
  if p = 0 then 82 :: ([0, 1, 2, 3, 4, 6, 7, 8, 9, 10, 11, 12].map (4 * ·))
  else if p = 1 then [80, 81, 20] ++ (List.range 10).map (fun i => 4 * i + 1)
  else (List.range 13).map (fun i => 4 * i + p)

def dealAdd : InitAttr :=
  { ten := .ok [250, 250, 250, 250], oya := .ok 0, seed := .ok [0, 0, 0, 0, 0, 132], hai := fun p => .ok (dealtAdd p) }

theorem dealAdd_deals : dealAdd.Deals dealtAdd 132 := ⟨fun _ _ => rfl, 0, 0, 0, 0, 0, rfl⟩

/-- the pon of kind 20 by player 1, who is left with the tile 83 to come -/
def addPonCode : Nat := (LogMeld.pon 3 20 3 2).encode

/-- Player 0 discards tile 82, player 1 makes a pon and discards tile `x`, then everyone discards the drawn tile, and
player 1 draws tile `y`. -/
def addActs (x y : Nat) : List Act :=
  [.draw 0 120, .discard 0 82, .call 1 addPonCode, .discard 1 x, .draw 2 121, .discard 2 121, .draw 3 122, .discard 3 122,
   .draw 0 123, .discard 0 123, .draw 1 y]

def addLog (x y : Nat) : List Ev :=
  [.draw 0 (.ok 120), .discard 0 (.ok 82), .naki (.ok addPonCode) (.ok 1), .discard 1 (.ok x), .draw 2 (.ok 121),
   .discard 2 (.ok 121), .draw 3 (.ok 122), .discard 3 (.ok 122), .draw 0 (.ok 123), .discard 0 (.ok 123), .draw 1 (.ok y)]

/-- the kan decisions of the last half-turn, if that is an own turn -/
def lastKans (s : RoundSt) : Option (Nat × List NakiDecision) :=
  match s.halfturns.getLast? with
  | some (.during p _ _ _ _ n) => some (p, n)
  | _ => none

/-- an added kan of kind `k` is among the decisions -/
def OffersAdded (k : Nat) (n : List NakiDecision) : Prop :=
  ∃ d ∈ n, is_kakan d.naki.naki_code = true ∧ ∀ t ∈ exposedTiles d.naki.naki_code, t / 4 = k

instance (k : Nat) (n : List NakiDecision) : Decidable (OffersAdded k n) :=
  inferInstanceAs (Decidable (∃ d ∈ n, _))

theorem missed_accepted : accepts (processRound noWin farAway ⟨0⟩ dealAdd (addLog 20 83 ++ [.result false (.ok [])]))
    (fun s => decide (lastKans s = some (1, []))) = true := by decide +kernel

theorem impossible_accepted : accepts (processRound noWin farAway ⟨0⟩ dealAdd (addLog 1 124 ++ [.result false (.ok [])]))
    (fun s => decide (lastKans s = some (1, [⟨1, Naki.raw (kakanInfo 20 0), false⟩])) &&
      s.hands 1 80 == 0 && s.hands 1 81 == 0 && s.hands 1 82 == 0 && s.hands 1 83 == 0) = true := by decide +kernel

/-- C105 is violated: a player has a pon and draws the fourth tile, and the added kan is not offered. -/
theorem C105_missed_violated :
    ¬ ∀ (est : Estimate) (sh : List Int → Except PyErr Int) (g : GameInfo) (a : InitAttr) (hai : Nat → List Nat)
      (c : RoundCfg) (s0 s : RoundSt) (acts : List Act) (p k : Nat) (n : List NakiDecision),
      initRound est sh g a = .ok (c, s0) → (∀ p < 4, a.hai p = .ok (hai p)) → Reached c s0 acts s →
      lastKans s = some (p, n) → CanAddKan hai acts p k → OffersAdded k n := by
  intro h
  obtain ⟨s, h1, h2⟩ := accepts_ok missed_accepted
  obtain ⟨c, s0, h3, h4⟩ := accepted_exact (acts := addActs 20 83) h1 rfl
  have := h noWin farAway ⟨0⟩ dealAdd dealtAdd c s0 s (addActs 20 83) 1 20 [] h3 (fun _ _ => rfl) h4 (by simpa using h2)
    ⟨addPonCode, 83, by simp [addActs], by decide, by decide, rfl,
      .inr ⟨(addActs 20 83).take 10, [], rfl, by simp⟩, by decide, by decide, by decide⟩
  simp [OffersAdded] at this

/-- C105 is violated: an added kan is offered to a player who does not hold the fourth tile. -/
theorem C105_impossible_violated :
    ¬ ∀ (est : Estimate) (sh : List Int → Except PyErr Int) (g : GameInfo) (a : InitAttr) (hai : Nat → List Nat)
      (c : RoundCfg) (s0 s : RoundSt) (acts : List Act) (p k : Nat) (n : List NakiDecision),
      initRound est sh g a = .ok (c, s0) → (∀ p < 4, a.hai p = .ok (hai p)) → Reached c s0 acts s →
      lastKans s = some (p, n) → OffersAdded k n → ∃ t, t / 4 = k ∧ Holds hai acts p t := by
  intro h
  obtain ⟨s, h1, h2⟩ := accepts_ok impossible_accepted
  obtain ⟨c, s0, h3, h4⟩ := accepted_exact (acts := addActs 1 124) h1 rfl
  simp only [Bool.and_eq_true, decide_eq_true_eq, beq_iff_eq] at h2
  obtain ⟨t, ht, hh⟩ := h noWin farAway ⟨0⟩ dealAdd dealtAdd c s0 s (addActs 1 124) 1 20 _ h3 (fun _ _ => rfl) h4 h2.1.1.1.1
    (by decide +kernel)
  rw [← C34_concealed h3 (fun p hp => rfl) h4 1 t (by omega)] at hh
  have : t = 80 ∨ t = 81 ∨ t = 82 ∨ t = 83 := by omega
  rcases this with rfl | rfl | rfl | rfl <;> omega

/-- the added kan of player 1 -/
def kakanCode : Nat := (LogMeld.kakan 3 20 3 2).encode

/-- the kan decisions of a half-turn -/
def HalfTurn.kans : HalfTurn → List NakiDecision
  | .during _ _ _ _ _ n => n
  | .discard .. => []
  | .post _ _ _ _ n => n.flatten

theorem added_accepted : accepts (processRound noWin farAway ⟨0⟩ dealAdd
      (addLog 20 83 ++ [.naki (.ok kakanCode) (.ok 1)] ++ [.result false (.ok [])]))
    (fun s => s.halfturns.all (fun h => h.kans.all (fun d => !(d.executed && is_kakan d.naki.naki_code)))) = true := by
  decide +kernel

/-- C106 is violated: an added kan is made, and none of the decisions for one is marked. -/
theorem C106_added_kan_violated :
    ¬ ∀ (est : Estimate) (sh : List Int → Except PyErr Int) (g : GameInfo) (a : InitAttr) (c : RoundCfg) (s0 s : RoundSt)
      (acts : List Act) (p src k u w : Nat), initRound est sh g a = .ok (c, s0) → (LogMeld.kakan src k u w).Valid →
      Reached c s0 (acts ++ [.call p (LogMeld.kakan src k u w).encode]) s →
      ∃ h ∈ s.halfturns, ∃ d ∈ h.kans, d.executed = true ∧ is_kakan d.naki.naki_code = true := by
  intro h
  obtain ⟨s, h1, h2⟩ := accepts_ok added_accepted
  obtain ⟨c, s0, h3, h4⟩ := accepted_exact (acts := addActs 20 83 ++ [.call 1 kakanCode]) h1 rfl
  obtain ⟨x, hx, d, hd, e1, e2⟩ := h noWin farAway ⟨0⟩ dealAdd c s0 s (addActs 20 83) 1 3 20 3 2 h3 (by simp [LogMeld.Valid]) h4
  rw [List.all_eq_true] at h2
  have := h2 x hx
  rw [List.all_eq_true] at this
  have := this d hd
  simp [e1, e2] at this

/-- the hypotheses of `C106_added_kan_never` can be met -/
example : is_kakan kakanCode = true ∧ is_chi kakanCode = false ∧ is_pon kakanCode = false ∧ from_who kakanCode ≠ 0 := by
  decide

/-- the hypotheses of `C106_closed_kan_partial` can be met: the log with the closed kan of kind 0 -/
example : ∃ c s0 s, initRound noWin farAway ⟨0⟩ dealKan = .ok (c, s0) ∧ lastMove [.draw 0 120] = some (.draw 0 120) ∧
    Reached c s0 ([.draw 0 120] ++ .call 0 (LogMeld.ankan 0).encode :: [.dora 88, .draw 0 121, .discard 0 121]) s := by
  obtain ⟨s, h1, _⟩ := accepts_ok kanLog_accepted
  obtain ⟨c, s0, h3, h4⟩ := accepted_exact (acts := kanActs) h1 rfl
  exact ⟨c, s0, s, h3, rfl, h4⟩

end MJ
