import Verif.Spec.Seats
import Verif.Proofs.View
/-!
A round and the same round with everybody moved on.
-/
namespace MJ
open Code Spec

/-! ### seats -/

theorem seatOn_lt (r p : Nat) : seatOn r p < 4 := Nat.mod_lt _ (by omega)

theorem seatOn_inj (r : Nat) {p q : Nat} (hp : p < 4) (hq : q < 4) : seatOn r p = seatOn r q ↔ p = q := by
  unfold seatOn; omega

theorem seatOn_surj (r : Nat) {q : Nat} (hq : q < 4) : ∃ p, p < 4 ∧ seatOn r p = q := by
  refine ⟨(q + 4 - r % 4) % 4, by omega, ?_⟩
  unfold seatOn; omega

theorem seatOn_cases (r : Nat) :
    (seatOn r 0 = 0 ∧ seatOn r 1 = 1 ∧ seatOn r 2 = 2 ∧ seatOn r 3 = 3) ∨
    (seatOn r 0 = 1 ∧ seatOn r 1 = 2 ∧ seatOn r 2 = 3 ∧ seatOn r 3 = 0) ∨
    (seatOn r 0 = 2 ∧ seatOn r 1 = 3 ∧ seatOn r 2 = 0 ∧ seatOn r 3 = 1) ∨
    (seatOn r 0 = 3 ∧ seatOn r 1 = 0 ∧ seatOn r 2 = 1 ∧ seatOn r 3 = 2) := by
  unfold seatOn; omega

theorem isNext_seatOn (r q p : Nat) : isNext (seatOn r q) (seatOn r p) = isNext q p := by
  unfold isNext seatOn
  rw [Bool.eq_iff_iff, beq_iff_eq, beq_iff_eq]
  omega

theorem source_seatOn (r q p : Nat) : source (seatOn r q) (seatOn r p) = source q p := by
  unfold source seatOn
  omega

theorem Spec.Moved.set {α : Type} {r : Nat} {f f' : Nat → α} (h : Moved r f f') {q : Nat} (hq : q < 4) {x y : α} (hxy : y = x) :
    Moved r (setAt f q x) (setAt f' (seatOn r q) y) := by
  intro p hp
  simp only [setAt, seatOn_inj r hp hq]
  split
  · exact hxy
  · exact h p hp

theorem Spec.Moved.addRow {r : Nat} {f f' : Nat → Nat → Int} (h : Moved r f f') {q : Nat} (hq : q < 4) (l : List Nat) (d : Int) :
    Moved r (addRow f q l d) (addRow f' (seatOn r q) l d) :=
  h.set hq (by rw [h q hq])

theorem Spec.Moved.map {α β : Type} {r : Nat} {f f' : Nat → α} (h : Moved r f f') (k : α → β) :
    Moved r (fun p => k (f p)) (fun p => k (f' p)) := fun p hp => congrArg k (h p hp)

theorem Spec.Moved.allMenzen {r : Nat} {f f' : Nat → Nat} (h : Moved r f f') : allMenzen f' = allMenzen f := by
  have h0 := h 0 (by omega)
  have h1 := h 1 (by omega)
  have h2 := h 2 (by omega)
  have h3 := h 3 (by omega)
  unfold MJ.allMenzen
  rcases seatOn_cases r with ⟨e0, e1, e2, e3⟩ | ⟨e0, e1, e2, e3⟩ | ⟨e0, e1, e2, e3⟩ | ⟨e0, e1, e2, e3⟩ <;>
    rw [e0] at h0 <;> rw [e1] at h1 <;> rw [e2] at h2 <;> rw [e3] at h3 <;> rw [h0, h1, h2, h3] <;>
    cases f 0 != 0 <;> cases f 1 != 0 <;> cases f 2 != 0 <;> cases f 3 != 0 <;> rfl

theorem Spec.Moved.clear {r : Nat} {f f' : Nat → Nat} (h : Moved r f f') : Moved r (clearIppatsu f) (clearIppatsu f') := by
  have h0 := h 0 (by omega)
  have h1 := h 1 (by omega)
  have h2 := h 2 (by omega)
  have h3 := h 3 (by omega)
  have hs : f' 0 + f' 1 + f' 2 + f' 3 = f 0 + f 1 + f 2 + f 3 := by
    rcases seatOn_cases r with ⟨e0, e1, e2, e3⟩ | ⟨e0, e1, e2, e3⟩ | ⟨e0, e1, e2, e3⟩ | ⟨e0, e1, e2, e3⟩ <;>
      rw [e0] at h0 <;> rw [e1] at h1 <;> rw [e2] at h2 <;> rw [e3] at h3 <;> omega
  unfold clearIppatsu
  rw [hs]
  split
  · intro p hp; rfl
  · exact h

/-! ### decisions -/

/-- the decision of the player moved on -/
def NakiDecision.moved (r : Nat) (d : NakiDecision) : NakiDecision := { d with player := seatOn r d.player }
@[inherit_doc NakiDecision.moved]
def AgariDecision.moved (r : Nat) (d : AgariDecision) : AgariDecision := { d with player := seatOn r d.player }
@[inherit_doc NakiDecision.moved]
def ReachDecision.moved (r : Nat) (d : ReachDecision) : ReachDecision := { d with player := seatOn r d.player }

/-- the result with all decisions moved on -/
def movedE (r : Nat) : Except PyErr (List NakiDecision) → Except PyErr (List NakiDecision)
  | .ok l => .ok (l.map (NakiDecision.moved r))
  | .error e => .error e

theorem offer_moved (r p : Nat) (b : Bool) (mk : Except PyErr Naki) (chk : Nat → Bool) :
    offer (seatOn r p) b mk chk = movedE r (offer p b mk chk) := by
  unfold offer
  cases b
  · rfl
  · cases mk with
    | error e => rfl
    | ok n =>
      simp only [if_true]
      split <;> rfl

theorem whenE_moved (r : Nat) (b : Bool) (x : Except PyErr (List NakiDecision)) : whenE b (movedE r x) = movedE r (whenE b x) := by
  cases b <;> rfl

theorem append_moved (r : Nat) (x y : Except PyErr (List NakiDecision)) :
    (do let a ← movedE r x; let b ← movedE r y; return a ++ b) = movedE r (do let a ← x; let b ← y; return a ++ b) := by
  cases x <;> cases y <;> simp [movedE, bind, Except.bind, pure, Except.pure]

theorem append3_moved (r : Nat) (x y z : Except PyErr (List NakiDecision)) :
    (do let a ← movedE r x; let b ← movedE r y; let c ← movedE r z; return a ++ b ++ c) =
      movedE r (do let a ← x; let b ← y; let c ← z; return a ++ b ++ c) := by
  cases x <;> cases y <;> cases z <;> simp [movedE, bind, Except.bind, pure, Except.pure]

theorem ponKan_moved (r q p : Nat) (h : Hand) (t : Nat) : ponKan (seatOn r q) (seatOn r p) h t = movedE r (ponKan q p h t) := by
  unfold ponKan
  rw [source_seatOn, offer_moved, offer_moved, append_moved]

theorem fiveRun_moved (r p : Nat) (h : Hand) (t a b c : Nat) :
    fiveRun (seatOn r p) h t a b c = movedE r (fiveRun p h t a b c) := by
  unfold fiveRun
  rw [offer_moved, offer_moved, offer_moved]
  split
  · rw [append_moved]
  · rfl

theorem fivePon_moved (r p : Nat) (h : Hand) (t : Nat) (red : Bool) (src : Nat) :
    fivePon (seatOn r p) h t red src = movedE r (fivePon p h t red src) := by
  unfold fivePon
  rw [offer_moved, offer_moved, offer_moved]
  split
  · rw [append_moved]
  · rfl

theorem maskFor_moved (r : Nat) {q p : Nat} (hq : q < 4) (hp : p < 4) (h : Hand) (t : Nat) (red : Bool) :
    maskFor (seatOn r q) (seatOn r p) h t red = movedE r (maskFor q p h t red) := by
  unfold maskFor
  simp only [seatOn_inj r hp hq]
  split
  · rfl
  · split
    · exact ponKan_moved ..
    · split
      · unfold oneAndNine
        simp only [isNext_seatOn, ponKan_moved, offer_moved, append_moved]
      · split
        · unfold twoAndEight
          simp only [isNext_seatOn, ponKan_moved, offer_moved, append_moved, whenE_moved]
        · split
          · unfold threeAndSeven
            simp only [isNext_seatOn, ponKan_moved, offer_moved, fiveRun_moved, append_moved, append3_moved, whenE_moved]
          · split
            · unfold fourAndSix
              simp only [isNext_seatOn, ponKan_moved, offer_moved, fiveRun_moved, append_moved, append3_moved, whenE_moved]
            · unfold five
              simp only [isNext_seatOn, source_seatOn, fivePon_moved, offer_moved, append_moved, append3_moved, whenE_moved]

/-- the decisions of the four seats after a discard -/
def CallsMoved (r : Nat) (n n' : List (List NakiDecision)) : Prop :=
  ∀ p < 4, callsOf n' (seatOn r p) = (callsOf n p).map (NakiDecision.moved r)
@[inherit_doc CallsMoved]
def WinsMoved (r : Nat) (a a' : List (List AgariDecision)) : Prop :=
  ∀ p < 4, winsOf a' (seatOn r p) = (winsOf a p).map (AgariDecision.moved r)

theorem decisionMask_seat {q : Nat} {h : Nat → Hand} {t : Nat} {red : Bool} {o : List (List NakiDecision)}
    (e : decisionMask q h t red = .ok o) (p : Nat) (hp : p < 4) : maskFor q p (h p) t red = .ok (callsOf o p) := by
  simp only [decisionMask, bind_ok, pure_ok] at e
  obtain ⟨a0, h0, a1, h1, a2, h2, a3, h3, rfl⟩ := e
  have hp4 : p = 0 ∨ p = 1 ∨ p = 2 ∨ p = 3 := by omega
  rcases hp4 with rfl | rfl | rfl | rfl
  · simpa [callsOf] using h0
  · simpa [callsOf] using h1
  · simpa [callsOf] using h2
  · simpa [callsOf] using h3

theorem decisionMask_moved {r q : Nat} (hq : q < 4) {h h' : Nat → Hand} (hm : Moved r h h') {t : Nat} {red : Bool}
    {o o' : List (List NakiDecision)} (e : decisionMask q h t red = .ok o) (e' : decisionMask (seatOn r q) h' t red = .ok o') :
    CallsMoved r o o' := by
  intro p hp
  have h1 := decisionMask_seat e p hp
  have h2 := decisionMask_seat e' (seatOn r p) (seatOn_lt r p)
  rw [hm p hp, maskFor_moved r hq hp, h1] at h2
  simpa [movedE] using h2.symm

theorem ankan_moved {r q : Nat} {s s' : RoundSt} (h : s'.hand_tensors (seatOn r q) = s.hand_tensors q) :
    ankanOffers s' (seatOn r q) = (ankanOffers s q).map (NakiDecision.moved r) := by
  simp [ankanOffers, h, NakiDecision.moved]

theorem kakan_moved {r q : Nat} {h h' : Nat → Nat → Int} (hh : h' (seatOn r q) = h q) : ∀ (ms : List Naki),
    kakanOffers h' (seatOn r q) ms = movedE r (kakanOffers h q ms)
  | [] => rfl
  | m :: ms => by
    have ih := kakan_moved hh ms
    simp only [kakanOffers]
    rw [ih, hh]
    generalize kakanOffers h q ms = x
    split
    · generalize Naki.from_kakan_info _ _ = y
      cases x <;> cases y <;> simp [movedE, NakiDecision.moved, bind, Except.bind, pure, Except.pure]
    · cases x <;> simp [movedE, bind, Except.bind, pure, Except.pure]

theorem markNaki_moved (r k : Nat) : ∀ (l : List NakiDecision),
    markNaki k (l.map (NakiDecision.moved r)) = (markNaki k l).map (NakiDecision.moved r)
  | [] => rfl
  | d :: l => by
    simp only [List.map_cons, markNaki]
    have : (NakiDecision.moved r d).naki = d.naki := rfl
    rw [this, markNaki_moved r k l]
    split <;> rfl

theorem markReach_moved (r : Nat) (l : List ReachDecision) :
    markReach (l.map (ReachDecision.moved r)) = (markReach l).map (ReachDecision.moved r) := by
  cases l <;> rfl

theorem callsOf_map (k : Nat) (l : List (List NakiDecision)) (p : Nat) :
    callsOf (l.map (markNaki k)) p = markNaki k (callsOf l p) := by
  simp only [callsOf, List.getD_eq_getElem?_getD, List.getElem?_map]
  cases l[p]? <;> rfl

/-! ### states -/

/-- snapshots of the same moment -/
structure ObjMoved (r : Nat) (o o' : StateObj) : Prop where
  player : o'.player = seatOn r o.player
  player_lt : o.player < 4
  tsumo : o'.remaining_tsumo = o.remaining_tsumo
  sutehai : Moved r o.sutehai_tensors o'.sutehai_tensors
  double : Moved r o.double_reaches o'.double_reaches
  reaches : Moved r o.reaches o'.reaches
  ippatsu : Moved r o.ippatsu o'.ippatsu
  scores : ∀ p < 4, o'.scores[seatOn r p]? = o.scores[p]?
  kyotaku : o'.kyotaku = o.kyotaku
  honba : o'.honba = o.honba
  dora : o'.dora = o.dora
  parent : o'.parent = seatOn r o.parent
  parent_lt : o.parent < 4
  rounds : o'.rounds_remaining = o.rounds_remaining
  parent_rounds : o'.parent_rounds_remaining = o.parent_rounds_remaining

/-- the same half-turn with everybody moved on -/
inductive TurnMoved (r : Nat) : HalfTurn → HalfTurn → Prop
  | during {q e : Nat} {o o' : StateObj} {a : List AgariDecision} {l : List ReachDecision} {n : List NakiDecision} :
      q < 4 → ObjMoved r o o' → TurnMoved r (.during q o e a l n)
        (.during (seatOn r q) o' e (a.map (AgariDecision.moved r)) (l.map (ReachDecision.moved r)) (n.map (NakiDecision.moved r)))
  | discard {q e t : Nat} {o o' : StateObj} : q < 4 → ObjMoved r o o' →
      TurnMoved r (.discard q o e t) (.discard (seatOn r q) o' e t)
  | post {q e : Nat} {o o' : StateObj} {a a' : List (List AgariDecision)} {n n' : List (List NakiDecision)} : q < 4 →
      ObjMoved r o o' → WinsMoved r a a' → CallsMoved r n n' → TurnMoved r (.post q o e a n) (.post (seatOn r q) o' e a' n')

theorem TurnMoved.mark {r : Nat} {t t' : HalfTurn} (h : TurnMoved r t t') (k : Nat) : TurnMoved r (t.mark k) (t'.mark k) := by
  cases h with
  | during hq ho =>
    simp only [HalfTurn.mark, markNaki_moved]
    exact .during hq ho
  | discard hq ho => exact .discard hq ho
  | post hq ho ha hn =>
    refine .post hq ho ha ?_
    intro p hp
    rw [callsOf_map, callsOf_map, hn p hp, markNaki_moved]

theorem TurnMoved.markReach {r : Nat} {t t' : HalfTurn} (h : TurnMoved r t t') : TurnMoved r t.markReach t'.markReach := by
  cases h with
  | during hq ho =>
    simp only [HalfTurn.markReach, markReach_moved]
    exact .during hq ho
  | discard hq ho => exact .discard hq ho
  | post hq ho ha hn => exact .post hq ho ha hn

/-- the same round with everybody moved on -/
structure StMoved (r : Nat) (s s' : RoundSt) : Prop where
  hands : Moved r s.hands s'.hands
  hand_tensors : Moved r s.hand_tensors s'.hand_tensors
  full : Moved r s.hand_tensors_full s'.hand_tensors_full
  pov : Moved r s.remaining_tiles_pov s'.remaining_tiles_pov
  tsumo : s'.remaining_tsumo = s.remaining_tsumo
  sutehai : Moved r s.sutehai_tensors s'.sutehai_tensors
  doras : s'.doras = s.doras
  scores : ∀ p < 4, s'.scores[seatOn r p]? = s.scores[p]?
  kyotaku : s'.kyotaku = s.kyotaku
  double : Moved r s.double_reaches s'.double_reaches
  reaches : Moved r s.reaches s'.reaches
  ippatsu : Moved r s.ippatsu s'.ippatsu
  melds : Moved r s.melds s'.melds
  menzen : Moved r s.is_menzen s'.is_menzen
  curr : s'.curr_halfturn = s.curr_halfturn
  cycles : s'.cycles = s.cycles ∨ (allMenzen s.is_menzen = false ∧ 1 ≤ s.cycles ∧ 1 ≤ s'.cycles)
  started : s.halfturns ≠ [] ∨ s.acquired ≠ none → 1 ≤ s.cycles
  started' : s'.halfturns ≠ [] ∨ s'.acquired ≠ none → 1 ≤ s'.cycles
  acquired : s'.acquired = s.acquired
  obj : (s.stateObj = none ∧ s'.stateObj = none) ∨ ∃ o o', s.stateObj = some o ∧ s'.stateObj = some o' ∧ ObjMoved r o o'
  tokens : AllPairs (TokenMoved r) s.encoding_tokens s'.encoding_tokens
  turns : AllPairs (TurnMoved r) s.halfturns s'.halfturns

/-- the settings of the round with everybody moved on -/
structure CfgMoved (r : Nat) (c c' : RoundCfg) : Prop where
  estimate : c'.estimate = c.estimate
  shanten : c'.shanten = c.shanten
  honba : c'.honba = c.honba
  parent : c'.parent = seatOn r c.parent
  parent_lt : c.parent < 4
  rounds : c'.rounds_remaining = c.rounds_remaining
  parent_rounds : c'.parent_rounds_remaining = c.parent_rounds_remaining
  player_wind : c'.player_wind = c.player_wind
  round_wind : c'.round_wind = c.round_wind

/-- a hand evaluator that does not care for the flag `is_renhou` -/
def NoRenhou (est : Estimate) : Prop := ∀ q b, est { q with config := { q.config with is_renhou := b } } = est q

/-- the arguments of the evaluators, moved on -/
structure ArgsMoved (r : Nat) (a a' : WinArgs) : Prop where
  naki : Moved r a.naki_list a'.naki_list
  doras : a'.doras = a.doras
  reaches : Moved r a.reaches a'.reaches
  ippatsu : Moved r a.ippatsu a'.ippatsu
  double : Moved r a.double_reaches a'.double_reaches
  haitei : a'.is_haitei = a.is_haitei
  player_wind : a'.player_wind = a.player_wind
  round_wind : a'.round_wind = a.round_wind
  kyotaku : a'.kyotaku = a.kyotaku
  honba : a'.honba = a.honba

theorem ron_moved {est : Estimate} (hest : NoRenhou est) {r q : Nat} (hq : q < 4) {h1 h2 : Nat → Nat → Int} {a a' : WinArgs}
    {sut sut' : Nat → Nat → Int} {tile : Nat} {ck : Bool} {rh rh' : Nat → Bool} {x1 x2 : Nat → Nat → Int}
    {r1 r2 : List (Option AgariDecision)} (hh : Moved r h1 h2) (ha : ArgsMoved r a a') (hs : Moved r sut sut')
    (e1 : evaluate_ron est q h1 a sut tile ck rh = .ok (x1, r1))
    (e2 : evaluate_ron est (seatOn r q) h2 a' sut' tile ck rh' = .ok (x2, r2)) : WinsMoved r (spread r1) (spread r2) := by
  intro p hp
  obtain ⟨k1, k2⟩ := ron_seats e1 p hp
  obtain ⟨l1, l2⟩ := ron_seats e2 (seatOn r p) (seatOn_lt r p)
  rw [seatOn_inj r hp hq, hs p hp] at l1
  rw [Ne, seatOn_inj r hp hq, hs p hp] at l2
  have key : (spread r2)[seatOn r p]? = (spread r1)[p]?.map (fun l => l.map (AgariDecision.moved r)) := by
    by_cases hno : p = q ∨ sut p (tile / 4) ≠ 0
    · rw [k1 hno, l1 hno]; rfl
    · simp only [not_or, Decidable.not_not] at hno
      obtain ⟨w, hw, hc⟩ := k2 hno.1 hno.2
      obtain ⟨w', hw', hc'⟩ := l2 hno.1 hno.2
      have hw2 : RonQuery { w' with config := { w'.config with is_renhou := rh p } } (h1 p) a p tile (tile / 4) ck (rh p) := by
        obtain ⟨b1, b2, b3, b4, b5⟩ := hw'
        rw [hh p hp] at b1
        refine ⟨b1, b2, ?_, ?_, ?_⟩
        · exact b3.trans ha.doras
        · rw [ha.naki p hp] at b4; exact b4
        · show { w'.config with is_renhou := rh p } = _
          rw [b5, ha.reaches p hp, ha.ippatsu p hp, ha.double p hp, ha.haitei, ha.player_wind, ha.round_wind, ha.kyotaku,
            ha.honba]
      have hu := ronQuery_unique hw hw2
      have he : est w' = est w := (hest w' (rh p)).symm.trans (congrArg est hu)
      rw [he] at hc'
      rcases hc with ⟨u1, u2⟩ | ⟨u1, u2⟩ <;> rcases hc' with ⟨v1, v2⟩ | ⟨v1, v2⟩
      · rw [u2, v2]; rfl
      · rw [u1] at v1; simp at v1
      · rw [u1] at v1; simp at v1
      · rw [u2, v2]; rfl
  simp only [winsOf, List.getD_eq_getElem?_getD, key]
  cases (spread r1)[p]? <;> rfl

theorem StMoved.winArgs {r : Nat} {c c' : RoundCfg} (hc : CfgMoved r c c') {s s' : RoundSt} (h : StMoved r s s') (b : Bool) :
    ArgsMoved r (winArgs c s b) (winArgs c' s' b) :=
  ⟨h.melds.map _, h.doras, h.reaches, h.ippatsu, h.double, rfl, hc.player_wind, hc.round_wind, h.kyotaku, hc.honba⟩

theorem StMoved.length {r : Nat} {s s' : RoundSt} (h : StMoved r s s') : s'.halfturns.length = s.halfturns.length :=
  h.turns.length.symm

theorem StMoved.tokens_length {r : Nat} {s s' : RoundSt} (h : StMoved r s s') :
    s'.encoding_tokens.length = s.encoding_tokens.length := h.tokens.length.symm

theorem StMoved.firstDraw {r : Nat} {s s' : RoundSt} (h : StMoved r s s') : ((s'.cycles + 1) == 1) = ((s.cycles + 1) == 1) := by
  rcases h.cycles with e | ⟨_, e1, e2⟩
  · rw [e]
  · rw [Bool.eq_iff_iff, beq_iff_eq, beq_iff_eq]; omega

theorem StMoved.early {r : Nat} {s s' : RoundSt} (h : StMoved r s s') (f : Nat → Bool) :
    (f s'.cycles && allMenzen s'.is_menzen) = (f s.cycles && allMenzen s.is_menzen) := by
  rw [h.menzen.allMenzen]
  rcases h.cycles with e | ⟨e, _, _⟩
  · rw [e]
  · rw [e]; simp

theorem StMoved.mkObj {r : Nat} {c c' : RoundCfg} (hc : CfgMoved r c c') {s s' : RoundSt} (h : StMoved r s s') {q : Nat}
    (hq : q < 4) : ObjMoved r (mkStateObj c s q) (mkStateObj c' s' (seatOn r q)) :=
  ⟨rfl, hq, h.tsumo, h.sutehai, h.double, h.reaches, h.ippatsu, h.scores, h.kyotaku, hc.honba, h.doras, hc.parent, hc.parent_lt,
    hc.rounds, hc.parent_rounds⟩

theorem ObjMoved.tsumo_of {r : Nat} {o o' : StateObj} (h : ObjMoved r o o') (n : Int) :
    ObjMoved r { o with remaining_tsumo := n } { o' with remaining_tsumo := n } :=
  ⟨h.player, h.player_lt, rfl, h.sutehai, h.double, h.reaches, h.ippatsu, h.scores, h.kyotaku, h.honba, h.dora, h.parent,
    h.parent_lt, h.rounds, h.parent_rounds⟩

theorem StMoved.drawTile {r : Nat} {s s' : RoundSt} (h : StMoved r s s') {q : Nat} (hq : q < 4) (t : Nat) :
    StMoved r (drawTile s q t) (drawTile s' (seatOn r q) t) where
  hands := h.hands.set hq (by rw [h.hands q hq])
  hand_tensors := h.hand_tensors.addRow hq _ _
  full := h.full.addRow hq _ _
  pov := h.pov.addRow hq _ _
  tsumo := by simp only [MJ.drawTile, h.tsumo]
  sutehai := h.sutehai
  doras := h.doras
  scores := h.scores
  kyotaku := h.kyotaku
  double := h.double
  reaches := h.reaches
  ippatsu := h.ippatsu.set hq rfl
  melds := h.melds
  menzen := h.menzen
  curr := h.curr
  cycles := by
    rcases h.cycles with e | ⟨e1, e2, e3⟩
    · exact .inl (congrArg (· + 1) e)
    · exact .inr ⟨e1, Nat.le_add_left _ _, Nat.le_add_left _ _⟩
  started := fun _ => Nat.le_add_left _ _
  started' := fun _ => Nat.le_add_left _ _
  acquired := rfl
  obj := h.obj
  tokens := h.tokens
  turns := h.turns

/-- the answer of an evaluator, moved on -/
theorem tsumo_moved {est : Estimate} {r q : Nat} (hq : q < 4) {h1 h2 : Nat → Nat → Int} {a a' : WinArgs} {t : Nat} {x y z : Bool}
    {l l' : List AgariDecision} (hh : Moved r h1 h2) (ha : ArgsMoved r a a') (e : evaluate_tsumo est q h1 a t x y z = .ok l)
    (e' : evaluate_tsumo est (seatOn r q) h2 a' t x y z = .ok l') : l' = l.map (AgariDecision.moved r) := by
  unfold evaluate_tsumo at e e'
  rw [hh q hq, ha.naki q hq, ha.reaches q hq, ha.ippatsu q hq, ha.double q hq, ha.haitei, ha.player_wind, ha.round_wind,
    ha.kyotaku, ha.honba, ha.doras] at e'
  dsimp only at e e'
  generalize nakisToMelds (a.naki_list q) = ms at e e'
  cases ms with
  | error x => simp at e
  | ok ms =>
    dsimp only at e e'
    split at e
    · simp at e
    · next hx => rw [hx] at e'; simp at e e'; subst e; subst e'; rfl
    · next hx => rw [hx] at e'; simp at e e'; subst e; subst e'; rfl

theorem reach_moved {r q : Nat} (hq : q < 4) {c c' : RoundCfg} (hc : CfgMoved r c c') {s s' : RoundSt} (h : StMoved r s s')
    {l l' : List ReachDecision} (e : reachOffers c s q = .ok l) (e' : reachOffers c' s' (seatOn r q) = .ok l') :
    l' = l.map (ReachDecision.moved r) := by
  unfold reachOffers at e e'
  rw [h.reaches q hq, h.menzen q hq, hc.shanten, h.hand_tensors q hq] at e'
  split at e
  · next hx =>
    rw [if_pos hx] at e'
    split at e
    · simp at e
    · next n hn =>
      rw [hn] at e'
      simp only [Except.ok.injEq] at e e'
      subst e; subst e'
      split <;> rfl
  · next hx =>
    rw [if_neg hx] at e'
    simp only [Except.ok.injEq] at e e'
    subst e; subst e'; rfl

theorem StMoved.draw {r : Nat} {c c' : RoundCfg} (hc : CfgMoved r c c') {s s' s1 s1' : RoundSt} (h : StMoved r s s') {q t : Nat}
    (hq : q < 4) (d : DrawDone c s s1 q t) (d' : DrawDone c' s' s1' (seatOn r q) t) : StMoved r s1 s1' := by
  have hd := h.drawTile hq t
  have ho := hd.mkObj hc hq
  have ha : d'.agari = d.agari.map (AgariDecision.moved r) := by
    have e1 := d.agari_eq
    have e2 := d'.agari_eq
    have hcy := hd.early (fun n => decide (2 ≤ n ∧ n ≤ 4))
    have hfirst : ((MJ.drawTile s' (seatOn r q) t).cycles == 1) = ((MJ.drawTile s q t).cycles == 1) := h.firstDraw
    rw [hc.estimate, hd.tsumo, hcy, hfirst] at e2
    exact tsumo_moved hq hd.full (hd.winArgs hc _) e1 e2
  have hre := reach_moved hq hc hd d.reach_eq d'.reach_eq
  have hk : d'.kakan = d.kakan.map (NakiDecision.moved r) := by
    have e2 := d'.kakan_eq
    rw [h.melds q hq, kakan_moved (hd.hands q hq), d.kakan_eq] at e2
    simpa [movedE] using e2.symm
  have han := ankan_moved (hd.hand_tensors q hq)
  rw [d.state_eq, d'.state_eq]
  exact {
    hands := hd.hands
    hand_tensors := hd.hand_tensors
    full := hd.full
    pov := hd.pov
    tsumo := hd.tsumo
    sutehai := hd.sutehai
    doras := hd.doras
    scores := hd.scores
    kyotaku := hd.kyotaku
    double := hd.double
    reaches := hd.reaches
    ippatsu := (h.ippatsu.set hq rfl).clear
    melds := hd.melds
    menzen := hd.menzen
    curr := congrArg some h.length
    cycles := hd.cycles
    started := fun _ => Nat.le_add_left _ _
    started' := fun _ => Nat.le_add_left _ _
    acquired := rfl
    obj := .inr ⟨_, _, rfl, rfl, ho⟩
    tokens := hd.tokens
    turns := by
      refine h.turns.append (.cons ?_ .nil)
      rw [ha, hre, hk, han, h.tokens_length, ← List.map_append]
      exact .during hq ho }

theorem StMoved.discardTile {r : Nat} {s s' : RoundSt} (h : StMoved r s s') {q : Nat} (hq : q < 4) (t : Nat) :
    StMoved r (discardTile s q t) (discardTile s' (seatOn r q) t) :=
  { h with
    hands := h.hands.set hq (by rw [h.hands q hq])
    hand_tensors := h.hand_tensors.addRow hq _ _
    full := h.full.addRow hq _ _
    pov := Moved.addRow (h.pov.map (fun f => addAt f (tile2idx t) (-1))) hq _ _
    sutehai := h.sutehai.set hq (by rw [h.sutehai q hq]) }

theorem StMoved.discard {r : Nat} {c c' : RoundCfg} (hc : CfgMoved r c c') (hest : NoRenhou c.estimate) {s s' s1 s1' : RoundSt}
    (h : StMoved r s s') {q t : Nat} (hq : q < 4) (d : DiscardDone c s s1 q t) (d' : DiscardDone c' s' s1' (seatOn r q) t) :
    StMoved r s1 s1' := by
  have hd := h.discardTile hq t
  have ho : ObjMoved r d.o d'.o := by
    rcases h.obj with ⟨e, _⟩ | ⟨o, o', e1, e2, e3⟩
    · rw [d.obj_eq] at e; simp at e
    · rw [d.obj_eq] at e1
      rw [d'.obj_eq] at e2
      rw [Option.some.inj e1, Option.some.inj e2]
      exact e3
  have hw : WinsMoved r (spread d.rons) (spread d'.rons) := by
    have e2 := d'.rons_eq
    rw [hc.estimate, h.tsumo] at e2
    exact ron_moved hest hq hd.full (h.winArgs hc _) hd.sutehai d.rons_eq e2
  have hn := decisionMask_moved hq hd.hand_tensors d.offers_eq d'.offers_eq
  have hacq : d'.a = d.a := by
    have := h.acquired
    rw [d.acquired_eq, d'.acquired_eq] at this
    exact Option.some.inj this
  have htok : TokenMoved r d.token d'.token := by
    have e2 := d'.token_eq
    rw [hacq] at e2
    exact .discard hq d.token_eq e2
  rw [d.state_eq, d'.state_eq]
  exact { hd with
    curr := by simp only [h.length]
    started := fun _ => h.started (.inr (by rw [d.acquired_eq]; simp))
    started' := fun _ => h.started' (.inr (by rw [d'.acquired_eq]; simp))
    acquired := rfl
    tokens := h.tokens.append (.cons htok .nil)
    turns := by
      refine h.turns.append (.cons ?_ (.cons ?_ .nil))
      · rw [h.tokens_length]; exact .discard hq ho
      · rw [h.tokens_length]; exact .post hq ho hw hn }

theorem StMoved.gain {r : Nat} {s s' : RoundSt} (h : StMoved r s s') {q : Nat} (hq : q < 4) (acq : Option Nat) :
    Moved r (gain s.hand_tensors_full q acq) (gain s'.hand_tensors_full (seatOn r q) acq) := by
  cases acq with
  | none => exact h.full
  | some a => exact h.full.addRow hq _ _

theorem StMoved.call {r : Nat} {c c' : RoundCfg} (hc : CfgMoved r c c') (hest : NoRenhou c.estimate) {s s' s1 s1' : RoundSt}
    (h : StMoved r s s') {q code : Nat} (hf : from_who code ≠ 0) (d : NakiDone c s s1 code q)
    (d' : NakiDone c' s' s1' code (seatOn r q)) : StMoved r s1 s1' := by
  have hq := d.player_lt
  have hn : d'.naki = d.naki := by
    have e1 := d'.code_eq.trans d.code_eq.symm
    have e2 := d'.clean_eq
    rw [d.clean_eq] at e2
    have e3 : d.naki.convenient_naki_code = d'.naki.convenient_naki_code := by simpa using e2
    cases hx : d.naki; cases hy : d'.naki
    simp only [hx, hy] at e1 e3
    simp [e1, e3]
  have hx : d'.ex = d.ex ∧ d'.acq = d.acq := by
    have := d'.exposed_eq
    rw [d.exposed_eq] at this
    simp only [Except.ok.injEq, Prod.mk.injEq] at this
    exact ⟨this.1.symm, this.2.symm⟩
  have hi : d'.i = d.i := by
    have := d'.curr_eq
    rw [h.curr, d.curr_eq] at this
    simpa using this.symm
  obtain ⟨_, _, x3, x4⟩ := expose_ok d.expose_eq
  obtain ⟨_, _, y3, y4⟩ := expose_ok d'.expose_eq
  have hne : s.halfturns ≠ [] := by
    intro e
    have := d.turn_eq
    rw [e] at this; simp at this
  have hne' : s'.halfturns ≠ [] := by
    intro e
    have := d'.turn_eq
    rw [e] at this; simp at this
  have c1 := h.started (.inl hne)
  have c2 := h.started' (.inl hne')
  have ho : ObjMoved r (nakiObj c s code q) (nakiObj c' s' code (seatOn r q)) := by
    have := (h.mkObj hc hq).tsumo_of (if !is_chi code && !is_pon code then s.remaining_tsumo - 1 else s.remaining_tsumo)
    unfold nakiObj
    rw [h.tsumo]
    exact this
  have hm : Moved r (setAt s.is_menzen q 0) (setAt s'.is_menzen (seatOn r q) 0) := h.menzen.set hq rfl
  have hz : allMenzen (setAt s.is_menzen q 0) = false := by
    have h4 : q = 0 ∨ q = 1 ∨ q = 2 ∨ q = 3 := by omega
    rcases h4 with rfl | rfl | rfl | rfl <;> simp [allMenzen, setAt]
  have e' := d'.state_eq
  rw [hx.1, hx.2, hi, hn, h.melds q hq] at e'
  rw [d.state_eq, e']
  exact {
    hands := by
      intro p hp
      funext t
      show d'.hands' (seatOn r p) t = d.hands' p t
      rw [x3, y3, hx.1, h.hands p hp]
      simp only [seatOn_inj r hp hq]
    hand_tensors := by
      intro p hp
      funext k
      show d'.ht' (seatOn r p) k = d.ht' p k
      rw [x4, y4, hx.1, h.hand_tensors p hp]
      simp only [seatOn_inj r hp hq]
    full := h.gain hq d.acq
    pov := by
      intro p hp
      show (if seatOn r p = seatOn r q then _ else _) = (if p = q then _ else _)
      rw [h.pov p hp]
      simp only [seatOn_inj r hp hq]
    tsumo := by
      show (if _ then _ else _) = _
      rw [h.tsumo]
    sutehai := h.sutehai
    doras := h.doras
    scores := h.scores
    kyotaku := h.kyotaku
    double := h.double
    reaches := h.reaches
    ippatsu := h.ippatsu.clear
    melds := h.melds.set hq rfl
    menzen := by
      show Moved r (if from_who code ≠ 0 then _ else _) (if from_who code ≠ 0 then _ else _)
      rw [if_pos hf, if_pos hf]
      exact hm
    curr := rfl
    cycles := by
      refine .inr ⟨?_, ?_, ?_⟩
      · show allMenzen (if from_who code ≠ 0 then _ else _) = false
        rw [if_pos hf]
        exact hz
      · show 1 ≤ s.cycles + _ + _
        omega
      · show 1 ≤ s'.cycles + _ + _
        omega
    started := fun _ => by
      show 1 ≤ s.cycles + _ + _
      omega
    started' := fun _ => by
      show 1 ≤ s'.cycles + _ + _
      omega
    acquired := rfl
    obj := .inr ⟨_, _, rfl, rfl, ho⟩
    tokens := h.tokens.append (.cons (.call hq d.token_eq d'.token_eq) .nil)
    turns := by
      have ht' := d'.turn_eq
      rw [hi] at ht'
      have hk := (h.turns.get d.i d.turn_eq ht').mark d.naki.convenient_naki_code
      refine (h.turns.set_both d.i hk).append ?_
      unfold chankanTurn
      by_cases hkk : is_kakan code = true
      · rw [if_pos hkk, if_pos hkk, h.tokens_length]
        refine .cons (.post hq ho ?_ ?_) .nil
        · have e2 := d'.rons_eq hkk
          rw [hx.1, hx.2, hn, h.melds q hq, hc.estimate] at e2
          refine ron_moved hest hq (h.gain hq d.acq) ?_ h.sutehai (d.rons_eq hkk) e2
          exact ⟨(h.melds.set hq rfl).map _, h.doras, h.reaches, h.ippatsu.clear, h.double, rfl, hc.player_wind, hc.round_wind,
            h.kyotaku, hc.honba⟩
        · intro p hp
          have : ∀ x, callsOf ((List.range 4).map (fun _ => ([] : List NakiDecision))) x = [] := by
            intro x
            simp only [callsOf, List.getD_eq_getElem?_getD, List.getElem?_map]
            cases (List.range 4)[x]? <;> rfl
          rw [this, this]; rfl
      · rw [if_neg hkk, if_neg hkk]
        exact .nil }

/-- one event and the same event with everybody moved on -/
theorem StMoved.step {r : Nat} {c c' : RoundCfg} (hc : CfgMoved r c c') (hest : NoRenhou c.estimate) {s s' s1 s1' : RoundSt}
    (h : StMoved r s s') {act : Act} (hno : ∀ p k, act = .call p k → from_who k ≠ 0) (e : Effect c s act s1)
    (e' : Effect c' s' (act.moved r) s1') : StMoved r s1 s1' := by
  cases e with
  | @dora t token ht htok =>
    cases e' with
    | dora ht' htok' =>
      rw [htok] at htok'
      cases htok'
      exact { h with
        pov := h.pov.map (fun f => addAt f [t / 4] (-1))
        tsumo := by simp only [h.tsumo]
        doras := by simp only [h.doras]
        tokens := h.tokens.append (.cons (.dora htok) .nil) }
  | declare hq hcu ht hd ha =>
    cases e' with
    | declare hq' hc' ht' hd' ha' =>
      rw [h.curr, hcu] at hc'
      cases hc'
      exact { h with
        ippatsu := h.ippatsu.set hq rfl
        started := fun _ => h.started (.inr (by intro e; rw [e] at ha; simp at ha))
        started' := fun _ => h.started' (.inr (by intro e; rw [e] at ha'; simp at ha'))
        turns := h.turns.set_both _ (h.turns.get _ ht ht').markReach }
  | @accept q i token t v hq hcu ht hd hv htok =>
    cases e' with
    | accept hq' hc' ht' hd' hv' htok' =>
      rw [h.scores q hq, hv] at hv'
      cases hv'
      have hcy := h.early (fun n => decide (n ≤ 4))
      exact { h with
        reaches := h.reaches.set hq rfl
        kyotaku := by simp only [h.kyotaku]
        scores := by
          intro p hp
          show (s'.scores.set (seatOn r q) _)[seatOn r p]? = (s.scores.set q _)[p]?
          have hl : seatOn r q < s'.scores.length := (List.getElem?_eq_some_iff.1 (h.scores q hq ▸ hv)).1
          have hl0 : q < s.scores.length := (List.getElem?_eq_some_iff.1 hv).1
          rw [List.getElem?_set, List.getElem?_set, h.scores p hp]
          simp only [eq_comm (a := seatOn r q), eq_comm (a := q), seatOn_inj r hp hq]
          split
          · next e => subst e; simp [hl, hl0]
          · rfl
        double := by
          show Moved r (if decide (s.cycles ≤ 4) && allMenzen s.is_menzen then _ else _) (if decide (s'.cycles ≤ 4) && allMenzen s'.is_menzen then _ else _)
          rw [hcy]
          split
          · exact h.double.set hq rfl
          · exact h.double
        tokens := h.tokens.append (.cons (.reach hq htok htok') .nil)
        ippatsu := h.ippatsu.set hq rfl }
  | call d =>
    cases e' with
    | call d' => exact h.call hc hest (hno _ _ rfl) d d'
  | draw hq d =>
    cases e' with
    | draw hq' d' => exact h.draw hc hq d d'
  | discard hq d =>
    cases e' with
    | discard hq' d' => exact h.discard hc hest hq d d'

theorem moved_reached {r : Nat} {c c' : RoundCfg} (hc : CfgMoved r c c') (hest : NoRenhou c.estimate) : ∀ (acts : List Act)
    {s s' s1 s1' : RoundSt}, StMoved r s s' → NoClosedKan acts → Reached c s acts s1 →
    Reached c' s' (acts.map (Act.moved r)) s1' → StMoved r s1 s1'
  | [], s, s', s1, s1', h, _, hr, hr' => by
    rw [hr.det .start, hr'.det .start]
    exact h
  | a :: l, s, s', s1, s1', h, hn, hr, hr' => by
    obtain ⟨x, y, h1, h2, _, h4⟩ := Reached.at (pre := []) hr
    obtain ⟨x', y', h1', h2', _, h4'⟩ := Reached.at (pre := []) (post := l.map (Act.moved r)) hr'
    rw [h1.det .start] at h2
    rw [h1'.det .start] at h2'
    exact moved_reached hc hest l (h.step hc hest (fun p k e => hn p k (by simp [e])) h2 h2')
      (fun p k hm => hn p k (by simp [hm])) h4 h4'

/-- the start of the same round with everybody moved on -/
structure DealMoved (r : Nat) (a a' : InitAttr) : Prop where
  seed : a'.seed = a.seed
  oya : ∀ p, a.oya = .ok p → a'.oya = .ok (seatOn r p)
  hai : ∀ p < 4, a'.hai (seatOn r p) = a.hai p
  ten : ∀ l, a.ten = .ok l → ∃ l', a'.ten = .ok l' ∧ ∀ p < 4, l'[seatOn r p]? = l[p]?

theorem DealMoved.start {r : Nat} {est : Estimate} {sh : List Int → Except PyErr Int} {g : GameInfo}
    {a a' : InitAttr} {c c' : RoundCfg} {s0 s0' : RoundSt} (h : DealMoved r a a') (hi : initRound est sh g a = .ok (c, s0))
    (hi' : initRound est sh g a' = .ok (c', s0')) : CfgMoved r c c' ∧ StMoved r s0 s0' := by
  obtain ⟨d⟩ := initRound_ok hi
  obtain ⟨d'⟩ := initRound_ok hi'
  have hseed := d'.seed_eq
  rw [h.seed, d.seed_eq] at hseed
  simp only [Except.ok.injEq, List.cons.injEq, and_true] at hseed
  obtain ⟨e1, e2, e3, _, _, e4⟩ := hseed
  have e5 := d'.parent_eq
  rw [h.oya _ d.parent_eq] at e5
  obtain ⟨l', f1, f2⟩ := h.ten _ d.scores_eq
  have e6 := d'.scores_eq
  rw [f1] at e6
  simp only [Except.ok.injEq] at e5 e6
  subst e6
  have e7 : Moved r d.hai d'.hai := by
    intro p hp
    have := d'.hai_eq _ (seatOn_lt r p)
    rw [h.hai p hp, d.hai_eq p hp] at this
    simpa using this.symm
  refine ⟨?_, ?_⟩
  · rw [d.cfg_eq, d'.cfg_eq]
    exact ⟨rfl, rfl, by simp only [e2], e5.symm, d.parent_lt, by simp only [e1], by simp only [e1], by simp only [e1], by simp only [e1]⟩
  · rw [d.state_eq, d'.state_eq]
    exact {
      hands := e7.map (fun l t => if t ∈ l then (1 : Int) else 0)
      hand_tensors := e7.map (fun l => countTiles l (fun _ => 0) 1)
      full := e7.map (fun l => countTiles l (fun _ => 0) 1)
      pov := by
        rw [← e4]
        exact e7.map (fun l => addAt (countTiles l remainingTiles (-1)) (tile2idx d.dora0) (-1))
      tsumo := rfl
      sutehai := fun _ _ => rfl
      doras := by simp only [e4]
      scores := f2
      kyotaku := by simp only [e3]
      double := fun _ _ => rfl
      reaches := fun _ _ => rfl
      ippatsu := fun _ _ => rfl
      melds := fun _ _ => rfl
      menzen := fun _ _ => rfl
      curr := rfl
      cycles := .inl rfl
      started := by simp
      started' := by simp
      acquired := rfl
      obj := .inl ⟨rfl, rfl⟩
      tokens := .nil
      turns := .nil }

end MJ
