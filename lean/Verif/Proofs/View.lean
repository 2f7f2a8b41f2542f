import Verif.Spec.View
import Verif.Proofs.RoundInit
import Verif.Props.RoundWins
import Verif.Props.RoundShown
/-!
Two rounds that a player cannot tell apart.
-/
namespace MJ
open Code Spec

/-- half-turns that look the same to player `p`: the decisions of the other players are not looked at -/
def TurnAgree (p : Nat) : HalfTurn → HalfTurn → Prop
  | .during q o e a r n, t' => ∃ a' r' n', t' = .during q o e a' r' n' ∧ (q = p → a' = a ∧ r' = r ∧ n' = n)
  | .discard q o e t, t' => t' = .discard q o e t
  | .post q o e a n, t' => ∃ a' n', t' = .post q o e a' n' ∧ winsOf a' p = winsOf a p ∧ callsOf n' p = callsOf n p

/-- states that look the same to player `p` -/
structure Agree (p : Nat) (s s' : RoundSt) : Prop where
  hands : s'.hands p = s.hands p
  hand_tensors : s'.hand_tensors p = s.hand_tensors p
  full : s'.hand_tensors_full p = s.hand_tensors_full p
  pov : s'.remaining_tiles_pov p = s.remaining_tiles_pov p
  tsumo : s'.remaining_tsumo = s.remaining_tsumo
  sutehai : s'.sutehai_tensors = s.sutehai_tensors
  doras : s'.doras = s.doras
  scores : s'.scores = s.scores
  kyotaku : s'.kyotaku = s.kyotaku
  double : s'.double_reaches = s.double_reaches
  reaches : s'.reaches = s.reaches
  ippatsu : s'.ippatsu = s.ippatsu
  melds : s'.melds = s.melds
  menzen : s'.is_menzen = s.is_menzen
  curr : s'.curr_halfturn = s.curr_halfturn
  cycles : s'.cycles = s.cycles
  obj : s'.stateObj = s.stateObj
  tokens : s'.encoding_tokens = s.encoding_tokens
  turns : AllPairs (TurnAgree p) s.halfturns s'.halfturns

theorem Agree.refl_turn (p : Nat) (t : HalfTurn) : TurnAgree p t t := by
  cases t with
  | during q o e a r n => exact ⟨a, r, n, rfl, fun _ => ⟨rfl, rfl, rfl⟩⟩
  | discard => rfl
  | post q o e a n => exact ⟨a, n, rfl, rfl, rfl⟩

theorem Spec.AllPairs.set_both {α β : Type} {R : α → β → Prop} {as : List α} {bs : List β} (h : AllPairs R as bs)
    (i : Nat) {a : α} {b : β} (hab : R a b) : AllPairs R (as.set i a) (bs.set i b) := by
  induction h generalizing i with
  | nil => exact .nil
  | cons h1 h2 ih =>
    cases i with
    | zero => exact .cons hab h2
    | succ i => exact .cons h1 (ih i)

theorem Spec.AllPairs.get {α β : Type} {R : α → β → Prop} {as : List α} {bs : List β} (h : AllPairs R as bs)
    (i : Nat) {a : α} {b : β} (ha : as[i]? = some a) (hb : bs[i]? = some b) : R a b := by
  induction h generalizing i with
  | nil => simp at ha
  | cons h1 h2 ih =>
    cases i with
    | zero =>
      simp only [List.getElem?_cons_zero, Option.some.injEq] at ha hb
      subst ha; subst hb; exact h1
    | succ i => exact ih i (by simpa using ha) (by simpa using hb)

theorem TurnAgree.mark {p : Nat} {t t' : HalfTurn} (h : TurnAgree p t t') (k : Nat) : TurnAgree p (t.mark k) (t'.mark k) := by
  cases t with
  | during q o e a r n =>
    obtain ⟨a', r', n', rfl, hq⟩ := h
    refine ⟨a', r', markNaki k n', rfl, fun h => ?_⟩
    obtain ⟨h1, h2, h3⟩ := hq h
    exact ⟨h1, h2, by rw [h3]⟩
  | discard q o e t => rw [h]; rfl
  | post q o e a n =>
    obtain ⟨a', n', rfl, h1, h2⟩ := h
    refine ⟨a', n'.map (markNaki k), rfl, h1, ?_⟩
    have key : ∀ l : List (List NakiDecision), callsOf (l.map (markNaki k)) p = markNaki k (callsOf l p) := by
      intro l
      simp only [callsOf, List.getD_eq_getElem?_getD, List.getElem?_map]
      cases l[p]? <;> rfl
    rw [key, key, h2]

theorem TurnAgree.markReach {p : Nat} {t t' : HalfTurn} (h : TurnAgree p t t') : TurnAgree p t.markReach t'.markReach := by
  cases t with
  | during q o e a r n =>
    obtain ⟨a', r', n', rfl, hq⟩ := h
    refine ⟨a', MJ.markReach r', n', rfl, fun h => ?_⟩
    obtain ⟨h1, h2, h3⟩ := hq h
    exact ⟨h1, by rw [h2], h3⟩
  | discard q o e t => rw [h]; rfl
  | post q o e a n =>
    obtain ⟨a', n', rfl, h1, h2⟩ := h
    exact ⟨a', n', rfl, h1, h2⟩

theorem Agree.length {p : Nat} {s s' : RoundSt} (h : Agree p s s') : s'.halfturns.length = s.halfturns.length :=
  h.turns.length.symm

theorem Agree.winArgs {p : Nat} {s s' : RoundSt} (h : Agree p s s') (c : RoundCfg) (b : Bool) :
    winArgs c s' b = winArgs c s b := by
  simp only [MJ.winArgs, h.melds, h.doras, h.reaches, h.ippatsu, h.double, h.kyotaku]

theorem Agree.mkStateObj {p : Nat} {s s' : RoundSt} (h : Agree p s s') (c : RoundCfg) (q : Nat) :
    mkStateObj c s' q = mkStateObj c s q := by
  simp only [MJ.mkStateObj, h.tsumo, h.sutehai, h.double, h.reaches, h.ippatsu, h.scores, h.kyotaku, h.doras]

theorem addRow_other (f : Nat → Nat → Int) (p q : Nat) (h : p ≠ q) (l : List Nat) (d : Int) : addRow f q l d p = f p := by
  simp [addRow, setAt, h]

theorem addRow_congr {f g : Nat → Nat → Int} {p : Nat} (h : g p = f p) (q : Nat) (l : List Nat) (d : Int) :
    addRow g q l d p = addRow f q l d p := by
  by_cases hq : p = q
  · subst hq; simp [addRow, setAt, h]
  · rw [addRow_other _ _ _ hq, addRow_other _ _ _ hq, h]

theorem setAt_congr {α : Type} {f g : Nat → α} {p : Nat} (h : g p = f p) (q : Nat) {x y : α} (hxy : p = q → x = y) :
    setAt g q x p = setAt f q y p := by
  by_cases hq : p = q
  · simp [setAt, hq, hxy hq]
  · simp [setAt, hq, h]

theorem ron_agree_seat {est : Estimate} {player : Nat} {h1 h2 : Nat → Nat → Int} {a : WinArgs}
    {sut : Nat → Nat → Int} {tile : Nat} {ck : Bool} {rh : Nat → Bool} {x1 x2 : Nat → Nat → Int}
    {r1 r2 : List (Option AgariDecision)} (e1 : evaluate_ron est player h1 a sut tile ck rh = .ok (x1, r1))
    (e2 : evaluate_ron est player h2 a sut tile ck rh = .ok (x2, r2)) (p : Nat) (hp : p < 4) (h : h2 p = h1 p) :
    winsOf (spread r2) p = winsOf (spread r1) p := by
  obtain ⟨k1, k2⟩ := ron_seats e1 p hp
  obtain ⟨l1, l2⟩ := ron_seats e2 p hp
  have key : (spread r2)[p]? = (spread r1)[p]? := by
    by_cases hno : p = player ∨ sut p (tile / 4) ≠ 0
    · rw [k1 hno, l1 hno]
    · simp only [not_or, Decidable.not_not] at hno
      obtain ⟨q, hq, hc⟩ := k2 hno.1 hno.2
      obtain ⟨q', hq', hc'⟩ := l2 hno.1 hno.2
      rw [h] at hq'
      rw [ronQuery_unique hq hq'] at hc'
      rcases hc with ⟨u1, u2⟩ | ⟨u1, u2⟩ <;> rcases hc' with ⟨v1, v2⟩ | ⟨v1, v2⟩
      · rw [u2, v2]
      · rw [u1] at v1; simp at v1
      · rw [u1] at v1; simp at v1
      · rw [u2, v2]
  simp only [winsOf, List.getD_eq_getElem?_getD, key]

theorem offers_agree {player : Nat} {h1 h2 : Nat → Nat → Int} {t : Nat} {red : Bool} {o1 o2 : List (List NakiDecision)}
    (e1 : decisionMask player h1 t red = .ok o1) (e2 : decisionMask player h2 t red = .ok o2) (p : Nat) (hp : p < 4)
    (h : h2 p = h1 p) : callsOf o2 p = callsOf o1 p := by
  simp only [decisionMask, bind_ok, pure_ok] at e1 e2
  obtain ⟨a0, ha0, a1, ha1, a2, ha2, a3, ha3, rfl⟩ := e1
  obtain ⟨b0, hb0, b1, hb1, b2, hb2, b3, hb3, rfl⟩ := e2
  have hp4 : p = 0 ∨ p = 1 ∨ p = 2 ∨ p = 3 := by omega
  rcases hp4 with rfl | rfl | rfl | rfl
  · rw [h, ha0] at hb0; simpa [callsOf] using hb0.symm
  · rw [h, ha1] at hb1; simpa [callsOf] using hb1.symm
  · rw [h, ha2] at hb2; simpa [callsOf] using hb2.symm
  · rw [h, ha3] at hb3; simpa [callsOf] using hb3.symm

theorem Agree.draw {p : Nat} (hp : p < 4) {c : RoundCfg} {s s' s1 s1' : RoundSt} (h : Agree p s s') {q t t' : Nat}
    (ht : q = p → t' = t) (d : DrawDone c s s1 q t) (d' : DrawDone c s' s1' q t') : Agree p s1 s1' := by
  rw [d.state_eq, d'.state_eq]
  have hdt : ∀ (q' : Nat), MJ.mkStateObj c (drawTile s' q t') q' = MJ.mkStateObj c (drawTile s q t) q' := by
    intro q'
    simp only [MJ.mkStateObj, drawTile, h.tsumo, h.sutehai, h.double, h.reaches, h.ippatsu, h.scores, h.kyotaku, h.doras]
  refine ⟨?_, ?_, ?_, ?_, ?_, h.sutehai, h.doras, h.scores, h.kyotaku, h.double, h.reaches, ?_, h.melds, h.menzen,
    ?_, ?_, ?_, h.tokens, ?_⟩
  · exact setAt_congr h.hands q (fun e => by rw [ht e.symm, ← e, h.hands])
  · by_cases e : q = p
    · show addRow _ q _ _ p = addRow _ q _ _ p
      rw [ht e]; exact addRow_congr h.hand_tensors q _ _
    · show addRow _ q _ _ p = addRow _ q _ _ p
      rw [addRow_other _ _ _ (Ne.symm e), addRow_other _ _ _ (Ne.symm e), h.hand_tensors]
  · by_cases e : q = p
    · show addRow _ q _ _ p = addRow _ q _ _ p
      rw [ht e]; exact addRow_congr h.full q _ _
    · show addRow _ q _ _ p = addRow _ q _ _ p
      rw [addRow_other _ _ _ (Ne.symm e), addRow_other _ _ _ (Ne.symm e), h.full]
  · by_cases e : q = p
    · show addRow _ q _ _ p = addRow _ q _ _ p
      rw [ht e]; exact addRow_congr h.pov q _ _
    · show addRow _ q _ _ p = addRow _ q _ _ p
      rw [addRow_other _ _ _ (Ne.symm e), addRow_other _ _ _ (Ne.symm e), h.pov]
  · simp only [drawTile, h.tsumo]
  · simp only [h.ippatsu]
  · simp only [h.length]
  · simp only [drawTile, h.cycles]
  · simp only [hdt]
  · refine h.turns.append (.cons ⟨d'.agari, d'.reach, _, by rw [hdt, h.tokens], fun e => ?_⟩ .nil)
    have e' := ht e
    subst e'
    subst e
    have hft : (drawTile s' q t').hand_tensors q = (drawTile s q t').hand_tensors q := addRow_congr h.hand_tensors q _ _
    have hff : (drawTile s' q t').hand_tensors_full q = (drawTile s q t').hand_tensors_full q := addRow_congr h.full q _ _
    have hfh : (drawTile s' q t').hands q = (drawTile s q t').hands q :=
      setAt_congr h.hands q (fun _ => by rw [h.hands])
    refine ⟨?_, ?_, ?_⟩
    · have e1 := d.agari_eq
      have e2 := d'.agari_eq
      have hw : ∀ b, MJ.winArgs c (drawTile s' q t') b = MJ.winArgs c (drawTile s q t') b := by
        intro b
        simp only [MJ.winArgs, drawTile, h.melds, h.doras, h.reaches, h.ippatsu, h.double, h.kyotaku]
      rw [hw] at e2
      have ec : (drawTile s' q t').cycles = (drawTile s q t').cycles := by simp only [drawTile, h.cycles]
      have er : (drawTile s' q t').remaining_tsumo = (drawTile s q t').remaining_tsumo := by simp only [drawTile, h.tsumo]
      have em : (drawTile s' q t').is_menzen = (drawTile s q t').is_menzen := h.menzen
      rw [ec, er, em] at e2
      unfold evaluate_tsumo at e1 e2
      rw [hff] at e2
      rw [e2] at e1
      simpa using e1
    · have e1 := d.reach_eq
      have e2 := d'.reach_eq
      unfold reachOffers at e1 e2
      have er : (drawTile s' q t').reaches = (drawTile s q t').reaches := h.reaches
      have em : (drawTile s' q t').is_menzen = (drawTile s q t').is_menzen := h.menzen
      rw [er, em, hft, e1] at e2
      simpa using e2.symm
    · have e1 := d.kakan_eq
      have e2 := d'.kakan_eq
      have key : ∀ (ms : List Naki), kakanOffers (drawTile s' q t').hands q ms = kakanOffers (drawTile s q t').hands q ms := by
        intro ms
        induction ms with
        | nil => rfl
        | cons m ms ih => simp only [kakanOffers, hfh, ih]
      rw [key, h.melds, e1] at e2
      have e3 : d'.kakan = d.kakan := by simpa using e2.symm
      rw [e3]
      simp only [ankanOffers, hft]

/-- the tile taken last looks the same: it is the same, or it is the tile that the player has not seen -/
def LastAgree (last last' : Option Nat) (s s' : RoundSt) : Prop :=
  s'.acquired = s.acquired ∨ (s.acquired = last ∧ s'.acquired = last')

theorem Agree.discard {p : Nat} (hp : p < 4) {c : RoundCfg} {s s' s1 s1' : RoundSt} (h : Agree p s s')
    {last last' : Option Nat} (hl : LastAgree last last' s s') {q t : Nat} (hd : (last == some t) = (last' == some t))
    (d : DiscardDone c s s1 q t) (d' : DiscardDone c s' s1' q t) : Agree p s1 s1' := by
  rw [d.state_eq, d'.state_eq]
  have ho : d'.o = d.o := by
    have := d'.obj_eq
    rw [h.obj, d.obj_eq] at this
    simpa using this.symm
  have hft : (discardTile s' q t).hand_tensors p = (discardTile s q t).hand_tensors p := addRow_congr h.hand_tensors q _ _
  have hff : (discardTile s' q t).hand_tensors_full p = (discardTile s q t).hand_tensors_full p := addRow_congr h.full q _ _
  have hsu : (discardTile s' q t).sutehai_tensors = (discardTile s q t).sutehai_tensors := by
    simp only [discardTile, h.sutehai]
  refine ⟨?_, hft, hff, ?_, h.tsumo, hsu, h.doras, h.scores, h.kyotaku, h.double, h.reaches, h.ippatsu, h.melds, h.menzen,
    ?_, h.cycles, h.obj, ?_, ?_⟩
  · exact setAt_congr h.hands q (fun e => by rw [← e, h.hands])
  · refine addRow_congr (f := fun p => addAt (s.remaining_tiles_pov p) (tile2idx t) (-1))
      (g := fun p => addAt (s'.remaining_tiles_pov p) (tile2idx t) (-1)) ?_ q _ _
    show addAt _ _ _ = addAt _ _ _
    rw [h.pov]
  · simp only [h.length]
  · have e1 := d.token_eq
    have e2 := d'.token_eq
    have : (d'.a == t) = (d.a == t) := by
      rcases hl with hl | ⟨h1, h2⟩
      · rw [d.acquired_eq, d'.acquired_eq] at hl
        rw [Option.some.inj hl]
      · rw [d.acquired_eq] at h1
        rw [d'.acquired_eq] at h2
        rw [← h1, ← h2] at hd
        simpa using hd.symm
    rw [this, e1] at e2
    have e3 : d'.token = d.token := by simpa using e2.symm
    simp only [h.tokens, e3]
  · refine h.turns.append (.cons (by rw [ho, h.tokens]; rfl) (.cons ⟨_, _, by rw [ho, h.tokens], ?_, ?_⟩ .nil))
    · have e2 := d'.rons_eq
      rw [h.winArgs, hsu, h.tsumo, h.cycles, h.menzen] at e2
      exact ron_agree_seat d.rons_eq e2 p hp hff
    · exact offers_agree d.offers_eq d'.offers_eq p hp hft

theorem Agree.call {p : Nat} (hp : p < 4) {c : RoundCfg} {s s' s1 s1' : RoundSt} (h : Agree p s s') {q code : Nat}
    (d : NakiDone c s s1 code q) (d' : NakiDone c s' s1' code q) : Agree p s1 s1' := by
  rw [d.state_eq, d'.state_eq]
  have hn : d'.naki = d.naki := by
    have e1 := d'.code_eq.trans d.code_eq.symm
    have e2 := d'.clean_eq
    rw [d.clean_eq] at e2
    have e3 : d.naki.convenient_naki_code = d'.naki.convenient_naki_code := by simpa using e2
    cases hx : d.naki; cases hy : d'.naki
    simp only [hx, hy] at e1 e3
    simp [e1, e3]
  have hx : d'.ex = d.ex ∧ d'.acq = d.acq := by
    have := d'.exposed_eq
    rw [d.exposed_eq] at this
    simp only [Except.ok.injEq, Prod.mk.injEq] at this
    exact ⟨this.1.symm, this.2.symm⟩
  have htok : d'.token = d.token := by
    have := d'.token_eq
    rw [d.token_eq] at this
    simpa using this.symm
  have hi : d'.i = d.i := by
    have := d'.curr_eq
    rw [h.curr, d.curr_eq] at this
    simpa using this.symm
  obtain ⟨_, _, x3, x4⟩ := expose_ok d.expose_eq
  obtain ⟨_, _, y3, y4⟩ := expose_ok d'.expose_eq
  have hobj : nakiObj c s' code q = nakiObj c s code q := by
    simp only [nakiObj, MJ.mkStateObj, h.tsumo, h.sutehai, h.double, h.reaches, h.ippatsu, h.scores, h.kyotaku, h.doras]
  have hgain : gain s'.hand_tensors_full q d.acq p = gain s.hand_tensors_full q d.acq p := by
    cases d.acq with
    | none => exact h.full
    | some a => exact addRow_congr h.full q _ _
  refine ⟨?_, ?_, ?_, ?_, ?_, h.sutehai, h.doras, h.scores, h.kyotaku, h.double, h.reaches, ?_, ?_, ?_, rfl, ?_, ?_, ?_, ?_⟩
  · funext t; show d'.hands' p t = d.hands' p t
    rw [x3, y3, hx.1, h.hands]
  · funext k; show d'.ht' p k = d.ht' p k
    rw [x4, y4, hx.1, h.hand_tensors]
  · show gain _ q d'.acq p = _
    rw [hx.2]; exact hgain
  · show (if p = q then _ else _) = (if p = q then _ else _)
    rw [hx.1, h.pov]
  · show (if _ then _ else _) = _
    rw [h.tsumo]
  · show clearIppatsu _ = clearIppatsu _
    rw [h.ippatsu]
  · show setAt _ q _ = setAt _ q _
    rw [hn, hx.1, h.melds]
  · show (if _ then _ else _) = _
    rw [h.menzen]
  · show _ + _ + _ = _ + _ + _
    rw [h.cycles]
  · show some _ = some _
    rw [hobj]
  · show _ ++ _ = _ ++ _
    rw [h.tokens, htok]
  · have ht' := d'.turn_eq
    rw [hi] at ht'
    have hm := (h.turns.get d.i d.turn_eq ht').mark d.naki.convenient_naki_code
    show AllPairs (TurnAgree p) (s.halfturns.set d.i _ ++ _) (s'.halfturns.set d'.i _ ++ _)
    rw [hi, hn]
    refine (h.turns.set_both d.i hm).append ?_
    unfold chankanTurn
    by_cases hk : is_kakan code = true
    · rw [if_pos hk, if_pos hk]
      refine .cons ⟨_, _, by rw [hobj, h.tokens], ?_, rfl⟩ .nil
      have e2 := d'.rons_eq hk
      have hw : chankanArgs c s' q (removePon ((d.ex.headD 0) / 4) (s.melds q ++ [d.naki])) =
          chankanArgs c s q (removePon ((d.ex.headD 0) / 4) (s.melds q ++ [d.naki])) := by
        simp only [chankanArgs, MJ.winArgs, h.melds, h.doras, h.reaches, h.ippatsu, h.double, h.kyotaku]
      rw [hx.1, hx.2, hn, h.melds, hw, h.sutehai] at e2
      exact ron_agree_seat (d.rons_eq hk) e2 p hp hgain
    · rw [if_neg hk, if_neg hk]
      exact .nil

theorem Agree.declare {p : Nat} {s s' : RoundSt} (h : Agree p s s') {q i : Nat} {t t' : HalfTurn}
    (ht : s.halfturns[i]? = some t) (ht' : s'.halfturns[i]? = some t') :
    Agree p { s with halfturns := s.halfturns.set i t.markReach, ippatsu := setAt s.ippatsu q 1 }
      { s' with halfturns := s'.halfturns.set i t'.markReach, ippatsu := setAt s'.ippatsu q 1 } := by
  obtain ⟨h1, h2, h3, h4, h5, h6, h7, h8, h9, h10, h11, h12, h13, h14, h15, h16, h17, h18, h19⟩ := h
  exact ⟨h1, h2, h3, h4, h5, h6, h7, h8, h9, h10, h11, by simp only [h12], h13, h14, h15, h16, h17, h18,
    h19.set_both i (h19.get i ht ht').markReach⟩

/-- one event that looks the same to player `p` -/
theorem Agree.step {p : Nat} (hp : p < 4) {c : RoundCfg} {s s' s1 s1' : RoundSt} (h : Agree p s s') {act act' : Act}
    (e : Effect c s act s1) (e' : Effect c s' act' s1') {last last' : Option Nat} (hl : LastAgree last last' s s')
    {l l' : List Act} (hs : sightOf p last (act :: l) = sightOf p last' (act' :: l')) :
    Agree p s1 s1' ∧ ∃ new new', LastAgree new new' s1 s1' ∧ sightOf p new l = sightOf p new' l' := by
  cases e with
  | dora ht htok =>
    cases act' <;> simp only [sightOf, List.cons.injEq, reduceCtorEq, false_and, Seen.opened.injEq, Act.dora.injEq] at hs
    obtain ⟨rfl, hs⟩ := hs
    cases e' with
    | dora ht' htok' =>
      rw [htok] at htok'
      cases htok'
      refine ⟨?_, last, last', hl, hs⟩
      obtain ⟨h1, h2, h3, h4, h5, h6, h7, h8, h9, h10, h11, h12, h13, h14, h15, h16, h17, h18, h19⟩ := h
      exact ⟨h1, h2, h3, by simp only [h4], by simp only [h5], h6, by simp only [h7], h8, h9, h10, h11, h12, h13, h14, h15,
        h16, h17, by simp only [h18], h19⟩
  | declare hq hc ht hd ha =>
    cases act' <;> simp only [sightOf, List.cons.injEq, reduceCtorEq, false_and, Seen.opened.injEq, Act.declare.injEq] at hs
    obtain ⟨rfl, hs⟩ := hs
    cases e' with
    | declare hq' hc' ht' hd' ha' =>
      rw [h.curr, hc] at hc'
      cases hc'
      exact ⟨h.declare ht ht', last, last', hl, hs⟩
  | accept hq hc ht hd hv htok =>
    cases act' <;> simp only [sightOf, List.cons.injEq, reduceCtorEq, false_and, Seen.opened.injEq, Act.accept.injEq] at hs
    obtain ⟨rfl, hs⟩ := hs
    cases e' with
    | accept hq' hc' ht' hd' hv' htok' =>
      rw [h.scores, hv] at hv'
      cases hv'
      rw [htok] at htok'
      cases htok'
      refine ⟨?_, last, last', hl, hs⟩
      obtain ⟨h1, h2, h3, h4, h5, h6, h7, h8, h9, h10, h11, h12, h13, h14, h15, h16, h17, h18, h19⟩ := h
      exact ⟨h1, h2, h3, h4, h5, h6, h7, by simp only [h8], by simp only [h9], by simp only [h10, h14, h16],
        by simp only [h11], by simp only [h12], h13, h14, h15, h16, h17, by simp only [h18], h19⟩
  | call d =>
    cases act' <;> simp only [sightOf, List.cons.injEq, reduceCtorEq, false_and, Seen.opened.injEq, Act.call.injEq] at hs
    obtain ⟨⟨rfl, rfl⟩, hs⟩ := hs
    cases e' with
    | call d' =>
      refine ⟨h.call hp d d', none, none, .inl ?_, hs⟩
      have := d'.exposed_eq
      rw [d.exposed_eq] at this
      simp only [Except.ok.injEq, Prod.mk.injEq] at this
      rw [d.state_eq, d'.state_eq, this.2]
  | draw hq d =>
    cases act' <;> simp only [sightOf, List.cons.injEq, reduceCtorEq, false_and, Seen.drew.injEq] at hs
    obtain ⟨⟨rfl, hx⟩, hs⟩ := hs
    cases e' with
    | draw hq' d' =>
      refine ⟨h.draw hp (fun e => ?_) d d', _, _, .inr ⟨?_, ?_⟩, hs⟩
      · rw [if_pos e, if_pos e] at hx
        exact (Option.some.inj hx).symm
      · rw [d.state_eq]; rfl
      · rw [d'.state_eq]; rfl
  | discard hq d =>
    cases act' <;> simp only [sightOf, List.cons.injEq, reduceCtorEq, false_and, Seen.discarded.injEq] at hs
    obtain ⟨⟨rfl, rfl, hx⟩, hs⟩ := hs
    cases e' with
    | discard hq' d' =>
      refine ⟨h.discard hp hl hx d d', none, none, .inl ?_, hs⟩
      rw [d.state_eq, d'.state_eq]

theorem agree_reached {p : Nat} (hp : p < 4) {c : RoundCfg} : ∀ (acts acts' : List Act) {s s' s1 s1' : RoundSt}
    {last last' : Option Nat}, Agree p s s' → LastAgree last last' s s' → Reached c s acts s1 → Reached c s' acts' s1' →
    sightOf p last acts = sightOf p last' acts' → Agree p s1 s1'
  | [], [], s, s', s1, s1', _, _, h, _, hr, hr', _ => by
    rw [hr.det .start, hr'.det .start]
    exact h
  | [], a :: l, _, _, _, _, _, _, _, _, _, _, hs => by cases a <;> simp [sightOf] at hs
  | a :: l, [], _, _, _, _, _, _, _, _, _, _, hs => by cases a <;> simp [sightOf] at hs
  | a :: l, a' :: l', s, s', s1, s1', last, last', h, hl, hr, hr', hs => by
    obtain ⟨x, y, h1, h2, _, h4⟩ := Reached.at (pre := []) hr
    obtain ⟨x', y', h1', h2', _, h4'⟩ := Reached.at (pre := []) hr'
    rw [h1.det .start] at h2
    rw [h1'.det .start] at h2'
    obtain ⟨k1, n, n', k2, k3⟩ := h.step hp h2 h2' hl hs
    exact agree_reached hp l l' k1 k2 h4 h4' k3

/-- the two deals look the same to player `p` -/
structure SameDeal (p : Nat) (a a' : InitAttr) : Prop where
  ten : a'.ten = a.ten
  oya : a'.oya = a.oya
  seed : a'.seed = a.seed
  hai : a'.hai p = a.hai p

theorem SameDeal.agree {p : Nat} (hp : p < 4) {est : Estimate} {sh : List Int → Except PyErr Int} {g : GameInfo}
    {a a' : InitAttr} {c c' : RoundCfg} {s0 s0' : RoundSt} (h : SameDeal p a a') (hi : initRound est sh g a = .ok (c, s0))
    (hi' : initRound est sh g a' = .ok (c', s0')) : c' = c ∧ Agree p s0 s0' ∧ LastAgree none none s0 s0' := by
  obtain ⟨d⟩ := initRound_ok hi
  obtain ⟨d'⟩ := initRound_ok hi'
  have hseed := d'.seed_eq
  rw [h.seed, d.seed_eq] at hseed
  simp only [Except.ok.injEq, List.cons.injEq, and_true] at hseed
  obtain ⟨e1, e2, e3, _, _, e4⟩ := hseed
  have e5 := d'.parent_eq
  rw [h.oya, d.parent_eq] at e5
  have e6 := d'.scores_eq
  rw [h.ten, d.scores_eq] at e6
  have e7 := d'.hai_eq p hp
  rw [h.hai, d.hai_eq p hp] at e7
  simp only [Except.ok.injEq] at e5 e6 e7
  refine ⟨?_, ?_, ?_⟩
  · rw [d.cfg_eq, d'.cfg_eq, e1, e2, e5]
  · rw [d.state_eq, d'.state_eq]
    refine ⟨?_, ?_, ?_, ?_, rfl, rfl, ?_, ?_, ?_, rfl, rfl, rfl, rfl, rfl, rfl, rfl, rfl, rfl, .nil⟩
    · simp only [e7]
    · simp only [e7]
    · simp only [e7]
    · simp only [e7, e4]
    · simp only [e4]
    · exact e6.symm
    · simp only [e3]
  · rw [d.state_eq, d'.state_eq]
    exact .inl rfl

end MJ
