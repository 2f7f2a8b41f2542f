import Verif.Proofs.Except
import Verif.Props.Agari
/-!
What each kind of event does to the loop variables, when it does not raise.
-/
namespace MJ
open Code

theorem setAt_same {α : Type} (f : Nat → α) (i : Nat) (v : α) : setAt f i v i = v := by simp [setAt]
theorem setAt_ne {α : Type} (f : Nat → α) (i j : Nat) (v : α) (h : j ≠ i) : setAt f i v j = f j := by simp [setAt, h]

theorem stepDora_ok {s s' : RoundSt} {hai : Except PyErr Nat} (h : stepDora s hai = .ok s') :
    ∃ t token, hai = .ok t ∧ t < 136 ∧ new_dora2idx (t / 4) = .ok token ∧
      s' = { s with
        doras := s.doras ++ [t]
        remaining_tiles := addAt s.remaining_tiles [t / 4] (-1)
        remaining_tiles_pov := fun p => addAt (s.remaining_tiles_pov p) [t / 4] (-1)
        remaining_tsumo := s.remaining_tsumo - 1
        encoding_tokens := s.encoding_tokens ++ [token] } := by
  simp only [stepDora, bind_ok, pure_ok, checkTile_ok, tile2idx_head] at h
  obtain ⟨t, h1, _, h2, token, h3, h4⟩ := h
  exact ⟨t, token, h1, h2, h3, h4.symm⟩

/-- mark the executed decision of a half-turn -/
def HalfTurn.mark (k : Nat) : HalfTurn → HalfTurn
  | .during p o e a r ns => .during p o e a r (markNaki k ns)
  | .post p o e a ns => .post p o e a (ns.map (markNaki k))
  | h => h

def HalfTurn.markReach : HalfTurn → HalfTurn
  | .during p o e a r ns => .during p o e a (MJ.markReach r) ns
  | h => h

theorem curr_some {s : RoundSt} {h : HalfTurn} (hc : s.curr = some h) :
    ∃ i, s.curr_halfturn = some i ∧ s.halfturns[i]? = some h := by
  unfold RoundSt.curr at hc
  cases hi : s.curr_halfturn with
  | none => simp [hi] at hc
  | some i => exact ⟨i, rfl, by simpa [hi] using hc⟩

theorem setCurr_eq {s : RoundSt} {i : Nat} (hi : s.curr_halfturn = some i) (h : HalfTurn) :
    s.setCurr h = { s with halfturns := s.halfturns.set i h } := by
  unfold RoundSt.setCurr
  rw [hi]

theorem nakiMark_ok {s s' : RoundSt} {n : Naki} (h : nakiMark s n = .ok s') :
    ∃ i t, s.curr_halfturn = some i ∧ s.halfturns[i]? = some t ∧
      (if is_ankan n.naki_code || is_kakan n.naki_code then t.isDuring = true else t.isPost = true) ∧
      s' = { s with halfturns := s.halfturns.set i (t.mark n.convenient_naki_code) } := by
  unfold nakiMark at h
  split at h
  · rename_i hk
    split at h
    · rename_i hc
      obtain ⟨i, h1, h2⟩ := curr_some hc
      simp only [Except.ok.injEq] at h
      refine ⟨i, _, h1, h2, ?_, h.symm.trans (setCurr_eq h1 _)⟩
      rw [if_pos hk]; rfl
    · simp at h
  · rename_i hk
    split at h
    · rename_i hc
      obtain ⟨i, h1, h2⟩ := curr_some hc
      simp only [Except.ok.injEq] at h
      refine ⟨i, _, h1, h2, ?_, h.symm.trans (setCurr_eq h1 _)⟩
      rw [if_neg hk]; rfl
    · simp at h

theorem reachDeclare_ok {s s' : RoundSt} (h : reachDeclare s = .ok s') :
    ∃ i t, s.curr_halfturn = some i ∧ s.halfturns[i]? = some t ∧ t.isDuring = true ∧ s.acquired.isSome = true ∧
      s' = { s with halfturns := s.halfturns.set i t.markReach } := by
  unfold reachDeclare at h
  split at h
  · rename_i hc
    split at h
    · rename_i ha
      obtain ⟨i, h1, h2⟩ := curr_some hc
      simp only [Except.ok.injEq] at h
      exact ⟨i, _, h1, h2, rfl, ha, h.symm.trans (setCurr_eq h1 _)⟩
    · simp at h
  · simp at h

theorem payStick_ok {l l' : List Int} {p : Nat} (h : payStick l p = .ok l') :
    ∃ v, l[p]? = some v ∧ l' = l.set p (v - 10) := by
  unfold payStick at h
  split at h
  · rename_i v hv
    exact ⟨v, hv, by simpa using h.symm⟩
  · simp at h

theorem reachAccept_ok {s s' : RoundSt} {p : Nat} (h : reachAccept s p = .ok s') :
    ∃ i t scores token, s.curr_halfturn = some i ∧ s.halfturns[i]? = some t ∧ t.isPost = true ∧ p < 4 ∧
      payStick s.scores p = .ok scores ∧ reach2idx p = .ok token ∧
      s' = { s with
        reaches := setAt s.reaches p 1
        kyotaku := s.kyotaku + 1
        scores := scores
        double_reaches := if decide (s.cycles ≤ 4) && allMenzen s.is_menzen then setAt s.double_reaches p 1
          else s.double_reaches
        encoding_tokens := s.encoding_tokens ++ [token] } := by
  unfold reachAccept at h
  split at h
  · rename_i hc
    obtain ⟨i, h1, h2⟩ := curr_some hc
    simp only [bind_ok, pure_ok, checkSeat_ok] at h
    obtain ⟨_, h3, scores, h4, token, h5, h6⟩ := h
    exact ⟨i, _, scores, token, h1, h2, rfl, h3, h4, h5, h6.symm⟩
  · simp at h

theorem stepReach_ok {s s' : RoundSt} {who : Except PyErr Nat} {one : Except PyErr Bool}
    (h : stepReach s who one = .ok s') :
    ∃ p b s1, who = .ok p ∧ one = .ok b ∧ p < 4 ∧ (if b then reachDeclare s else reachAccept s p) = .ok s1 ∧
      s' = { s1 with ippatsu := setAt s1.ippatsu p 1 } := by
  simp only [stepReach, bind_ok, pyAssert_ok] at h
  obtain ⟨_, _, p, h2, b, h3, h⟩ := h
  cases b with
  | true =>
    simp only [if_true, bind_ok, pure_ok, checkSeat_ok] at h
    obtain ⟨s1, h4, _, h5, h6⟩ := h
    exact ⟨p, true, s1, h2, h3, h5, by simpa using h4, h6.symm⟩
  | false =>
    simp only [Bool.false_eq_true, if_false, bind_ok, pure_ok, checkSeat_ok] at h
    obtain ⟨s1, h4, _, h5, h6⟩ := h
    exact ⟨p, false, s1, h2, h3, h5, by simpa using h4, h6.symm⟩

/-- how many tiles of the list occupy the slot `k` -/
def cnt (l : List Nat) (k : Nat) : Nat := l.countP (fun t => decide (k ∈ tile2idx t))

theorem cnt_nil (k : Nat) : cnt [] k = 0 := rfl
theorem cnt_cons (t : Nat) (l : List Nat) (k : Nat) : cnt (t :: l) k = cnt l k + if k ∈ tile2idx t then 1 else 0 := by
  simp [cnt, List.countP_cons]
theorem cnt_append (l l' : List Nat) (k : Nat) : cnt (l ++ l') k = cnt l k + cnt l' k := by simp [cnt]

theorem tile2idx_nodup (t : Nat) : (tile2idx t).Nodup := by
  unfold tile2idx; repeat' split
  all_goals simp

theorem foldl_addAt (l : List Nat) (hn : l.Nodup) (f : Nat → Int) (d : Int) :
    l.foldl (fun f e => addAt f [e] d) f = addAt f l d := by
  induction l generalizing f with
  | nil => funext k; simp [addAt]
  | cons x xs ih =>
    rw [List.nodup_cons] at hn
    rw [List.foldl_cons, ih hn.2]
    funext k
    simp only [addAt, List.mem_cons, List.not_mem_nil, or_false]
    by_cases h1 : k = x
    · subst h1; simp [hn.1]
    · simp [h1]

theorem countTiles_eq (l : List Nat) (f : Nat → Int) (d : Int) (k : Nat) :
    countTiles l f d k = f k + d * cnt l k := by
  unfold countTiles
  induction l generalizing f with
  | nil => simp [cnt_nil]
  | cons t l ih =>
    rw [List.foldl_cons, ih, cnt_cons]
    simp only [addAt]
    split
    · rw [Int.natCast_add, Int.mul_add]; simp; omega
    · simp

theorem seeExposed_eq (l : List Nat) (f : Nat → Int) (k : Nat) : seeExposed l f k = f k - cnt l k := by
  have : seeExposed l f = countTiles l f (-1) := by
    unfold seeExposed countTiles
    congr 1
    funext f e
    exact foldl_addAt _ (tile2idx_nodup e) f (-1)
  rw [this, countTiles_eq]
  omega

theorem expose_ok {player : Nat} {l : List Nat} {hands ht hands' ht' : Nat → Nat → Int}
    (h : expose player l (hands, ht) = .ok (hands', ht')) :
    l.Nodup ∧ (∀ e ∈ l, hands player e = 1) ∧
    (∀ p t, hands' p t = if p = player ∧ t ∈ l then 0 else hands p t) ∧
    (∀ p k, ht' p k = if p = player then ht p k - cnt l k else ht p k) := by
  induction l generalizing hands ht with
  | nil =>
    simp only [expose, Except.ok.injEq, Prod.mk.injEq] at h
    obtain ⟨rfl, rfl⟩ := h
    simp [cnt_nil]
  | cons e es ih =>
    unfold expose at h
    split at h
    · rename_i he
      obtain ⟨h1, h2, h3, h4⟩ := ih h
      have hne : e ∉ es := by
        intro hm
        have := h2 e hm
        simp [addRow, setAt, addAt, he] at this
      have hother : ∀ x ∈ es, hands player x = 1 := by
        intro x hx
        have hxe : x ≠ e := by rintro rfl; exact hne hx
        have := h2 x hx
        simpa [addRow, setAt, addAt, hxe] using this
      refine ⟨List.nodup_cons.2 ⟨hne, h1⟩, ?_, ?_, ?_⟩
      · intro x hx
        rcases List.mem_cons.1 hx with rfl | hx
        · exact he
        · exact hother x hx
      · intro p t
        rw [h3 p t]
        by_cases hp : p = player
        · subst hp
          by_cases ht : t ∈ es
          · simp [ht]
          · by_cases hte : t = e
            · subst hte; simp [ht, addRow, setAt, addAt, he]
            · simp [ht, hte, addRow, setAt, addAt]
        · simp [hp, addRow, setAt]
      · intro p k
        rw [h4 p k, cnt_cons]
        by_cases hp : p = player
        · subst hp
          simp only [addRow, setAt, addAt, if_true]
          split <;> simp <;> omega
        · simp [hp, addRow, setAt]
    · simp at h

/-- the called tile is added to the caller's counts -/
def gain (f : Nat → Nat → Int) (p : Nat) : Option Nat → Nat → Nat → Int
  | some a => addRow f p (tile2idx a) 1
  | none => f

theorem nakiTiles_ok {s s' : RoundSt} {p : Nat} {ex : List Nat} {acq : Option Nat} (h : nakiTiles s p ex acq = .ok s') :
    (∀ t ∈ ex, t < 136) ∧ (∀ t ∈ acq.toList, t < 136) ∧ ∃ hands ht, expose p ex (s.hands, s.hand_tensors) = .ok (hands, ht) ∧
    s' = { s with
      hands := hands
      hand_tensors := ht
      remaining_tiles_pov := fun i => if i = p then s.remaining_tiles_pov i else seeExposed ex (s.remaining_tiles_pov i)
      hand_tensors_full := gain s.hand_tensors_full p acq } := by
  simp only [nakiTiles, bind_ok, checkTiles_ok] at h
  obtain ⟨_, h1, ⟨hands, ht⟩, h2, h3⟩ := h
  cases acq with
  | none =>
    simp only [pure_ok] at h3
    exact ⟨h1, by simp, hands, ht, h2, h3.symm⟩
  | some a =>
    simp only [bind_ok, pure_ok, checkTile_ok] at h3
    obtain ⟨_, h4, h5⟩ := h3
    exact ⟨h1, by simpa using h4, hands, ht, h2, h5.symm⟩

theorem mk'_ok {c : Nat} {n : Naki} (h : Naki.mk' c = .ok n) : n.naki_code = c ∧ clean c = .ok n.convenient_naki_code := by
  unfold Naki.mk' at h
  split at h
  · rename_i k hk
    simp at h; subst h; exact ⟨rfl, hk⟩
  · simp at h

/-- the state object made by a call -/
def nakiObj (c : RoundCfg) (s : RoundSt) (code p : Nat) : StateObj :=
  mkStateObj c { s with remaining_tsumo := if !is_chi code && !is_pon code then s.remaining_tsumo - 1 else s.remaining_tsumo } p

/-- the half-turn an added kan appends -/
def chankanTurn (c : RoundCfg) (s : RoundSt) (code p : Nat) (rons : List (Option AgariDecision)) : List HalfTurn :=
  if is_kakan code then
    [.post p (nakiObj c s code p) (s.encoding_tokens.length + 1) (spread rons) ((List.range 4).map (fun _ => []))]
  else []

/-- what the evaluator is told about a chankan -/
def chankanArgs (c : RoundCfg) (s : RoundSt) (p : Nat) (melds : List Naki) : WinArgs :=
  winArgs c { s with melds := setAt s.melds p melds, ippatsu := clearIppatsu s.ippatsu } false

/-- everything a successful call does -/
structure NakiDone (c : RoundCfg) (s s' : RoundSt) (code p : Nat) where
  naki : Naki
  code_eq : naki.naki_code = code
  clean_eq : clean code = .ok naki.convenient_naki_code
  player_lt : p < 4
  token : Nat
  token_eq : naki2idx p code = .ok token
  i : Nat
  t : HalfTurn
  curr_eq : s.curr_halfturn = some i
  turn_eq : s.halfturns[i]? = some t
  kind_eq : if is_ankan code || is_kakan code then t.isDuring = true else t.isPost = true
  ex : List Nat
  acq : Option Nat
  exposed_eq : get_exposed code = .ok (ex, acq)
  ex_lt : ∀ t ∈ ex, t < 136
  acq_lt : ∀ t ∈ acq.toList, t < 136
  hands' : Nat → Nat → Int
  ht' : Nat → Nat → Int
  expose_eq : expose p ex (s.hands, s.hand_tensors) = .ok (hands', ht')
  rons : List (Option AgariDecision)
  rons_eq : is_kakan code = true →
    evaluate_ron c.estimate p (gain s.hand_tensors_full p acq)
      (chankanArgs c s p (removePon ((ex.headD 0) / 4) (s.melds p ++ [naki]))) s.sutehai_tensors (ex.headD 0) true
      (fun _ => false) = .ok (gain s.hand_tensors_full p acq, rons)
  state_eq : s' = { s with
    hands := hands'
    hand_tensors := ht'
    remaining_tiles_pov := fun i => if i = p then s.remaining_tiles_pov i else seeExposed ex (s.remaining_tiles_pov i)
    hand_tensors_full := gain s.hand_tensors_full p acq
    remaining_tsumo := if !is_chi code && !is_pon code then s.remaining_tsumo - 1 else s.remaining_tsumo
    melds := setAt s.melds p (if is_kakan code then removePon ((ex.headD 0) / 4) (s.melds p ++ [naki]) else s.melds p ++ [naki])
    is_menzen := if from_who code ≠ 0 then setAt s.is_menzen p 0 else s.is_menzen
    ippatsu := clearIppatsu s.ippatsu
    stateObj := some (nakiObj c s code p)
    curr_halfturn := none
    cycles := s.cycles + (((p : Int) - from_who code) % 4).toNat + if is_minkan code || is_ankan code || is_kakan code then 1 else 0
    acquired := if is_minkan code || is_ankan code || is_kakan code then none else acq
    halfturns := s.halfturns.set i (t.mark naki.convenient_naki_code) ++ chankanTurn c s code p rons
    encoding_tokens := s.encoding_tokens ++ [token] }

theorem chankan_ok {c : RoundCfg} {s s' : RoundSt} {p : Nat} {ex : List Nat} {o : StateObj}
    (h : chankan c s p ex o = .ok s') :
    ∃ rons, evaluate_ron c.estimate p s.hand_tensors_full
      (winArgs c { s with melds := setAt s.melds p (removePon ((ex.headD 0) / 4) (s.melds p)) } false) s.sutehai_tensors
      (ex.headD 0) true (fun _ => false) = .ok (s.hand_tensors_full, rons) ∧ s' = { s with
      melds := setAt s.melds p (removePon ((ex.headD 0) / 4) (s.melds p))
      halfturns := s.halfturns ++ [.post p o s.encoding_tokens.length (spread rons) ((List.range 4).map (fun _ => []))] } := by
  simp only [chankan, bind_ok, pure_ok] at h
  obtain ⟨⟨full, rons⟩, h1, h2⟩ := h
  have := C25_hands_unchanged _ _ _ _ _ _ _ _ _ _ h1
  refine ⟨rons, ?_, by rw [← h2]; simp only [this]⟩
  rw [this] at h1
  exact h1

theorem setAt_setAt {α : Type} (f : Nat → α) (i : Nat) (v w : α) : setAt (setAt f i v) i w = setAt f i w := by
  funext j
  by_cases hj : j = i <;> simp [setAt, hj]

theorem stepNaki_ok {c : RoundCfg} {s s' : RoundSt} {m who : Except PyErr Nat} (h : stepNaki c s m who = .ok s') :
    ∃ code p, m = .ok code ∧ who = .ok p ∧ Nonempty (NakiDone c s s' code p) := by
  simp only [stepNaki, bind_ok, pyAssert_ok, checkSeat_ok] at h
  obtain ⟨_, _, code, hm, naki, hmk, p, hw, _, hp, token, htok, s1, hmark, ⟨ex, acq⟩, hex, s2, htiles, hfin⟩ := h
  obtain ⟨e1, e2⟩ := mk'_ok hmk
  obtain ⟨i, t, hi, ht, hk, rfl⟩ := nakiMark_ok hmark
  rw [e1] at hk
  refine ⟨code, p, hm, hw, ?_⟩
  have hs1 : ∀ (b : Bool) (x : RoundSt), (if b = true then { x with remaining_tsumo := x.remaining_tsumo - 1 } else x) =
      { x with remaining_tsumo := if b then x.remaining_tsumo - 1 else x.remaining_tsumo } := by
    intro b x; cases b <;> rfl
  rw [hs1] at htiles
  obtain ⟨l1, l2, hands', ht', hexp, rfl⟩ := nakiTiles_ok htiles
  by_cases hkk : is_kakan code = true
  · simp only [hkk, if_true, Bool.or_true, pure_ok, bind_ok] at hfin
    obtain ⟨s3, hch, hfin⟩ := hfin
    obtain ⟨rons, hrons, rfl⟩ := chankan_ok hch
    refine ⟨⟨naki, e1, e2, hp, token, htok, i, t, hi, ht, hk, ex, acq, hex, l1, l2, hands', ht', hexp, rons, ?_, ?_⟩⟩
    · intro _
      simp only [setAt_setAt, setAt_same] at hrons
      exact hrons
    rw [← hfin]
    simp only [hkk, if_true, Bool.or_true, setAt_same, chankanTurn, List.length_append, List.length_singleton]
    congr 1
    funext j
    by_cases hj : j = p
    · subst hj; simp [setAt]
    · simp [setAt, hj]
  · have hkk : is_kakan code = false := by simpa using hkk
    simp only [hkk, Bool.false_eq_true, if_false, Bool.or_false, bind_ok, Except.ok.injEq, exists_eq_left'] at hfin
    refine ⟨⟨naki, e1, e2, hp, token, htok, i, t, hi, ht, hk, ex, acq, hex, l1, l2, hands', ht', hexp, [],
      fun h => absurd (hkk.symm.trans h) (by decide), ?_⟩⟩
    by_cases hb : (is_minkan code || is_ankan code) = true
    · rw [if_pos hb] at hfin
      simp only [pure_ok] at hfin
      rw [← hfin]
      simp only [hkk, hb, Bool.false_eq_true, if_false, Bool.or_false, if_true, chankanTurn, List.append_nil]
      rfl
    · rw [if_neg hb] at hfin
      simp only [pure_ok] at hfin
      rw [← hfin]
      simp only [hkk, hb, Bool.false_eq_true, if_false, Bool.or_false, chankanTurn, List.append_nil, Nat.add_zero]
      rfl

/-- everything a successful draw does -/
structure DrawDone (c : RoundCfg) (s s' : RoundSt) (p t : Nat) where
  tile_lt : t < 136
  acquired_none : s.acquired = none
  not_held : s.hands p t = 0
  sum_eq : sum34 ((drawTile s p t).hand_tensors p) % 3 = 2
  agari : List AgariDecision
  agari_eq : evaluate_tsumo c.estimate p (drawTile s p t).hand_tensors_full
    (winArgs c (drawTile s p t) ((drawTile s p t).remaining_tsumo == 0)) t
    false ((drawTile s p t).cycles == 1)
    (decide (2 ≤ (drawTile s p t).cycles ∧ (drawTile s p t).cycles ≤ 4) && allMenzen (drawTile s p t).is_menzen) = .ok agari
  reach : List ReachDecision
  reach_eq : reachOffers c (drawTile s p t) p = .ok reach
  kakan : List NakiDecision
  kakan_eq : kakanOffers (drawTile s p t).hands p (s.melds p) = .ok kakan
  state_eq : s' = { drawTile s p t with
    stateObj := some (mkStateObj c (drawTile s p t) p)
    halfturns := s.halfturns ++ [.during p (mkStateObj c (drawTile s p t) p) s.encoding_tokens.length agari reach
      (ankanOffers (drawTile s p t) p ++ kakan)]
    curr_halfturn := some s.halfturns.length
    ippatsu := clearIppatsu (setAt s.ippatsu p 0) }

theorem stepDraw_ok {c : RoundCfg} {s s' : RoundSt} {p : Nat} {tile : Except PyErr Nat}
    (h : stepDraw c s p tile = .ok s') : ∃ t, tile = .ok t ∧ Nonempty (DrawDone c s s' p t) := by
  simp only [stepDraw, bind_ok, pyAssert_ok, checkTile_ok, pure_ok, beq_iff_eq] at h
  obtain ⟨_, h1, t, h2, _, h3, _, h4, _, h5, agari, h6, reach, h7, kakan, h8, h9⟩ := h
  exact ⟨t, h2, ⟨⟨h3, by simpa using h1, h4, h5, agari, h6, reach, h7, kakan, h8, h9.symm⟩⟩⟩

/-- everything a successful discard does -/
structure DiscardDone (c : RoundCfg) (s s' : RoundSt) (p t : Nat) where
  tile_lt : t < 136
  a : Nat
  acquired_eq : s.acquired = some a
  curr_ok : currDuringOrNone s = true
  held : s.hands p t = 1
  o : StateObj
  obj_eq : s.stateObj = some o
  sum_eq : sum34 ((discardTile s p t).hand_tensors p) % 3 = 1
  rons : List (Option AgariDecision)
  rons_eq : evaluate_ron c.estimate p (discardTile s p t).hand_tensors_full (winArgs c s (s.remaining_tsumo == 0))
    (discardTile s p t).sutehai_tensors t false
    (fun _ => decide (s.cycles ≤ 3) && decide (s.cycles ≤ p) && allMenzen s.is_menzen) =
      .ok ((discardTile s p t).hand_tensors_full, rons)
  offers : List (List NakiDecision)
  offers_eq : decisionMask p (discardTile s p t).hand_tensors (t / 4) ((tile2idx t).length == 2) = .ok offers
  offers_own : offers.getD p [] = []
  token : Nat
  token_eq : discard2idx p (t / 4) (a == t) = .ok token
  state_eq : s' = { discardTile s p t with
    halfturns := s.halfturns ++ [.discard p o s.encoding_tokens.length t,
      .post p o s.encoding_tokens.length (spread rons) offers]
    curr_halfturn := some (s.halfturns.length + 1)
    encoding_tokens := s.encoding_tokens ++ [token]
    acquired := none }

theorem stepDiscard_ok {c : RoundCfg} {s s' : RoundSt} {p : Nat} {tile : Except PyErr Nat}
    (h : stepDiscard c s p tile = .ok s') : ∃ t, tile = .ok t ∧ Nonempty (DiscardDone c s s' p t) := by
  simp only [stepDiscard, bind_ok, pyAssert_ok, checkTile_ok, pure_ok, beq_iff_eq, tile2idx_head] at h
  obtain ⟨_, h1, _, h2, t, h3, _, h4, _, h5, o, h6, _, h7, ⟨full, rons⟩, h8, offers, h9, _, h10, token, h11, h12⟩ := h
  have hf := C25_hands_unchanged _ _ _ _ _ _ _ _ _ _ h8
  obtain ⟨a, ha⟩ := Option.isSome_iff_exists.1 h1
  have ho : s.stateObj = some o := by
    split at h6
    · rename_i o' ho'; simp at h6; rw [ho', h6]
    · simp at h6
  refine ⟨t, h3, ⟨⟨h4, a, ha, h2, h5, o, ho, h7, rons, ?_, offers, h9, by simpa using h10, token, ?_, ?_⟩⟩⟩
  · rw [hf] at h8
    exact h8
  · have e : ((discardTile { s with halfturns := s.halfturns ++ [.discard p o s.encoding_tokens.length t] } p t).acquired
        == some t) = (a == t) := by
      show (s.acquired == some t) = _
      rw [ha]; rfl
    rw [e] at h11
    exact h11
  · rw [← h12]
    simp only [hf]
    simp [discardTile]

end MJ
