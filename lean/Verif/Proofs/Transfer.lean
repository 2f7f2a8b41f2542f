import Verif.Spec.Questions
import Verif.Props.RoundLegal
import Verif.Props.RoundWins
/-!
The round loop depends on the hand evaluator and the shanten calculator only through the answers to the questions it asks.
-/
namespace MJ
open Code Spec

theorem tsumo_agree {est est' : Estimate} {p : Nat} {hands : Nat → Nat → Int} {a : WinArgs} {t : Nat} {x y z : Bool}
    {l : List AgariDecision} (h : evaluate_tsumo est p hands a t x y z = .ok l)
    (hq : ∀ q, TsumoQuery q (hands p) a p t x y z → est q = est' q) : evaluate_tsumo est' p hands a t x y z = .ok l := by
  unfold evaluate_tsumo at h ⊢
  dsimp only at h ⊢
  cases hm : nakisToMelds (a.naki_list p) with
  | error e => simp [hm] at h
  | ok ms =>
    simp only [hm] at h ⊢
    generalize hq' : (Query.mk _ _ _ _ _ _ _ _) = q at h ⊢
    rw [← hq q (by subst hq'; exact ⟨(C27_strings (hands p)).1, rfl, rfl, nakisToMelds_ok _ _ hm, rfl⟩)]
    exact h

theorem ronStep_agree {est est' : Estimate} {player : Nat} {a : WinArgs} {sutehai : Nat → Nat → Int} {tile idx : Nat}
    {ck : Bool} {rh : Nat → Bool} {p : Nat} {hands : Nat → Nat → Int} {l : List (Option AgariDecision)} {st' : _}
    (h : ronStep est player a sutehai tile idx ck rh p (hands, l) = .ok st')
    (hq : p ≠ player → sutehai p idx = 0 → ∀ q, RonQuery q (hands p) a p tile idx ck (rh p) → est q = est' q) :
    ronStep est' player a sutehai tile idx ck rh p (hands, l) = .ok st' := by
  by_cases hp : p = player
  · unfold ronStep at h ⊢
    rw [if_pos hp] at h ⊢
    exact h
  by_cases hs : sutehai p idx = 0
  · have hq := hq hp hs
    unfold ronStep at h ⊢
    rw [if_neg hp, if_neg (by simpa using hs)] at h ⊢
    dsimp only at h ⊢
    have hhand : (setAt hands p (setAt (hands p) idx (hands p idx + 1))) p = (fun k => if k = idx then hands p k + 1 else hands p k) := by
      funext k
      simp only [setAt, if_true]
      by_cases hk : k = idx
      · subst hk; simp
      · simp [hk]
    rw [hhand] at h ⊢
    cases hm : nakisToMelds (a.naki_list p) with
    | error e => simp [hm] at h
    | ok ms =>
      simp only [hm] at h ⊢
      generalize hq' : (Query.mk _ _ _ _ _ _ _ _) = q at h ⊢
      rw [← hq q (by
        subst hq'
        exact ⟨(C27_strings (fun k => if k = idx then hands p k + 1 else hands p k)).1, rfl, rfl,
          nakisToMelds_ok _ _ hm, rfl⟩)]
      exact h
  · unfold ronStep at h ⊢
    rw [if_neg hp, if_pos (by simpa using hs)] at h ⊢
    exact h

theorem ronLoop_agree {est est' : Estimate} {player : Nat} {a : WinArgs} {sutehai : Nat → Nat → Int} {tile : Nat}
    {ck : Bool} {rh : Nat → Bool} {hands : Nat → Nat → Int} (ps : List Nat) {l : List (Option AgariDecision)} {st' : _}
    (h : ronLoop est player a sutehai tile (tile / 4) ck rh ps (hands, l) = .ok st')
    (hq : ∀ p ∈ ps, p ≠ player → sutehai p (tile / 4) = 0 → ∀ q, RonQuery q (hands p) a p tile (tile / 4) ck (rh p) →
      est q = est' q) : ronLoop est' player a sutehai tile (tile / 4) ck rh ps (hands, l) = .ok st' := by
  induction ps generalizing l with
  | nil => exact h
  | cons x xs ih =>
    unfold ronLoop at h ⊢
    cases hx : ronStep est player a sutehai tile (tile / 4) ck rh x (hands, l) with
    | error e => simp [hx] at h
    | ok st =>
      rw [ronStep_agree hx (hq x (by simp))]
      simp only [hx] at h ⊢
      have e1 := (ronStep_ok est player a sutehai tile (tile / 4) ck rh x hands l st hx).1
      have hst : st = (hands, st.2) := by rw [← e1]
      rw [hst] at h ⊢
      exact ih h (fun p hp => hq p (by simp [hp]))

theorem ron_agree {est est' : Estimate} {player : Nat} {hands : Nat → Nat → Int} {a : WinArgs}
    {sutehai : Nat → Nat → Int} {tile : Nat} {ck : Bool} {rh : Nat → Bool} {r : _}
    (h : evaluate_ron est player hands a sutehai tile ck rh = .ok r)
    (hq : ∀ p < 4, p ≠ player → sutehai p (tile / 4) = 0 → ∀ q, RonQuery q (hands p) a p tile (tile / 4) ck (rh p) →
      est q = est' q) : evaluate_ron est' player hands a sutehai tile ck rh = .ok r := by
  unfold evaluate_ron at h ⊢
  split at h
  · rename_i ht
    rw [if_pos ht]
    rw [tile2idx_head] at h ⊢
    refine ronLoop_agree _ h (fun p hp => hq p ?_)
    simp only [List.mem_cons, List.not_mem_nil, or_false] at hp
    omega
  · simp at h

/-- the same round with other helpers -/
def RoundCfg.helped (c : RoundCfg) (est : Estimate) (sh : List Int → Except PyErr Int) : RoundCfg :=
  { c with estimate := est, shanten := sh }

theorem reachOffers_agree {c : RoundCfg} {est' : Estimate} {sh' : List Int → Except PyErr Int} {s : RoundSt} {p : Nat}
    {r : _} (h : reachOffers c s p = .ok r)
    (hq : c.shanten ((List.range 34).map (s.hand_tensors p)) = sh' ((List.range 34).map (s.hand_tensors p))) :
    reachOffers (c.helped est' sh') s p = .ok r := by
  unfold reachOffers at h ⊢
  change (if _ then (match sh' ((List.range 34).map (s.hand_tensors p)) with
    | .error e => _
    | .ok n => _) else _) = _
  rw [← hq]
  exact h

theorem draw_agree {c : RoundCfg} {est' : Estimate} {sh' : List Int → Except PyErr Int} {s s' : RoundSt} {p : Nat}
    {tile : Except PyErr Nat} (h : stepDraw c s p tile = .ok s')
    (hq : ∀ t, tile = .ok t → ∀ q, TsumoQuery q ((drawTile s p t).hand_tensors_full p)
      (winArgs c (drawTile s p t) ((drawTile s p t).remaining_tsumo == 0)) p t false ((drawTile s p t).cycles == 1)
      (decide (2 ≤ (drawTile s p t).cycles ∧ (drawTile s p t).cycles ≤ 4) && allMenzen (drawTile s p t).is_menzen) →
      c.estimate q = est' q)
    (hl : ∀ t, tile = .ok t → c.shanten ((List.range 34).map ((drawTile s p t).hand_tensors p)) =
      sh' ((List.range 34).map ((drawTile s p t).hand_tensors p))) :
    stepDraw (c.helped est' sh') s p tile = .ok s' := by
  simp only [stepDraw, bind_ok, pyAssert_ok, checkTile_ok, pure_ok, beq_iff_eq] at h ⊢
  obtain ⟨_, h1, t, h2, _, h3, _, h4, _, h5, agari, h6, reach, h7, kakan, h8, h9⟩ := h
  exact ⟨(), h1, t, h2, (), h3, (), h4, (), h5, agari, tsumo_agree h6 (hq t h2), reach, reachOffers_agree h7 (hl t h2), kakan, h8, h9⟩

theorem discard_agree {c : RoundCfg} {est' : Estimate} {sh' : List Int → Except PyErr Int} {s s' : RoundSt} {p : Nat}
    {tile : Except PyErr Nat} (h : stepDiscard c s p tile = .ok s')
    (hq : ∀ t, tile = .ok t → ∀ w < 4, w ≠ p → (discardTile s p t).sutehai_tensors w (t / 4) = 0 → ∀ q,
      RonQuery q ((discardTile s p t).hand_tensors_full w) (winArgs c s (s.remaining_tsumo == 0)) w t (t / 4) false
        (decide (s.cycles ≤ 3) && decide (s.cycles ≤ p) && allMenzen s.is_menzen) → c.estimate q = est' q) :
    stepDiscard (c.helped est' sh') s p tile = .ok s' := by
  simp only [stepDiscard, bind_ok, pyAssert_ok, checkTile_ok, pure_ok, beq_iff_eq, tile2idx_head] at h ⊢
  obtain ⟨_, h1, _, h2, t, h3, _, h4, _, h5, o, h6, _, h7, fr, h8, h⟩ := h
  exact ⟨(), h1, (), h2, t, h3, (), h4, (), h5, o, h6, (), h7, fr, ron_agree h8 (hq t h3), h⟩

theorem chankan_agree {c : RoundCfg} {est' : Estimate} {sh' : List Int → Except PyErr Int} {s s' : RoundSt} {p : Nat}
    {ex : List Nat} {o : StateObj} (h : chankan c s p ex o = .ok s')
    (hq : ∀ w < 4, w ≠ p → s.sutehai_tensors w ((ex.headD 0) / 4) = 0 → ∀ q,
      RonQuery q (s.hand_tensors_full w)
        (winArgs c { s with melds := setAt s.melds p (removePon ((ex.headD 0) / 4) (s.melds p)) } false) w (ex.headD 0)
        ((ex.headD 0) / 4) true false → c.estimate q = est' q) :
    chankan (c.helped est' sh') s p ex o = .ok s' := by
  simp only [chankan, bind_ok, pure_ok] at h ⊢
  obtain ⟨fr, h1, h⟩ := h
  exact ⟨fr, ron_agree h1 hq, h⟩

theorem naki_agree {c : RoundCfg} {est' : Estimate} {sh' : List Int → Except PyErr Int} {s s' : RoundSt}
    {m who : Except PyErr Nat} (h : stepNaki c s m who = .ok s')
    (hq : ∀ code p naki ex acq, m = .ok code → who = .ok p → p < 4 → Naki.mk' code = .ok naki →
      get_exposed code = .ok (ex, acq) → is_kakan code = true →
      ∀ w < 4, w ≠ p → s.sutehai_tensors w ((ex.headD 0) / 4) = 0 → ∀ q,
      RonQuery q (gain s.hand_tensors_full p acq w)
        (chankanArgs c s p (removePon ((ex.headD 0) / 4) (s.melds p ++ [naki]))) w (ex.headD 0)
        ((ex.headD 0) / 4) true false → c.estimate q = est' q) :
    stepNaki (c.helped est' sh') s m who = .ok s' := by
  simp only [stepNaki, bind_ok, pyAssert_ok, checkSeat_ok] at h ⊢
  obtain ⟨_, h1, code, hm, naki, hmk, p, hw, _, hp, token, htok, s1, hmark, ⟨ex, acq⟩, hex, s2, htiles, hfin⟩ := h
  refine ⟨(), h1, code, hm, naki, hmk, p, hw, (), hp, token, htok, s1, hmark, (ex, acq), hex, s2, htiles, ?_⟩
  by_cases hkk : is_kakan code = true
  · have hq := hq code p naki ex acq hm hw hp hmk hex hkk
    simp only [hkk, if_true, Bool.or_true, pure_ok, bind_ok] at hfin ⊢
    obtain ⟨s3, hch, hfin⟩ := hfin
    refine ⟨s3, ?_, hfin⟩
    obtain ⟨i, t, hi, ht, hk, rfl⟩ := nakiMark_ok hmark
    have hs1 : ∀ (b : Bool) (x : RoundSt), (if b = true then { x with remaining_tsumo := x.remaining_tsumo - 1 } else x) =
        { x with remaining_tsumo := if b then x.remaining_tsumo - 1 else x.remaining_tsumo } := by
      intro b x; cases b <;> rfl
    rw [hs1] at htiles
    obtain ⟨l1, l2, hands', ht', hexp, rfl⟩ := nakiTiles_ok htiles
    refine chankan_agree hch ?_
    intro w hw' hwp hs q hQ
    refine hq w hw' hwp hs q ?_
    simp only [setAt_setAt, setAt_same] at hQ
    exact hQ
  · have hkk : is_kakan code = false := by simpa using hkk
    simp only [hkk, Bool.false_eq_true, if_false] at hfin ⊢
    exact hfin

end MJ
