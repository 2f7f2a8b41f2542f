import Verif.Proofs.Concrete
import Verif.Props.RoundTiles
/-!
Who is to act: invariants of `acquired` and `curr_halfturn`.
-/
namespace MJ
open Code Spec

theorem snoc_induct {α : Type} {P : List α → Prop} (h0 : P []) (hs : ∀ l a, P l → P (l ++ [a])) : ∀ l, P l := by
  intro l
  rw [← List.reverse_reverse l]
  induction l.reverse with
  | nil => exact h0
  | cons x xs ih => rw [List.reverse_cons]; exact hs _ _ ih

theorem lastMove_snoc (acts : List Act) (a : Act) :
    lastMove (acts ++ [a]) = if a.isMove then some a else lastMove acts := by
  unfold lastMove
  rw [List.filter_append]
  by_cases h : a.isMove = true <;> simp [h]

/-- if the last move of `pre ++ d :: mid` is not `d`, it is in `mid` -/
theorem lastMove_mid (pre mid : List Act) (d a : Act) (hd : d.isMove = true)
    (h : lastMove (pre ++ d :: mid) = some a) : a = d ∨ a ∈ mid := by
  unfold lastMove at h
  rw [List.filter_append, List.filter_cons_of_pos hd, List.getLast?_append] at h
  have hne : (d :: mid.filter Act.isMove).getLast? = some a := by
    rw [List.getLast?_eq_some_getLast (by simp)] at h ⊢
    simpa using h
  have := List.mem_of_getLast? hne
  rcases List.mem_cons.1 this with h | h
  · exact .inl h
  · exact .inr (List.mem_filter.1 h).1

/-- the last move, with what came after it -/
theorem lastMove_split (acts : List Act) (a : Act) (h : lastMove acts = some a) :
    ∃ pre post, acts = pre ++ a :: post ∧ a.isMove = true ∧ ∀ b ∈ post, b.isMove = false := by
  revert h
  refine snoc_induct (P := fun acts => lastMove acts = some a → ∃ pre post, acts = pre ++ a :: post ∧
    a.isMove = true ∧ ∀ b ∈ post, b.isMove = false) ?_ ?_ acts
  · intro h; simp [lastMove] at h
  · intro acts x ih h
    rw [lastMove_snoc] at h
    by_cases hx : x.isMove = true
    · simp [hx] at h
      subst h
      exact ⟨acts, [], rfl, hx, by simp⟩
    · simp [hx] at h
      obtain ⟨pre, post, rfl, h1, h2⟩ := ih h
      refine ⟨pre, post ++ [x], by simp, h1, ?_⟩
      intro b hb
      rcases List.mem_append.1 hb with hb | hb
      · exact h2 b hb
      · simp at hb; subst hb; simpa using hx

def HalfTurn.player : HalfTurn → Nat
  | .during p .. => p
  | .discard p .. => p
  | .post p .. => p

def HalfTurn.position : HalfTurn → Nat
  | .during _ _ e .. => e
  | .discard _ _ e .. => e
  | .post _ _ e .. => e

def HalfTurn.turn : HalfTurn → Turn
  | .during p _ e .. => .during p e
  | .discard p _ e t => .discard p e t
  | .post p _ e .. => .post p e

theorem turn_mark (k : Nat) (t : HalfTurn) : (t.mark k).turn = t.turn := by cases t <;> rfl
theorem turn_markReach (t : HalfTurn) : t.markReach.turn = t.turn := by cases t <;> rfl

/-- what the current half-turn is after the last move -/
def CurrOk (s : RoundSt) : Option Act → Prop
  | some (.draw p _) => ∃ t, s.curr_halfturn = some (s.halfturns.length - 1) ∧
      s.halfturns[s.halfturns.length - 1]? = some t ∧ t.isDuring = true ∧ t.player = p
  | some (.discard p _) => ∃ t, s.curr_halfturn = some (s.halfturns.length - 1) ∧
      s.halfturns[s.halfturns.length - 1]? = some t ∧ t.isPost = true ∧ t.player = p
  | _ => s.curr_halfturn = none

structure Phase (acts : List Act) (s : RoundSt) : Prop where
  acq : s.acquired = acquiredOf (lastMove acts)
  cur : CurrOk s (lastMove acts)

theorem isDuring_markReach (t : HalfTurn) : t.markReach.isDuring = t.isDuring := by cases t <;> rfl
theorem player_markReach (t : HalfTurn) : t.markReach.player = t.player := by cases t <;> rfl
theorem isPost_markReach (t : HalfTurn) : t.markReach.isPost = t.isPost := by cases t <;> rfl
theorem during_not_post (t : HalfTurn) (h : t.isDuring = true) : t.isPost = false := by cases t <;> simp_all [HalfTurn.isDuring, HalfTurn.isPost]

/-- a current during-turn means the last move was a draw -/
theorem Phase.during {acts : List Act} {s : RoundSt} (h : Phase acts s) {i : Nat} {t : HalfTurn}
    (hc : s.curr_halfturn = some i) (ht : s.halfturns[i]? = some t) (hd : t.isDuring = true) :
    ∃ p u, lastMove acts = some (.draw p u) ∧ t.player = p ∧ i = s.halfturns.length - 1 := by
  have hcur := h.cur
  cases hl : lastMove acts with
  | none => rw [hl] at hcur; simp [CurrOk, hc] at hcur
  | some a =>
    rw [hl] at hcur
    cases a with
    | draw p u =>
      obtain ⟨t', h1, h2, h3, h4⟩ := hcur
      rw [hc] at h1
      have hi : i = s.halfturns.length - 1 := by simpa using h1
      rw [hi, h2] at ht
      cases ht
      exact ⟨p, u, rfl, h4, hi⟩
    | discard p u =>
      obtain ⟨t', h1, h2, h3, h4⟩ := hcur
      rw [hc] at h1
      have hi : i = s.halfturns.length - 1 := by simpa using h1
      rw [hi, h2] at ht
      cases ht
      rw [during_not_post _ hd] at h3
      cases h3
    | dora t => simp [CurrOk, hc] at hcur
    | declare p => simp [CurrOk, hc] at hcur
    | accept p => simp [CurrOk, hc] at hcur
    | call p c => simp [CurrOk, hc] at hcur

/-- a current post-turn means the last move was a discard -/
theorem Phase.post {acts : List Act} {s : RoundSt} (h : Phase acts s) {i : Nat} {t : HalfTurn}
    (hc : s.curr_halfturn = some i) (ht : s.halfturns[i]? = some t) (hd : t.isPost = true) :
    ∃ p u, lastMove acts = some (.discard p u) ∧ t.player = p ∧ i = s.halfturns.length - 1 := by
  have hcur := h.cur
  cases hl : lastMove acts with
  | none => rw [hl] at hcur; simp [CurrOk, hc] at hcur
  | some a =>
    rw [hl] at hcur
    cases a with
    | discard p u =>
      obtain ⟨t', h1, h2, h3, h4⟩ := hcur
      rw [hc] at h1
      have hi : i = s.halfturns.length - 1 := by simpa using h1
      rw [hi, h2] at ht
      cases ht
      exact ⟨p, u, rfl, h4, hi⟩
    | draw p u =>
      obtain ⟨t', h1, h2, h3, h4⟩ := hcur
      rw [hc] at h1
      have hi : i = s.halfturns.length - 1 := by simpa using h1
      rw [hi, h2] at ht
      cases ht
      rw [during_not_post _ h3] at hd
      cases hd
    | dora t => simp [CurrOk, hc] at hcur
    | declare p => simp [CurrOk, hc] at hcur
    | accept p => simp [CurrOk, hc] at hcur
    | call p c => simp [CurrOk, hc] at hcur

theorem currOk_congr {s s' : RoundSt} (h1 : s'.curr_halfturn = s.curr_halfturn) (h2 : s'.halfturns = s.halfturns)
    (m : Option Act) (h : CurrOk s m) : CurrOk s' m := by
  unfold CurrOk at *
  rw [h1, h2]
  exact h

theorem phase_reached {est : Estimate} {sh : List Int → Except PyErr Int} {g : GameInfo} {a : InitAttr}
    {c : RoundCfg} {s0 : RoundSt} (hi : initRound est sh g a = .ok (c, s0))
    {acts : List Act} {s : RoundSt} (hr : Reached c s0 acts s) : Phase acts s := by
  obtain ⟨d⟩ := initRound_ok hi
  refine hr.induct (P := fun acts s => Phase acts s) ?_ ?_
  · rw [d.state_eq]; exact ⟨rfl, rfl⟩
  · intro acts s act s' hr ih he
    cases he with
    | dora h1 h2 =>
      refine ⟨?_, ?_⟩
      · rw [lastMove_snoc]; exact ih.acq
      · rw [lastMove_snoc]; exact currOk_congr rfl rfl _ ih.cur
    | @declare p i t h1 h2 h3 h4 h5 =>
      obtain ⟨q, u, hl, hq, hi⟩ := ih.during h2 h3 h4
      refine ⟨?_, ?_⟩
      · rw [lastMove_snoc]; exact ih.acq
      · rw [lastMove_snoc]
        show CurrOk _ (lastMove acts)
        rw [hl]
        refine ⟨t.markReach, ?_, ?_, ?_, ?_⟩
        · simp [h2, hi]
        · have hlt : i < s.halfturns.length := by
            rw [List.getElem?_eq_some_iff] at h3; exact h3.1
          simp only [List.length_set, ← hi]
          rw [List.getElem?_set_self hlt]
        · rw [isDuring_markReach]; exact h4
        · rw [player_markReach]; exact hq
    | accept =>
      refine ⟨?_, ?_⟩
      · rw [lastMove_snoc]; exact ih.acq
      · rw [lastMove_snoc]; exact currOk_congr rfl rfl _ ih.cur
    | @call p code _ e =>
      rw [e.state_eq]
      refine ⟨?_, ?_⟩
      · rw [lastMove_snoc]
        show (if _ then none else e.acq) = acquiredOf (some _)
        rw [← e.called]
        rfl
      · rw [lastMove_snoc]; exact rfl
    | @draw p t _ hp e =>
      rw [e.state_eq]
      refine ⟨?_, ?_⟩
      · rw [lastMove_snoc]; rfl
      · rw [lastMove_snoc]
        show CurrOk _ (some (.draw p t))
        refine ⟨.during p (mkStateObj c (drawTile s p t) p) s.encoding_tokens.length e.agari e.reach
          (ankanOffers (drawTile s p t) p ++ e.kakan), ?_, ?_, rfl, rfl⟩
        · show some s.halfturns.length = some ((s.halfturns ++ [_]).length - 1)
          simp
        · show (s.halfturns ++ [_])[(s.halfturns ++ [_]).length - 1]? = _
          simp
    | @discard p t _ hp e =>
      rw [e.state_eq]
      refine ⟨?_, ?_⟩
      · rw [lastMove_snoc]; rfl
      · rw [lastMove_snoc]
        show CurrOk _ (some (.discard p t))
        refine ⟨.post p e.o s.encoding_tokens.length (spread e.rons) e.offers, ?_, ?_, rfl, rfl⟩
        · show some (s.halfturns.length + 1) = some ((s.halfturns ++ [_, _]).length - 1)
          simp
        · show (s.halfturns ++ [_, _])[(s.halfturns ++ [_, _]).length - 1]? = _
          simp

end MJ
