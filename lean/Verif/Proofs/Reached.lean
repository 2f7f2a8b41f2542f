import Verif.Proofs.RoundStep
import Verif.Spec.Log
import Verif.Props.Xml
/-!
The states of the round loop after a prefix of the log.
-/
namespace MJ
open Code Spec

/-- the event if all its attributes are present and well-formed -/
def Ev.act : Ev → Option Act
  | .dora (.ok t) => some (.dora t)
  | .reach (.ok p) (.ok true) => some (.declare p)
  | .reach (.ok p) (.ok false) => some (.accept p)
  | .naki (.ok c) (.ok p) => some (.call p c)
  | .draw p (.ok t) => some (.draw p t)
  | .discard p (.ok t) => some (.discard p t)
  | _ => none

/-- the state `s` after the events `acts`, none of which raised -/
inductive Reached (c : RoundCfg) (s0 : RoundSt) : List Act → RoundSt → Prop
  | start : Reached c s0 [] s0
  | next {acts : List Act} {s s' : RoundSt} {e : Ev} {act : Act} : Reached c s0 acts s → e.act = some act →
      step c s e = .ok s' → Reached c s0 (acts ++ [act]) s'

/-- what an event does -/
inductive Effect (c : RoundCfg) (s : RoundSt) : Act → RoundSt → Prop
  | dora {t token : Nat} (ht : t < 136) (htok : new_dora2idx (t / 4) = .ok token) :
      Effect c s (.dora t) { s with
        doras := s.doras ++ [t]
        remaining_tiles := addAt s.remaining_tiles [t / 4] (-1)
        remaining_tiles_pov := fun p => addAt (s.remaining_tiles_pov p) [t / 4] (-1)
        remaining_tsumo := s.remaining_tsumo - 1
        encoding_tokens := s.encoding_tokens ++ [token] }
  | declare {p i : Nat} {t : HalfTurn} (hp : p < 4) (hc : s.curr_halfturn = some i) (ht : s.halfturns[i]? = some t)
      (hd : t.isDuring = true) (ha : s.acquired.isSome = true) :
      Effect c s (.declare p) { s with
        halfturns := s.halfturns.set i t.markReach
        ippatsu := setAt s.ippatsu p 1 }
  | accept {p i token : Nat} {t : HalfTurn} {v : Int} (hp : p < 4) (hc : s.curr_halfturn = some i)
      (ht : s.halfturns[i]? = some t) (hd : t.isPost = true) (hv : s.scores[p]? = some v)
      (htok : reach2idx p = .ok token) :
      Effect c s (.accept p) { s with
        reaches := setAt s.reaches p 1
        kyotaku := s.kyotaku + 1
        scores := s.scores.set p (v - 10)
        double_reaches := if decide (s.cycles ≤ 4) && allMenzen s.is_menzen then setAt s.double_reaches p 1
          else s.double_reaches
        encoding_tokens := s.encoding_tokens ++ [token]
        ippatsu := setAt s.ippatsu p 1 }
  | call {p code : Nat} {s' : RoundSt} (d : NakiDone c s s' code p) : Effect c s (.call p code) s'
  | draw {p t : Nat} {s' : RoundSt} (hp : p < 4) (d : DrawDone c s s' p t) : Effect c s (.draw p t) s'
  | discard {p t : Nat} {s' : RoundSt} (hp : p < 4) (d : DiscardDone c s s' p t) : Effect c s (.discard p t) s'

theorem step_effect {c : RoundCfg} {s s' : RoundSt} {e : Ev} (h : step c s e = .ok s')
    (hne : ∀ a sc, e ≠ .result a sc) : ∃ act, e.act = some act ∧ Effect c s act s' := by
  cases e with
  | dora hai =>
    obtain ⟨t, token, rfl, ht, htok, rfl⟩ := stepDora_ok h
    exact ⟨_, rfl, .dora ht htok⟩
  | reach who one =>
    obtain ⟨p, b, s1, rfl, rfl, hp, h1, rfl⟩ := stepReach_ok h
    cases b with
    | true =>
      simp only [if_true] at h1
      obtain ⟨i, t, e1, e2, e3, e4, rfl⟩ := reachDeclare_ok h1
      exact ⟨_, rfl, .declare hp e1 e2 e3 e4⟩
    | false =>
      simp only [Bool.false_eq_true, if_false] at h1
      obtain ⟨i, t, scores, token, e1, e2, e3, _, e4, e5, rfl⟩ := reachAccept_ok h1
      obtain ⟨v, hv, rfl⟩ := payStick_ok e4
      exact ⟨_, rfl, .accept hp e1 e2 e3 hv e5⟩
  | naki m who =>
    obtain ⟨code, p, rfl, rfl, ⟨d⟩⟩ := stepNaki_ok h
    exact ⟨_, rfl, .call d⟩
  | draw p t =>
    obtain ⟨t, rfl, ⟨d⟩⟩ := stepDraw_ok h
    exact ⟨_, rfl, .draw p.isLt d⟩
  | discard p t =>
    obtain ⟨t, rfl, ⟨d⟩⟩ := stepDiscard_ok h
    exact ⟨_, rfl, .discard p.isLt d⟩
  | result a sc => exact absurd rfl (hne a sc)
  | other => simp [step] at h

theorem act_not_result {e : Ev} {act : Act} (h : e.act = some act) : ∀ a sc, e ≠ .result a sc := by
  rintro a sc rfl; simp [Ev.act] at h

theorem Reached.effect {c : RoundCfg} {s s' : RoundSt} {e : Ev} {act : Act}
    (ha : e.act = some act) (h : step c s e = .ok s') : Effect c s act s' := by
  obtain ⟨act', h1, h2⟩ := step_effect h (act_not_result ha)
  rw [ha] at h1
  cases h1
  exact h2

/-- induction along the log -/
theorem Reached.induct {c : RoundCfg} {s0 : RoundSt} {P : List Act → RoundSt → Prop} (h0 : P [] s0)
    (hstep : ∀ acts s act s', Reached c s0 acts s → P acts s → Effect c s act s' → P (acts ++ [act]) s')
    {acts : List Act} {s : RoundSt} (h : Reached c s0 acts s) : P acts s := by
  induction h with
  | start => exact h0
  | next hr ha hs ih => exact hstep _ _ _ _ hr ih (Reached.effect ha hs)

/-- every prefix of a processed log was processed -/
theorem Reached.split {c : RoundCfg} {s0 : RoundSt} {acts : List Act} {s : RoundSt} (h : Reached c s0 acts s) :
    ∀ pre post, acts = pre ++ post → ∃ s1, Reached c s0 pre s1 ∧ Reached c s1 post s := by
  induction h with
  | start =>
    intro pre post he
    obtain ⟨rfl, rfl⟩ := List.append_eq_nil_iff.1 he.symm
    exact ⟨s0, .start, .start⟩
  | @next acts s s' e act hr ha hs ih =>
    intro pre post he
    rcases List.eq_nil_or_concat post with rfl | ⟨post', x, rfl⟩
    · rw [List.append_nil] at he
      subst he
      exact ⟨s', .next hr ha hs, .start⟩
    · rw [List.concat_eq_append, ← List.append_assoc] at he
      obtain ⟨rfl, h2⟩ := List.append_inj' he rfl
      simp only [List.cons.injEq, and_true] at h2
      subst h2
      obtain ⟨s1, h3, h4⟩ := ih pre post' rfl
      exact ⟨s1, h3, by rw [List.concat_eq_append]; exact .next h4 ha hs⟩

/-- the state before and after one event in the middle -/
theorem Reached.at {c : RoundCfg} {s0 : RoundSt} {pre post : List Act} {act : Act} {s : RoundSt}
    (h : Reached c s0 (pre ++ act :: post) s) :
    ∃ s1 s2, Reached c s0 pre s1 ∧ Effect c s1 act s2 ∧ Reached c s0 (pre ++ [act]) s2 ∧ Reached c s2 post s := by
  obtain ⟨s2, h1, h2⟩ := h.split (pre ++ [act]) post (by simp)
  generalize hx : pre ++ [act] = l at h1
  cases h1 with
  | start => simp at hx
  | next hr ha hs =>
    obtain ⟨rfl, h4⟩ := List.append_inj' hx rfl
    simp only [List.cons.injEq, and_true] at h4
    subst h4
    exact ⟨_, s2, hr, Reached.effect ha hs, .next hr ha hs, h2⟩

theorem Reached.trans {c : RoundCfg} {s0 s1 s2 : RoundSt} {l l' : List Act} (h : Reached c s0 l s1)
    (h' : Reached c s1 l' s2) : Reached c s0 (l ++ l') s2 := by
  induction h' with
  | start => simpa using h
  | next hr ha hs ih => rw [← List.append_assoc]; exact .next ih ha hs

/-- the event with all attributes well-formed -/
def evOfAct : Act → Ev
  | .dora t => .dora (.ok t)
  | .declare p => .reach (.ok p) (.ok true)
  | .accept p => .reach (.ok p) (.ok false)
  | .call p c => .naki (.ok c) (.ok p)
  | .draw p t => .draw (Fin.ofNat 4 p) (.ok t)
  | .discard p t => .discard (Fin.ofNat 4 p) (.ok t)

theorem act_evOfAct {e : Ev} {act : Act} (h : e.act = some act) : e = evOfAct act := by
  unfold Ev.act at h
  split at h <;> simp at h <;> subst h <;> simp [evOfAct]

/-- a well-formed event is determined by what it says -/
theorem act_inj {e e' : Ev} {act : Act} (h : e.act = some act) (h' : e'.act = some act) : e = e' := by
  rw [act_evOfAct h, act_evOfAct h']

/-- the state is determined by the events -/
theorem Reached.det {c : RoundCfg} {s0 : RoundSt} {acts : List Act} {s s' : RoundSt} (h : Reached c s0 acts s)
    (h' : Reached c s0 acts s') : s = s' := by
  induction h generalizing s' with
  | start =>
    generalize hy : ([] : List Act) = l at h'
    cases h' with
    | start => rfl
    | next => simp at hy
  | @next acts s s1 e act hr ha hs ih =>
    generalize hy : acts ++ [act] = l at h'
    cases h' with
    | start => simp at hy
    | next hr' ha' hs' =>
      obtain ⟨rfl, h2⟩ := List.append_inj' hy rfl
      simp only [List.cons.injEq, and_true] at h2
      subst h2
      have := ih hr'
      subst this
      rw [act_inj ha ha', hs'] at hs
      simpa using hs.symm

/-- a run of the loop passes through reached states -/
theorem runEvents_reached {c : RoundCfg} {evs : List Ev} {s s' : RoundSt} {res : Option (List Ev)}
    (h : runEvents c evs s = .ok (s', res)) :
    ∃ acts, evs = (evs.take acts.length) ++ res.getD [] ∧ (evs.take acts.length).map Ev.act = acts.map some ∧
      Reached c s acts s' := by
  induction evs generalizing s with
  | nil =>
    simp [runEvents] at h
    obtain ⟨rfl, rfl⟩ := h
    exact ⟨[], rfl, rfl, .start⟩
  | cons e es ih =>
    by_cases hres : ∃ a sc, e = .result a sc
    · obtain ⟨a, sc, rfl⟩ := hres
      simp [runEvents] at h
      obtain ⟨rfl, rfl⟩ := h
      exact ⟨[], rfl, rfl, .start⟩
    · have hne : ∀ a sc, e ≠ .result a sc := fun a sc he => hres ⟨a, sc, he⟩
      rw [runEvents_cons c e es s hne] at h
      cases hs : step c s e with
      | error x => simp [hs] at h
      | ok s1 =>
        simp only [hs] at h
        obtain ⟨act, h1, _⟩ := step_effect hs hne
        obtain ⟨acts, h3, h4, h5⟩ := ih h
        refine ⟨act :: acts, ?_, ?_, ?_⟩
        · simp only [List.length_cons, List.take_succ_cons, List.cons_append]
          rw [← h3]
        · simp [h1, h4]
        · exact Reached.trans (l := [act]) (.next (acts := []) .start h1 hs) h5

/-- Every accepted round: the events before the results are well-formed, and the final state is
reached by them. -/
theorem accepted_reached {est : Estimate} {sh : List Int → Except PyErr Int} {g : GameInfo} {a : InitAttr}
    {evs : List Ev} {s : RoundSt} (h : processRound est sh g a evs = .ok s) :
    ∃ c s0 acts rest, initRound est sh g a = .ok (c, s0) ∧ evs = evs.take acts.length ++ rest ∧
      (evs.take acts.length).map Ev.act = acts.map some ∧ (∀ e ∈ rest, ∃ w sc, e = .result w (.ok sc)) ∧
      Reached c s0 acts s := by
  simp only [processRound, bind_ok] at h
  obtain ⟨⟨c, s0⟩, h1, ⟨s1, res⟩, h2, h3⟩ := h
  cases res with
  | none => simp at h3
  | some rest =>
    simp only [bind_ok, pure_ok] at h3
    obtain ⟨_, h4, _, _, rfl⟩ := h3
    obtain ⟨acts, h6, h7, h8⟩ := runEvents_reached h2
    exact ⟨c, s0, acts, rest, h1, h6, h7, checkResults_ok rest h4, h8⟩

end MJ
