import Verif.Props.Builds
import Verif.Props.RoundOrder
/-!
C171: how many samples there can be.
-/
namespace MJ
open Spec Net

/-- the kinds of half-turns -/
def Spec.Turn.isOwn : Turn → Bool
  | .during .. => true
  | _ => false
@[inherit_doc Spec.Turn.isOwn]
def Spec.Turn.isDiscard : Turn → Bool
  | .discard .. => true
  | _ => false
@[inherit_doc Spec.Turn.isOwn]
def Spec.Turn.isAfter : Turn → Bool
  | .post .. => true
  | _ => false

/-- an added kan -/
def Spec.Act.isAddedKan : Act → Bool
  | .call _ c => Code.is_kakan c
  | _ => false

theorem turns_counts (acts : List Act) : ∀ n,
    (turnsFrom n acts).countP Turn.isOwn = acts.countP Act.isDraw ∧
    (turnsFrom n acts).countP Turn.isDiscard = acts.countP Act.isDiscard ∧
    (turnsFrom n acts).countP Turn.isAfter = acts.countP Act.isDiscard + acts.countP Act.isAddedKan := by
  induction acts with
  | nil => intro n; exact ⟨rfl, rfl, rfl⟩
  | cons x xs ih =>
    intro n
    obtain ⟨h1, h2, h3⟩ := ih (n + x.tokenCount)
    simp only [turnsFrom, List.countP_append, List.countP_cons, h1, h2, h3]
    cases x with
    | call p c =>
      by_cases hk : Code.is_kakan c = true <;>
        simp [Act.turns, hk, Turn.isOwn, Turn.isDiscard, Turn.isAfter, Act.isDraw, Act.isDiscard, Act.isAddedKan] <;> omega
    | discard p t =>
      simp only [Act.turns, List.countP_cons, List.countP_nil, Turn.isOwn, Turn.isDiscard, Turn.isAfter, Act.isDraw, Act.isDiscard,
        Act.isAddedKan, if_true, if_false, Bool.false_eq_true]
      omega
    | _ =>
      simp [Act.turns, Turn.isOwn, Turn.isDiscard, Turn.isAfter, Act.isDraw, Act.isDiscard, Act.isAddedKan] <;> omega

theorem upTo_length (f : Nat → Bool) : ∀ l : List Nat, (upTo f l).length ≤ l.length
  | [] => le_rfl
  | p :: ps => by
    unfold upTo
    split
    · simp
    · simpa using upTo_length f ps

theorem deciders_length (q : Nat) (a : List (List AgariDecision)) (n : List (List NakiDecision)) : (deciders q a n).length ≤ 3 := by
  refine (upTo_length _ _).trans ((List.length_filter_le _ _).trans ?_)
  simp [turnOrder]

theorem flatten_le {α : Type} {k : Nat} : ∀ ls : List (List α), (∀ l ∈ ls, l.length ≤ k) → ls.flatten.length ≤ k * ls.length
  | [], _ => by simp
  | l :: ls, h => by
    have h1 := h l (by simp)
    have h2 := flatten_le ls (fun l hl => h l (by simp [hl]))
    simp only [List.flatten_cons, List.length_append, List.length_cons]
    rw [Nat.mul_add]
    omega

/-- how many samples of each head a round gives, from its events: one for each discard, at most one for each draw and at most three
for each discard and each added kan -/
theorem rows_counts {est : Estimate} {sh : List Int → Except PyErr Int} {g : GameInfo} {a : InitAttr} {evs : List Ev} {s : RoundSt}
    (hs : processRound est sh g a evs = .ok s) {v : Variant} {d c p : Batch}
    (h : buildTensors v s s.halfturns s.encoding_tokens = .ok (d, c, p)) :
    d.y.length ≤ (evs.filterMap Ev.act).countP Act.isDraw ∧ c.y.length = (evs.filterMap Ev.act).countP Act.isDiscard ∧
    p.y.length ≤ 3 * ((evs.filterMap Ev.act).countP Act.isDiscard + (evs.filterMap Ev.act).countP Act.isAddedKan) := by
  obtain ⟨cf, s0, acts, rest, h1, h3, h4, h5, h2⟩ := accepted_reached hs
  rw [acts_of_events h3 h4 h5]
  have hf := fourLists_accepted hs
  have ht := C43_halfturns h1 h2
  obtain ⟨t1, t2, t3⟩ := turns_counts acts 0
  rw [← ht, List.countP_map] at t1 t2 t3
  obtain ⟨⟨dr, rfl, hd, -⟩, ⟨cr, rfl, hc⟩, -⟩ := head_rows hf h
  obtain ⟨groups, rfl, hp⟩ := C62_call_rows hf h
  refine ⟨?_, ?_, ?_⟩
  · rw [← t1]
    simp only [ofRows, List.length_map, ← hd.length]
    rw [← List.countP_eq_length_filter]
    refine List.countP_mono_left fun t _ ht => ?_
    cases t with
    | during => rfl
    | discard => simp [HalfTurn.decides] at ht
    | post => simp [HalfTurn.decides] at ht
  · rw [← t2]
    simp only [ofRows, List.length_map, ← hc.length]
    rw [← List.countP_eq_length_filter]
    refine List.countP_congr fun t _ => ?_
    cases t <;> simp [HalfTurn.isDiscard, HalfTurn.turn, Turn.isDiscard]
  · rw [← t3]
    simp only [ofRows, List.length_map]
    refine (flatten_le (k := 3) groups ?_).trans ?_
    · intro l hl
      obtain ⟨t, -, hc⟩ := hp.mem_right hl
      cases t with
      | during => exact hc.elim
      | discard => exact hc.elim
      | post q o e a n =>
        have := AllPairs.length (show AllPairs _ _ _ from hc)
        have := deciders_length q a n
        omega
    · rw [← hp.length, ← List.countP_eq_length_filter]
      refine Nat.mul_le_mul_left 3 (List.countP_mono_left fun t _ ht => ?_)
      cases t with
      | during => simp [HalfTurn.isPost] at ht
      | discard => simp [HalfTurn.isPost] at ht
      | post => rfl

/-- C171: an accepted round has at most 83 draws (that is how many tiles are left after the deal and the first indicator), so it gives
at most 83 samples of draws. -/
theorem C171_draws {est : Estimate} {sh : List Int → Except PyErr Int} {g : GameInfo} {a : InitAttr} {evs : List Ev} {s : RoundSt}
    (hs : processRound est sh g a evs = .ok s) : (evs.filterMap Ev.act).countP Act.isDraw ≤ 83 ∧
      ∀ (v : Variant) (d c p : Batch), buildTensors v s s.halfturns s.encoding_tokens = .ok (d, c, p) → d.y.length ≤ 83 := by
  have hd : (evs.filterMap Ev.act).countP Act.isDraw ≤ 83 := by
    obtain ⟨cf, s0, acts, rest, h1, h3, h4, h5, h2⟩ := accepted_reached hs
    rw [acts_of_events h3 h4 h5]
    have h83 := remaining_reached h1 h2
    have hf := accepted_final hs
    have hle : 0 ≤ sum34 s.remaining_tiles := sum34_nonneg (fun k hk => by
      unfold finalOk at hf
      simp only [Bool.and_eq_true, List.all_eq_true, List.mem_range, decide_eq_true_eq] at hf
      exact hf.1 k (by omega))
    omega
  exact ⟨hd, fun v d c p h => (rows_counts hs h).1.trans hd⟩

theorem added_le : ∀ acts : List Act, acts.countP Act.isAddedKan ≤ acts.countP Act.isOwnKan := by
  intro acts
  refine List.countP_mono_left fun t _ ht => ?_
  cases t with
  | call p c => simp only [Act.isAddedKan] at ht; simp [Act.isOwnKan, ht]
  | _ => simp [Act.isAddedKan] at ht

/-- C171: a round that is really played has at most 99 discards and added kans, and at most 119 tokens. -/
theorem C171_played {est : Estimate} {sh : List Int → Except PyErr Int} {g : GameInfo} {a : InitAttr} {evs : List Ev} {s : RoundSt}
    (hs : processRound est sh g a evs = .ok s) (hp : Playable a (evs.filterMap Ev.act)) :
    (evs.filterMap Ev.act).countP Act.isDiscard + (evs.filterMap Ev.act).countP Act.isAddedKan ≤ 99 ∧
    s.encoding_tokens.length ≤ 119 := by
  have hd := (C171_draws hs).1
  obtain ⟨cf, s0, acts, rest, h1, h3, h4, h5, h2⟩ := accepted_reached hs
  rw [acts_of_events h3 h4 h5] at hp hd ⊢
  have hsz := sizes_reached h1 h2 hp.kans hp.codes
  have hcall : ∀ p c, Act.call p c ∈ acts → p < 4 := by
    intro p c hm
    obtain ⟨pre, post, rfl⟩ := List.append_of_mem hm
    obtain ⟨s1, s2, _, he, _, _⟩ := h2.at
    cases he with
    | call e => exact e.player_lt
  have hc := chiPon_le hcall hp.codes
  have e0 := (sets_le h1 h2 hsz 0 (by omega)).1
  have e1 := (sets_le h1 h2 hsz 1 (by omega)).1
  have e2 := (sets_le h1 h2 hsz 2 (by omega)).1
  have e3 := (sets_le h1 h2 hsz 3 (by omega)).1
  have h6 := hsz.count
  have h7 := added_le acts
  have h8 := tokens_bound h1 h2 (accepted_final hs) hp.kans hp.codes
  have h9 := hp.riichi
  exact ⟨by omega, by omega⟩

/-- C171: so it gives at most 83 samples of draws, 99 of discards and 297 of calls. -/
theorem C171_samples {s : RoundSt} (hs : PlayedRound s) {v : Variant} {d c p : Batch}
    (h : buildTensors v s s.halfturns s.encoding_tokens = .ok (d, c, p)) :
    d.y.length ≤ 83 ∧ c.y.length ≤ 99 ∧ p.y.length ≤ 297 := by
  obtain ⟨est, sh, g, a, evs, hs, hp⟩ := hs
  obtain ⟨h1, h2, h3⟩ := rows_counts hs h
  obtain ⟨h4, -⟩ := C171_played hs hp
  exact ⟨(C171_draws hs).2 v d c p h, by omega, by omega⟩

/-- C171: in no sample of a played round is there an event at one of the positions 119 to 149: at least 31 of the 150 positions are
padding. -/
theorem C171_padding {s : RoundSt} (hs : PlayedRound s) {v : Variant} {d c p : Batch}
    (h : buildTensors v s s.halfturns s.encoding_tokens = .ok (d, c, p)) :
    ∀ row ∈ d.encodings ++ c.encodings ++ p.encodings, ∀ i, 119 ≤ i → i < 150 → row[i]? = some 0 := by
  obtain ⟨est, sh, g, a, evs, hs, hp⟩ := hs
  have ht := (C171_played hs hp).2
  have hf := fourLists_accepted hs
  have key : ∀ {o : StateObj} {e pl : Nat} {row : Row}, RowBase v s s.encoding_tokens o e pl row →
      ∀ i, 119 ≤ i → i < 150 → row.tokens[i]? = some 0 := by
    intro o e pl row hb i h1 h2
    rw [hb.2.1.2 i h2]
    split
    · simp only [Option.some.injEq, List.getD]
      rw [List.getElem?_eq_none (by omega)]
      rfl
    · rfl
  obtain ⟨⟨dr, rfl, hd, -⟩, ⟨cr, rfl, hc⟩, ⟨groups, rfl, hg, -⟩⟩ := head_rows hf h
  intro row hrow
  simp only [ofRows, List.mem_append, List.mem_map] at hrow
  rcases hrow with (⟨r, hr, rfl⟩ | ⟨r, hr, rfl⟩) | ⟨r, hr, rfl⟩
  · obtain ⟨t, ht, hR⟩ := hd.mem_right hr
    obtain ⟨pl, o, e, a, rr, n, rfl, hne⟩ := decides_during (List.mem_filter.1 ht).2
    simp only [RowsOf, if_neg hne] at hR
    obtain ⟨r', he, hb, -⟩ := hR
    simp only [List.cons.injEq, and_true] at he
    subst he
    exact key hb
  · obtain ⟨t, ht, hR⟩ := hc.mem_right hr
    cases t with
    | during => simp [HalfTurn.isDiscard] at ht
    | post => simp [HalfTurn.isDiscard] at ht
    | discard pl o e t =>
      obtain ⟨r', he, hb, -⟩ := hR
      simp only [List.cons.injEq, and_true] at he
      subst he
      exact key hb
  · obtain ⟨l, hl, hr⟩ := List.mem_flatten.1 hr
    obtain ⟨t, ht, hR⟩ := hg.mem_right hl
    obtain ⟨ht1, ht2⟩ := List.mem_filter.1 ht
    cases t with
    | during => simp [HalfTurn.isPost] at ht2
    | discard => simp [HalfTurn.isPost] at ht2
    | post q o e a n =>
      obtain ⟨h1, h3, h4⟩ := hf _ ht1
      obtain ⟨pl, -, hb, -⟩ := (hR h3 h4 h1).mem_right hr
      exact key hb

/-- C171: a batch of games gives at most so many samples per round. -/
theorem C171_games {v : Variant} {games : List (List RoundSt)} (hs : ∀ s ∈ games.flatten, PlayedRound s) {d c p : Batch}
    (h : prepareBatches v (gameTurns games) (gameTokens games) = .ok (d, c, p)) :
    d.y.length ≤ 83 * games.flatten.length ∧ c.y.length ≤ 99 * games.flatten.length ∧ p.y.length ≤ 297 * games.flatten.length := by
  have hf : ∀ s ∈ games.flatten, ∀ t ∈ s.halfturns, FourLists t := by
    intro s hs'
    obtain ⟨est, sh, g, a, evs, hs'', -⟩ := hs s hs'
    exact fourLists_accepted hs''
  obtain ⟨rows, h1, rfl, rfl, rfl⟩ := C64_batches hf h
  clear h hf
  simp only [ofRows, List.length_map]
  generalize games.flatten = ss at *
  induction h1 with
  | nil => simp
  | cons h2 _ ih =>
    obtain ⟨a1, a2, a3⟩ := C171_samples (hs _ (by simp)) h2
    obtain ⟨b1, b2, b3⟩ := ih (fun s hs' => hs s (by simp [hs']))
    simp only [ofRows, List.length_map] at a1 a2 a3
    simp only [List.flatMap_cons, List.length_append, List.length_cons, Nat.mul_add]
    omega

/-- there are such samples -/
example : ∃ s d c p, processRound (fun q => .ok q.config.is_tsumo) farAway ⟨0⟩ deal
      [.draw 0 (.ok 120), .discard 0 (.ok 120), .result false (.ok [])] = .ok s ∧
    buildTensors .ordered s s.halfturns s.encoding_tokens = .ok (d, c, p) ∧ d.y.length = 1 ∧ c.y.length = 1 := by
  obtain ⟨s, hs, h⟩ := okAnd_ok (passRound_tensors .ordered)
  simp only [Bool.and_eq_true, beq_iff_eq] at h
  obtain ⟨⟨d, c, p⟩, hb, h1⟩ := okAnd_ok h.1
  simp only [Bool.and_eq_true, beq_iff_eq] at h1
  exact ⟨s, d, c, p, hs, hb, by rw [h1.1.1.1]; rfl, by rw [h1.1.2]; rfl⟩

end MJ
