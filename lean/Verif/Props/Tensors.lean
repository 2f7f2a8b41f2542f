import Verif.Proofs.Rows
import Verif.Props.RoundTurns
/-!
C58-C66: the training tensors.
-/
namespace MJ
open Code Spec

/-! ### half-turns of a processed round -/

theorem fourLists_mark (k : Nat) (t : HalfTurn) (h : FourLists t) : FourLists (t.mark k) := by
  cases t with
  | post => exact ⟨h.1, h.2.1, by simpa using h.2.2⟩
  | _ => trivial

/-- in a reached state every post-turn has win and call decisions for four players -/
theorem fourLists_reached {est : Estimate} {sh : List Int → Except PyErr Int} {g : GameInfo} {a : InitAttr}
    {c : RoundCfg} {s0 : RoundSt} (hi : initRound est sh g a = .ok (c, s0)) {acts : List Act} {s : RoundSt}
    (hr : Reached c s0 acts s) : ∀ h ∈ s.halfturns, FourLists h := by
  obtain ⟨d⟩ := initRound_ok hi
  refine hr.induct (P := fun _ s => ∀ h ∈ s.halfturns, FourLists h) ?_ ?_
  · rw [congrArg RoundSt.halfturns d.state_eq]; simp
  · intro acts s act s' _ ih he
    cases he with
    | dora => exact ih
    | @declare p i t h1 h2 h3 h4 h5 =>
      intro h hh
      rcases List.mem_or_eq_of_mem_set hh with hh | rfl
      · exact ih h hh
      · have := ih t (List.mem_of_getElem? h3)
        cases t <;> first | trivial | exact this
    | accept => exact ih
    | draw hp e =>
      rw [e.state_eq]
      intro h hh
      rcases List.mem_append.1 hh with hh | hh
      · exact ih h hh
      · simp only [List.mem_singleton] at hh
        subst hh
        trivial
    | discard hp e =>
      rw [e.state_eq]
      intro h hh
      rcases List.mem_append.1 hh with hh | hh
      · exact ih h hh
      · simp only [List.mem_cons, List.not_mem_nil, or_false] at hh
        have := e.tile_lt
        rcases hh with rfl | rfl
        · trivial
        · exact ⟨hp, by simp [spread], (offer_points hp (by omega) e.offers_eq).1⟩
    | @call p code _ e =>
      rw [e.state_eq]
      intro h hh
      rcases List.mem_append.1 hh with hh | hh
      · rcases List.mem_or_eq_of_mem_set hh with hh | rfl
        · exact ih h hh
        · exact fourLists_mark _ _ (ih e.t (List.mem_of_getElem? e.turn_eq))
      · unfold chankanTurn at hh
        split at hh
        · simp only [List.mem_singleton] at hh
          subst hh
          exact ⟨e.player_lt, by simp [spread], by simp⟩
        · simp at hh

/-- the same for the final state of an accepted round -/
theorem fourLists_accepted {est : Estimate} {sh : List Int → Except PyErr Int} {g : GameInfo} {a : InitAttr}
    {evs : List Ev} {s : RoundSt} (h : processRound est sh g a evs = .ok s) : ∀ t ∈ s.halfturns, FourLists t := by
  obtain ⟨c, s0, acts, rest, h1, _, _, _, h2⟩ := accepted_reached h
  exact fourLists_reached h1 h2

/-! ### C58 -/

def HalfTurn.encodingIdx : HalfTurn → Nat
  | .during _ _ e _ _ _ => e
  | .discard _ _ e _ => e
  | .post _ _ e _ _ => e

/-- the player to move has something to decide -/
def HalfTurn.decides : HalfTurn → Bool
  | .during _ _ _ a r n => !a.isEmpty || !r.isEmpty || !n.isEmpty
  | _ => false

theorem Spec.AllPairs.flatten_singletons {α : Type} {R : α → List Row → Prop} {Q : α → Row → Prop} {f : α → Bool}
    {as : List α} {groups : List (List Row)} (h : AllPairs R as groups)
    (h1 : ∀ a ∈ as, ∀ g, f a = true → R a g → ∃ row, g = [row] ∧ Q a row)
    (h2 : ∀ a ∈ as, ∀ g, f a = false → R a g → g = []) : AllPairs Q (as.filter f) groups.flatten := by
  induction h with
  | nil => exact .nil
  | @cons a g as groups hR _ ih =>
    have ih := ih (fun a ha => h1 a (by simp [ha])) (fun a ha => h2 a (by simp [ha]))
    by_cases hf : f a = true
    · obtain ⟨row, rfl, hQ⟩ := h1 a (by simp) g hf hR
      rw [List.filter_cons_of_pos hf]
      exact .cons hQ ih
    · obtain rfl := h2 a (by simp) g (by simpa using hf) hR
      rw [List.filter_cons_of_neg hf]
      exact ih

theorem Spec.AllPairs.map_right {α β γ : Type} {R : α → β → Prop} {Q : α → γ → Prop} {f : β → γ} {as : List α} {bs : List β}
    (h : AllPairs R as bs) (hi : ∀ a b, a ∈ as → R a b → Q a (f b)) : AllPairs Q as (bs.map f) := by
  induction h with
  | nil => exact .nil
  | cons h1 _ ih => exact .cons (hi _ _ (by simp) h1) (ih (fun a b ha => hi a b (by simp [ha])))

/-- the samples of the three heads: own-turn samples come from the during-turns with a decision,
discard samples from all discard-turns, call samples from the post-turns, each in order -/
theorem head_rows {v : Variant} {s : RoundSt} {turns : List HalfTurn} {tokens : List Nat} {d c p : Batch}
    (hf : ∀ t ∈ turns, FourLists t) (h : buildTensors v s turns tokens = .ok (d, c, p)) :
    (∃ rows, d = ofRows rows ∧ AllPairs (fun t row => RowsOf v s tokens t [row]) (turns.filter HalfTurn.decides) rows ∧
      twoAllowed d.mask = true) ∧
    (∃ rows, c = ofRows rows ∧ AllPairs (fun t row => RowsOf v s tokens t [row]) (turns.filter HalfTurn.isDiscard) rows) ∧
    (∃ groups, p = ofRows groups.flatten ∧ AllPairs (RowsOf v s tokens) (turns.filter HalfTurn.isPost) groups ∧
      twoAllowed p.mask = true) := by
  obtain ⟨b⟩ := buildTensors_rows hf h
  refine ⟨⟨_, b.d_eq, ?_, b.d_two⟩, ⟨_, b.c_eq, ?_⟩, ⟨_, b.p_eq, b.post, b.p_two⟩⟩
  · have := b.during.flatten_singletons (f := HalfTurn.decides) (Q := fun t row => RowsOf v s tokens t [row])
      (by
        intro t ht g hd hR
        cases t with
        | during p o e a r n =>
          have hne : ¬ (a = [] ∧ r = [] ∧ n = []) := by
            rintro ⟨rfl, rfl, rfl⟩
            simp [HalfTurn.decides] at hd
          have hR' := hR
          simp only [RowsOf, if_neg hne] at hR
          obtain ⟨row, rfl, _⟩ := hR
          exact ⟨row, rfl, hR'⟩
        | discard => simp [HalfTurn.decides] at hd
        | post => simp [HalfTurn.decides] at hd)
      (by
        intro t ht g hd hR
        cases t with
        | during p o e a r n =>
          have hne : a = [] ∧ r = [] ∧ n = [] := by simpa [HalfTurn.decides, and_assoc] using hd
          simpa only [RowsOf, if_pos hne] using hR
        | discard => simp [HalfTurn.isDuring] at ht
        | post => simp [HalfTurn.isDuring] at ht)
    have hfe : (turns.filter HalfTurn.isDuring).filter HalfTurn.decides = turns.filter HalfTurn.decides := by
      rw [List.filter_filter]
      congr 1
      funext t
      cases t <;> simp [HalfTurn.decides, HalfTurn.isDuring]
    rwa [hfe] at this
  · have := b.discard.flatten_singletons (f := fun _ => true) (Q := fun t row => RowsOf v s tokens t [row])
      (by
        intro t ht g hd hR
        cases t with
        | during => simp [HalfTurn.isDiscard] at ht
        | discard =>
          have hR' := hR
          obtain ⟨row, rfl, _⟩ := hR
          exact ⟨row, rfl, hR'⟩
        | post => simp [HalfTurn.isDiscard] at ht)
      (by simp)
    simpa using this

/-- a row has the tokens up to the half-turn's position, which is below 150 -/
def SeesPast (tokens : List Nat) (t : HalfTurn) (row : List Nat) : Prop :=
  t.encodingIdx < 150 ∧ TokensUpTo tokens t.encodingIdx row

theorem rowsOf_seesPast {v : Variant} {s : RoundSt} {tokens : List Nat} {t : HalfTurn} {row : Row}
    (hk : t.decides = true ∨ t.isDiscard = true) (h : RowsOf v s tokens t [row]) : SeesPast tokens t row.tokens := by
  cases t with
  | during p o e a r n =>
    have hne : ¬ (a = [] ∧ r = [] ∧ n = []) := by
      rintro ⟨rfl, rfl, rfl⟩
      simp [HalfTurn.decides, HalfTurn.isDiscard] at hk
    simp only [RowsOf, if_neg hne] at h
    obtain ⟨row', hrow, hb, _⟩ := h
    simp only [List.cons.injEq, and_true] at hrow
    subst hrow
    exact ⟨hb.1, hb.2.1⟩
  | discard p o e t =>
    obtain ⟨row', hrow, hb, _⟩ := h
    simp only [List.cons.injEq, and_true] at hrow
    subst hrow
    exact ⟨hb.1, hb.2.1⟩
  | post => simp [HalfTurn.decides, HalfTurn.isDiscard] at hk

/-- C58: every row of every head has 150 entries, the tokens before the half-turn's position and zeros
after; any number of tokens. -/
theorem C58_tokens {v : Variant} {s : RoundSt} {turns : List HalfTurn} {tokens : List Nat} {d c p : Batch}
    (hf : ∀ t ∈ turns, FourLists t) (h : buildTensors v s turns tokens = .ok (d, c, p)) :
    AllPairs (SeesPast tokens) (turns.filter HalfTurn.decides) d.encodings ∧
    AllPairs (SeesPast tokens) (turns.filter HalfTurn.isDiscard) c.encodings ∧
    ∃ groups, p.encodings = groups.flatten ∧
      AllPairs (fun t rows => ∀ row ∈ rows, SeesPast tokens t row) (turns.filter HalfTurn.isPost) groups := by
  obtain ⟨⟨dr, rfl, hd, _⟩, ⟨cr, rfl, hc⟩, ⟨pg, rfl, hp, _⟩⟩ := head_rows hf h
  refine ⟨hd.map_right ?_, hc.map_right ?_, ⟨pg.map (List.map (·.tokens)), ?_, hp.map_right ?_⟩⟩
  · intro t row ht hr
    exact rowsOf_seesPast (.inl (List.mem_filter.1 ht).2) hr
  · intro t row ht hr
    exact rowsOf_seesPast (.inr (List.mem_filter.1 ht).2) hr
  · simp [ofRows, List.map_flatten]
  · intro t rows ht hr row hrow
    obtain ⟨ht1, ht2⟩ := List.mem_filter.1 ht
    obtain ⟨r, hr', rfl⟩ := List.mem_map.1 hrow
    cases t with
    | during => simp [HalfTurn.isPost] at ht2
    | discard => simp [HalfTurn.isPost] at ht2
    | post q o e a n =>
      obtain ⟨h1, h2, h3⟩ := hf _ ht1
      obtain ⟨pl, _, hpr⟩ := (hr h2 h3 h1).mem_right hr'
      exact ⟨hpr.1.1, hpr.1.2.1⟩

/-- C58, in other words: if two token streams agree before the position, the row is the same. -/
theorem C58_no_future (tokens tokens' : List Nat) (e : Nat) (row row' : List Nat)
    (hsame : ∀ i < e, tokens.getD i 0 = tokens'.getD i 0) (h : TokensUpTo tokens e row)
    (h' : TokensUpTo tokens' e row') : row = row' := by
  apply List.ext_getElem?
  intro i
  by_cases hi : i < 150
  · rw [h.2 i hi, h'.2 i hi]
    by_cases hie : i < e
    · rw [if_pos hie, if_pos hie, hsame i hie]
    · simp [hie]
  · rw [List.getElem?_eq_none (by rw [h.1]; omega), List.getElem?_eq_none (by rw [h'.1]; omega)]

/-! ### C60, C61 -/

/-- mask of an own-turn row -/
def OwnMask : HalfTurn → List Int → Prop
  | .during _ _ _ a r n, m => Allows 71 m (OwnAllowed a r n) ∧ 2 ≤ m.sum
  | _, _ => False

theorem twoAllowed_mem {ms : List (List Int)} (h : twoAllowed ms = true) {m : List Int} (hm : m ∈ ms) : 2 ≤ m.sum := by
  have := List.all_eq_true.1 h m hm
  simpa using this

theorem decides_during {t : HalfTurn} (h : t.decides = true) :
    ∃ p o e a r n, t = .during p o e a r n ∧ ¬ (a = [] ∧ r = [] ∧ n = []) := by
  cases t with
  | during p o e a r n =>
    refine ⟨p, o, e, a, r, n, rfl, ?_⟩
    rintro ⟨rfl, rfl, rfl⟩
    simp [HalfTurn.decides] at h
  | discard => simp [HalfTurn.decides] at h
  | post => simp [HalfTurn.decides] at h

theorem Spec.AllPairs.and_mem {α β : Type} {R : α → β → Prop} {as : List α} {bs : List β} (h : AllPairs R as bs) :
    AllPairs (fun a b => R a b ∧ a ∈ as ∧ b ∈ bs) as bs := by
  induction h with
  | nil => exact .nil
  | cons h1 _ ih =>
    exact .cons ⟨h1, by simp, by simp⟩ (ih.imp (fun a b _ h => ⟨h.1, by simp [h.2.1], by simp [h.2.2]⟩))

/-- C61: the own-turn masks, one per during-turn with a decision, in order, allow pass, win iff a win was
offered, riichi iff riichi was offered and the action numbers of the offered kans, nothing else, and
at least two actions. -/
theorem C61_own_masks {v : Variant} {s : RoundSt} {turns : List HalfTurn} {tokens : List Nat} {d c p : Batch}
    (hf : ∀ t ∈ turns, FourLists t) (h : buildTensors v s turns tokens = .ok (d, c, p)) :
    AllPairs OwnMask (turns.filter HalfTurn.decides) d.mask := by
  obtain ⟨⟨dr, rfl, hd, h2⟩, _, _⟩ := head_rows hf h
  refine hd.and_mem.map_right ?_
  rintro t row ht ⟨hr, _, hrow⟩
  obtain ⟨p, o, e, a, r, n, rfl, hne⟩ := decides_during (List.mem_filter.1 ht).2
  simp only [RowsOf, if_neg hne] at hr
  obtain ⟨row', hrow', hb, hm, _⟩ := hr
  simp only [List.cons.injEq, and_true] at hrow'
  subst hrow'
  exact ⟨hm, twoAllowed_mem h2 (List.mem_map.2 ⟨row, hrow, rfl⟩)⟩

/-- the label the code computes: the last executed kan, otherwise 2 -/
def OwnLabel : HalfTurn → Int → Prop
  | .during _ _ _ _ _ n, y => LastExecuted ownAction n 2 y
  | _, _ => False

/-- C60, what the labels are: the action number of the last executed kan if there is one, and 2
(riichi) in every other case, whatever was offered or done. -/
theorem C60_labels_partial {v : Variant} {s : RoundSt} {turns : List HalfTurn} {tokens : List Nat} {d c p : Batch}
    (hf : ∀ t ∈ turns, FourLists t) (h : buildTensors v s turns tokens = .ok (d, c, p)) :
    AllPairs OwnLabel (turns.filter HalfTurn.decides) d.y := by
  obtain ⟨⟨dr, rfl, hd, h2⟩, _, _⟩ := head_rows hf h
  refine hd.map_right ?_
  intro t row ht hr
  obtain ⟨p, o, e, a, r, n, rfl, hne⟩ := decides_during (List.mem_filter.1 ht).2
  simp only [RowsOf, if_neg hne] at hr
  obtain ⟨row', hrow', hb, _, hl⟩ := hr
  simp only [List.cons.injEq, and_true] at hrow'
  subst hrow'
  exact hl

/-- the label an own turn should get -/
def OwnLabelSpec : HalfTurn → Int → Prop
  | .during _ _ _ a r n, y =>
    if a.any (·.executed) then y = 1
    else if r.any (·.executed) then y = 2
    else LastExecuted ownAction n 0 y
  | _, _ => False

/-- `f` holds of the result, which is not an exception -/
def okAnd {α : Type} (r : Except PyErr α) (f : α → Bool) : Bool :=
  match r with
  | .ok x => f x
  | .error _ => false

theorem okAnd_ok {α : Type} {r : Except PyErr α} {f : α → Bool} (h : okAnd r f = true) : ∃ x, r = .ok x ∧ f x = true := by
  cases r with
  | ok x => exact ⟨x, rfl, h⟩
  | error e => simp [okAnd] at h

/-- a round with one draw, after which the player could have won -/
def passRound : Except PyErr RoundSt :=
  processRound (fun q => .ok q.config.is_tsumo) farAway ⟨0⟩ deal
    [.draw 0 (.ok 120), .discard 0 (.ok 120), .result false (.ok [])]

/-- the decisions of an own turn -/
def HalfTurn.ownLists : HalfTurn → List AgariDecision × List ReachDecision × List NakiDecision
  | .during _ _ _ a r n => (a, r, n)
  | _ => ([], [], [])

theorem passRound_tensors (v : Variant) : okAnd passRound (fun s => okAnd (buildTensors v s s.halfturns s.encoding_tokens)
    (fun b => b.1.y == [2] && b.1.mask.map (fun m => m.getD 2 0) == [0] && b.2.1.y == [30] &&
      b.2.1.mask.map (fun m => m.getD 30 0) == [0])
    && (s.halfturns.filter HalfTurn.decides).map HalfTurn.ownLists == [([⟨0, false⟩], [], [])]) = true := by
  cases v <;> decide +kernel

/-- C60 does not hold, for any of the models: a round in which the player passes on a win and riichi is not
possible gets the label "riichi", which the mask forbids. -/
theorem C60_labels_violated (v : Variant) :
    ∃ est sh g a evs s d c p, processRound est sh g a evs = .ok s ∧
      buildTensors v s s.halfturns s.encoding_tokens = .ok (d, c, p) ∧
      ¬ AllPairs OwnLabelSpec (s.halfturns.filter HalfTurn.decides) d.y ∧
      d.y = [2] ∧ d.mask.map (fun m => m.getD 2 0) = [0] := by
  obtain ⟨s, hs, h⟩ := okAnd_ok (passRound_tensors v)
  simp only [Bool.and_eq_true, beq_iff_eq] at h
  obtain ⟨⟨d, c, p⟩, hb, h1⟩ := okAnd_ok h.1
  simp only [Bool.and_eq_true, beq_iff_eq] at h1
  refine ⟨_, _, _, _, _, s, d, c, p, hs, hb, ?_, h1.1.1.1, h1.1.1.2⟩
  intro hall
  rw [h1.1.1.1] at hall
  obtain ⟨t, ht, hl⟩ := hall.mem_right (b := 2) (by simp)
  have ho : t.ownLists = ([⟨0, false⟩], [], []) := by
    have := List.mem_map_of_mem (f := HalfTurn.ownLists) ht
    rw [h.2] at this
    simpa using this
  cases t with
  | during p o e a r n =>
    simp only [HalfTurn.ownLists, Prod.mk.injEq] at ho
    obtain ⟨rfl, rfl, rfl⟩ := ho
    simp [OwnLabelSpec, LastExecuted] at hl
  | discard => exact hl
  | post => exact hl

/-! ### C59 -/

/-- C59 does not hold, for any of the models: the mask is read from the hand at the end of the round. -/
theorem C59_discard_allowed_violated (v : Variant) :
    ∃ est sh g a evs s d c p, processRound est sh g a evs = .ok s ∧
      buildTensors v s s.halfturns s.encoding_tokens = .ok (d, c, p) ∧
      c.y = [30] ∧ c.mask.map (fun m => m.getD 30 0) = [0] := by
  obtain ⟨s, hs, h⟩ := okAnd_ok (passRound_tensors v)
  simp only [Bool.and_eq_true, beq_iff_eq] at h
  obtain ⟨⟨d, c, p⟩, hb, h1⟩ := okAnd_ok h.1
  simp only [Bool.and_eq_true, beq_iff_eq] at h1
  exact ⟨_, _, _, _, _, s, d, c, p, hs, hb, h1.1.2, h1.2⟩

/-- what a discard row is: 37 entries, 1 for the slots present in `hand` and 0 for the others, and the
kind of the discarded tile as label -/
def DiscardRow (hand : Nat → Nat → Int) : HalfTurn → Row → Prop
  | .discard _ o _ t, row => row.mask.length = 37 ∧
      (∀ k < 37, row.mask[k]? = some (if 0 < hand o.player k then 1 else 0)) ∧ t < 136 ∧ row.y = (t / 4 : Nat)
  | _, _ => False

/-- C59, what the rows are: the mask is the set of kinds in the state object's player's hand at the end of
the round, and the label is the discarded kind; so the label is allowed iff such a tile is still there. -/
theorem C59_discard_rows_partial {est : Estimate} {sh : List Int → Except PyErr Int} {g : GameInfo} {a : InitAttr}
    {evs : List Ev} {s : RoundSt} (hs : processRound est sh g a evs = .ok s) {v : Variant} {d c p : Batch}
    (h : buildTensors v s s.halfturns s.encoding_tokens = .ok (d, c, p)) :
    ∃ rows, c = ofRows rows ∧ AllPairs (DiscardRow s.hand_tensors) (s.halfturns.filter HalfTurn.isDiscard) rows := by
  obtain ⟨_, ⟨cr, rfl, hc⟩, _⟩ := head_rows (fourLists_accepted hs) h
  obtain ⟨cf, s0, acts, rest, h1, _, _, _, h2⟩ := accepted_reached hs
  refine ⟨cr, rfl, hc.imp ?_⟩
  intro t row ht hr
  cases t with
  | during => simp [HalfTurn.isDiscard] at ht
  | post => simp [HalfTurn.isDiscard] at ht
  | discard pl o e t =>
    obtain ⟨row', hrow', hb, hm, ht, hy⟩ := hr
    simp only [List.cons.injEq, and_true] at hrow'
    subst hrow'
    refine ⟨by simp [hm], ?_, ht, hy⟩
    intro k hk
    have hnn : 0 ≤ s.hand_tensors o.player k := by
      obtain ⟨hbit, _, hkind, e1, e2, e3⟩ := C33_hand_tensors h1 h2 o.player
      by_cases hk34 : k < 34
      · rw [hkind k hk34]; omega
      · have : k = 34 ∨ k = 35 ∨ k = 36 := by omega
        rcases this with rfl | rfl | rfl
        · rw [e1]; rcases hbit 16 with h | h <;> omega
        · rw [e2]; rcases hbit 52 with h | h <;> omega
        · rw [e3]; rcases hbit 88 with h | h <;> omega
    rw [hm]
    simp only [List.getElem?_map, List.getElem?_range hk, Option.map_some, Option.some.injEq]
    split <;> omega

/-- C59: it is the sharing that breaks it: when a discard is processed, the discarded kind is in the hand. -/
theorem C59_held_before_partial {est : Estimate} {sh : List Int → Except PyErr Int} {g : GameInfo} {a : InitAttr}
    {c : RoundCfg} {s0 : RoundSt} (hi : initRound est sh g a = .ok (c, s0)) {acts : List Act} {s s' : RoundSt}
    (hr : Reached c s0 acts s) {p t : Nat} (he : Effect c s (.discard p t) s') : 0 < s.hand_tensors p (t / 4) := by
  cases he with
  | discard hp e =>
    have ht := e.tile_lt
    obtain ⟨_, _, hkind, _⟩ := C33_hand_tensors hi hr p
    rw [hkind (t / 4) (by omega)]
    have : t ∈ (List.range 136).filter (fun x => s.hands p x == 1 && x / 4 == t / 4) := by
      simp [e.held, ht]
    have := List.length_pos_of_mem this
    omega

/-! ### C62 -/

/-- a row for the decision of player `p` -/
def CallRow (a : List (List AgariDecision)) (n : List (List NakiDecision)) (p : Nat) (row : Row) : Prop :=
  row.player = p ∧ Allows 154 row.mask (CallAllowed (winsOf a p) (callsOf n p)) ∧ 2 ≤ row.mask.sum ∧
  LastExecuted Spec.callAction (callsOf n p) (if winTaken (winsOf a p) then 1 else 0) row.y ∧
  ∃ k : Nat, row.y = k ∧ k < 154 ∧ row.mask[k]? = some 1

/-- the rows of a post-turn -/
def CallRows : HalfTurn → List Row → Prop
  | .post q _ _ a n, rows => AllPairs (CallRow a n) (deciders q a n) rows
  | _, _ => False

theorem label_allowed {a : List AgariDecision} {n : List NakiDecision} {y : Int}
    (h : LastExecuted Spec.callAction n (if winTaken a then 1 else 0) y) : ∃ k : Nat, y = k ∧ CallAllowed a n k := by
  rcases h with ⟨l1, d, l2, rfl, _, _, ha⟩ | ⟨_, rfl⟩
  · have := post_idx_nonneg ha
    refine ⟨y.toNat, by omega, .inr (.inr ⟨d, by simp, ?_⟩)⟩
    rwa [Int.toNat_of_nonneg this]
  · split
    · rename_i hw
      refine ⟨1, rfl, .inr (.inl ⟨rfl, ?_⟩)⟩
      rintro rfl
      simp [winTaken] at hw
    · exact ⟨0, rfl, .inl rfl⟩

/-- C62: the call rows of a round are, post-turn by post-turn, one row for each player in turn order who has
a decision, up to and including the first who executed one; masks and labels are exact, masks allow at
least two actions, labels are allowed. -/
theorem C62_call_rows {v : Variant} {s : RoundSt} {turns : List HalfTurn} {tokens : List Nat} {d c p : Batch}
    (hf : ∀ t ∈ turns, FourLists t) (h : buildTensors v s turns tokens = .ok (d, c, p)) :
    ∃ groups, p = ofRows groups.flatten ∧ AllPairs CallRows (turns.filter HalfTurn.isPost) groups := by
  obtain ⟨_, _, ⟨pg, rfl, hp, h2⟩⟩ := head_rows hf h
  refine ⟨pg, rfl, hp.and_mem.imp ?_⟩
  rintro t rows ht ⟨hr, _, hrows⟩
  obtain ⟨ht1, ht2⟩ := List.mem_filter.1 ht
  cases t with
  | during => simp [HalfTurn.isPost] at ht2
  | discard => simp [HalfTurn.isPost] at ht2
  | post q o e a n =>
    obtain ⟨h1, h3, h4⟩ := hf _ ht1
    refine (hr h3 h4 h1).and_mem.imp ?_
    rintro pl row _ ⟨⟨hb, hm, hl⟩, _, hrow⟩
    have hmem : row ∈ pg.flatten := List.mem_flatten.2 ⟨rows, hrows, hrow⟩
    obtain ⟨k, hk, hk2⟩ := label_allowed hl
    exact ⟨hb.2.2.2.2.2, hm, twoAllowed_mem h2 (List.mem_map.2 ⟨row, hmem, rfl⟩), hl, k, hk, hm.2.1 k hk2⟩

/-! ### C63 -/

/-- the hand channel of a row -/
def handChannel (x1 : List (List (List Int))) : List (List Int) := x1.headD []

/-- the player of the state object attached to a half-turn -/
def HalfTurn.objPlayer (t : HalfTurn) : Nat := t.obj.player

/-- C63, what the channel is: the hand (at the end of the round) of the player of the attached state object,
the same for all deciders. -/
theorem C63_hand_channel_partial {v : Variant} {s : RoundSt} {turns : List HalfTurn} {tokens : List Nat} {d c p : Batch}
    (hf : ∀ t ∈ turns, FourLists t) (h : buildTensors v s turns tokens = .ok (d, c, p)) :
    ∃ groups, p = ofRows groups.flatten ∧
      AllPairs (fun t rows => ∀ row ∈ rows, handChannel row.x1 = plane v (s.hand_tensors t.objPlayer))
        (turns.filter HalfTurn.isPost) groups := by
  obtain ⟨_, _, ⟨pg, rfl, hp, h2⟩⟩ := head_rows hf h
  refine ⟨pg, rfl, hp.imp ?_⟩
  intro t rows ht hr row hrow
  obtain ⟨ht1, ht2⟩ := List.mem_filter.1 ht
  cases t with
  | during => simp [HalfTurn.isPost] at ht2
  | discard => simp [HalfTurn.isPost] at ht2
  | post q o e a n =>
    obtain ⟨h1, h3, h4⟩ := hf _ ht1
    obtain ⟨pl, _, hpr⟩ := (hr h3 h4 h1).mem_right hrow
    rw [hpr.1.2.2.1]
    cases v <;> rfl

/-- player 1 may pon player 0's discard and does not -/
def noPonRound : Except PyErr RoundSt :=
  processRound noWin farAway ⟨0⟩ dealPon [.draw 0 (.ok 120), .discard 0 (.ok 0), .result false (.ok [])]

theorem noPonRound_tensors (v : Variant) : okAnd noPonRound (fun s => okAnd (buildTensors v s s.halfturns s.encoding_tokens)
    (fun b => b.2.2.player == [1] && b.2.2.x1.map handChannel != [plane v (s.hand_tensors 1)])) = true := by
  cases v <;> decide +kernel

/-- C63 does not hold, for any of the models: a call row of player 1 whose hand channel is not player 1's hand. -/
theorem C63_hand_channel_violated (v : Variant) :
    ∃ est sh g a evs s d c p, processRound est sh g a evs = .ok s ∧
      buildTensors v s s.halfturns s.encoding_tokens = .ok (d, c, p) ∧
      p.player = [1] ∧ p.x1.map handChannel ≠ [plane v (s.hand_tensors 1)] := by
  obtain ⟨s, hs, h⟩ := okAnd_ok (noPonRound_tensors v)
  obtain ⟨⟨d, c, p⟩, hb, h1⟩ := okAnd_ok h
  simp only [Bool.and_eq_true, beq_iff_eq, bne_iff_ne] at h1
  exact ⟨_, _, _, _, _, s, d, c, p, hs, hb, h1.1, h1.2⟩

/-! ### C64 -/

/-- what `prepare_batches` is given: for every game the half-turns and the tokens of its rounds -/
def gameTurns (games : List (List RoundSt)) : List (List (RoundSt × List HalfTurn)) :=
  games.map (List.map (fun s => (s, s.halfturns)))
@[inherit_doc gameTurns]
def gameTokens (games : List (List RoundSt)) : List (List (List Nat)) :=
  games.map (List.map (fun s => s.encoding_tokens))

theorem zip_map_self {α β γ : Type} (f : α → β) (g : α → γ) (l : List α) :
    (l.map f).zip (l.map g) = l.map (fun x => (f x, g x)) := by
  induction l with
  | nil => rfl
  | cons a l ih => simp [ih]

theorem zipRounds_games (games : List (List RoundSt)) :
    zipRounds (gameTurns games) (gameTokens games) = games.flatten.map (fun s => ((s, s.halfturns), s.encoding_tokens)) := by
  unfold zipRounds gameTurns gameTokens
  rw [zip_map_self]
  induction games with
  | nil => rfl
  | cons g games ih =>
    simp only [List.map_cons, List.flatMap_cons, List.flatten_cons, List.map_append]
    rw [ih, zip_map_self]

theorem mapM_pairs {α β : Type} {f : α → Except PyErr β} : ∀ {l : List α} {r : List β}, l.mapM f = .ok r →
    AllPairs (fun a b => f a = .ok b) l r := by
  intro l
  induction l with
  | nil =>
    intro r h
    simp only [List.mapM_nil, pure_ok] at h
    subst h
    exact .nil
  | cons a l ih =>
    intro r h
    simp only [List.mapM_cons, bind_ok, pure_ok] at h
    obtain ⟨b, h1, bs, h2, rfl⟩ := h
    exact .cons h1 (ih h2)

theorem Spec.AllPairs.map_left {α β γ : Type} {R : α → γ → Prop} {f : β → α} {l : List β} {r : List γ}
    (h : AllPairs R (l.map f) r) : AllPairs (fun b c => R (f b) c) l r := by
  generalize hm : l.map f = m at h
  induction h generalizing l with
  | nil => simp at hm; subst hm; exact .nil
  | cons h1 _ ih =>
    cases l with
    | nil => simp at hm
    | cons b l =>
      simp only [List.map_cons, List.cons.injEq] at hm
      obtain ⟨rfl, rfl⟩ := hm
      exact .cons h1 (ih rfl)

theorem cat_ofRows (l : List (List Row)) : Batch.cat (l.map ofRows) = ofRows l.flatten := by
  simp only [Batch.cat, ofRows, List.map_map, List.map_flatten]
  congr 1

theorem Spec.AllPairs.exists_right {α β γ : Type} {R : α → β → Prop} {Q : α → γ → Prop} {f : γ → β} {as : List α}
    {bs : List β} (h : AllPairs R as bs) (hi : ∀ a b, a ∈ as → R a b → ∃ c, b = f c ∧ Q a c) :
    ∃ cs, bs = cs.map f ∧ AllPairs Q as cs := by
  induction h with
  | nil => exact ⟨[], rfl, .nil⟩
  | cons h1 _ ih =>
    obtain ⟨c, rfl, hc⟩ := hi _ _ (by simp) h1
    obtain ⟨cs, rfl, hcs⟩ := ih (fun a b ha => hi a b (by simp [ha]))
    exact ⟨c :: cs, rfl, .cons hc hcs⟩

/-- C64: every batch is the list of all samples of all rounds of all games, in order, each exactly once,
and its tensors are aligned (entry `i` of every tensor is about sample `i`). -/
theorem C64_batches {v : Variant} {games : List (List RoundSt)} {d c p : Batch}
    (hf : ∀ s ∈ games.flatten, ∀ t ∈ s.halfturns, FourLists t)
    (h : prepareBatches v (gameTurns games) (gameTokens games) = .ok (d, c, p)) :
    ∃ rows : List (List Row × List Row × List Row),
      AllPairs (fun s r => buildTensors v s s.halfturns s.encoding_tokens = .ok (ofRows r.1, ofRows r.2.1, ofRows r.2.2))
        games.flatten rows ∧
      d = ofRows (rows.flatMap (·.1)) ∧ c = ofRows (rows.flatMap (·.2.1)) ∧ p = ofRows (rows.flatMap (·.2.2)) := by
  simp only [prepareBatches, bind_ok, zipRounds_games] at h
  obtain ⟨l, h1, h2⟩ := h
  have h3 := (mapM_pairs h1).map_left
  obtain ⟨rows, rfl, h4⟩ := h3.exists_right (f := fun r : List Row × List Row × List Row => (ofRows r.1, ofRows r.2.1, ofRows r.2.2))
    (Q := fun s r => buildTensors v s s.halfturns s.encoding_tokens = .ok (ofRows r.1, ofRows r.2.1, ofRows r.2.2)) (by
      rintro s ⟨d, c, p⟩ hs hb
      obtain ⟨b⟩ := buildTensors_rows (hf s hs) hb
      refine ⟨(b.dg.flatten, b.cg.flatten, b.pg.flatten), ?_, ?_⟩
      · rw [← b.d_eq, ← b.c_eq, ← b.p_eq]
      · rw [← b.d_eq, ← b.c_eq, ← b.p_eq]; exact hb)
  refine ⟨rows, h4, ?_⟩
  unfold stackBatches at h2
  split at h2
  · simp at h2
  · simp only [Except.ok.injEq, Prod.mk.injEq, List.map_map] at h2
    obtain ⟨rfl, rfl, rfl⟩ := h2
    refine ⟨?_, ?_, ?_⟩
    · rw [List.flatMap_def, ← cat_ofRows, List.map_map]; rfl
    · rw [List.flatMap_def, ← cat_ofRows, List.map_map]; rfl
    · rw [List.flatMap_def, ← cat_ofRows, List.map_map]; rfl

/-- C64: an empty batch raises ValueError, except in the ordered model. -/
theorem C64_empty : prepareBatches .basic [] [] = .error .value ∧ prepareBatches .conv [] [] = .error .value ∧
    prepareBatches .ordered [] [] = .ok (Batch.empty, Batch.empty, Batch.empty) := by
  decide

/-! ### C65, C66 -/

/-- C65: counts 0-4 can be read off the four planes; other counts look like 0 or 4. -/
theorem C65_thermometer (n m : Int) :
    (0 ≤ n → n ≤ 4 → 0 ≤ m → m ≤ 4 → thermo n = thermo m → n = m) ∧
    (n ≤ 0 → thermo n = [0, 0, 0, 0]) ∧ (4 ≤ n → thermo n = [1, 1, 1, 1]) ∧
    (0 ≤ n → n ≤ 4 → (thermo n).sum = n) := by
  have hs : ∀ n : Int, 0 ≤ n → n ≤ 4 → (thermo n).sum = n := by
    intro n h1 h2
    have : n = 0 ∨ n = 1 ∨ n = 2 ∨ n = 3 ∨ n = 4 := by omega
    rcases this with rfl | rfl | rfl | rfl | rfl <;> decide
  refine ⟨?_, ?_, ?_, hs n⟩
  · intro h1 h2 h3 h4 h
    rw [← hs n h1 h2, ← hs m h3 h4, h]
  · intro h
    simp [thermo, List.range_succ]
    omega
  · intro h
    simp [thermo, List.range_succ, (by omega : 0 < n), (by omega : 1 < n), (by omega : 2 < n), (by omega : 3 < n)]

/-- C66: in the ordered model channel `2 + i` is the discard pool of the `i`-th seat counted from the
player. -/
theorem C66_ordered (o : StateObj) (s : RoundSt) (hp : o.player < 4) :
    (stateX1 .ordered o s).length = 6 ∧
    ∀ i < 4, (stateX1 .ordered o s)[2 + i]? = some (plane .ordered (o.sutehai_tensors ((o.player + i) % 4))) := by
  have h : ∀ q : Nat, q < 4 → ∀ f : Nat → Nat → Int, npRoll ((List.range 4).map f) (-(q : Int)) =
      [f (q % 4), f ((q + 1) % 4), f ((q + 2) % 4), f ((q + 3) % 4)] := by
    intro q hq f
    match q, hq with
    | 0, _ => rfl
    | 1, _ => rfl
    | 2, _ => rfl
    | 3, _ => rfl
  simp only [stateX1]
  rw [h o.player hp]
  refine ⟨by simp, ?_⟩
  intro i hi
  match i, hi with
  | 0, _ => rfl
  | 1, _ => rfl
  | 2, _ => rfl
  | 3, _ => rfl

end MJ
