import Verif.Proofs.Copies
import Verif.Model.Tensors
import Verif.Props.RoundOffers
/-!
C154: which of the copies of a tile is dealt, drawn, discarded or called makes no difference.
-/
namespace MJ
open Code Spec

variable {π : Nat → Nat}

/-! ### tensors -/

theorem foldlM_mapped {α β γ : Type} (f : α → β) (g : γ → β → Except PyErr γ) (g' : γ → α → Except PyErr γ)
    (h : ∀ b x, g b (f x) = g' b x) : ∀ (l : List α) (b : γ), (l.map f).foldlM g b = l.foldlM g' b
  | [], _ => rfl
  | x :: l, b => by
    rw [List.map_cons, List.foldlM_cons, List.foldlM_cons, h b x]
    congr 1
    funext y
    exact foldlM_mapped f g g' h l y

theorem filter_turns (p : HalfTurn → Bool) (hp : ∀ t, p (turnCopies π t) = p t) : ∀ l : List HalfTurn,
    (l.map (turnCopies π)).filter p = (l.filter p).map (turnCopies π)
  | [] => rfl
  | t :: l => by
    rw [List.map_cons, List.filter_cons, List.filter_cons, hp t]
    split
    · rw [List.map_cons, filter_turns p hp l]
    · exact filter_turns p hp l

theorem stateX1_copies (v : Variant) (o : StateObj) (s : RoundSt) (h : Nat → Nat → Int) (m : Nat → List Naki) :
    stateX1 v (objCopies π o) (stCopies π s h m) = stateX1 v o s := by cases v <;> rfl

theorem stateX2_copies (o : StateObj) (s : RoundSt) (h : Nat → Nat → Int) (m : Nat → List Naki) :
    stateX2 (objCopies π o) (stCopies π s h m) = stateX2 o s := rfl

theorem buildDuring_copies (v : Variant) (s : RoundSt) (h : Nat → Nat → Int) (m : Nat → List Naki) (turns : List HalfTurn)
    (enc : List Nat) :
    buildDuring v (stCopies π s h m) (turns.map (turnCopies π)) enc = buildDuring v s turns enc := by
  unfold buildDuring
  congr 1
  refine foldlM_mapped _ _ _ (fun b t => ?_) turns _
  cases t with
  | during p o e a r n =>
    simp only [turnCopies, duringTurn, stateX1_copies, stateX2_copies]
    rfl
  | discard => rfl
  | post => rfl

theorem buildDiscard_copies (hπ : Copies π) (v : Variant) (s : RoundSt) (h : Nat → Nat → Int) (m : Nat → List Naki)
    (turns : List HalfTurn) (enc : List Nat) :
    buildDiscard v (stCopies π s h m) (turns.map (turnCopies π)) enc = buildDiscard v s turns enc := by
  unfold buildDiscard
  congr 1
  refine foldlM_mapped _ _ _ (fun b t => ?_) turns _
  cases t with
  | during => rfl
  | discard p o e t =>
    simp only [turnCopies, discardTurn, stateX1_copies, stateX2_copies, checkTile_copies hπ, hπ.slots]
    rfl
  | post => rfl

theorem postSeats_copies (v : Variant) (s : RoundSt) (h : Nat → Nat → Int) (m : Nat → List Naki) (enc : List Nat) (o : StateObj)
    (e : Nat) (x2 : List (List Int)) (d : List (List (List Decision))) : ∀ (ps : List Nat) (b : Batch),
    postSeats v (stCopies π s h m) enc (objCopies π o) e x2 d ps b = postSeats v s enc o e x2 d ps b
  | [], _ => rfl
  | p :: ps, b => by
    unfold postSeats
    simp only [stateX1_copies, postSeats_copies v s h m enc o e x2 d ps]
    rfl

theorem buildPost_copies (v : Variant) (s : RoundSt) (h : Nat → Nat → Int) (m : Nat → List Naki) (turns : List HalfTurn)
    (enc : List Nat) :
    buildPost v (stCopies π s h m) (turns.map (turnCopies π)) enc = buildPost v s turns enc := by
  unfold buildPost
  congr 1
  refine foldlM_mapped _ _ _ (fun b t => ?_) turns _
  cases t with
  | during => rfl
  | discard => rfl
  | post p o e a n =>
    simp only [turnCopies, postTurn, stateX2_copies, postSeats_copies]

theorem buildTensors_copies (hπ : Copies π) (v : Variant) (s : RoundSt) (h : Nat → Nat → Int) (m : Nat → List Naki)
    (turns : List HalfTurn) (tokens : List Nat) :
    buildTensors v (stCopies π s h m) (turns.map (turnCopies π)) tokens = buildTensors v s turns tokens := by
  unfold buildTensors
  dsimp only
  rw [filter_turns _ (by intro t; cases t <;> rfl), filter_turns _ (by intro t; cases t <;> rfl),
    filter_turns _ (by intro t; cases t <;> rfl), buildDuring_copies, buildDiscard_copies hπ, buildPost_copies]

/-! ### C154 -/

/-- the samples of one round -/
def roundSamples (v : Variant) (x : Except PyErr RoundSt) : Except PyErr (Batch × Batch × Batch) :=
  x >>= fun s => buildTensors v s s.halfturns s.encoding_tokens

/-- What two rounds that differ only in the copies have in common: all that is recorded, up to the names of the copies.
The tiles are held by the same players, and the flags, counts and tokens are the same. -/
structure SameRecord (π : Nat → Nat) (s s' : RoundSt) : Prop where
  halfturns : s'.halfturns = s.halfturns.map (turnCopies π)
  tokens : s'.encoding_tokens = s.encoding_tokens
  held : ∀ p t, s'.hands p (π t) = s.hands p t
  counts : s'.hand_tensors = s.hand_tensors
  doras : s'.doras = s.doras.map π
  menzen : s'.is_menzen = s.is_menzen
  reaches : s'.reaches = s.reaches
  double_reaches : s'.double_reaches = s.double_reaches
  ippatsu : s'.ippatsu = s.ippatsu

/-- C154: with the copies renamed a round is accepted or refused alike, with the same exception, and everything that is
recorded is the same up to the names of the copies.  Limits: renamings that leave the red fives alone; of a pon also what
the program reads off its code beyond the kind must agree (`Told`, see the counterexamples below); and tiles with numbers
below 34 stay as they are if there is a pon. -/
theorem C154_round_partial (hπ : Copies π) {est : Estimate} (hest : CopyBlind π est) (sh : List Int → Except PyErr Int)
    (g : GameInfo) (a : InitAttr) {evs evs' : List Ev} (he : AllPairs (EvCopies π) evs evs')
    (hp : FixesKinds π ∨ ∀ e ∈ evs, ponEvent e = false) :
    SameOutcome (SameRecord π) (processRound est sh g a evs) (processRound est sh g (dealCopies π a) evs') := by
  have := round_copies hπ hest sh g a he hp
  generalize processRound est sh g a evs = x, processRound est sh g (dealCopies π a) evs' = y at this ⊢
  cases this with
  | ok h =>
    obtain ⟨h, m, rfl, hi⟩ := h
    exact .ok ⟨rfl, rfl, hi.hands, rfl, rfl, rfl, rfl, rfl, rfl⟩
  | error e => exact .error e

/-- C154: the samples of the renamed round are the very same ones (or the same exception), in each of the models. -/
theorem C154_samples_partial (hπ : Copies π) {est : Estimate} (hest : CopyBlind π est) (sh : List Int → Except PyErr Int)
    (g : GameInfo) (a : InitAttr) {evs evs' : List Ev} (he : AllPairs (EvCopies π) evs evs')
    (hp : FixesKinds π ∨ ∀ e ∈ evs, ponEvent e = false) (v : Variant) :
    roundSamples v (processRound est sh g (dealCopies π a) evs') = roundSamples v (processRound est sh g a evs) := by
  have := round_copies hπ hest sh g a he hp
  generalize processRound est sh g a evs = x, processRound est sh g (dealCopies π a) evs' = y at this ⊢
  cases this with
  | ok h =>
    obtain ⟨h, m, rfl, hi⟩ := h
    exact buildTensors_copies hπ v _ h m _ _
  | error e => rfl

/-- C154: for rounds without calls no condition on the events is needed: draws, discards and indicators may be any. -/
theorem C154_no_calls (hπ : Copies π) {est : Estimate} (hest : CopyBlind π est) (sh : List Int → Except PyErr Int)
    (g : GameInfo) (a : InitAttr) (acts : List (Fin 4 × Nat × Bool)) (w : Bool) (sc : Except PyErr (List Int)) (v : Variant) :
    roundSamples v (processRound est sh g (dealCopies π a)
      (acts.map (fun x => if x.2.2 then .draw x.1 (.ok (π x.2.1)) else .discard x.1 (.ok (π x.2.1))) ++ [.result w sc])) =
    roundSamples v (processRound est sh g a
      (acts.map (fun x => if x.2.2 then .draw x.1 (.ok x.2.1) else .discard x.1 (.ok x.2.1)) ++ [.result w sc])) := by
  refine C154_samples_partial hπ hest sh g a ?_ (.inr ?_) v
  · induction acts with
    | nil => exact .cons (.result w sc) .nil
    | cons x l ih =>
      obtain ⟨p, t, b⟩ := x
      refine .cons ?_ ih
      cases b
      · exact .discard p (.ok t)
      · exact .draw p (.ok t)
  · intro e he
    rw [List.mem_append, List.mem_map, List.mem_singleton] at he
    rcases he with ⟨x, _, rfl⟩ | rfl
    · obtain ⟨p, t, b⟩ := x
      cases b <;> rfl
    · rfl

/-! ### renamings -/

/-- two tiles exchanged -/
def swapTiles (a b t : Nat) : Nat := if t = a then b else if t = b then a else t

theorem swapTiles_copies {a b : Nat} (h : a / 4 = b / 4) (ha : a ≠ 16 ∧ a ≠ 52 ∧ a ≠ 88) (hb : b ≠ 16 ∧ b ≠ 52 ∧ b ≠ 88) :
    Copies (swapTiles a b) where
  inj := by
    intro t t'
    unfold swapTiles
    split <;> split <;> (try split) <;> (try split) <;> omega
  kind := by
    intro t
    unfold swapTiles
    split
    · omega
    · split <;> omega
  man := by unfold swapTiles; rw [if_neg (by omega), if_neg (by omega)]
  pin := by unfold swapTiles; rw [if_neg (by omega), if_neg (by omega)]
  sou := by unfold swapTiles; rw [if_neg (by omega), if_neg (by omega)]

theorem swapTiles_fixes {a b : Nat} (ha : 34 ≤ a) (hb : 34 ≤ b) : FixesKinds (swapTiles a b) := by
  intro t ht
  unfold swapTiles
  rw [if_neg (by omega), if_neg (by omega)]

theorem noWin_blind (π : Nat → Nat) : CopyBlind π noWin := fun _ => rfl

/-- rounds that differ in the copies of the tiles, with one call -/
structure OneCall (π : Nat → Nat) (m m' : LogMeld) (evs evs' : List Ev) : Prop where
  copies : Copies π
  kinds : FixesKinds π
  valid : m.Valid
  valid' : m'.Valid
  renamed : Renamed π m m'
  log : ∃ pre pre' post post' w, AllPairs (EvCopies π) pre pre' ∧ AllPairs (EvCopies π) post post' ∧
    evs = pre ++ .naki (.ok m.encode) w :: post ∧ evs' = pre' ++ .naki (.ok m'.encode) w :: post'

/-- with `Told` the rounds with one call are alike -/
theorem C154_one_call {m m' : LogMeld} {evs evs' : List Ev} (h : OneCall π m m' evs evs') (ht : Told m m') {est : Estimate}
    (hest : CopyBlind π est) (sh : List Int → Except PyErr Int) (g : GameInfo) (a : InitAttr) (v : Variant) :
    roundSamples v (processRound est sh g (dealCopies π a) evs') = roundSamples v (processRound est sh g a evs) := by
  obtain ⟨pre, pre', post, post', w, h1, h2, rfl, rfl⟩ := h.log
  exact C154_samples_partial h.copies hest sh g a (h1.append (.cons (.call w h.valid h.valid' h.renamed ht) h2)) (.inl h.kinds) v

/-- the labels of the decisions after a discard -/
def callLabels (x : Except PyErr (Batch × Batch × Batch)) : Option (List Int) :=
  match x with
  | .ok b => some b.2.2.y
  | .error _ => none

/-- a log with a pon: player 0 discards tile `t`, player 1 takes it and discards tile 1 -/
def ponLog (t : Nat) (m : LogMeld) : List Ev :=
  [.draw 0 (.ok 120), .discard 0 (.ok t)] ++ .naki (.ok m.encode) (.ok 1) :: [.discard 1 (.ok 1), .result false (.ok [])]

theorem ponLog_one {a b : Nat} {m m' : LogMeld} (h : a / 4 = b / 4) (ha : a ≠ 16 ∧ a ≠ 52 ∧ a ≠ 88)
    (hb : b ≠ 16 ∧ b ≠ 52 ∧ b ≠ 88) (ha' : 34 ≤ a) (hb' : 34 ≤ b) (h120 : a ≠ 120 ∧ b ≠ 120) (hv : m.Valid) (hv' : m'.Valid)
    (hr : Renamed (swapTiles a b) m m') : OneCall (swapTiles a b) m m' (ponLog a m) (ponLog b m') where
  copies := swapTiles_copies h ha hb
  kinds := swapTiles_fixes ha' hb'
  valid := hv
  valid' := hv'
  renamed := hr
  log := by
    refine ⟨_, _, _, _, .ok 1, ?_, ?_, rfl, rfl⟩
    · have e1 : swapTiles a b 120 = 120 := by unfold swapTiles; rw [if_neg (by omega), if_neg (by omega)]
      have e2 : swapTiles a b a = b := by unfold swapTiles; rw [if_pos rfl]
      have d1 := EvCopies.draw (π := swapTiles a b) 0 (.ok 120)
      have d2 := EvCopies.discard (π := swapTiles a b) 0 (.ok a)
      simp only [Except.map, e1, e2] at d1 d2
      exact .cons d1 (.cons d2 .nil)
    · have e1 : swapTiles a b 1 = 1 := by unfold swapTiles; rw [if_neg (by omega), if_neg (by omega)]
      have d1 := EvCopies.discard (π := swapTiles a b) 1 (.ok 1)
      simp only [Except.map, e1] at d1
      exact .cons d1 (.cons (.result false (.ok [])) .nil)

/-- Player 0 is dealt tile `t`, player 1 two given tiles. -/
def dealtTwo (t x y : Nat) (p : Nat) : List Nat :=
  if p = 0 then t :: (List.range 12).map (4 * ·)
  else if p = 1 then [x, y] ++ (List.range 11).map (fun i => 4 * i + 1)
  else (List.range 13).map (fun i => 4 * i + p)

def dealTwo (t x y : Nat) : InitAttr := { deal with hai := fun p => .ok (dealtTwo t x y p) }

theorem plain_accepted : accepts (processRound noWin farAway ⟨0⟩ (dealTwo 82 80 81) (ponLog 82 (.pon 3 20 3 2)))
    (fun s => decide (callLabels (roundSamples .conv (.ok s)) = some [0, 0])) = true := by decide +kernel

theorem plain_renamed : accepts (processRound noWin farAway ⟨0⟩ (dealCopies (swapTiles 82 80) (dealTwo 82 80 81))
    (ponLog 80 (.pon 3 20 3 0))) (fun s => decide (callLabels (roundSamples .conv (.ok s)) = some [103, 0])) = true := by
  decide +kernel

/-- C154 is violated: whether a pon without a red five is a label depends on which of the copies is called.  The decision is
marked if the called tile is the first of the three copies, and otherwise not. -/
theorem C154_label_violated : ¬ ∀ (π : Nat → Nat) (m m' : LogMeld) (evs evs' : List Ev) (est : Estimate)
    (sh : List Int → Except PyErr Int) (g : GameInfo) (a : InitAttr) (v : Variant), OneCall π m m' evs evs' → CopyBlind π est →
    callLabels (roundSamples v (processRound est sh g (dealCopies π a) evs')) =
      callLabels (roundSamples v (processRound est sh g a evs)) := by
  intro h
  obtain ⟨s, h1, h2⟩ := accepts_ok plain_accepted
  obtain ⟨s', h1', h2'⟩ := accepts_ok plain_renamed
  have := h (swapTiles 82 80) (.pon 3 20 3 2) (.pon 3 20 3 0) _ _ noWin farAway ⟨0⟩ (dealTwo 82 80 81) .conv
    (ponLog_one rfl (by omega) (by omega) (by omega) (by omega) (by omega) (by simp [LogMeld.Valid]) (by simp [LogMeld.Valid])
      (.pon (by decide) (by decide))) (noWin_blind _)
  rw [h1, h1', of_decide_eq_true h2, of_decide_eq_true h2'] at this
  simp at this

theorem red_accepted : accepts (processRound noWin farAway ⟨0⟩ (dealTwo 54 52 53) (ponLog 54 (.pon 3 13 3 2)))
    (fun s => decide (s.encoding_tokens = [10253, 26976, 10496])) = true := by decide +kernel

theorem red_renamed : accepts (processRound noWin farAway ⟨0⟩ (dealCopies (swapTiles 54 55) (dealTwo 54 52 53))
    (ponLog 55 (.pon 3 13 2 2))) (fun s => decide (s.encoding_tokens = [10253, 26991, 10496])) = true := by
  decide +kernel

/-- C154 is violated: the token of a pon with a red five depends on whether the called tile is copy 3. -/
theorem C154_token_violated : ¬ ∀ (π : Nat → Nat) (m m' : LogMeld) (evs evs' : List Ev) (est : Estimate)
    (sh : List Int → Except PyErr Int) (g : GameInfo) (a : InitAttr) (s s' : RoundSt), OneCall π m m' evs evs' →
    CopyBlind π est → processRound est sh g a evs = .ok s → processRound est sh g (dealCopies π a) evs' = .ok s' →
    s'.encoding_tokens = s.encoding_tokens := by
  intro h
  obtain ⟨s, h1, h2⟩ := accepts_ok red_accepted
  obtain ⟨s', h1', h2'⟩ := accepts_ok red_renamed
  have := h (swapTiles 54 55) (.pon 3 13 3 2) (.pon 3 13 2 2) _ _ noWin farAway ⟨0⟩ (dealTwo 54 52 53) s s'
    (ponLog_one rfl (by omega) (by omega) (by omega) (by omega) (by omega) (by simp [LogMeld.Valid]) (by simp [LogMeld.Valid])
      (.pon (by decide) (by decide))) (noWin_blind _) h1 h1'
  rw [of_decide_eq_true h2, of_decide_eq_true h2'] at this
  simp at this

/-- a renaming that changes nothing that the program sees: the called tile is the third of the copies before and after -/
example : Told (.pon 3 20 3 2) (.pon 3 20 2 2) ∧
    OneCall (swapTiles 82 83) (.pon 3 20 3 2) (.pon 3 20 2 2) (ponLog 82 (.pon 3 20 3 2)) (ponLog 83 (.pon 3 20 2 2)) ∧
    (dealCopies (swapTiles 82 83) (dealTwo 82 80 81)).hai 0 ≠ (dealTwo 82 80 81).hai 0 ∧
    CopyBlind (swapTiles 82 83) noWin ∧
    accepts (processRound noWin farAway ⟨0⟩ (dealTwo 82 80 81) (ponLog 82 (.pon 3 20 3 2))) (fun _ => true) = true :=
  ⟨by simp [Told, redPon], ponLog_one rfl (by omega) (by omega) (by omega) (by omega) (by omega) (by simp [LogMeld.Valid])
    (by simp [LogMeld.Valid]) (.pon (by decide) (by decide)), by decide +kernel, noWin_blind _, by decide +kernel⟩

/-! ### added kans -/

/-- how many kans are offered in the last half-turn -/
def lastKanCount (s : RoundSt) : Option Nat := (lastKans s).map (fun x => x.2.length)

theorem kan_accepted : accepts (processRound noWin farAway ⟨0⟩ dealAdd (addLog 1 124 ++ [.result false (.ok [])]))
    (fun s => decide (lastKanCount s = some 1)) = true := by decide +kernel

theorem kan_renamed : accepts (processRound noWin farAway ⟨0⟩ (dealCopies (swapTiles 20 22) dealAdd)
    (addLog 1 124 ++ [.result false (.ok [])])) (fun s => decide (lastKanCount s = some 0)) = true := by decide +kernel

theorem addLog_renamed : AllPairs (EvCopies (swapTiles 20 22)) (addLog 1 124 ++ [.result false (.ok [])])
    (addLog 1 124 ++ [.result false (.ok [])]) :=
  .cons (.draw 0 (.ok 120)) (.cons (.discard 0 (.ok 82)) (.cons
    (.call (m := .pon 3 20 3 2) (m' := .pon 3 20 3 2) (.ok 1) (by simp [LogMeld.Valid]) (by simp [LogMeld.Valid])
      (.pon (by decide) (by decide)) (by simp [Told, redPon]))
    (.cons (.discard 1 (.ok 1)) (.cons (.draw 2 (.ok 121)) (.cons (.discard 2 (.ok 121)) (.cons (.draw 3 (.ok 122))
    (.cons (.discard 3 (.ok 122)) (.cons (.draw 0 (.ok 123)) (.cons (.discard 0 (.ok 123)) (.cons (.draw 1 (.ok 124))
    (.cons (.result false (.ok [])) .nil)))))))))))

/-- C154 is violated: whether an added kan is offered depends on which copy of another kind a player holds.  Player 1 has a
pon of kind 20; the kan is offered because of the *tile* 20, and not with tile 22 (the same kind) in its place. -/
theorem C154_added_kan_violated : ¬ ∀ (π : Nat → Nat) (est : Estimate) (sh : List Int → Except PyErr Int) (g : GameInfo)
    (a : InitAttr) (evs evs' : List Ev) (s s' : RoundSt), Copies π → CopyBlind π est → AllPairs (EvCopies π) evs evs' →
    processRound est sh g a evs = .ok s → processRound est sh g (dealCopies π a) evs' = .ok s' →
    lastKanCount s' = lastKanCount s := by
  intro h
  obtain ⟨s, h1, h2⟩ := accepts_ok kan_accepted
  obtain ⟨s', h1', h2'⟩ := accepts_ok kan_renamed
  have := h (swapTiles 20 22) noWin farAway ⟨0⟩ dealAdd _ _ s s' (swapTiles_copies rfl (by omega) (by omega)) (noWin_blind _)
    addLog_renamed h1 h1'
  rw [of_decide_eq_true h2, of_decide_eq_true h2'] at this
  simp at this

/-! ### what is read off a pon -/

theorem pon_token : ∀ src < 4, ∀ k < 34, ∀ u < 4, ∀ w < 3,
    get_post_turn_filter_idx (LogMeld.pon src k u w).encode =
      .ok (if redPon k u && calledCopy (.pon src k u w) == some 3 then 110 + k / 9 else if k < 27 then 83 + k else 86 + k) := by
  decide +kernel

theorem redPon_copies (hπ : Copies π) {k u u' : Nat} (hu : π (4 * k + u) = 4 * k + u') : redPon k u' = redPon k u := by
  have hz : (k = 4 ∨ k = 13 ∨ k = 22) → (u' = 0 ↔ u = 0) := fun hk => hπ.red_iff hk hu
  unfold redPon
  rw [Bool.eq_iff_iff]
  simp only [Bool.and_eq_true, Bool.or_eq_true, beq_iff_eq, bne_iff_ne, or_assoc]
  constructor
  · rintro ⟨x, y⟩; exact ⟨x, fun e => y ((hz x).2 e)⟩
  · rintro ⟨x, y⟩; exact ⟨x, fun e => y ((hz x).1 e)⟩

theorem redPon_first (hπ : Copies π) {src k u w u' w' : Nat} (v3 : u < 4) (v4 : w < 3) (v3' : u' < 4) (v4' : w' < 3)
    (hu : π (4 * k + u) = 4 * k + u')
    (hcl : (LogMeld.pon src k u' w').tiles.2 = (LogMeld.pon src k u w).tiles.2.map π) (e : redPon k u = true) :
    w = 0 ↔ w' = 0 := by
  have hz : (k = 4 ∨ k = 13 ∨ k = 22) → (u' = 0 ↔ u = 0) := fun hk => hπ.red_iff hk hu
  simp only [redPon, Bool.and_eq_true, Bool.or_eq_true, beq_iff_eq, bne_iff_ne, or_assoc] at e
  have f1 := red_called (src := src) (k := k) v3 v4 e.2
  have f2 := red_called (src := src) (k := k) v3' v4' (fun x => e.2 ((hz e.1).1 x))
  rw [← f1, ← f2, hcl]
  generalize (LogMeld.pon src k u w).tiles.2 = a
  cases a with
  | none => simp
  | some a =>
    simp only [Option.map_some, Option.some.injEq]
    constructor
    · rintro rfl; exact hπ.red e.1
    · intro x; exact hπ.inj _ _ (x.trans (hπ.red e.1).symm)

theorem redPon_kind {k u : Nat} (h : redPon k u = true) : k = 4 ∨ k = 13 ∨ k = 22 := by
  simp only [redPon, Bool.and_eq_true, Bool.or_eq_true, beq_iff_eq, bne_iff_ne, or_assoc] at h
  exact h.1

theorem pon_token_eq {k : Nat} (hk : k = 4 ∨ k = 13 ∨ k = 22) (p q : Prop) [Decidable p] [Decidable q]
    (h : (if p then 110 + (k : Int) / 9 else if k < 27 then 83 + (k : Int) else 86 + k) =
      if q then 110 + (k : Int) / 9 else if k < 27 then 83 + (k : Int) else 86 + k) : p ↔ q := by
  by_cases hp : p <;> by_cases hq : q
  · exact ⟨fun _ => hq, fun _ => hp⟩
  · rw [if_pos hp, if_neg hq] at h
    rcases hk with rfl | rfl | rfl <;> simp at h
  · rw [if_neg hp, if_pos hq] at h
    rcases hk with rfl | rfl | rfl <;> simp at h
  · exact ⟨fun h => absurd h hp, fun h => absurd h hq⟩

/-- C154: `Told` is exactly what the program reads off a pon beyond its kind and colours: the code by which an offered
decision is recognised, and the token. -/
theorem C154_told_exact (hπ : Copies π) {src k u w u' w' : Nat} (hv : (LogMeld.pon src k u w).Valid)
    (hv' : (LogMeld.pon src k u' w').Valid) (hr : Renamed π (.pon src k u w) (.pon src k u' w')) :
    Told (.pon src k u w) (.pon src k u' w') ↔
      clean_pon (LogMeld.pon src k u' w').encode = clean_pon (LogMeld.pon src k u w).encode ∧
      get_post_turn_filter_idx (LogMeld.pon src k u' w').encode = get_post_turn_filter_idx (LogMeld.pon src k u w).encode := by
  obtain ⟨a1, a2, a3, a4⟩ := pon_parts hv
  obtain ⟨b1, b2, b3, b4⟩ := pon_parts hv'
  have r1 := pon_red hv
  have r2 := pon_red hv'
  have g := (C93_tiles _ hv).2.1
  have g' := (C93_tiles _ hv').2.1
  have w1 := encode_wellFormed hv
  have w2 := encode_wellFormed hv'
  obtain ⟨v1, v2, v3, v4⟩ := hv
  obtain ⟨v1', v2', v3', v4'⟩ := hv'
  have t1 := pon_token src v1 k v2 u v3 w v4
  have t2 := pon_token src v1 k v2 u' v3' w' v4'
  obtain ⟨hred, hcall⟩ : redPon k u' = redPon k u ∧ (redPon k u = true → (w = 0 ↔ w' = 0)) := by
    cases hr with
    | pon hu hcl => exact ⟨redPon_copies hπ hu, redPon_first hπ v3 v4 v3' v4' hu hcl⟩
  have hp := pon_same g.2.1 g'.2.1 w1 w2 (b1.trans a1.symm) a4 b4 a3 b3 v4 v4' (r2.trans (hred.trans r1.symm))
  rw [hp.2.2.1, r1, t1, t2, hred]
  unfold Told
  dsimp only
  generalize calledCopy (.pon src k u w) = x, calledCopy (.pon src k u' w') = x'
  cases hrd : redPon k u with
  | false => simp
  | true =>
    simp only [if_true, Bool.true_and, beq_iff_eq, Except.ok.injEq]
    constructor
    · intro e
      refine ⟨hcall hrd, ?_⟩
      by_cases h3 : x = some 3
      · rw [if_pos h3, if_pos (e.1 h3)]
      · rw [if_neg h3, if_neg (fun h => h3 (e.2 h))]
    · rintro ⟨-, e⟩
      exact (pon_token_eq (redPon_kind hrd) _ _ e).symm

end MJ
