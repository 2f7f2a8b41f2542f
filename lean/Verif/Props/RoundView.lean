import Verif.Proofs.View
import Verif.Props.RoundShown
/-!
C141: the training samples of a player do not depend on tiles the player cannot see — for the own-turn and the discard
head; the samples of the call head show a hand the player cannot see.
-/
namespace MJ
open Code Spec

theorem lastExecuted_unique {act : NakiDecision → Int → Prop} (hact : ∀ d i j, act d i → act d j → i = j)
    {n : List NakiDecision} {x y z : Int} (h : LastExecuted act n x y) (h' : LastExecuted act n x z) : y = z := by
  rcases h with ⟨l1, d, l2, e1, e2, e3, e4⟩ | ⟨e1, e2⟩
  · rcases h' with ⟨k1, d', k2, f1, f2, f3, f4⟩ | ⟨f1, _⟩
    · have : d = d' := by
        rw [e1] at f1
        rcases List.append_eq_append_iff.1 f1 with ⟨m, g1, g2⟩ | ⟨m, g1, g2⟩
        · cases m with
          | nil => simp at g2; exact g2.1
          | cons x m =>
            simp only [List.cons_append, List.cons.injEq] at g2
            have := e3 d' (by rw [g2.2]; simp)
            rw [f2] at this; simp at this
        · cases m with
          | nil => simp at g2; exact g2.1.symm
          | cons x m =>
            simp only [List.cons_append, List.cons.injEq] at g2
            have := f3 d (by rw [g2.2]; simp)
            rw [e2] at this; simp at this
      subst this
      exact hact _ _ _ e4 f4
    · have := f1 d (by rw [e1]; simp)
      rw [e2] at this; simp at this
  · rcases h' with ⟨k1, d', k2, f1, f2, f3, f4⟩ | ⟨_, f2⟩
    · have := e1 d' (by rw [f1]; simp)
      rw [f2] at this; simp at this
    · rw [e2, f2]

theorem ownAction_unique (d : NakiDecision) (i j : Int) (h : ownAction d i) (h' : ownAction d j) : i = j := by
  obtain ⟨k, e1, rfl⟩ := h
  obtain ⟨k', e2, rfl⟩ := h'
  rw [e1] at e2
  simpa using e2

theorem callAction_unique (d : NakiDecision) (i j : Int) (h : Spec.callAction d i) (h' : Spec.callAction d j) : i = j := by
  unfold Spec.callAction at h h'
  rw [h] at h'
  simpa using h'

theorem list_eq_of_getElem? {α : Type} {l l' : List α} {n : Nat} (h : l.length = n) (h' : l'.length = n)
    (he : ∀ i < n, l[i]? = l'[i]?) : l = l' := by
  apply List.ext_getElem?
  intro i
  by_cases hi : i < n
  · exact he i hi
  · rw [List.getElem?_eq_none (by omega), List.getElem?_eq_none (by omega)]

theorem tokensUpTo_unique {tokens : List Nat} {e : Nat} {r r' : List Nat} (h : TokensUpTo tokens e r)
    (h' : TokensUpTo tokens e r') : r = r' :=
  list_eq_of_getElem? h.1 h'.1 (fun i hi => by rw [h.2 i hi, h'.2 i hi])

theorem allows_unique {n : Nat} {S : Nat → Prop} {m m' : List Int} (h : Allows n m S) (h' : Allows n m' S) : m = m' := by
  refine list_eq_of_getElem? h.1 h'.1 (fun i hi => ?_)
  by_cases hs : S i
  · rw [(h.2.1 i hs).2, (h'.2.1 i hs).2]
  · rw [h.2.2 i hi hs, h'.2.2 i hi hs]

/-- two samples that are equal except for the first two planes of `x1`: the hand and the unseen tiles -/
def SameButHand (row row' : Row) : Prop :=
  row'.tokens = row.tokens ∧ row'.x1.drop 2 = row.x1.drop 2 ∧ row'.x2 = row.x2 ∧ row'.x3 = row.x3 ∧
  row'.mask = row.mask ∧ row'.y = row.y ∧ row'.player = row.player

theorem Agree.base {p : Nat} {s s' : RoundSt} (h : Agree p s s') {v : Variant} {tokens : List Nat} {o : StateObj}
    {e q : Nat} {row row' : Row} (hb : RowBase v s tokens o e q row) (hb' : RowBase v s' tokens o e q row') :
    row'.tokens = row.tokens ∧ row'.x1.drop 2 = row.x1.drop 2 ∧ row'.x2 = row.x2 ∧ row'.x3 = row.x3 ∧
    row'.player = row.player ∧ (o.player = p → row'.x1 = row.x1) := by
  obtain ⟨_, h2, h3, h4, h5, h6⟩ := hb
  obtain ⟨_, k2, k3, k4, k5, k6⟩ := hb'
  refine ⟨tokensUpTo_unique k2 h2, ?_, ?_, ?_, ?_, ?_⟩
  · rw [k3, h3]
    cases v <;> rfl
  · have : stateX2 o s' = stateX2 o s := by
      simp only [stateX2, StateObj.is_menzen, h.menzen]
    rw [this, h4] at k4
    simpa using k4.symm
  · rw [k5, h5]
  · rw [k6, h6]
  · intro hp
    rw [k3, h3]
    subst hp
    cases v <;> simp only [stateX1, StateObj.hand_tensor, StateObj.remaining_tiles_pov, h.hand_tensors, h.pov]

/-- the samples of player `p` -/
def samplesOf (p : Nat) (rows : List Row) : List Row := rows.filter (fun r => r.player == p)

theorem Agree.ownRows {p : Nat} {s s' : RoundSt} (h : Agree p s s') {v : Variant} {tokens : List Nat} {t t' : HalfTurn}
    (ht : TurnAgree p t t') (ho : t.obj.player = t.player) (hn : t.isPost = false) {rows rows' : List Row}
    (hr : RowsOf v s tokens t rows) (hr' : RowsOf v s' tokens t' rows') : samplesOf p rows' = samplesOf p rows := by
  cases t with
  | during q o e a r n =>
    obtain ⟨a', r', n', rfl, hq⟩ := ht
    by_cases hqp : q = p
    · obtain ⟨rfl, rfl, rfl⟩ := hq hqp
      simp only [RowsOf] at hr hr'
      by_cases hz : a' = [] ∧ r' = [] ∧ n' = []
      · rw [if_pos hz] at hr hr'
        rw [hr, hr']
      · rw [if_neg hz] at hr hr'
        obtain ⟨row, rfl, h1, h2, h3⟩ := hr
        obtain ⟨row', rfl, h1', h2', h3'⟩ := hr'
        obtain ⟨k1, _, k3, k4, k5, k6⟩ := h.base h1 h1'
        have k7 := k6 (by rw [← hqp]; exact ho)
        have k8 := allows_unique h2 h2'
        have k9 := lastExecuted_unique ownAction_unique h3 h3'
        have : row' = row := by
          cases row; cases row'; simp_all
        rw [this]
    · have key : ∀ (s : RoundSt) a r n rows, RowsOf v s tokens (.during q o e a r n) rows → samplesOf p rows = [] := by
        intro s a r n rows hr
        simp only [RowsOf] at hr
        by_cases hz : a = [] ∧ r = [] ∧ n = []
        · rw [if_pos hz] at hr
          rw [hr]; rfl
        · rw [if_neg hz] at hr
          obtain ⟨row, rfl, h1, _⟩ := hr
          have := h1.2.2.2.2.2
          simp [samplesOf, this, hqp]
      rw [key _ _ _ _ _ hr, key _ _ _ _ _ hr']
  | discard q o e t =>
    rw [ht] at hr'
    obtain ⟨row, rfl, h1, h2, _, h3⟩ := hr
    obtain ⟨row', rfl, h1', h2', _, h3'⟩ := hr'
    obtain ⟨k1, _, k3, k4, k5, k6⟩ := h.base h1 h1'
    by_cases hqp : q = p
    · have ho' : o.player = p := by rw [← hqp]; exact ho
      have k7 := k6 ho'
      have k8 : row'.mask = row.mask := by rw [h2, h2', ho', h.hand_tensors]
      have k9 : row'.y = row.y := by rw [h3, h3']
      have : row' = row := by
        cases row; cases row'; simp_all
      rw [this]
    · have e1 := h1.2.2.2.2.2
      have e2 := h1'.2.2.2.2.2
      simp [samplesOf, e1, e2, hqp]
  | post => simp [HalfTurn.isPost] at hn

theorem samples_flatten {R R' : HalfTurn → List Row → Prop} {T : HalfTurn → HalfTurn → Prop} {p : Nat}
    {l l' : List HalfTurn} (h : AllPairs T l l') {g : List (List Row)} : ∀ {g' : List (List Row)}, AllPairs R l g → AllPairs R' l' g' →
    (∀ t ∈ l, ∀ t' x x', T t t' → R t x → R' t' x' → samplesOf p x' = samplesOf p x) →
    samplesOf p g'.flatten = samplesOf p g.flatten := by
  induction h generalizing g with
  | nil =>
    intro g' h1 h2 _
    cases h1; cases h2; rfl
  | cons ht _ ih =>
    intro g' h1 h2 hs
    cases h1 with
    | cons a1 a2 =>
      cases h2 with
      | cons b1 b2 =>
        have e1 := hs _ (by simp) _ _ _ ht a1 b1
        have e2 := ih a2 b2 (fun t hm => hs t (by simp [hm]))
        simp only [samplesOf, List.flatten_cons, List.filter_append] at e1 e2 ⊢
        rw [e1, e2]

theorem pairs_groups {R R' : HalfTurn → List Row → Prop} {T : HalfTurn → HalfTurn → Prop} {Q : List Row → List Row → Prop}
    {l l' : List HalfTurn} (h : AllPairs T l l') {g : List (List Row)} : ∀ {g' : List (List Row)}, AllPairs R l g → AllPairs R' l' g' →
    (∀ t ∈ l, ∀ t' ∈ l', ∀ x x', T t t' → R t x → R' t' x' → Q x x') → AllPairs Q g g' := by
  induction h generalizing g with
  | nil =>
    intro g' h1 h2 _
    cases h1; cases h2; exact .nil
  | cons ht _ ih =>
    intro g' h1 h2 hs
    cases h1 with
    | cons a1 a2 =>
      cases h2 with
      | cons b1 b2 =>
        exact .cons (hs _ (by simp) _ (by simp) _ _ ht a1 b1)
          (ih a2 b2 (fun t hm t' hm' => hs t (by simp [hm]) t' (by simp [hm'])))

theorem TurnAgree.kinds {p : Nat} {t t' : HalfTurn} (h : TurnAgree p t t') :
    t.isDuring = t'.isDuring ∧ t.isDiscard = t'.isDiscard ∧ t.isPost = t'.isPost := by
  cases t with
  | during => obtain ⟨_, _, _, rfl, _⟩ := h; exact ⟨rfl, rfl, rfl⟩
  | discard => rw [h]; exact ⟨rfl, rfl, rfl⟩
  | post => obtain ⟨_, _, rfl, _⟩ := h; exact ⟨rfl, rfl, rfl⟩

/-- in a log where kans in one's own turn are declared by the player who drew, the snapshot of a half-turn belongs to the
player of the half-turn -/
theorem obj_owner {est : Estimate} {sh : List Int → Except PyErr Int} {g : GameInfo} {a : InitAttr} {c : RoundCfg}
    {s0 : RoundSt} (hi : initRound est sh g a = .ok (c, s0)) {acts : List Act} {s : RoundSt} (hr : Reached c s0 acts s)
    (hk : KansByDrawer acts) : ∀ t ∈ s.halfturns, t.obj.player = t.player := by
  obtain ⟨d⟩ := initRound_ok hi
  have hpt := (turns_at_points hi d.scores_eq d.seed_eq d.parent_eq hr hk).and_map (f := DecisionPoint.turn)
    (k := HalfTurn.turn) (by
      rw [C43_halfturns hi hr]
      exact points_turns acts [])
  intro t ht
  obtain ⟨dp, _, h1, h2⟩ := hpt.mem_right ht
  rw [h1.1.1.player]
  obtain ⟨k, who, seen, known, tile⟩ := dp
  cases t <;> cases k <;> simp [DecisionPoint.turn, HalfTurn.turn] at h2
  · exact h2.1
  · exact h2.1
  · exact h2.1

/-- two accepted rounds that look the same to player `p`: the same start and the same tiles dealt to `p`, and events that
differ only in the tiles the others draw -/
structure SameSight (p : Nat) (est : Estimate) (sh : List Int → Except PyErr Int) (g : GameInfo) (a a' : InitAttr)
    (acts acts' : List Act) (s s' : RoundSt) : Prop where
  seat : p < 4
  deal : SameDeal p a a'
  sight : sightOf p none acts = sightOf p none acts'
  first : ∃ c s0, initRound est sh g a = .ok (c, s0) ∧ Reached c s0 acts s
  second : ∃ c s0, initRound est sh g a' = .ok (c, s0) ∧ Reached c s0 acts' s'

theorem SameSight.agree {p : Nat} {est : Estimate} {sh : List Int → Except PyErr Int} {g : GameInfo} {a a' : InitAttr}
    {acts acts' : List Act} {s s' : RoundSt} (h : SameSight p est sh g a a' acts acts' s s') : Agree p s s' := by
  obtain ⟨c, s0, hi, hr⟩ := h.first
  obtain ⟨c', s0', hi', hr'⟩ := h.second
  obtain ⟨rfl, h1, h2⟩ := h.deal.agree h.seat hi hi'
  exact agree_reached h.seat acts acts' h1 h2 hr hr' h.sight

/-- C141: what player `p` is recorded to have been able to do, and to have done, is the same in both rounds, as is the
list of tokens; the decisions of the others may differ. -/
theorem C141_decisions {p : Nat} {est : Estimate} {sh : List Int → Except PyErr Int} {g : GameInfo} {a a' : InitAttr}
    {acts acts' : List Act} {s s' : RoundSt} (h : SameSight p est sh g a a' acts acts' s s') :
    s'.encoding_tokens = s.encoding_tokens ∧ AllPairs (TurnAgree p) s.halfturns s'.halfturns :=
  ⟨h.agree.tokens, h.agree.turns⟩

/-- C141: the samples of player `p` for the own-turn and the discard head are the same in both rounds, in all models. -/
theorem C141_own_partial {p : Nat} {est : Estimate} {sh : List Int → Except PyErr Int} {g : GameInfo} {a a' : InitAttr}
    {acts acts' : List Act} {s s' : RoundSt} (h : SameSight p est sh g a a' acts acts' s s') (hk : KansByDrawer acts)
    {v : Variant} {d cc b d' cc' b' : Batch} (hb : buildTensors v s s.halfturns s.encoding_tokens = .ok (d, cc, b))
    (hb' : buildTensors v s' s'.halfturns s'.encoding_tokens = .ok (d', cc', b')) :
    (∃ rows rows', d = ofRows rows ∧ d' = ofRows rows' ∧ samplesOf p rows' = samplesOf p rows) ∧
    (∃ rows rows', cc = ofRows rows ∧ cc' = ofRows rows' ∧ samplesOf p rows' = samplesOf p rows) := by
  have ha := h.agree
  obtain ⟨c, s0, hi, hr⟩ := h.first
  obtain ⟨c', s0', hi', hr'⟩ := h.second
  obtain ⟨x⟩ := buildTensors_rows (fourLists_reached hi hr) hb
  obtain ⟨x'⟩ := buildTensors_rows (fourLists_reached hi' hr') hb'
  have ho := obj_owner hi hr hk
  have key : ∀ (f : HalfTurn → Bool) (g g' : List (List Row)), (∀ t t', TurnAgree p t t' → f t = f t') →
      (∀ t, f t = true → t.isPost = false) →
      AllPairs (RowsOf v s s.encoding_tokens) (s.halfturns.filter f) g →
      AllPairs (RowsOf v s' s'.encoding_tokens) (s'.halfturns.filter f) g' → samplesOf p g'.flatten = samplesOf p g.flatten := by
    intro f g g' hf hpost h1 h2
    rw [ha.tokens] at h2
    refine samples_flatten (ha.turns.filter hf) h1 h2 ?_
    intro t ht t' r r' htt hr hr'
    obtain ⟨m1, m2⟩ := List.mem_filter.1 ht
    exact ha.ownRows htt (ho t m1) (hpost t m2) hr hr'
  exact ⟨⟨_, _, x.d_eq, x'.d_eq, key _ _ _ (fun t t' h => h.kinds.1) (by intro t ht; cases t <;> simp_all [HalfTurn.isDuring, HalfTurn.isPost]) x.during x'.during⟩,
    ⟨_, _, x.c_eq, x'.c_eq, key _ _ _ (fun t t' h => h.kinds.2.1) (by intro t ht; cases t <;> simp_all [HalfTurn.isDiscard, HalfTurn.isPost]) x.discard x'.discard⟩⟩

/-- C141: the samples of player `p` for the call head, grouped by half-turn, differ at most in the first two planes, the
hand and the unseen tiles, which are those of the player who discarded. -/
theorem C141_calls_partial {p : Nat} {est : Estimate} {sh : List Int → Except PyErr Int} {g : GameInfo} {a a' : InitAttr}
    {acts acts' : List Act} {s s' : RoundSt} (h : SameSight p est sh g a a' acts acts' s s')
    {v : Variant} {d cc b d' cc' b' : Batch} (hb : buildTensors v s s.halfturns s.encoding_tokens = .ok (d, cc, b))
    (hb' : buildTensors v s' s'.halfturns s'.encoding_tokens = .ok (d', cc', b')) :
    ∃ groups groups', b = ofRows groups.flatten ∧ b' = ofRows groups'.flatten ∧
      AllPairs (fun rows rows' => ∀ row ∈ samplesOf p rows, ∀ row' ∈ samplesOf p rows', SameButHand row row') groups groups' := by
  have ha := h.agree
  obtain ⟨c, s0, hi, hr⟩ := h.first
  obtain ⟨c', s0', hi', hr'⟩ := h.second
  have hf := fourLists_reached hi hr
  have hf' := fourLists_reached hi' hr'
  obtain ⟨x⟩ := buildTensors_rows hf hb
  obtain ⟨x'⟩ := buildTensors_rows hf' hb'
  refine ⟨_, _, x.p_eq, x'.p_eq, ?_⟩
  have h2 : AllPairs (RowsOf v s' s.encoding_tokens) (s'.halfturns.filter HalfTurn.isPost) x'.pg := by
    have := x'.post
    generalize x'.pg = pg at this
    rwa [ha.tokens] at this
  refine pairs_groups (ha.turns.filter (fun t t' h => h.kinds.2.2)) x.post h2 ?_
  intro t ht t' ht' rows rows' htt hrows hrows' row hrow row' hrow'
  obtain ⟨m1, m2⟩ := List.mem_filter.1 ht
  obtain ⟨m1', _⟩ := List.mem_filter.1 ht'
  cases t with
  | during => simp [HalfTurn.isPost] at m2
  | discard => simp [HalfTurn.isPost] at m2
  | post q o e wins calls =>
    obtain ⟨wins', calls', rfl, hw, hc⟩ := htt
    obtain ⟨f1, f2, f3⟩ := hf _ m1
    obtain ⟨_, f2', f3'⟩ := hf' _ m1'
    obtain ⟨r1, r2⟩ := List.mem_filter.1 hrow
    obtain ⟨r1', r2'⟩ := List.mem_filter.1 hrow'
    obtain ⟨u, _, g1, g2, g3⟩ := (hrows f2 f3 f1).mem_right r1
    obtain ⟨u', _, g1', g2', g3'⟩ := (hrows' f2' f3' f1).mem_right r1'
    have e1 : u = p := by rw [← g1.2.2.2.2.2]; simpa using r2
    have e2 : u' = p := by rw [← g1'.2.2.2.2.2]; simpa using r2'
    subst e1
    subst e2
    rw [hw, hc] at g2' g3'
    obtain ⟨k1, k2, k3, k4, k5, _⟩ := ha.base g1 g1'
    exact ⟨k1, k2, k3, k4, allows_unique g2' g2, lastExecuted_unique callAction_unique g3' g3, k5⟩

/-! ### the hand shown to the call head -/

/-- seat 0 draws tile `t` and discards tile 0, which seat 1 could take for a chi; nobody calls -/
def chiOffer (t : Nat) : List Ev := [.draw 0 (.ok t), .discard 0 (.ok 0)]

def chiActs (t : Nat) : List Act := [.draw 0 t, .discard 0 0]

def chiRound (t : Nat) : Except PyErr RoundSt :=
  processRound noWin farAway ⟨0⟩ deal (chiOffer t ++ [.result true (.ok [0, 0, 0, 0])])

/-- the cells 30 and 31 of the hand plane of the call samples, and the players who decide -/
def chiHand (b : Batch) : List (Nat × Int × Int) :=
  (b.player.zip b.x1).map (fun x => (x.1, ((x.2.getD 0 []).getD 30 []).getD 0 9, ((x.2.getD 0 []).getD 31 []).getD 0 9))

theorem chiRound_first (v : Variant) : okAnd (chiRound 120) (fun s => okAnd (buildTensors v s s.halfturns s.encoding_tokens)
    (fun b => chiHand b.2.2 == [(1, 1, 0)])) = true := by
  cases v <;> decide +kernel

theorem chiRound_second (v : Variant) : okAnd (chiRound 124) (fun s => okAnd (buildTensors v s s.halfturns s.encoding_tokens)
    (fun b => chiHand b.2.2 == [(1, 0, 1)])) = true := by
  cases v <;> decide +kernel

/-- the two rounds look the same to seat 1 -/
theorem chiRound_sight {s s' : RoundSt} (h : chiRound 120 = .ok s) (h' : chiRound 124 = .ok s') :
    SameSight 1 noWin farAway ⟨0⟩ deal deal (chiActs 120) (chiActs 124) s s' :=
  ⟨by omega, ⟨rfl, rfl, rfl, rfl⟩, by decide +kernel, accepted_exact h rfl, accepted_exact h' rfl⟩

/-- C141 is violated for the call head, in all models: the sample of a player who may call shows the hand of the player who
discarded, so it changes with a tile that was drawn unseen. -/
theorem C141_calls_violated (v : Variant) : ¬ ∀ (p : Nat) (est : Estimate) (sh : List Int → Except PyErr Int) (g : GameInfo)
    (a a' : InitAttr) (acts acts' : List Act) (s s' : RoundSt) (d cc b d' cc' b' : Batch),
    SameSight p est sh g a a' acts acts' s s' → KansByDrawer acts →
    buildTensors v s s.halfturns s.encoding_tokens = .ok (d, cc, b) →
    buildTensors v s' s'.halfturns s'.encoding_tokens = .ok (d', cc', b') →
    ∃ rows rows', b = ofRows rows ∧ b' = ofRows rows' ∧ samplesOf p rows' = samplesOf p rows := by
  intro h
  obtain ⟨s, hs, h1⟩ := okAnd_ok (chiRound_first v)
  obtain ⟨⟨d, cc, b⟩, hb, h2⟩ := okAnd_ok h1
  obtain ⟨s', hs', h1'⟩ := okAnd_ok (chiRound_second v)
  obtain ⟨⟨d', cc', b'⟩, hb', h2'⟩ := okAnd_ok h1'
  obtain ⟨rows, rows', e1, e2, e3⟩ := h 1 _ _ _ _ _ _ _ _ _ _ _ _ _ _ _ (chiRound_sight hs hs') (by
    intro pre p c post he
    have : Act.call p c ∈ chiActs 120 := by rw [he]; simp
    simp [chiActs] at this) hb hb'
  have key : ∀ (rows : List Row) (x y : Int), chiHand (ofRows rows) = [(1, x, y)] → ∃ row, samplesOf 1 rows = [row] ∧
      ((row.x1.getD 0 []).getD 30 []).getD 0 9 = x := by
    intro rows x y hx
    match rows, hx with
    | [], hx => simp [chiHand, ofRows] at hx
    | [row], hx =>
      simp only [chiHand, ofRows, List.map_cons, List.map_nil, List.zip_cons_cons, List.zip_nil_right, List.cons.injEq,
        Prod.mk.injEq, and_true] at hx
      exact ⟨row, by simp [samplesOf, hx.1], hx.2.1⟩
    | _ :: _ :: _, hx => simp [chiHand, ofRows] at hx
  rw [e1] at h2
  rw [e2] at h2'
  obtain ⟨row, k1, k2⟩ := key rows 1 0 (by simpa using h2)
  obtain ⟨row', k1', k2'⟩ := key rows' 0 1 (by simpa using h2')
  rw [k1, k1'] at e3
  simp only [List.cons.injEq, and_true] at e3
  rw [e3, k2] at k2'
  simp at k2'

/-- rounds that look the same to a player, with different tiles and samples for all heads, exist -/
example (v : Variant) : ∃ s s' d cc b d' cc' b', SameSight 1 noWin farAway ⟨0⟩ deal deal (chiActs 120) (chiActs 124) s s' ∧
    chiActs 120 ≠ chiActs 124 ∧ buildTensors v s s.halfturns s.encoding_tokens = .ok (d, cc, b) ∧
    buildTensors v s' s'.halfturns s'.encoding_tokens = .ok (d', cc', b') ∧ b.player = [1] := by
  obtain ⟨s, hs, h1⟩ := okAnd_ok (chiRound_first v)
  obtain ⟨⟨d, cc, b⟩, hb, h2⟩ := okAnd_ok h1
  obtain ⟨s', hs', h1'⟩ := okAnd_ok (chiRound_second v)
  obtain ⟨⟨d', cc', b'⟩, hb', _⟩ := okAnd_ok h1'
  refine ⟨s, s', d, cc, b, d', cc', b', chiRound_sight hs hs', by decide, hb, hb', ?_⟩
  obtain ⟨x⟩ := buildTensors_rows (fourLists_reached (chiRound_sight hs hs').first.choose_spec.choose_spec.1
    (chiRound_sight hs hs').first.choose_spec.choose_spec.2) hb
  have he := x.p_eq
  rw [he] at h2 ⊢
  match hx : x.pg.flatten with
  | [] => rw [hx] at h2; simp [chiHand, ofRows] at h2
  | [row] =>
    rw [hx] at h2
    simp [chiHand, ofRows] at h2
    simp [ofRows, h2.1]
  | _ :: _ :: _ => rw [hx] at h2; simp [chiHand, ofRows] at h2

end MJ
