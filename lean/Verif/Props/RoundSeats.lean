import Verif.Proofs.Seats
import Verif.Props.RoundView
import Verif.Props.RoundSpecial
import Verif.Props.RoundLegal
/-!
C142: the seats are treated alike.  Moving everybody on by the same number of seats moves the recorded decisions, tokens and
samples on — except that two flags of the hand evaluator depend on the numbers of the seats.
-/
namespace MJ
open Code Spec

/-! ### samples -/

theorem npRoll_four {α : Type} (f : Nat → α) {p : Nat} (hp : p < 4) :
    npRoll ((List.range 4).map f) (-(p : Int)) = [f p, f ((p + 1) % 4), f ((p + 2) % 4), f ((p + 3) % 4)] := by
  have h4 : p = 0 ∨ p = 1 ∨ p = 2 ∨ p = 3 := by omega
  rcases h4 with rfl | rfl | rfl | rfl <;> rfl

theorem seatOn_add (r p i : Nat) : (seatOn r p + i) % 4 = seatOn r ((p + i) % 4) := by
  unfold seatOn; omega

theorem ObjMoved.x1 {r : Nat} {o o' : StateObj} (ho : ObjMoved r o o') {s s' : RoundSt} (h : StMoved r s s') (v : Variant) :
    stateX1 v o' s' = stateX1 v o s := by
  have e1 : o'.hand_tensor s' = o.hand_tensor s := by
    simp only [StateObj.hand_tensor, ho.player, h.hand_tensors _ ho.player_lt]
  have e2 : o'.remaining_tiles_pov s' = o.remaining_tiles_pov s := by
    simp only [StateObj.remaining_tiles_pov, ho.player, h.pov _ ho.player_lt]
  have e3 : o'.sutehai_tensors o'.player = o.sutehai_tensors o.player := by
    rw [ho.player, ho.sutehai _ ho.player_lt]
  have e4 : ∀ i, o'.sutehai_tensors ((o'.player + i) % 4) = o.sutehai_tensors ((o.player + i) % 4) := by
    intro i
    rw [ho.player, seatOn_add, ho.sutehai _ (Nat.mod_lt _ (by omega))]
  cases v
  case ordered =>
    simp only [stateX1, e1, e2]
    rw [npRoll_four _ ho.player_lt, npRoll_four _ (by rw [ho.player]; exact seatOn_lt ..), e3, e4, e4, e4]
  all_goals simp only [stateX1, e1, e2, e3]

theorem four_get (f : Nat → Int) {p : Nat} (hp : p < 4) : (four f)[p]? = some (f p) := by
  simp [four, hp]

theorem ObjMoved.x2 {r : Nat} {o o' : StateObj} (ho : ObjMoved r o o') {s s' : RoundSt} (h : StMoved r s s')
    {m m' : List (List Int)} (e : stateX2 o s = .ok m) (e' : stateX2 o' s' = .ok m') :
    (∀ i < 7, i ≠ 2 → ∀ p < 4, cell m' i (seatOn r p) = cell m i p) ∧ ∀ p < 4, cell m' 2 p = cell m 2 p := by
  unfold stateX2 at e e'
  split at e
  · split at e'
    · simp only [Except.ok.injEq] at e e'
      subst e; subst e'
      refine ⟨?_, ?_⟩
      · intro i hi h2 p hp
        have hs := seatOn_lt r p
        have h7 : i = 0 ∨ i = 1 ∨ i = 3 ∨ i = 4 ∨ i = 5 ∨ i = 6 := by omega
        rcases h7 with rfl | rfl | rfl | rfl | rfl | rfl
        · exact ho.scores p hp
        · show (four _)[seatOn r p]? = (four _)[p]?
          rw [four_get _ hs, four_get _ hp, ho.parent]
          simp only [seatOn_inj r hp ho.parent_lt]
        · show (four _)[seatOn r p]? = (four _)[p]?
          rw [four_get _ hs, four_get _ hp, ho.double p hp]
        · show (four _)[seatOn r p]? = (four _)[p]?
          rw [four_get _ hs, four_get _ hp, ho.reaches p hp]
        · show (four _)[seatOn r p]? = (four _)[p]?
          rw [four_get _ hs, four_get _ hp, ho.ippatsu p hp]
        · show (four _)[seatOn r p]? = (four _)[p]?
          rw [four_get _ hs, four_get _ hp]
          simp only [StateObj.is_menzen, h.menzen p hp]
      · intro p hp
        show o'.parent_rounds_remaining[p]? = o.parent_rounds_remaining[p]?
        rw [ho.parent_rounds]
    · simp at e'
  · simp at e

theorem Spec.AllPairs.of_get {α β : Type} {R : α → β → Prop} : ∀ {as : List α} {bs : List β}, as.length = bs.length →
    (∀ (i : Nat) (a : α) (b : β), as[i]? = some a → bs[i]? = some b → R a b) → AllPairs R as bs
  | [], [], _, _ => .nil
  | [], _ :: _, h, _ => by simp at h
  | _ :: _, [], h, _ => by simp at h
  | a :: as, b :: bs, h, hr => .cons (hr 0 a b rfl rfl)
      (Spec.AllPairs.of_get (by simpa using h) (fun i x y hx hy => hr (i + 1) x y (by simpa using hx) (by simpa using hy)))

theorem tokens_moved {r : Nat} {l l' : List Nat} (h : AllPairs (TokenMoved r) l l') {e : Nat} {row row' : List Nat}
    (hr : TokensUpTo l e row) (hr' : TokensUpTo l' e row') :
    AllPairs (fun t t' => (t = 0 ∧ t' = 0) ∨ TokenMoved r t t') row row' := by
  refine .of_get (hr.1.trans hr'.1.symm) ?_
  intro i x y hx hy
  have hi : i < 150 := by
    have := (List.getElem?_eq_some_iff.1 hx).1
    rw [hr.1] at this; exact this
  rw [hr.2 i hi] at hx
  rw [hr'.2 i hi] at hy
  simp only [Option.some.injEq] at hx hy
  subst hx; subst hy
  split
  · simp only [List.getD_eq_getElem?_getD]
    by_cases hl : i < l.length
    · have hl' : i < l'.length := by rw [← h.length]; exact hl
      rw [List.getElem?_eq_getElem hl, List.getElem?_eq_getElem hl']
      exact .inr (h.get i (List.getElem?_eq_getElem hl) (List.getElem?_eq_getElem hl'))
    · rw [List.getElem?_eq_none (by omega), List.getElem?_eq_none (by rw [← h.length]; omega)]
      exact .inl ⟨rfl, rfl⟩
  · exact .inl ⟨rfl, rfl⟩

theorem lastExecuted_moved {r : Nat} {act : NakiDecision → Int → Prop} (hact : ∀ d i, act (d.moved r) i → act d i)
    {n : List NakiDecision} {x y : Int} (h : LastExecuted act (n.map (NakiDecision.moved r)) x y) : LastExecuted act n x y := by
  rcases h with ⟨l1, d, l2, e1, e2, e3, e4⟩ | ⟨e1, e2⟩
  · obtain ⟨k1, k2, rfl, rfl, e5⟩ := List.map_eq_append_iff.1 e1
    obtain ⟨d0, k3, rfl, rfl, rfl⟩ := List.map_eq_cons_iff.1 e5
    exact .inl ⟨k1, d0, k3, rfl, e2, fun x hx => e3 (x.moved r) (List.mem_map_of_mem hx), hact _ _ e4⟩
  · exact .inr ⟨fun x hx => e1 (x.moved r) (List.mem_map_of_mem hx), e2⟩

theorem winTaken_moved (r : Nat) (l : List AgariDecision) : winTaken (l.map (AgariDecision.moved r)) = winTaken l := by
  cases l <;> rfl

theorem executed_moved (r : Nat) (l : List NakiDecision) : (l.map (NakiDecision.moved r)).any (·.executed) = l.any (·.executed) := by
  rw [List.any_map]; rfl

theorem upTo_map (r : Nat) (f g : Nat → Bool) : ∀ (l : List Nat), (∀ p ∈ l, g (seatOn r p) = f p) →
    upTo g (l.map (seatOn r)) = (upTo f l).map (seatOn r)
  | [], _ => rfl
  | p :: ps, h => by
    simp only [List.map_cons, upTo, h p (by simp), upTo_map r f g ps (fun q hq => h q (by simp [hq]))]
    split <;> rfl

theorem deciders_moved {r q : Nat} {a a' : List (List AgariDecision)} {n n' : List (List NakiDecision)}
    (ha : WinsMoved r a a') (hn : CallsMoved r n n') : deciders (seatOn r q) a' n' = (deciders q a n).map (seatOn r) := by
  have ht : turnOrder (seatOn r q) = (turnOrder q).map (seatOn r) := by
    simp only [turnOrder, seatOn_add, List.map_cons, List.map_nil]
  have hlt : ∀ p ∈ turnOrder q, p < 4 := by
    intro p hp
    simp only [turnOrder, List.mem_cons, List.not_mem_nil, or_false] at hp
    omega
  unfold deciders
  rw [ht, List.filter_map]
  have hf : (turnOrder q).filter ((fun p => !(winsOf a' p).isEmpty || !(callsOf n' p).isEmpty) ∘ seatOn r) =
      (turnOrder q).filter (fun p => !(winsOf a p).isEmpty || !(callsOf n p).isEmpty) := by
    refine List.filter_congr (fun p hp => ?_)
    simp only [Function.comp, ha p (hlt p hp), hn p (hlt p hp), List.isEmpty_map]
  rw [hf]
  refine upTo_map r _ _ _ (fun p hp => ?_)
  have hp4 := hlt p (List.mem_filter.1 hp).1
  rw [ha p hp4, hn p hp4, winTaken_moved, executed_moved]

theorem deciders_lt {q : Nat} {a : List (List AgariDecision)} {n : List (List NakiDecision)} : ∀ p ∈ deciders q a n, p < 4 := by
  have hup : ∀ (f : Nat → Bool) (l : List Nat), ∀ p ∈ upTo f l, p ∈ l := by
    intro f l
    induction l with
    | nil => intro p hp; exact hp
    | cons x l ih =>
      intro p hp
      simp only [upTo] at hp
      split at hp
      · simp at hp; simp [hp]
      · rcases List.mem_cons.1 hp with rfl | hp
        · simp
        · simp [ih p hp]
  intro p hp
  have := (List.mem_filter.1 (hup _ _ p hp)).1
  simp only [turnOrder, List.mem_cons, List.not_mem_nil, or_false] at this
  omega

theorem StMoved.base {r : Nat} {s s' : RoundSt} (h : StMoved r s s') {v : Variant} {o o' : StateObj} (ho : ObjMoved r o o')
    {e q : Nat} {row row' : Row} (hb : RowBase v s s.encoding_tokens o e q row)
    (hb' : RowBase v s' s'.encoding_tokens o' e (seatOn r q) row') (hm : row'.mask = row.mask) (hy : row'.y = row.y) :
    RowMoved r row row' := by
  obtain ⟨_, h2, h3, h4, h5, h6⟩ := hb
  obtain ⟨_, k2, k3, k4, k5, k6⟩ := hb'
  obtain ⟨x1, x2⟩ := ho.x2 h h4 k4
  exact ⟨by rw [k6, h6], tokens_moved h.tokens h2 k2, by rw [k3, h3, ho.x1 h], x1, x2,
    by rw [k5, h5]; simp only [stateX3, ho.tsumo, ho.kyotaku, ho.honba, ho.rounds], hm, hy⟩

theorem StMoved.rows {r : Nat} {s s' : RoundSt} (h : StMoved r s s') {v : Variant} {t t' : HalfTurn} (ht : TurnMoved r t t')
    (hf : FourLists t) (hf' : FourLists t') {rows rows' : List Row} (hr : RowsOf v s s.encoding_tokens t rows)
    (hr' : RowsOf v s' s'.encoding_tokens t' rows') : AllPairs (RowMoved r) rows rows' := by
  cases ht with
  | @during q e o o' a l n hq ho =>
    simp only [RowsOf, List.map_eq_nil_iff] at hr hr'
    by_cases hz : a = [] ∧ l = [] ∧ n = []
    · rw [if_pos hz] at hr hr'
      rw [hr, hr']
      exact .nil
    · rw [if_neg hz] at hr hr'
      obtain ⟨row, rfl, h1, h2, h3⟩ := hr
      obtain ⟨row', rfl, h1', h2', h3'⟩ := hr'
      refine .cons (h.base ho h1 h1' ?_ ?_) .nil
      · have : OwnAllowed (a.map (AgariDecision.moved r)) (l.map (ReachDecision.moved r)) (n.map (NakiDecision.moved r)) =
            OwnAllowed a l n := by
          funext k
          have : (∃ d, (∃ d0 ∈ n, d0.moved r = d) ∧ ownAction d k) ↔ ∃ d ∈ n, ownAction d k :=
            ⟨fun ⟨d, ⟨d0, m, e⟩, x⟩ => ⟨d0, m, by subst e; exact x⟩, fun ⟨d, m, x⟩ => ⟨d.moved r, ⟨d, m, rfl⟩, x⟩⟩
          simp only [OwnAllowed, ne_eq, List.map_eq_nil_iff, List.mem_map, this]
        rw [this] at h2'
        exact allows_unique h2' h2
      · exact lastExecuted_unique ownAction_unique (lastExecuted_moved (fun d i hd => hd) h3') h3
  | @discard q e t o o' hq ho =>
    obtain ⟨row, rfl, h1, h2, _, h3⟩ := hr
    obtain ⟨row', rfl, h1', h2', _, h3'⟩ := hr'
    refine .cons (h.base ho h1 h1' ?_ ?_) .nil
    · rw [h2, h2', ho.player, h.hand_tensors _ ho.player_lt]
    · rw [h3, h3']
  | @post q e o o' a a' n n' hq ho ha hn =>
    obtain ⟨f1, f2, f3⟩ := hf
    obtain ⟨f1', f2', f3'⟩ := hf'
    have g := hr f2 f3 f1
    have g' := hr' f2' f3' f1'
    rw [deciders_moved ha hn] at g'
    have hlt : ∀ p ∈ deciders q a n, p < 4 := deciders_lt
    clear hr hr'
    generalize deciders q a n = ps at g g' hlt
    induction g generalizing rows' with
    | nil => cases g'; exact .nil
    | @cons p row ps rows hp _ ih =>
      cases g' with
      | @cons _ row' _ rows'' hp' g2 =>
        have hp4 := hlt p (by simp)
        obtain ⟨u1, u2, u3⟩ := hp
        obtain ⟨w1, w2, w3⟩ := hp'
        rw [ha p hp4, hn p hp4] at w2 w3
        refine .cons (h.base ho u1 w1 ?_ ?_) (ih g2 (fun x hx => hlt x (by simp [hx])))
        · have : CallAllowed ((winsOf a p).map (AgariDecision.moved r)) ((callsOf n p).map (NakiDecision.moved r)) =
              CallAllowed (winsOf a p) (callsOf n p) := by
            funext k
            have : (∃ d, (∃ d0 ∈ callsOf n p, d0.moved r = d) ∧ Spec.callAction d k) ↔ ∃ d ∈ callsOf n p, Spec.callAction d k :=
              ⟨fun ⟨d, ⟨d0, m, e⟩, x⟩ => ⟨d0, m, by subst e; exact x⟩, fun ⟨d, m, x⟩ => ⟨d.moved r, ⟨d, m, rfl⟩, x⟩⟩
            simp only [CallAllowed, ne_eq, List.map_eq_nil_iff, List.mem_map, this]
          rw [this] at w2
          exact allows_unique w2 u2
        · rw [winTaken_moved] at w3
          exact lastExecuted_unique callAction_unique (lastExecuted_moved (fun d i hd => hd) w3) u3

/-! ### rounds -/

/-- two accepted rounds, the second with everybody moved on by `r` seats -/
structure SameMoved (r : Nat) (est : Estimate) (sh : List Int → Except PyErr Int) (g : GameInfo) (a a' : InitAttr)
    (acts : List Act) (s s' : RoundSt) : Prop where
  deal : DealMoved r a a'
  first : ∃ c s0, initRound est sh g a = .ok (c, s0) ∧ Reached c s0 acts s
  second : ∃ c s0, initRound est sh g a' = .ok (c, s0) ∧ Reached c s0 (acts.map (Act.moved r)) s'

theorem SameMoved.moved {r : Nat} {est : Estimate} {sh : List Int → Except PyErr Int} {g : GameInfo} {a a' : InitAttr}
    {acts : List Act} {s s' : RoundSt} (h : SameMoved r est sh g a a' acts s s') (hest : NoRenhou est) (hn : NoClosedKan acts) :
    StMoved r s s' := by
  obtain ⟨c, s0, hi, hr⟩ := h.first
  obtain ⟨c', s0', hi', hr'⟩ := h.second
  obtain ⟨h1, h2⟩ := h.deal.start hi hi'
  have he : c.estimate = est := by
    obtain ⟨d⟩ := initRound_ok hi
    rw [d.cfg_eq]
  exact moved_reached h1 (by rw [he]; exact hest) acts h2 hn hr hr'

/-- C142: with an evaluator that ignores `is_renhou`, in a round without closed kans, the tokens and the half-turns with all
their decisions are those of the first round moved on. -/
theorem C142_decisions_partial {r : Nat} {est : Estimate} {sh : List Int → Except PyErr Int} {g : GameInfo} {a a' : InitAttr}
    {acts : List Act} {s s' : RoundSt} (h : SameMoved r est sh g a a' acts s s') (hest : NoRenhou est) (hn : NoClosedKan acts) :
    AllPairs (TokenMoved r) s.encoding_tokens s'.encoding_tokens ∧ AllPairs (TurnMoved r) s.halfturns s'.halfturns :=
  ⟨(h.moved hest hn).tokens, (h.moved hest hn).turns⟩

theorem TurnMoved.kinds {r : Nat} {t t' : HalfTurn} (h : TurnMoved r t t') :
    t.isDuring = t'.isDuring ∧ t.isDiscard = t'.isDiscard ∧ t.isPost = t'.isPost := by
  cases h <;> exact ⟨rfl, rfl, rfl⟩

theorem Spec.AllPairs.flatten {α β : Type} {R : α → β → Prop} {as : List (List α)} {bs : List (List β)}
    (h : AllPairs (AllPairs R) as bs) : AllPairs R as.flatten bs.flatten := by
  induction h with
  | nil => exact .nil
  | cons h1 _ ih => exact h1.append ih

/-- C142: under the same conditions the samples of all three heads, in all models, are in the same order those of the first
round moved on. -/
theorem C142_samples_partial {r : Nat} {est : Estimate} {sh : List Int → Except PyErr Int} {g : GameInfo} {a a' : InitAttr}
    {acts : List Act} {s s' : RoundSt} (h : SameMoved r est sh g a a' acts s s') (hest : NoRenhou est) (hn : NoClosedKan acts)
    {v : Variant} {d cc b d' cc' b' : Batch} (hb : buildTensors v s s.halfturns s.encoding_tokens = .ok (d, cc, b))
    (hb' : buildTensors v s' s'.halfturns s'.encoding_tokens = .ok (d', cc', b')) :
    (∃ rows rows', d = ofRows rows ∧ d' = ofRows rows' ∧ AllPairs (RowMoved r) rows rows') ∧
    (∃ rows rows', cc = ofRows rows ∧ cc' = ofRows rows' ∧ AllPairs (RowMoved r) rows rows') ∧
    (∃ rows rows', b = ofRows rows ∧ b' = ofRows rows' ∧ AllPairs (RowMoved r) rows rows') := by
  have hm := h.moved hest hn
  obtain ⟨c, s0, hi, hr⟩ := h.first
  obtain ⟨c', s0', hi', hr'⟩ := h.second
  have hf := fourLists_reached hi hr
  have hf' := fourLists_reached hi' hr'
  obtain ⟨x⟩ := buildTensors_rows hf hb
  obtain ⟨x'⟩ := buildTensors_rows hf' hb'
  have key : ∀ (f : HalfTurn → Bool) (g g' : List (List Row)), (∀ t t', TurnMoved r t t' → f t = f t') →
      AllPairs (RowsOf v s s.encoding_tokens) (s.halfturns.filter f) g →
      AllPairs (RowsOf v s' s'.encoding_tokens) (s'.halfturns.filter f) g' → AllPairs (RowMoved r) g.flatten g'.flatten := by
    intro f g g' hk h1 h2
    refine Spec.AllPairs.flatten (pairs_groups (hm.turns.filter hk) h1 h2 ?_)
    intro t ht t' ht' rows rows' htt hrow hrow'
    exact hm.rows htt (hf t (List.mem_filter.1 ht).1) (hf' t' (List.mem_filter.1 ht').1) hrow hrow'
  exact ⟨⟨_, _, x.d_eq, x'.d_eq, key _ _ _ (fun t t' h => h.kinds.1) x.during x'.during⟩,
    ⟨_, _, x.c_eq, x'.c_eq, key _ _ _ (fun t t' h => h.kinds.2.1) x.discard x'.discard⟩,
    ⟨_, _, x.p_eq, x'.p_eq, key _ _ _ (fun t t' h => h.kinds.2.2) x.post x'.post⟩⟩

/-! ### which rounds are accepted -/

theorem who_moved (r : Nat) (x : Act) (hx : x.who < 4) : (x.moved r).who < 4 := by
  cases x <;> first | exact hx | exact seatOn_lt ..

theorem loses_moved (r : Nat) {x : Act} (hx : x.who < 4) {p : Nat} (hp : p < 4) : (x.moved r).loses (seatOn r p) = x.loses p := by
  cases x <;> simp only [Act.loses, Act.moved, Act.discarded, Act.exposed]
  all_goals
    simp only [Act.who] at hx
    simp only [seatOn_inj r hx hp]

theorem collect_moved {r : Nat} {f g : Act → List Nat} {acts : List Act} (h : ∀ x ∈ acts, g (x.moved r) = f x) :
    collect g (acts.map (Act.moved r)) = collect f acts := by
  unfold collect
  rw [List.flatMap_map]
  induction acts with
  | nil => rfl
  | cons x l ih => rw [List.flatMap_cons, List.flatMap_cons, h x (by simp), ih (fun y hy => h y (by simp [hy]))]

theorem lastMove_moved (r : Nat) (acts : List Act) : lastMove (acts.map (Act.moved r)) = (lastMove acts).map (Act.moved r) := by
  unfold lastMove
  rw [List.filter_map, List.getLast?_map]
  congr 2
  refine List.filter_congr (fun x _ => ?_)
  cases x <;> rfl

theorem holderOf_moved (r : Nat) (o : Option Act) : holderOf (o.map (Act.moved r)) = (holderOf o).map (seatOn r) := by
  cases o with
  | none => rfl
  | some x =>
    cases x <;> simp only [Option.map_some, Act.moved, holderOf, Option.map_none]
    split <;> rfl

theorem holds_moved {r : Nat} {hai hai' : Nat → List Nat} (hh : ∀ p < 4, hai' (seatOn r p) = hai p) {acts : List Act}
    (hw : ∀ x ∈ acts, x.who < 4) {p : Nat} (hp : p < 4) (t : Nat) :
    Holds hai' (acts.map (Act.moved r)) (seatOn r p) t ↔ Holds hai acts p t := by
  unfold Holds
  rw [hh p hp]
  have key : ∀ l : List Act, (∀ x ∈ l, x.who < 4) →
      ((∀ x ∈ l.map (Act.moved r), t ∉ x.loses (seatOn r p)) ↔ ∀ x ∈ l, t ∉ x.loses p) := by
    intro l hl
    simp only [List.forall_mem_map]
    constructor
    · intro h x hx
      rw [← loses_moved r (hl x hx) hp]; exact h x hx
    · intro h x hx
      rw [loses_moved r (hl x hx) hp]; exact h x hx
  refine or_congr (and_congr Iff.rfl (key acts hw)) ?_
  constructor
  · rintro ⟨pre, post, e, h⟩
    obtain ⟨l1, l2, rfl, rfl, e2⟩ := List.map_eq_append_iff.1 e
    obtain ⟨x, l3, rfl, e3, rfl⟩ := List.map_eq_cons_iff.1 e2
    have hx := hw x (by simp)
    refine ⟨l1, l3, ?_, (key l3 (fun y hy => hw y (by simp [hy]))).1 h⟩
    cases x <;> simp only [Act.moved, reduceCtorEq, Act.draw.injEq] at e3
    obtain ⟨e3, rfl⟩ := e3
    simp only [Act.who] at hx
    rw [(seatOn_inj r hx hp).1 e3]
  · rintro ⟨pre, post, rfl, h⟩
    exact ⟨pre.map (Act.moved r), post.map (Act.moved r), by simp [Act.moved],
      (key post (fun y hy => hw y (by simp [hy]))).2 h⟩

theorem consistent_moved {r : Nat} {hai hai' : Nat → List Nat} (hh : ∀ p < 4, hai' (seatOn r p) = hai p) {acts : List Act}
    (hw : ∀ x ∈ acts, x.who < 4) {x : Act} (hx : x.who < 4) (h : Consistent hai acts x) :
    Consistent hai' (acts.map (Act.moved r)) (x.moved r) := by
  cases x with
  | dora t => exact h
  | declare p =>
    obtain ⟨_, q, t, e⟩ := h
    exact ⟨seatOn_lt .., seatOn r q, t, by rw [lastMove_moved, e]; rfl⟩
  | accept p =>
    obtain ⟨_, q, t, e⟩ := h
    exact ⟨seatOn_lt .., seatOn r q, t, by rw [lastMove_moved, e]; rfl⟩
  | draw p t =>
    obtain ⟨h1, h2, h3, h4⟩ := h
    exact ⟨seatOn_lt .., by rw [lastMove_moved, holderOf_moved, h2]; rfl, h3, fun e => h4 ((holds_moved hh hw h1 t).1 e)⟩
  | discard p t =>
    obtain ⟨h1, h2, h3⟩ := h
    exact ⟨seatOn_lt .., by rw [lastMove_moved, holderOf_moved, h2]; rfl, (holds_moved hh hw h1 t).2 h3⟩
  | call p c =>
    obtain ⟨h1, m, h2, h3, h4, h5⟩ := h
    refine ⟨seatOn_lt .., m, h2, h3, fun t ht => (holds_moved hh hw h1 t).2 (h4 t ht), ?_⟩
    split
    · next hm =>
      rw [if_pos hm] at h5
      obtain ⟨t, e⟩ := h5
      exact ⟨t, by rw [lastMove_moved, e]; rfl⟩
    · next hm =>
      rw [if_neg hm] at h5
      obtain ⟨q, t, e⟩ := h5
      exact ⟨seatOn r q, t, by rw [lastMove_moved, e]; rfl⟩

theorem four_perm {r : Nat} {hai hai' : Nat → List Nat} (hh : ∀ p < 4, hai' (seatOn r p) = hai p) :
    (hai' 0 ++ hai' 1 ++ hai' 2 ++ hai' 3).Perm (hai 0 ++ hai 1 ++ hai 2 ++ hai 3) := by
  have h0 := hh 0 (by omega)
  have h1 := hh 1 (by omega)
  have h2 := hh 2 (by omega)
  have h3 := hh 3 (by omega)
  refine List.perm_iff_count.2 (fun t => ?_)
  rcases seatOn_cases r with ⟨e0, e1, e2, e3⟩ | ⟨e0, e1, e2, e3⟩ | ⟨e0, e1, e2, e3⟩ | ⟨e0, e1, e2, e3⟩ <;>
    rw [e0] at h0 <;> rw [e1] at h1 <;> rw [e2] at h2 <;> rw [e3] at h3 <;> rw [h0, h1, h2, h3] <;>
    simp only [List.count_append] <;> omega

theorem supply_moved {r : Nat} {hai hai' : Nat → List Nat} (hh : ∀ p < 4, hai' (seatOn r p) = hai p) {first : Nat} {acts : List Act}
    (hw : ∀ x ∈ acts, x.who < 4) (h : WithinSupply hai first acts) : WithinSupply hai' first (acts.map (Act.moved r)) := by
  have hp := four_perm hh
  have e1 : collect Act.drawnByAny (acts.map (Act.moved r)) = collect Act.drawnByAny acts :=
    collect_moved (fun x _ => by cases x <;> rfl)
  have e2 : collect Act.doras (acts.map (Act.moved r)) = collect Act.doras acts :=
    collect_moved (fun x _ => by cases x <;> rfl)
  have e3 : ∀ p < 4, collect (Act.drawn (seatOn r p)) (acts.map (Act.moved r)) = collect (Act.drawn p) acts := by
    intro p hp
    refine collect_moved (fun x hx => ?_)
    have := hw x hx
    cases x <;> simp only [Act.moved, Act.drawn]
    simp only [Act.who] at this
    simp only [seatOn_inj r this hp]
  have e4 : ∀ p < 4, collect (Act.shownTo (seatOn r p)) (acts.map (Act.moved r)) = collect (Act.shownTo p) acts := by
    intro p hp
    refine collect_moved (fun x hx => ?_)
    have := hw x hx
    cases x <;> simp only [Act.moved, Act.shownTo]
    all_goals
      simp only [Act.who] at this
      simp only [seatOn_inj r this hp]
  refine ⟨?_, ?_, ?_, ?_⟩
  · intro k hk
    have := h.wall k hk
    unfold outOfWall kindCount at this ⊢
    rw [e1, e2, (((hp.append_right [first]).append_right _).append_right _).countP_eq]
    exact this
  · intro k hk hk'
    have := h.wall_red k hk hk'
    unfold slotCount at this ⊢
    rw [e1, ((hp.append_right [first]).append_right _).countP_eq]
    exact this
  · intro q hq k hk
    obtain ⟨p, hp4, rfl⟩ := seatOn_surj r hq
    have := h.seen p hp4 k hk
    unfold seenBy at this ⊢
    rw [hh p hp4, e2, e3 p hp4, e4 p hp4]
    exact this
  · intro q hq k hk hk'
    obtain ⟨p, hp4, rfl⟩ := seatOn_surj r hq
    rw [hh p hp4, e3 p hp4, e4 p hp4]
    exact h.seen_red p hp4 k hk hk'

theorem kans_moved {r : Nat} {acts : List Act} (h : KansByDrawer acts) : KansByDrawer (acts.map (Act.moved r)) := by
  intro pre p c post e hc
  obtain ⟨l1, l2, rfl, rfl, e2⟩ := List.map_eq_append_iff.1 e
  obtain ⟨x, l3, rfl, e3, rfl⟩ := List.map_eq_cons_iff.1 e2
  cases x <;> simp only [Act.moved, reduceCtorEq, Act.call.injEq] at e3
  obtain ⟨rfl, rfl⟩ := e3
  obtain ⟨t, ht⟩ := h _ _ _ _ rfl hc
  exact ⟨t, by rw [lastMove_moved, ht]; rfl⟩

/-- C142: with everybody moved on, an accepted round is accepted; this holds for all rounds, with closed kans and any
evaluator. -/
theorem C142_accepted {est : Estimate} {sh : List Int → Except PyErr Int} (he : ∀ q, ∃ b, est q = .ok b)
    (hs : ∀ l, ∃ n, sh l = .ok n) (g : GameInfo) {r : Nat} {a a' : InitAttr} (hm : DealMoved r a a') {sc sc' : List Int}
    (hsc : a.ten = .ok sc) (hsc4 : sc.length = 4) (hsc' : a'.ten = .ok sc') (hsc4' : sc'.length = 4)
    {oya : Nat} (hoya : a.oya = .ok oya) (hoya4 : oya < 4) {hai : Nat → List Nat} {first : Nat} (hd : a.Deals hai first)
    (hsize : ∀ p < 4, (hai p).length = 13) (htiles : ∀ t ∈ hai 0 ++ hai 1 ++ hai 2 ++ hai 3 ++ [first], t < 136)
    (hdist : ∀ p < 4, (hai p).Nodup) {acts : List Act} (hwho : ∀ x ∈ acts, x.who < 4) (hk : KansByDrawer acts)
    (hw : ∀ p c, Act.call p c ∈ acts → WellFormed c) {w : Bool} {res : List Int}
    (h : ∃ s, processRound est sh g a (logOf acts ++ [.result w (.ok res)]) = .ok s) :
    ∃ s, processRound est sh g a' (logOf (acts.map (Act.moved r)) ++ [.result w (.ok res)]) = .ok s := by
  rw [C56_accepted_iff he hs g hsc hsc4 hoya hoya4 hd hsize htiles hdist hwho hk hw] at h
  obtain ⟨h1, h2⟩ := h
  obtain ⟨hai', hh⟩ : ∃ hai' : Nat → List Nat, ∀ p < 4, hai' (seatOn r p) = hai p :=
    ⟨fun q => hai ((q + 4 - r % 4) % 4), fun p hp => by
      have : (seatOn r p + 4 - r % 4) % 4 = p := by unfold seatOn; omega
      simp only [this]⟩
  have hd' : a'.Deals hai' first := by
    obtain ⟨k1, k2⟩ := hd
    refine ⟨?_, ?_⟩
    · intro q hq
      obtain ⟨p, hp, rfl⟩ := seatOn_surj r hq
      rw [hm.hai p hp, hh p hp]
      exact k1 p hp
    · rw [hm.seed]; exact k2
  have hwho' : ∀ x ∈ acts.map (Act.moved r), x.who < 4 := by
    intro x hx
    obtain ⟨y, hy, rfl⟩ := List.mem_map.1 hx
    exact who_moved r y (hwho y hy)
  refine (C56_accepted_iff he hs g hsc' hsc4' (hm.oya _ hoya) (seatOn_lt ..) hd' ?_ ?_ ?_ hwho' (kans_moved hk) ?_).2
    ⟨?_, supply_moved hh hwho h2⟩
  · intro q hq
    obtain ⟨p, hp, rfl⟩ := seatOn_surj r hq
    rw [hh p hp]; exact hsize p hp
  · intro t ht
    exact htiles t (((four_perm hh).append_right [first]).mem_iff.1 ht)
  · intro q hq
    obtain ⟨p, hp, rfl⟩ := seatOn_surj r hq
    rw [hh p hp]; exact hdist p hp
  · intro p c hc
    obtain ⟨y, hy, e⟩ := List.mem_map.1 hc
    cases y <;> simp only [Act.moved, reduceCtorEq, Act.call.injEq] at e
    obtain ⟨_, rfl⟩ := e
    exact hw _ _ hy
  · intro pre x post e
    obtain ⟨l1, l2, rfl, rfl, e2⟩ := List.map_eq_append_iff.1 e
    obtain ⟨y, l3, rfl, rfl, rfl⟩ := List.map_eq_cons_iff.1 e2
    exact consistent_moved hh (fun z hz => hwho z (by simp [hz])) (hwho y (by simp)) (h1 _ _ _ rfl)

/-! ### the numbers of the seats matter -/

/-- somebody is offered a win -/
def winOffered : HalfTurn → Bool
  | .during _ _ _ a _ _ => !a.isEmpty
  | .discard .. => false
  | .post _ _ _ a _ => !(winsOf a 0).isEmpty || !(winsOf a 1).isEmpty || !(winsOf a 2).isEmpty || !(winsOf a 3).isEmpty

theorem TurnMoved.wins {r : Nat} {t t' : HalfTurn} (h : TurnMoved r t t') : winOffered t' = winOffered t := by
  cases h with
  | during => simp [winOffered]
  | discard => rfl
  | @post q e o o' a a' n n' hq ho ha hn =>
    have h0 := congrArg List.isEmpty (ha 0 (by omega))
    have h1 := congrArg List.isEmpty (ha 1 (by omega))
    have h2 := congrArg List.isEmpty (ha 2 (by omega))
    have h3 := congrArg List.isEmpty (ha 3 (by omega))
    rw [List.isEmpty_map] at h0 h1 h2 h3
    simp only [winOffered]
    rcases seatOn_cases r with ⟨e0, e1, e2, e3⟩ | ⟨e0, e1, e2, e3⟩ | ⟨e0, e1, e2, e3⟩ | ⟨e0, e1, e2, e3⟩ <;>
      rw [e0] at h0 <;> rw [e1] at h1 <;> rw [e2] at h2 <;> rw [e3] at h3 <;> rw [h0, h1, h2, h3] <;>
      cases (winsOf a 0).isEmpty <;> cases (winsOf a 1).isEmpty <;> cases (winsOf a 2).isEmpty <;> cases (winsOf a 3).isEmpty <;> rfl

theorem wins_moved {r : Nat} {l l' : List HalfTurn} (h : AllPairs (TurnMoved r) l l') : l'.map winOffered = l.map winOffered := by
  induction h with
  | nil => rfl
  | cons h1 _ ih => simp only [List.map_cons, h1.wins, ih]

/-- a deal with everybody moved on by one seat -/
def onByOne (a : InitAttr) : InitAttr :=
  { a with oya := .ok 1, hai := fun p => a.hai ((p + 3) % 4) }

theorem onByOne_moved {a : InitAttr} (ho : a.oya = .ok 0) (ht : a.ten = .ok [250, 250, 250, 250]) : DealMoved 1 a (onByOne a) where
  seed := rfl
  oya := by
    intro p hp
    rw [ho] at hp
    cases hp; rfl
  hai := by
    intro p hp
    show a.hai ((seatOn 1 p + 3) % 4) = a.hai p
    have : (seatOn 1 p + 3) % 4 = p := by unfold seatOn; omega
    rw [this]
  ten := by
    intro l hl
    refine ⟨l, hl, fun p hp => ?_⟩
    rw [ht] at hl
    cases hl
    have hs := seatOn_lt 1 p
    generalize seatOn 1 p = q at hs
    have h4 : p = 0 ∨ p = 1 ∨ p = 2 ∨ p = 3 := by omega
    have h4' : q = 0 ∨ q = 1 ∨ q = 2 ∨ q = 3 := by omega
    rcases h4 with rfl | rfl | rfl | rfl <;> rcases h4' with rfl | rfl | rfl | rfl <;> rfl

/-- the dealer draws and discards -/
def firstDiscard : List Act := [.draw 0 120, .discard 0 120]

theorem firstDiscard_accepted : accepts (processRound onRenhou farAway ⟨0⟩ deal (logOf firstDiscard ++ [.result true (.ok [0, 0, 0, 0])]))
    (fun s => s.halfturns.map winOffered == [false, false, false]) = true := by decide +kernel

theorem firstDiscard_moved : accepts (processRound onRenhou farAway ⟨0⟩ (onByOne deal)
    (logOf (firstDiscard.map (Act.moved 1)) ++ [.result true (.ok [0, 0, 0, 0])]))
    (fun s => s.halfturns.map winOffered == [false, false, true]) = true := by decide +kernel

/-- C142 is violated: whether a win with the first discard is flagged `is_renhou` depends on the number of the seat of the
player who discards. -/
theorem C142_renhou_violated : ¬ ∀ (r : Nat) (est : Estimate) (sh : List Int → Except PyErr Int) (g : GameInfo) (a a' : InitAttr)
    (acts : List Act) (s s' : RoundSt), SameMoved r est sh g a a' acts s s' → NoClosedKan acts →
    AllPairs (TurnMoved r) s.halfturns s'.halfturns := by
  intro h
  obtain ⟨s, h1, h2⟩ := accepts_ok firstDiscard_accepted
  obtain ⟨s', h1', h2'⟩ := accepts_ok firstDiscard_moved
  have := wins_moved (h 1 onRenhou farAway ⟨0⟩ deal (onByOne deal) firstDiscard s s'
    ⟨onByOne_moved rfl rfl, accepted_exact h1 rfl, accepted_exact h1' rfl⟩ (by simp [NoClosedKan, firstDiscard]))
  rw [beq_iff_eq.1 h2, beq_iff_eq.1 h2'] at this
  simp at this

/-- an evaluator that accepts exactly what it is told to be a win in the first turn of a player who is not the dealer -/
def onChiihou : Estimate := fun q => .ok q.config.is_chiihou

/-- the dealer makes a closed kan and discards, the next player draws -/
def kanThenDraw : List Act := [.draw 0 120, .call 0 0, .dora 88, .draw 0 121, .discard 0 121, .draw 1 122]

theorem kanThenDraw_accepted : accepts (processRound onChiihou farAway ⟨0⟩ dealKan
    (logOf kanThenDraw ++ [.result true (.ok [0, 0, 0, 0])]))
    (fun s => s.halfturns.map winOffered == [false, true, false, false, true]) = true := by decide +kernel

theorem kanThenDraw_moved : accepts (processRound onChiihou farAway ⟨0⟩ (onByOne dealKan)
    (logOf (kanThenDraw.map (Act.moved 1)) ++ [.result true (.ok [0, 0, 0, 0])]))
    (fun s => s.halfturns.map winOffered == [false, true, false, false, false]) = true := by decide +kernel

/-- C142 is violated: a closed kan advances the count of turns by the number of the seat of the player who makes it, and the
flag `is_chiihou` of the next draw depends on that count. -/
theorem C142_closedKan_violated : ¬ ∀ (r : Nat) (est : Estimate) (sh : List Int → Except PyErr Int) (g : GameInfo) (a a' : InitAttr)
    (acts : List Act) (s s' : RoundSt), SameMoved r est sh g a a' acts s s' → NoRenhou est →
    AllPairs (TurnMoved r) s.halfturns s'.halfturns := by
  intro h
  obtain ⟨s, h1, h2⟩ := accepts_ok kanThenDraw_accepted
  obtain ⟨s', h1', h2'⟩ := accepts_ok kanThenDraw_moved
  have := wins_moved (h 1 onChiihou farAway ⟨0⟩ dealKan (onByOne dealKan) kanThenDraw s s'
    ⟨onByOne_moved rfl rfl, accepted_exact h1 rfl, accepted_exact h1' rfl⟩ (fun _ _ => rfl))
  rw [beq_iff_eq.1 h2, beq_iff_eq.1 h2'] at this
  simp at this

/-- the call sample of a round in which seat 1 may take the first discard of seat 0, and of the round moved on -/
theorem moved_example (v : Variant) :
    okAnd (processRound noWin farAway ⟨0⟩ deal (logOf (chiActs 120) ++ [.result true (.ok [0, 0, 0, 0])]))
      (fun s => okAnd (buildTensors v s s.halfturns s.encoding_tokens) (fun b => b.2.2.player == [1])) = true ∧
    okAnd (processRound noWin farAway ⟨0⟩ (onByOne deal) (logOf ((chiActs 120).map (Act.moved 1)) ++ [.result true (.ok [0, 0, 0, 0])]))
      (fun s => okAnd (buildTensors v s s.halfturns s.encoding_tokens) (fun b => b.2.2.player == [2])) = true := by
  cases v <;> decide +kernel

/-- rounds as in the theorems, with samples, exist -/
example (v : Variant) : ∃ s s' d cc b d' cc' b', SameMoved 1 noWin farAway ⟨0⟩ deal (onByOne deal) (chiActs 120) s s' ∧
    NoRenhou noWin ∧ NoClosedKan (chiActs 120) ∧ buildTensors v s s.halfturns s.encoding_tokens = .ok (d, cc, b) ∧
    buildTensors v s' s'.halfturns s'.encoding_tokens = .ok (d', cc', b') ∧ b.player = [1] ∧ b'.player = [2] := by
  obtain ⟨s, hs, h1⟩ := okAnd_ok (moved_example v).1
  obtain ⟨⟨d, cc, b⟩, hb, h2⟩ := okAnd_ok h1
  obtain ⟨s', hs', h1'⟩ := okAnd_ok (moved_example v).2
  obtain ⟨⟨d', cc', b'⟩, hb', h2'⟩ := okAnd_ok h1'
  exact ⟨s, s', d, cc, b, d', cc', b', ⟨onByOne_moved rfl rfl, accepted_exact hs rfl, accepted_exact hs' rfl⟩, fun _ _ => rfl,
    by simp [NoClosedKan, chiActs], hb, hb', beq_iff_eq.1 h2, beq_iff_eq.1 h2'⟩

end MJ
