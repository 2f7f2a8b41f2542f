import Verif.Spec.Shown
import Verif.Props.RoundMoment
import Verif.Props.RoundOffers
import Verif.Props.Tensors
/-!
The state tensors show the table of the log (C120).
-/
namespace MJ
open Code Spec

theorem pointsFrom_snoc (x : Act) : ∀ (acts pre : List Act),
    pointsFrom pre (acts ++ [x]) = pointsFrom pre acts ++ pointsOf (pre ++ acts) x
  | [], pre => by simp [pointsFrom]
  | b :: bs, pre => by simp [pointsFrom, pointsFrom_snoc x bs (pre ++ [b])]

theorem upToTake_split {pre post : List Act} {b : Act} (hb : b.isTake = true) (hp : ∀ d ∈ post, d.isTake = false) :
    upToTake (pre ++ b :: post) = pre ++ [b] := by
  unfold upToTake
  have : (pre ++ b :: post).reverse = post.reverse ++ (b :: pre.reverse) := by simp
  rw [this, List.dropWhile_append_of_pos (by
    intro d hd
    simp [hp d (by simpa using hd)])]
  simp [hb]

/-- the snapshot `o` of the moment `seen`, ippatsu flags included -/
def ObjShows (ten : List Int) (length round honba sticks first dealer : Nat) (seen : List Act) (p : Nat) (o : StateObj) : Prop :=
  Recorded ten length round honba sticks first dealer seen p o ∧ ∃ pre b, seen = pre ++ [b] ∧
    ∀ q < 4, (o.ippatsu q = 0 ∨ o.ippatsu q = 1) ∧ (o.ippatsu q = 1 ↔ JustDeclared pre q ∧ (b.isDraw = true → b.who ≠ q))

/-- the half-turn belongs to the decision point -/
def PointTurn (ten : List Int) (length round honba sticks first dealer : Nat) (d : DecisionPoint) (t : HalfTurn) : Prop :=
  ObjShows ten length round honba sticks first dealer d.seen d.who t.obj ∧
  (d.kind = .during ↔ t.isDuring = true) ∧ (d.kind = .discard ↔ t.isDiscard = true) ∧ (d.kind = .post ↔ t.isPost = true)

theorem obj_shows {est : Estimate} {sh : List Int → Except PyErr Int} {g : GameInfo} {a : InitAttr}
    {c : RoundCfg} {s0 : RoundSt} (hi : initRound est sh g a = .ok (c, s0)) {ten : List Int} {round honba sticks x y first dealer : Nat}
    (hten : a.ten = .ok ten) (hseed : a.seed = .ok [round, honba, sticks, x, y, first]) (hoya : a.oya = .ok dealer)
    {acts : List Act} {s : RoundSt} (hr : Reached c s0 acts s) :
    ∀ o, s.stateObj = some o → ∃ pre b post, acts = pre ++ b :: post ∧ b.isTake = true ∧ (∀ d ∈ post, d.isTake = false) ∧
      ObjShows ten g.n_rounds round honba sticks first dealer (pre ++ [b]) b.who o := by
  obtain ⟨d⟩ := initRound_ok hi
  refine hr.induct_both (P := fun acts s => ∀ o, s.stateObj = some o → ∃ pre b post, acts = pre ++ b :: post ∧ b.isTake = true ∧
    (∀ d ∈ post, d.isTake = false) ∧ ObjShows ten g.n_rounds round honba sticks first dealer (pre ++ [b]) b.who o) ?_ ?_
  · rw [congrArg RoundSt.stateObj d.state_eq]; simp
  intro acts s act s' hr hr' ih he o ho
  have keep : act.isTake = false → s'.stateObj = s.stateObj → ∃ pre b post, acts ++ [act] = pre ++ b :: post ∧ b.isTake = true ∧
      (∀ d ∈ post, d.isTake = false) ∧ ObjShows ten g.n_rounds round honba sticks first dealer (pre ++ [b]) b.who o := by
    intro h1 h2
    obtain ⟨pre, b, post, rfl, h3, h4, h5⟩ := ih o (by rw [← h2]; exact ho)
    refine ⟨pre, b, post ++ [act], by simp, h3, ?_, h5⟩
    intro d hd
    rcases List.mem_append.1 hd with hd | hd
    · exact h4 d hd
    · simp only [List.mem_singleton] at hd
      rw [hd]
      exact h1
  have take : act.isTake = true → ∃ pre b post, acts ++ [act] = pre ++ b :: post ∧ b.isTake = true ∧
      (∀ d ∈ post, d.isTake = false) ∧ ObjShows ten g.n_rounds round honba sticks first dealer (pre ++ [b]) b.who o := by
    intro h1
    obtain ⟨s2, o', k1, k2, k3⟩ := C117_ippatsu_input_partial hi (pre := acts) (post := []) hr' h1
    have := k1.det hr'
    subst this
    rw [ho] at k2
    cases k2
    obtain ⟨pre, b, post, k4, k5, k6, k7⟩ := objTaken_reached hi hten hseed hoya hr' o ho
    obtain ⟨rfl, rfl, rfl⟩ := last_split (f := Act.isTake) (post := []) k4 h1 k5 (by simp) k6
    exact ⟨acts, act, [], rfl, h1, by simp, k7, acts, act, rfl, k3⟩
  cases he with
  | dora => exact keep rfl rfl
  | declare => exact keep rfl rfl
  | accept => exact keep rfl rfl
  | draw => exact take rfl
  | discard hp e => exact keep rfl (by rw [congrArg RoundSt.stateObj e.state_eq]; rfl)
  | call => exact take rfl

theorem Spec.AllPairs.set_right {α β : Type} {R : α → β → Prop} {as : List α} {bs : List β} (h : AllPairs R as bs) :
    ∀ {i : Nat} {b b' : β}, bs[i]? = some b → (∀ a, R a b → R a b') → AllPairs R as (bs.set i b') := by
  induction h with
  | nil => intro i b b' hb; simp at hb
  | cons h1 h2 ih =>
    intro i b b' hb hR
    cases i with
    | zero =>
      simp only [List.getElem?_cons_zero, Option.some.injEq] at hb
      subst hb
      exact .cons (hR _ h1) h2
    | succ i => exact .cons h1 (ih hb hR)

theorem turns_at_points {est : Estimate} {sh : List Int → Except PyErr Int} {g : GameInfo} {a : InitAttr}
    {c : RoundCfg} {s0 : RoundSt} (hi : initRound est sh g a = .ok (c, s0)) {ten : List Int} {round honba sticks x y first dealer : Nat}
    (hten : a.ten = .ok ten) (hseed : a.seed = .ok [round, honba, sticks, x, y, first]) (hoya : a.oya = .ok dealer)
    {acts : List Act} {s : RoundSt} (hr : Reached c s0 acts s) (hk : KansByDrawer acts) :
    AllPairs (PointTurn ten g.n_rounds round honba sticks first dealer) (pointsFrom [] acts) s.halfturns := by
  obtain ⟨d⟩ := initRound_ok hi
  revert hk
  refine hr.induct_both (P := fun acts s => KansByDrawer acts →
    AllPairs (PointTurn ten g.n_rounds round honba sticks first dealer) (pointsFrom [] acts) s.halfturns) ?_ ?_
  · rw [congrArg RoundSt.halfturns d.state_eq]
    intro _
    exact .nil
  intro acts s act s' hr hr' ih he hk
  have ih := ih (fun pre p c post e hc => hk pre p c (post ++ [act]) (by simp [e]) hc)
  rw [pointsFrom_snoc, List.nil_append]
  have mark : ∀ {i : Nat} {t : HalfTurn} {k : Nat}, s.halfturns[i]? = some t →
      AllPairs (PointTurn ten g.n_rounds round honba sticks first dealer) (pointsFrom [] acts) (s.halfturns.set i (t.mark k)) := by
    intro i t k ht
    refine ih.set_right ht ?_
    rintro d ⟨h1, h2, h3, h4⟩
    refine ⟨by rw [obj_mark]; exact h1, ?_⟩
    cases t <;> exact ⟨h2, h3, h4⟩
  cases he with
  | dora => simpa [pointsOf] using ih
  | accept => simpa [pointsOf] using ih
  | declare _ h1 h2 h3 =>
    rename_i p i t hp ha
    have : pointsOf acts (.declare p) = [] := rfl
    rw [this, List.append_nil]
    refine ih.set_right h2 ?_
    rintro d ⟨h1, h2, h3, h4⟩
    refine ⟨by rw [obj_markReach]; exact h1, ?_⟩
    cases t <;> exact ⟨h2, h3, h4⟩
  | @draw p t _ hp e =>
    obtain ⟨pre, b, post, k4, k5, k6, k7⟩ := obj_shows hi hten hseed hoya hr' _ (congrArg RoundSt.stateObj e.state_eq)
    obtain ⟨rfl, rfl, rfl⟩ := last_split (f := Act.isTake) (post := []) k4 rfl k5 (by simp) k6
    rw [congrArg RoundSt.halfturns e.state_eq]
    refine ih.append (.cons ⟨k7, ?_⟩ .nil)
    simp [HalfTurn.isDuring, HalfTurn.isDiscard, HalfTurn.isPost]
  | @discard p t _ hp e =>
    obtain ⟨pre, b, post, rfl, k5, k6, k7⟩ := obj_shows hi hten hseed hoya hr e.o e.obj_eq
    have hwho : b.who = p := by
      obtain ⟨m, hm1, hm2, hm3⟩ : ∃ m, lastMove (pre ++ b :: post) = some m ∧ m.isTake = true ∧ m.who = p := by
        rcases C35_discarder hi (post := []) hr' hk with ⟨u, h⟩ | ⟨code, h, _⟩
        · exact ⟨_, h, rfl, rfl⟩
        · exact ⟨_, h, rfl, rfl⟩
      obtain ⟨mid, rest, e1, _, e2⟩ := lastMove_split _ m hm1
      have hnot : ∀ d ∈ rest, d.isTake = false := by
        intro d hd
        have := e2 d hd
        cases d <;> simp_all [Act.isMove, Act.isTake]
      obtain ⟨rfl, rfl, rfl⟩ := last_split (f := Act.isTake) e1 k5 hm2 k6 hnot
      exact hm3
    rw [hwho] at k7
    rw [congrArg RoundSt.halfturns e.state_eq]
    have hpts : pointsOf (pre ++ b :: post) (.discard p t) = [⟨.discard, p, pre ++ [b], pre ++ b :: post, t⟩, ⟨.post, p, pre ++ [b], pre ++ b :: post, t⟩] := by
      simp [pointsOf, upToTake_split k5 k6]
    rw [hpts]
    refine ih.append (.cons ⟨k7, ?_⟩ (.cons ⟨k7, ?_⟩ .nil)) <;> simp [HalfTurn.isDuring, HalfTurn.isDiscard, HalfTurn.isPost]
  | @call p code _ e =>
    obtain ⟨pre, b, post, k4, k5, k6, k7⟩ := obj_shows hi hten hseed hoya hr' _ (congrArg RoundSt.stateObj e.state_eq)
    obtain ⟨rfl, rfl, rfl⟩ := last_split (f := Act.isTake) (post := []) k4 rfl k5 (by simp) k6
    rw [congrArg RoundSt.halfturns e.state_eq]
    show AllPairs _ _ (s.halfturns.set e.i (e.t.mark e.naki.convenient_naki_code) ++ chankanTurn c s code p e.rons)
    refine (mark e.turn_eq).append ?_
    unfold chankanTurn
    by_cases hkk : is_kakan code = true
    · simp only [pointsOf, if_pos hkk]
      refine .cons ⟨k7, ?_⟩ .nil
      simp [HalfTurn.isDuring, HalfTurn.isDiscard, HalfTurn.isPost]
    · simp only [pointsOf, if_neg hkk]
      exact .nil

theorem showsCounts_plane (v : Variant) {f f' : Nat → Int} (h : ∀ k < 37, f k = f' k) : ShowsCounts v (plane v f) f' := by
  refine ⟨by simp [plane], ?_⟩
  intro k hk
  refine ⟨_, by rw [plane, List.getElem?_map, List.getElem?_range hk]; rfl, ?_, ?_⟩
  · rintro rfl
    simp [h k hk]
  · intro hv
    rw [← h k hk]
    have key : ∀ row : List Int, row = thermo (f k) →
        row.length = 4 ∧ ∀ j : Nat, j < 4 → row[j]? = some (if (j : Int) < f k then 1 else 0) := by
      rintro _ rfl
      refine ⟨by simp [thermo], ?_⟩
      intro j hj
      simp [thermo, List.getElem?_range hj]
    cases v with
    | basic => exact absurd rfl hv
    | conv => exact key _ rfl
    | ordered => exact key _ rfl

theorem cell_four {m : List (List Int)} {i : Nat} {f : Nat → Int} (h : m[i]? = some (four f)) (q : Nat) (hq : q < 4) :
    cell m i q = some (f q) := by
  unfold cell
  rw [h]
  simp [four, List.getElem?_range hq]

/-- the counts of a hand are those of the concealed tiles -/
theorem hand_slots {est : Estimate} {sh : List Int → Except PyErr Int} {g : GameInfo} {a : InitAttr}
    {c : RoundCfg} {s0 : RoundSt} (hi : initRound est sh g a = .ok (c, s0)) {hai : Nat → List Nat}
    (hhai : ∀ p < 4, a.hai p = .ok (hai p)) {acts : List Act} {s : RoundSt} (hr : Reached c s0 acts s) {p : Nat} (hp : p < 4) :
    ∃ held, Concealed hai acts p held ∧ ∀ k, s.hand_tensors p k = (slotCount held k : Nat) := by
  have h := tableOk_reached hi hr
  refine ⟨(List.range 136).filter (fun t => decide (s.hands p t = 1)), ⟨List.Nodup.filter _ List.nodup_range, ?_⟩, ?_⟩
  · intro t
    rw [← C34_concealed hi hhai hr p t hp]
    simp only [List.mem_filter, List.mem_range, decide_eq_true_eq, and_iff_right_iff_imp]
    intro ht
    refine Classical.byContradiction (fun hlt => ?_)
    have := h.big p t (by omega)
    omega
  · intro k
    rw [h.count p k]
    unfold heldCnt slotCount
    rw [List.countP_filter]
    congr 1
    apply List.countP_congr
    intro t _
    simp [mem_tile2idx, and_comm]

theorem row_shown {est : Estimate} {sh : List Int → Except PyErr Int} {g : GameInfo} {a : InitAttr}
    {c : RoundCfg} {s0 : RoundSt} (hi : initRound est sh g a = .ok (c, s0)) {hai : Nat → List Nat} {ten : List Int}
    {round honba sticks x y first dealer : Nat} (hhai : ∀ p < 4, a.hai p = .ok (hai p))
    (hseed : a.seed = .ok [round, honba, sticks, x, y, first]) {acts : List Act} {s : RoundSt} (hr : Reached c s0 acts s)
    {v : Variant} {tokens : List Nat} {o : StateObj} {e p q : Nat} {row : Row} {seen : List Act} (hp : p < 4)
    (ho : ObjShows ten g.n_rounds round honba sticks first dealer seen p o) (hrow : RowBase v s tokens o e q row) :
    Shown v hai ten g.n_rounds round honba sticks first dealer seen acts p row := by
  obtain ⟨_, _, hx1, hx2, hx3, _⟩ := hrow
  obtain ⟨ho, hip⟩ := ho
  have hpl := ho.player
  unfold stateX2 at hx2
  split at hx2
  case isFalse => cases hx2
  rename_i hlen
  obtain ⟨hlen, hlen'⟩ := hlen
  have hx2 := (Except.ok.inj hx2).symm
  have cell1 : ∀ (i : Nat) (f : Nat → Int), row.x2[i]? = some (four f) → ∀ q < 4, cell row.x2 i q = some (f q) :=
    fun i f h q hq => cell_four h q hq
  have hsut : ∀ q, ∀ k < 37, (o.sutehai_tensors q k = 0 ∨ o.sutehai_tensors q k = 1) ∧
      (o.sutehai_tensors q k = 1 ↔ Act.threwInto q k seen) := fun q k _ => ho.discards q k
  have hdouble : ∀ q < 4, cell row.x2 3 q = some ((o.double_reaches q : Nat) : Int) := cell1 3 _ (by rw [hx2]; rfl)
  have hriichi : ∀ q < 4, cell row.x2 4 q = some ((o.reaches q : Nat) : Int) := cell1 4 _ (by rw [hx2]; rfl)
  have hipp : ∀ q < 4, cell row.x2 5 q = some ((o.ippatsu q : Nat) : Int) := cell1 5 _ (by rw [hx2]; rfl)
  have hmen : ∀ q < 4, cell row.x2 6 q = some ((s.is_menzen q : Nat) : Int) := cell1 6 _ (by rw [hx2]; rfl)
  constructor
  · rw [hx3, stateX3, ho.wall, ho.sticks, ho.honba, ho.rounds]
  · rw [hx2]
    refine ⟨rfl, ?_⟩
    intro l hl
    simp only [List.mem_cons, List.not_mem_nil, or_false] at hl
    rcases hl with rfl | rfl | rfl | rfl | rfl | rfl | rfl <;> first | exact hlen | exact hlen' | rfl
  · intro q hq n hn
    unfold cell
    rw [hx2]
    show o.scores[q]? = _
    rw [ho.scores q, hn]
    rfl
  · intro q hq
    rw [cell1 1 (fun p => if p = o.parent then 1 else 0) (by rw [hx2]; rfl) q hq, ho.dealer]
  · intro q hq
    unfold cell
    rw [hx2]
    show o.parent_rounds_remaining[q]? = _
    rw [ho.dealerships]
    simp [List.getElem?_range hq]
  · intro q hq
    rw [hdouble q hq]
    obtain ⟨h, h'⟩ := ho.double q
    rcases h with h | h
    · exact .inr ⟨by rw [h]; rfl, by rw [← h', h]; simp⟩
    · exact .inl ⟨by rw [h]; rfl, h'.1 h⟩
  · intro q hq
    rw [hriichi q hq, ho.riichi q]
    by_cases h : Act.accept q ∈ seen
    · exact .inl ⟨by rw [if_pos h]; rfl, h⟩
    · exact .inr ⟨by rw [if_neg h]; rfl, h⟩
  · obtain ⟨pre, b, h1, h2⟩ := hip
    refine ⟨pre, b, h1, ?_⟩
    intro q hq
    rw [hipp q hq]
    obtain ⟨h3, h4⟩ := h2 q hq
    rw [← h4]
    constructor
    · rcases h3 with h | h <;> simp [h]
    · simp
  · intro q hq
    rw [hmen q hq, C41_menzen hi hr q]
    by_cases h : acts.any (openCallBy q) = true
    · exact .inr ⟨by rw [if_pos h]; rfl, any_open.1 h⟩
    · exact .inl ⟨by rw [if_neg h]; rfl, fun hx => h (any_open.2 hx)⟩
  · rw [hx1]
    cases v with
    | ordered => rw [(C66_ordered o s (by rw [hpl]; exact hp)).1]; rfl
    | basic => rfl
    | conv => rfl
  · obtain ⟨held, h1, h2⟩ := hand_slots hi hhai hr hp
    refine ⟨plane v (s.hand_tensors p), held, ?_, h1, showsCounts_plane v (fun k _ => h2 k)⟩
    rw [hx1, ← hpl]
    cases v <;> rfl
  · refine ⟨plane v (s.remaining_tiles_pov p), ?_, showsCounts_plane v ?_⟩
    · rw [hx1, ← hpl]
      cases v <;> rfl
    · obtain ⟨h1, h2⟩ := C37_unseen_by_player_partial hi ⟨hhai, _, _, _, _, _, hseed⟩ hr p hp
      intro k hk
      by_cases h34 : k < 34
      · rw [if_pos h34, h1 k h34]
      · rw [if_neg h34, h2 k (by omega) hk]
  · intro i hi'
    by_cases hv : v = .ordered
    · subst hv
      have hi4 : i < 4 := hi'
      refine ⟨_, o.sutehai_tensors ((p + i) % 4), ?_, showsCounts_plane _ (fun k _ => rfl), hsut _⟩
      rw [hx1, (C66_ordered o s (by rw [hpl]; exact hp)).2 i hi4, hpl]
    · rw [if_neg hv] at hi'
      have : i = 0 := by omega
      subst this
      refine ⟨plane v (o.sutehai_tensors p), o.sutehai_tensors p, ?_, showsCounts_plane _ (fun k _ => rfl), ?_⟩
      · rw [hx1, ← hpl]
        cases v <;> first | rfl | exact absurd rfl hv
      · have : (p + 0) % 4 = p := by omega
        rw [this]
        exact hsut p

theorem Spec.AllPairs.trans {α β γ : Type} {R : α → β → Prop} {Q : β → γ → Prop} {as : List α} {bs : List β} {cs : List γ}
    (h : AllPairs R as bs) (h' : AllPairs Q bs cs) : AllPairs (fun a c => ∃ b ∈ bs, R a b ∧ Q b c) as cs := by
  induction h generalizing cs with
  | nil => cases h'; exact .nil
  | cons h1 _ ih =>
    cases h' with
    | cons h2 h3 =>
      refine .cons ⟨_, by simp, h1, h2⟩ ((ih h3).imp ?_)
      rintro a c _ ⟨b, hb, h⟩
      exact ⟨b, by simp [hb], h⟩

theorem Spec.AllPairs.filter {α β : Type} {R : α → β → Prop} {as : List α} {bs : List β} (h : AllPairs R as bs)
    {f : α → Bool} {k : β → Bool} (hf : ∀ a b, R a b → f a = k b) : AllPairs R (as.filter f) (bs.filter k) := by
  induction h with
  | nil => exact .nil
  | @cons a b _ _ h1 _ ih =>
    by_cases hb : k b = true
    · rw [List.filter_cons_of_pos (by rw [hf a b h1]; exact hb), List.filter_cons_of_pos hb]
      exact .cons h1 ih
    · rw [List.filter_cons_of_neg (by rw [hf a b h1]; exact hb), List.filter_cons_of_neg hb]
      exact ih

theorem rowsOf_base {v : Variant} {s : RoundSt} {tokens : List Nat} {t : HalfTurn} {rows : List Row} (hf : FourLists t)
    (h : RowsOf v s tokens t rows) : ∀ row ∈ rows, ∃ q, RowBase v s tokens t.obj t.position q row := by
  intro row hrow
  cases t with
  | during p o e a r n =>
    by_cases hne : a = [] ∧ r = [] ∧ n = []
    · simp only [RowsOf, if_pos hne] at h
      rw [h] at hrow
      cases hrow
    · simp only [RowsOf, if_neg hne] at h
      obtain ⟨row', rfl, hb, _⟩ := h
      simp only [List.mem_singleton] at hrow
      subst hrow
      exact ⟨_, hb⟩
  | discard p o e t =>
    obtain ⟨row', rfl, hb, _⟩ := h
    simp only [List.mem_singleton] at hrow
    subst hrow
    exact ⟨_, hb⟩
  | post q o e a n =>
    obtain ⟨h1, h2, h3⟩ := hf
    obtain ⟨pl, _, hpr⟩ := (h h2 h3 h1).mem_right hrow
    exact ⟨_, hpr.1⟩

/-- the tokens of the events `acts` and zeros, 150 entries in all -/
def ShowsEvents (acts : List Act) (row : List Nat) : Prop :=
  ∃ tokens : List Nat, tokens.map Except.ok = tokenStream none acts ∧ tokens.length < 150 ∧
    row = tokens ++ List.replicate (150 - tokens.length) 0

/-- which samples there are at a decision point, for whom, and which discard is the label -/
def PointRows (d : DecisionPoint) (rows : List Row) : Prop :=
  match d.kind with
  | .during => rows = [] ∨ ∃ row, rows = [row] ∧ row.player = d.who
  | .discard => ∃ row, rows = [row] ∧ row.player = d.who ∧ row.y = (d.tile / 4 : Nat)
  | .post => (rows.map (·.player)).Sublist [(d.who + 1) % 4, (d.who + 2) % 4, (d.who + 3) % 4]

/-- the half-turn of a decision point -/
def Spec.DecisionPoint.turn (d : DecisionPoint) : Turn :=
  match d.kind with
  | .during => .during d.who (tokensOf d.known)
  | .discard => .discard d.who (tokensOf d.known) d.tile
  | .post => .post d.who (tokensOf d.known)

theorem points_turns : ∀ (acts pre : List Act),
    (pointsFrom pre acts).map DecisionPoint.turn = turnsFrom (tokensOf pre) acts
  | [], pre => rfl
  | b :: bs, pre => by
    rw [pointsFrom, List.map_append, points_turns bs (pre ++ [b]), tokensOf_append, turnsFrom]
    congr 1
    · cases b with
      | call p c =>
        simp only [pointsOf, Act.turns]
        split
        · simp [DecisionPoint.turn, tokensOf, Act.tokenCount]
        · rfl
      | _ => rfl

theorem points_known : ∀ (acts pre : List Act), ∀ d ∈ pointsFrom pre acts, ∃ rest, pre ++ acts = d.known ++ rest
  | [], pre, d, hd => by simp [pointsFrom] at hd
  | b :: bs, pre, d, hd => by
    rw [pointsFrom, List.mem_append] at hd
    rcases hd with hd | hd
    · cases b with
      | call p c =>
        simp only [pointsOf] at hd
        split at hd
        · simp only [List.mem_singleton] at hd
          exact ⟨bs, by rw [hd]; simp⟩
        · simp at hd
      | draw p t =>
        simp only [pointsOf, List.mem_singleton] at hd
        exact ⟨_, by rw [hd]⟩
      | discard p t =>
        simp only [pointsOf, List.mem_cons, List.not_mem_nil, or_false] at hd
        rcases hd with hd | hd <;> exact ⟨_, by rw [hd]⟩
      | _ => simp [pointsOf] at hd
    · obtain ⟨rest, h⟩ := points_known bs (pre ++ [b]) d hd
      exact ⟨rest, by rw [← h]; simp⟩

theorem Spec.AllPairs.and_map {α β γ : Type} {R : α → β → Prop} {f : α → γ} {k : β → γ} {as : List α} {bs : List β}
    (h : AllPairs R as bs) (he : as.map f = bs.map k) : AllPairs (fun a b => R a b ∧ f a = k b) as bs := by
  induction h with
  | nil => exact .nil
  | cons h1 _ ih =>
    simp only [List.map_cons, List.cons.injEq] at he
    exact .cons ⟨h1, he.1⟩ (ih he.2)

theorem upTo_sublist (f : Nat → Bool) : ∀ l : List Nat, (upTo f l).Sublist l
  | [] => by simp [upTo]
  | x :: xs => by
    unfold upTo
    split
    · simp
    · exact (upTo_sublist f xs).cons₂ x

theorem map_player {v : Variant} {s : RoundSt} {tokens : List Nat} {o : StateObj} {e : Nat} {a : List (List AgariDecision)}
    {n : List (List NakiDecision)} {ps : List Nat} {rows : List Row} (h : AllPairs (PostRow v s tokens o e a n) ps rows) :
    rows.map (·.player) = ps := by
  induction h with
  | nil => rfl
  | cons h1 _ ih => rw [List.map_cons, ih, h1.1.2.2.2.2.2]

theorem rowsOf_pointRows {v : Variant} {s : RoundSt} {tokens : List Nat} {t : HalfTurn} {d : DecisionPoint} {rows : List Row}
    (hf : FourLists t) (h : RowsOf v s tokens t rows) (ht : d.turn = t.turn) : PointRows d rows := by
  obtain ⟨k, who, seen, known, tile⟩ := d
  unfold PointRows
  cases t with
  | during p o e a r n =>
    cases k <;> simp [DecisionPoint.turn, HalfTurn.turn] at ht
    obtain ⟨rfl, _⟩ := ht
    by_cases hne : a = [] ∧ r = [] ∧ n = []
    · simp only [RowsOf, if_pos hne] at h
      exact .inl h
    · simp only [RowsOf, if_neg hne] at h
      obtain ⟨row', rfl, hb, _⟩ := h
      exact .inr ⟨_, rfl, hb.2.2.2.2.2⟩
  | discard p o e t =>
    cases k <;> simp [DecisionPoint.turn, HalfTurn.turn] at ht
    obtain ⟨rfl, _, rfl⟩ := ht
    obtain ⟨row', rfl, hb, _, _, hy⟩ := h
    exact ⟨_, rfl, hb.2.2.2.2.2, hy⟩
  | post q o e a n =>
    cases k <;> simp [DecisionPoint.turn, HalfTurn.turn] at ht
    obtain ⟨rfl, _⟩ := ht
    obtain ⟨h1, h2, h3⟩ := hf
    show (rows.map (·.player)).Sublist _
    rw [map_player (h h2 h3 h1)]
    exact (upTo_sublist _ _).trans List.filter_sublist

theorem position_point {d : DecisionPoint} {t : HalfTurn} (h : d.turn = t.turn) : t.position = tokensOf d.known := by
  rw [← position_turn, ← h]
  unfold DecisionPoint.turn
  cases d.kind <;> rfl

theorem tokens_grow {c : RoundCfg} {s0 : RoundSt} {acts : List Act} {s : RoundSt} (hr : Reached c s0 acts s) :
    ∃ more, s.encoding_tokens = s0.encoding_tokens ++ more := by
  refine hr.induct (P := fun _ s => ∃ more, s.encoding_tokens = s0.encoding_tokens ++ more) ⟨[], by simp⟩ ?_
  rintro acts s act s' _ ⟨more, ih⟩ he
  cases he with
  | dora => exact ⟨more ++ [_], by rw [← List.append_assoc, ← ih]⟩
  | declare => exact ⟨more, ih⟩
  | accept => exact ⟨more ++ [_], by rw [← List.append_assoc, ← ih]⟩
  | draw hp e => exact ⟨more, by rw [congrArg RoundSt.encoding_tokens e.state_eq]; exact ih⟩
  | discard hp e =>
    exact ⟨more ++ [e.token], by rw [← List.append_assoc, ← ih, congrArg RoundSt.encoding_tokens e.state_eq]⟩
  | call e => exact ⟨more ++ [e.token], by rw [← List.append_assoc, ← ih, congrArg RoundSt.encoding_tokens e.state_eq]⟩

theorem shows_events {est : Estimate} {sh : List Int → Except PyErr Int} {g : GameInfo} {a : InitAttr}
    {c : RoundCfg} {s0 : RoundSt} (hi : initRound est sh g a = .ok (c, s0)) {known rest : List Act} {s : RoundSt}
    (hr : Reached c s0 (known ++ rest) s) {row : List Nat} (he : tokensOf known < 150)
    (h : TokensUpTo s.encoding_tokens (tokensOf known) row) : ShowsEvents known row := by
  obtain ⟨s1, h1, h2⟩ := hr.split known rest rfl
  have hlen := C44_count hi h1
  have htok := C44_tokens hi h1
  obtain ⟨more, hmore⟩ : ∃ more, s.encoding_tokens = s1.encoding_tokens ++ more := tokens_grow h2
  change s1.encoding_tokens.length = tokensOf known at hlen
  refine ⟨s1.encoding_tokens, htok, by omega, ?_⟩
  obtain ⟨k1, k2⟩ := h
  apply List.ext_getElem?
  intro i
  by_cases hi' : i < 150
  · rw [k2 i hi', hmore]
    by_cases hlt : i < tokensOf known
    · rw [if_pos hlt, List.getElem?_append_left (by omega), List.getD_eq_getElem?_getD,
        List.getElem?_append_left (by omega), List.getElem?_eq_getElem (by omega)]
      rfl
    · rw [if_neg hlt, List.getElem?_append_right (by omega), List.getElem?_replicate, if_pos (by omega)]
  · rw [List.getElem?_eq_none (by omega), List.getElem?_eq_none]
    simp
    omega

/-- the samples of one head, grouped by decision point, show the table of the log -/
def HeadShows (v : Variant) (hai : Nat → List Nat) (ten : List Int) (length round honba sticks first dealer : Nat)
    (acts : List Act) (k : TurnKind) (b : Batch) : Prop :=
  ∃ groups, b = ofRows groups.flatten ∧ AllPairs (fun (d : DecisionPoint) rows => PointRows d rows ∧ ∀ row ∈ rows,
    ShowsEvents d.known row.tokens ∧ Shown v hai ten length round honba sticks first dealer d.seen acts d.who row)
    ((pointsFrom [] acts).filter (fun d => decide (d.kind = k))) groups

/-- C120: the state tensors of every training sample show the table as the log has it: own-turn, discard and call samples
come from the decision points of the log in order, scores, riichi, sticks, discards as of the snapshot; hand, unseen tiles
and closed hands as of the end of the round. -/
theorem C120_shown_partial {est : Estimate} {sh : List Int → Except PyErr Int} {g : GameInfo} {a : InitAttr}
    {c : RoundCfg} {s0 : RoundSt} (hi : initRound est sh g a = .ok (c, s0)) {hai : Nat → List Nat} {ten : List Int}
    {round honba sticks x y first dealer : Nat} (hhai : ∀ p < 4, a.hai p = .ok (hai p)) (hten : a.ten = .ok ten)
    (hseed : a.seed = .ok [round, honba, sticks, x, y, first]) (hoya : a.oya = .ok dealer)
    {acts : List Act} {s : RoundSt} (hr : Reached c s0 acts s) (hk : KansByDrawer acts) {v : Variant} {d cc p : Batch}
    (h : buildTensors v s s.halfturns s.encoding_tokens = .ok (d, cc, p)) :
    HeadShows v hai ten g.n_rounds round honba sticks first dealer acts .during d ∧
    HeadShows v hai ten g.n_rounds round honba sticks first dealer acts .discard cc ∧
    HeadShows v hai ten g.n_rounds round honba sticks first dealer acts .post p := by
  have hf : ∀ t ∈ s.halfturns, FourLists t := fourLists_reached hi hr
  have hpl : ∀ t ∈ s.halfturns, t.obj.player < 4 := by
    obtain ⟨d⟩ := initRound_ok hi
    exact (obj_player_lt ⟨by rw [congrArg RoundSt.stateObj d.state_eq], by rw [congrArg RoundSt.halfturns d.state_eq]⟩ hr).2
  obtain ⟨b⟩ := buildTensors_rows hf h
  have hpt := (turns_at_points hi hten hseed hoya hr hk).and_map (f := DecisionPoint.turn) (k := HalfTurn.turn) (by
    rw [C43_halfturns hi hr]
    exact points_turns acts [])
  have key : ∀ (k : TurnKind) (f : HalfTurn → Bool) (groups : List (List Row)),
      (∀ (d : DecisionPoint) t, PointTurn ten g.n_rounds round honba sticks first dealer d t → decide (d.kind = k) = f t) →
      AllPairs (RowsOf v s s.encoding_tokens) (s.halfturns.filter f) groups →
      AllPairs (fun (d : DecisionPoint) rows => PointRows d rows ∧ ∀ row ∈ rows, ShowsEvents d.known row.tokens ∧
        Shown v hai ten g.n_rounds round honba sticks first dealer d.seen acts d.who row)
        ((pointsFrom [] acts).filter (fun d => decide (d.kind = k))) groups := by
    intro k f groups hkf hg
    refine ((hpt.filter (fun a b h => hkf a b h.1)).trans hg).imp ?_
    rintro d rows hd ⟨t, ht, ⟨h1, h3⟩, h2⟩
    have ht' := (List.mem_filter.1 ht).1
    refine ⟨rowsOf_pointRows (hf t ht') h2 h3, ?_⟩
    intro row hrow
    obtain ⟨q, hb⟩ := rowsOf_base (hf t ht') h2 row hrow
    refine ⟨?_, row_shown hi hhai hseed hr (by rw [← h1.1.1.player]; exact hpl t ht') h1.1 hb⟩
    obtain ⟨rest, hrest⟩ := points_known acts [] d (List.mem_filter.1 hd).1
    rw [List.nil_append] at hrest
    subst hrest
    have hb1 := hb.1
    have hb2 := hb.2.1
    rw [position_point h3] at hb1 hb2
    exact shows_events hi hr hb1 hb2
  refine ⟨⟨b.dg, b.d_eq, key _ _ _ ?_ b.during⟩, ⟨b.cg, b.c_eq, key _ _ _ ?_ b.discard⟩, ⟨b.pg, b.p_eq, key _ _ _ ?_ b.post⟩⟩
  · intro d t h
    rw [Bool.eq_iff_iff, decide_eq_true_iff]
    exact h.2.1
  · intro d t h
    rw [Bool.eq_iff_iff, decide_eq_true_iff]
    exact h.2.2.1
  · intro d t h
    rw [Bool.eq_iff_iff, decide_eq_true_iff]
    exact h.2.2.2

/-! ### the hand of the moment -/

/-- the samples of the discard head show the hands of the moment -/
def HandsShown (v : Variant) (hai : Nat → List Nat) (acts : List Act) (b : Batch) : Prop :=
  ∃ rows, b = ofRows rows ∧ AllPairs (fun (d : DecisionPoint) (row : Row) => ∃ slots held, row.x1[0]? = some slots ∧
    Concealed hai d.seen d.who held ∧ ShowsCounts v slots (fun k => (slotCount held k : Nat)))
    ((pointsFrom [] acts).filter (fun d => decide (d.kind = .discard))) rows

theorem passRound_hand (v : Variant) : okAnd passRound (fun s => okAnd (buildTensors v s s.halfturns s.encoding_tokens)
    (fun b => b.2.1.x1.map (fun x => ((x.getD 0 []).getD 30 []).getD 0 1) == [0])) = true := by
  cases v <;> decide +kernel

def oneTurn : List Act := [.draw 0 120, .discard 0 120]

theorem oneTurn_byDrawer : KansByDrawer oneTurn := by
  intro pre p c post he
  have : Act.call p c ∈ oneTurn := by rw [he]; simp
  simp [oneTurn] at this

/-- C120 is violated for the hand, in all models: the tile that is discarded is missing from the hand shown. -/
theorem C120_hand_violated (v : Variant) : ¬ ∀ (est : Estimate) (sh : List Int → Except PyErr Int) (g : GameInfo) (a : InitAttr)
    (c : RoundCfg) (s0 s : RoundSt) (hai : Nat → List Nat) (acts : List Act) (d cc p : Batch),
    initRound est sh g a = .ok (c, s0) → (∀ p < 4, a.hai p = .ok (hai p)) → Reached c s0 acts s → KansByDrawer acts →
    buildTensors v s s.halfturns s.encoding_tokens = .ok (d, cc, p) → HandsShown v hai acts cc := by
  intro h
  obtain ⟨s, hs, h1⟩ := okAnd_ok (passRound_hand v)
  obtain ⟨⟨d, cc, p⟩, hb, h2⟩ := okAnd_ok h1
  obtain ⟨c, s0, h3, h4⟩ := accepted_exact (acts := oneTurn)
    (evs := [.draw 0 (.ok 120), .discard 0 (.ok 120)]) hs rfl
  obtain ⟨rows, rfl, h5⟩ := h _ _ _ _ c s0 s (fun p => (deal.hai p).toOption.getD []) oneTurn d cc p h3
    (fun p hp => rfl) h4 oneTurn_byDrawer hb
  have he : (pointsFrom [] oneTurn).filter (fun d => decide (d.kind = .discard)) =
      [⟨.discard, 0, [.draw 0 120], [.draw 0 120], 120⟩] := rfl
  rw [he] at h5
  cases h5 with
  | cons h6 h7 =>
    cases h7
    obtain ⟨slots, held, k1, k2, k3⟩ := h6
    rename_i row
    simp only [ofRows, List.map_cons, List.map_nil, beq_iff_eq, List.cons.injEq, and_true] at h2
    have hmem : 120 ∈ held := (k2.2 120).2 (.inr ⟨[], [], rfl, by simp⟩)
    have hpos : 0 < slotCount held 30 := by
      unfold slotCount
      rw [List.countP_pos_iff]
      exact ⟨120, hmem, by decide⟩
    obtain ⟨cell, c1, c2, c3⟩ := k3.2 30 (by omega)
    rw [List.getD_eq_getElem?_getD, List.getD_eq_getElem?_getD, List.getD_eq_getElem?_getD, k1] at h2
    simp only [Option.getD_some, c1] at h2
    by_cases hv : v = .basic
    · rw [c2 hv] at h2
      simp at h2
      omega
    · rw [(c3 hv).2 0 (by omega), if_pos (by simpa using hpos)] at h2
      simp at h2

/-- the hypotheses of `C120_shown_partial` can be met; the round has one decision point of each kind -/
example (v : Variant) : ∃ c s0 s d cc p, initRound (fun q => .ok q.config.is_tsumo) farAway ⟨0⟩ deal = .ok (c, s0) ∧
    Reached c s0 oneTurn s ∧ KansByDrawer oneTurn ∧ buildTensors v s s.halfturns s.encoding_tokens = .ok (d, cc, p) ∧
    (pointsFrom [] oneTurn).map (·.kind) = [.during, .discard, .post] := by
  obtain ⟨s, hs, h1⟩ := okAnd_ok (passRound_hand v)
  obtain ⟨⟨d, cc, p⟩, hb, h2⟩ := okAnd_ok h1
  obtain ⟨c, s0, h3, h4⟩ := accepted_exact (acts := oneTurn)
    (evs := [.draw 0 (.ok 120), .discard 0 (.ok 120)]) hs rfl
  exact ⟨c, s0, s, d, cc, p, h3, h4, oneTurn_byDrawer, hb, rfl⟩

end MJ
