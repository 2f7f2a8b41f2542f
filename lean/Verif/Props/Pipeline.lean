import Verif.Props.Network
import Verif.Props.Tensors
import Verif.Props.RoundOrder
/-!
The network accepts whatever the tensor processor builds from accepted rounds.
-/
namespace MJ
open Spec Net

/-! ### tokens of accepted rounds -/

theorem token_type_le (e : TokenEvent) (hv : e.Valid) (n : Nat) (hn : e.token = .ok n) :
    (tokenFields (BitVec.ofNat 64 n)).embedding_type ≤ 4 := by
  have := (C69_lookups_partial (V := Int) ⟨0, fun _ => 0, fun _ => 0, fun _ => 0, fun _ => 0, fun _ => 0, fun _ => 0, fun _ => 0⟩
    0 0 (by decide)).2 e n hv hn
  exact ((C69_lookups_partial (V := Int) _ 0 0 (by decide)).1 _).1 this

theorem tokens_reached {est : Estimate} {sh : List Int → Except PyErr Int} {g : GameInfo} {a : InitAttr} {c : RoundCfg}
    {s0 : RoundSt} (hi : initRound est sh g a = .ok (c, s0)) {acts : List Act} {s : RoundSt} (hr : Reached c s0 acts s) :
    ∀ n ∈ s.encoding_tokens, ∃ e : TokenEvent, e.Valid ∧ e.token = .ok n := by
  obtain ⟨d⟩ := initRound_ok hi
  refine hr.induct (P := fun _ s => ∀ n ∈ s.encoding_tokens, ∃ e : TokenEvent, e.Valid ∧ e.token = .ok n) ?_ ?_
  · rw [congrArg RoundSt.encoding_tokens d.state_eq]
    intro n hn
    simp at hn
  · intro acts s act s' hr ih he
    have snoc : ∀ (e : TokenEvent) (tok : Nat), e.Valid → e.token = .ok tok →
        ∀ n ∈ s.encoding_tokens ++ [tok], ∃ e : TokenEvent, e.Valid ∧ e.token = .ok n := by
      intro e tok hv ht n hn
      rcases List.mem_append.1 hn with h | h
      · exact ih n h
      · simp only [List.mem_singleton] at h
        subst h
        exact ⟨e, hv, ht⟩
    cases he with
    | @dora t _ h1 h2 => exact snoc (.dora (t / 4)) _ trivial h2
    | declare => exact ih
    | @accept p _ _ _ _ h1 h2 h3 h4 h5 h6 => exact snoc (.reach p) _ trivial h6
    | draw hp e =>
      rw [e.state_eq]
      exact ih
    | @discard p t _ hp e =>
      rw [e.state_eq]
      exact snoc (.discard p (t / 4) (e.a == t)) _ hp e.token_eq
    | @call p code _ e =>
      rw [e.state_eq]
      exact snoc (.naki p code) _ trivial e.token_eq

/-! ### good rows -/

/-- a row that fits the network -/
structure RowGood (v : Variant) (h : HeadName) (r : Row) : Prop where
  tokens_len : r.tokens.length = 150
  tokens_ok : ∀ t ∈ r.tokens, (tokenFields (BitVec.ofNat 64 t)).embedding_type ≤ 4
  x1_len : r.x1.length = chan v ∧ ∀ c ∈ r.x1, c.length = 37 ∧ ∀ w ∈ c, w.length = width v
  x2_len : r.x2.length = 7 ∧ ∀ q ∈ r.x2, q.length = 4
  x3_len : r.x3.length = 4
  mask_len : r.mask.length = actionDim h
  mask_bin : ∀ k < actionDim h, r.mask[k]? = some 0 ∨ r.mask[k]? = some 1
  mask_any : ∃ k < actionDim h, r.mask[k]? = some 1
  label : 0 ≤ r.y ∧ r.y < (actionDim h : Int)

theorem embed_ok {v : Variant} {V : Type} [Zero V] [Add V] (T : Tables V) (player : Int) (pos : Nat) (hp : pos < 150) (t : BitVec 64)
    (ht : (tokenFields t).embedding_type ≤ 4) : ∃ e, embed v T player pos t = .ok e := by
  cases v with
  | basic => exact ⟨_, embedBasic_eq T pos t hp ht⟩
  | conv => exact ⟨_, embedBasic_eq T pos t hp ht⟩
  | ordered => exact ⟨_, embedOrdered_eq T player pos t hp ht⟩

theorem shapeOk_rows {v : Variant} {h : HeadName} {rows : List Row} (hg : ∀ r ∈ rows, RowGood v h r) :
    shapeOk v h (ofRows rows) = true := by
  have e : (ofRows rows).encodings.length = rows.length := by simp [ofRows]
  unfold shapeOk
  simp only [e]
  simp only [ofRows, List.length_map, beq_self_eq_true, Bool.and_true, List.all_map, Bool.or_true, Bool.and_eq_true,
    List.all_eq_true, Function.comp_def, beq_iff_eq]
  refine ⟨⟨⟨⟨?_, ?_⟩, ?_⟩, ?_⟩, ?_⟩
  · exact fun r hr => (hg r hr).tokens_len
  · exact fun r hr => ⟨(hg r hr).x1_len.1, (hg r hr).x1_len.2⟩
  · exact fun r hr => ⟨(hg r hr).x2_len.1, (hg r hr).x2_len.2⟩
  · exact fun r hr => (hg r hr).x3_len
  · exact fun r hr => (hg r hr).mask_len

theorem labelsOk_rows {v : Variant} {h : HeadName} {rows : List Row} (hg : ∀ r ∈ rows, RowGood v h r) :
    labelsOk h (ofRows rows) = true := by
  unfold labelsOk
  simp only [ofRows, List.all_map, List.all_eq_true, Function.comp_def, decide_eq_true_eq]
  exact fun r hr => (hg r hr).label

/-- the network evaluates every batch of good rows -/
theorem runBatch_rows {v : Variant} {h : HeadName} {rows : List Row} (hg : ∀ r ∈ rows, RowGood v h r) (gelu : ℝ → ℝ)
    (p : Params v) : ∃ o, runBatch v gelu p h (ofRows rows) = .ok o := by
  have e : (ofRows rows).encodings.length = rows.length := by simp [ofRows]
  have hlt : ∀ b : Fin (ofRows rows).encodings.length, ∃ r ∈ rows, rows[b.val]? = some r := by
    intro b
    have hb : b.val < rows.length := by rw [← e]; exact b.isLt
    exact ⟨rows[b.val], List.getElem_mem hb, List.getElem?_eq_getElem hb⟩
  have hrun : ∃ o, run gelu p (toInput v h (ofRows rows)) = .ok o := by
    let L : T2 (ofRows rows).encodings.length (actionDim h) := fun b => maskedLogits ((toInput v h (ofRows rows)).mask b)
      (rawLogits gelu p (toInput v h (ofRows rows)) (fun b t => ((embed v p.tables ((toInput v h (ofRows rows)).player b) t.val
        ((toInput v h (ofRows rows)).tokens b t)).toOption).getD 0) b)
    refine ⟨⟨L, (∑ b, crossEntropy (L b) ((toInput v h (ofRows rows)).y b)) / (ofRows rows).encodings.length⟩,
      run_ok.2 ⟨?_, ?_, ?_, rfl, rfl⟩⟩
    · intro b t
      obtain ⟨r, hr, hb⟩ := hlt b
      apply embed_ok _ _ _ t.isLt
      show (tokenFields (BitVec.ofNat 64 (((ofRows rows).encodings.getD b []).getD t 0))).embedding_type ≤ 4
      have : (ofRows rows).encodings.getD b [] = r.tokens := by simp [ofRows, List.getD, hb]
      rw [this]
      have htl : t.val < r.tokens.length := by rw [(hg r hr).tokens_len]; exact t.isLt
      rw [show r.tokens.getD t 0 = r.tokens[t.val] by simp [List.getD, htl]]
      exact (hg r hr).tokens_ok _ (List.getElem_mem htl)
    · intro b k
      obtain ⟨r, hr, hb⟩ := hlt b
      show (((ofRows rows).mask.getD b []).getD k 0 : Int) = 0 ∨ ((ofRows rows).mask.getD b []).getD k 0 = 1
      have : (ofRows rows).mask.getD b [] = r.mask := by simp [ofRows, List.getD, hb]
      rw [this]
      rcases (hg r hr).mask_bin k k.isLt with h | h
      · left; simp [List.getD, h]
      · right; simp [List.getD, h]
    · intro b
      obtain ⟨r, hr, hb⟩ := hlt b
      obtain ⟨k, hk, hk1⟩ := (hg r hr).mask_any
      refine ⟨⟨k, hk⟩, ?_⟩
      show (((ofRows rows).mask.getD b []).getD k 0 : Int) ≠ 0
      have : (ofRows rows).mask.getD b [] = r.mask := by simp [ofRows, List.getD, hb]
      rw [this]
      simp [List.getD, hk1]
  obtain ⟨o, ho⟩ := hrun
  refine ⟨o, ?_⟩
  unfold runBatch
  simp only [shapeOk_rows hg, labelsOk_rows hg, not_true_eq_false, if_false]
  exact ho

theorem plane_shape (v : Variant) (f : Nat → Int) : (plane v f).length = 37 ∧ ∀ w ∈ plane v f, w.length = width v := by
  refine ⟨by simp [plane], ?_⟩
  intro w hw
  simp only [plane, List.mem_map] at hw
  obtain ⟨k, _, rfl⟩ := hw
  cases v <;> simp [thermo]

theorem stateX1_shape (v : Variant) (o : StateObj) (s : RoundSt) :
    (stateX1 v o s).length = chan v ∧ ∀ c ∈ stateX1 v o s, c.length = 37 ∧ ∀ w ∈ c, w.length = width v := by
  cases v with
  | ordered =>
    constructor
    · simp only [stateX1, npRoll, List.length_append, List.length_map, List.length_drop, List.length_take, List.length_range,
        List.length_cons, List.length_nil, chan]
      omega
    · intro c hc
      simp only [stateX1, List.mem_append, List.mem_cons, List.not_mem_nil, or_false, List.mem_map] at hc
      rcases hc with (rfl | rfl) | ⟨f, _, rfl⟩ <;> exact plane_shape _ _
  | basic =>
    refine ⟨rfl, ?_⟩
    intro c hc
    simp only [stateX1, List.mem_cons, List.not_mem_nil, or_false] at hc
    rcases hc with rfl | rfl | rfl <;> exact plane_shape _ _
  | conv =>
    refine ⟨rfl, ?_⟩
    intro c hc
    simp only [stateX1, List.mem_cons, List.not_mem_nil, or_false] at hc
    rcases hc with rfl | rfl | rfl <;> exact plane_shape _ _

theorem stateX2_shape {o : StateObj} {s : RoundSt} {x2 : List (List Int)} (h : stateX2 o s = .ok x2) :
    x2.length = 7 ∧ ∀ q ∈ x2, q.length = 4 := by
  unfold stateX2 at h
  split at h
  · rename_i hl
    simp only [Except.ok.injEq] at h
    subst h
    refine ⟨rfl, ?_⟩
    intro q hq
    simp only [List.mem_cons, List.not_mem_nil, or_false] at hq
    rcases hq with rfl | rfl | rfl | rfl | rfl | rfl | rfl
    · exact hl.1
    · rfl
    · exact hl.2
    all_goals rfl
  · simp at h

theorem rowBase_good {v : Variant} {s : RoundSt} {tokens : List Nat} {o : StateObj} {e p : Nat} {r : Row} {h : HeadName}
    (htok : ∀ n ∈ tokens, (tokenFields (BitVec.ofNat 64 n)).embedding_type ≤ 4) (hb : RowBase v s tokens o e p r)
    (h1 : r.mask.length = actionDim h) (h2 : ∀ k < actionDim h, r.mask[k]? = some 0 ∨ r.mask[k]? = some 1)
    (h3 : ∃ k < actionDim h, r.mask[k]? = some 1) (h4 : 0 ≤ r.y ∧ r.y < (actionDim h : Int)) : RowGood v h r := by
  obtain ⟨he, ⟨ht1, ht2⟩, hx1, hx2, hx3, hp⟩ := hb
  refine ⟨ht1, ?_, by rw [hx1]; exact stateX1_shape v o s, stateX2_shape hx2, by rw [hx3]; rfl, h1, h2, h3, h4⟩
  intro t ht
  obtain ⟨i, hi, rfl⟩ := List.mem_iff_getElem.1 ht
  have := ht2 i (by omega)
  rw [List.getElem?_eq_getElem hi, Option.some.injEq] at this
  rw [this]
  have z : (tokenFields (BitVec.ofNat 64 0)).embedding_type ≤ 4 := by decide
  split
  · by_cases hlt : i < tokens.length
    · rw [show tokens.getD i 0 = tokens[i] by simp [List.getD, hlt]]
      exact htok _ (List.getElem_mem hlt)
    · rw [show tokens.getD i 0 = 0 by simp [List.getD, List.getElem?_eq_none (by omega : tokens.length ≤ i)]]
      exact z
  · exact z

theorem allows_bin {n : Nat} {m : List Int} {S : Nat → Prop} (h : Allows n m S) (k : Nat) (hk : k < n) :
    m[k]? = some 0 ∨ m[k]? = some 1 := by
  by_cases hs : S k
  · exact .inr (h.2.1 k hs).2
  · exact .inl (h.2.2 k hk hs)

theorem ownLabel_lt {a : List AgariDecision} {r : List ReachDecision} {n : List NakiDecision} {m : List Int} {y : Int}
    (hm : Allows 71 m (OwnAllowed a r n)) (hl : LastExecuted ownAction n 2 y) : 0 ≤ y ∧ y < 71 := by
  rcases hl with ⟨l1, d, l2, rfl, _, _, ha⟩ | ⟨_, rfl⟩
  · obtain ⟨k, hk, rfl⟩ := ha
    have := (hm.2.1 k (.inr (.inr (.inr ⟨d, by simp, k, hk, rfl⟩)))).1
    omega
  · omega

theorem goodRows_during {v : Variant} {s : RoundSt} {tokens : List Nat} {t : HalfTurn} {g : List Row}
    (htok : ∀ n ∈ tokens, (tokenFields (BitVec.ofNat 64 n)).embedding_type ≤ 4) (ht : t.isDuring = true)
    (hR : RowsOf v s tokens t g) : ∀ r ∈ g, RowGood v .during r := by
  cases t with
  | discard => simp [HalfTurn.isDuring] at ht
  | post => simp [HalfTurn.isDuring] at ht
  | during p o e a r n =>
    simp only [RowsOf] at hR
    split at hR
    · subst hR; simp
    · obtain ⟨row, rfl, hb, hm, hl⟩ := hR
      intro r' hr'
      simp only [List.mem_singleton] at hr'
      subst hr'
      exact rowBase_good htok hb hm.1 (allows_bin hm) ⟨0, by decide, (hm.2.1 0 (.inl rfl)).2⟩ (ownLabel_lt hm hl)

theorem goodRows_post {v : Variant} {s : RoundSt} {tokens : List Nat} {t : HalfTurn} {g : List Row}
    (htok : ∀ n ∈ tokens, (tokenFields (BitVec.ofNat 64 n)).embedding_type ≤ 4) (ht : t.isPost = true) (hf : FourLists t)
    (hR : RowsOf v s tokens t g) : ∀ r ∈ g, RowGood v .post r := by
  cases t with
  | discard => simp [HalfTurn.isPost] at ht
  | during => simp [HalfTurn.isPost] at ht
  | post q o e a n =>
    obtain ⟨h1, h3, h4⟩ := hf
    have hp := hR h3 h4 h1
    intro r hr
    obtain ⟨p, _, hb, hm, hl⟩ := hp.mem_right hr
    obtain ⟨k, hk, hk2⟩ := label_allowed hl
    refine rowBase_good htok hb hm.1 (allows_bin hm) ⟨0, by decide, (hm.2.1 0 (.inl rfl)).2⟩ ?_
    have := (hm.2.1 k hk2).1
    rw [hk]
    show 0 ≤ (k : Int) ∧ (k : Int) < (154 : Nat)
    omega

theorem goodRows_discard {v : Variant} {s : RoundSt} {tokens : List Nat} {t : HalfTurn} {g : List Row}
    (htok : ∀ n ∈ tokens, (tokenFields (BitVec.ofNat 64 n)).embedding_type ≤ 4) (ht : t.isDiscard = true)
    (hnn : ∀ p k, k < 37 → 0 ≤ s.hand_tensors p k) (hR : RowsOf v s tokens t g)
    (hone : ∀ r ∈ g, r.mask.any (fun x => x != 0) = true) : ∀ r ∈ g, RowGood v .discard r := by
  cases t with
  | post => simp [HalfTurn.isDiscard] at ht
  | during => simp [HalfTurn.isDiscard] at ht
  | discard p o e t =>
    obtain ⟨row, rfl, hb, hm, ht, hy⟩ := hR
    intro r' hr'
    simp only [List.mem_singleton] at hr'
    subst hr'
    have hbin : ∀ k < 37, r'.mask[k]? = some 0 ∨ r'.mask[k]? = some 1 := by
      intro k hk
      have := hnn o.player k hk
      rw [hm]
      simp only [List.getElem?_map, List.getElem?_range hk, Option.map_some, Option.some.injEq]
      omega
    have hlen : r'.mask.length = 37 := by simp [hm]
    refine rowBase_good htok hb hlen hbin ?_ ?_
    · have := hone r' (by simp)
      obtain ⟨x, hx, hne⟩ := List.any_eq_true.1 this
      obtain ⟨k, hk, rfl⟩ := List.mem_iff_getElem.1 hx
      refine ⟨k, by show k < 37; omega, ?_⟩
      rcases hbin k (by omega) with h | h
      · rw [List.getElem?_eq_getElem hk, Option.some.injEq] at h
        simp [h] at hne
      · exact h
    · rw [hy]
      show 0 ≤ ((t / 4 : Nat) : Int) ∧ ((t / 4 : Nat) : Int) < (37 : Nat)
      omega

theorem hand_nonneg {est : Estimate} {sh : List Int → Except PyErr Int} {g : GameInfo} {a : InitAttr} {c : RoundCfg}
    {s0 : RoundSt} (hi : initRound est sh g a = .ok (c, s0)) {acts : List Act} {s : RoundSt} (hr : Reached c s0 acts s)
    (p k : Nat) (hk : k < 37) : 0 ≤ s.hand_tensors p k := by
  obtain ⟨hbit, _, hkind, e1, e2, e3⟩ := C33_hand_tensors hi hr p
  by_cases hk34 : k < 34
  · rw [hkind k hk34]; omega
  · have : k = 34 ∨ k = 35 ∨ k = 36 := by omega
    rcases this with rfl | rfl | rfl
    · rw [e1]; rcases hbit 16 with h | h <;> omega
    · rw [e2]; rcases hbit 52 with h | h <;> omega
    · rw [e3]; rcases hbit 88 with h | h <;> omega

/-- an accepted round -/
def Spec.AcceptedRound (s : RoundSt) : Prop :=
  ∃ (est : Estimate) (sh : List Int → Except PyErr Int) (g : GameInfo) (a : InitAttr) (evs : List Ev),
    processRound est sh g a evs = .ok s

/-- all rows built from an accepted round fit the network -/
theorem accepted_good {s : RoundSt} (hs : AcceptedRound s) {v : Variant} {dr cr pr : List Row}
    (h : buildTensors v s s.halfturns s.encoding_tokens = .ok (ofRows dr, ofRows cr, ofRows pr)) :
    (∀ r ∈ dr, RowGood v .during r) ∧ (∀ r ∈ cr, RowGood v .discard r) ∧ ∀ r ∈ pr, RowGood v .post r := by
  obtain ⟨est, sh, g, a, evs, hs⟩ := hs
  have hf := fourLists_accepted hs
  obtain ⟨cf, s0, acts, rest, h1, _, _, _, h2⟩ := accepted_reached hs
  have htok : ∀ n ∈ s.encoding_tokens, (tokenFields (BitVec.ofNat 64 n)).embedding_type ≤ 4 := by
    intro n hn
    obtain ⟨e, hv, he⟩ := tokens_reached h1 h2 n hn
    exact token_type_le e hv n he
  obtain ⟨b⟩ := buildTensors_rows hf h
  have inj : ∀ r1 r2 : List Row, ofRows r1 = ofRows r2 → r1 = r2 := by
    intro r1
    induction r1 with
    | nil =>
      intro r2 h
      cases r2 with
      | nil => rfl
      | cons => simp [ofRows] at h
    | cons x xs ih =>
      intro r2 h
      cases r2 with
      | nil => simp [ofRows] at h
      | cons y ys =>
        simp only [ofRows, List.map_cons, Batch.mk.injEq, List.cons.injEq] at h
        obtain ⟨⟨a1, a2⟩, ⟨b1, b2⟩, ⟨c1, c2⟩, ⟨d1, d2⟩, ⟨e1, e2⟩, ⟨f1, f2⟩, ⟨g1, g2⟩⟩ := h
        have : xs = ys := ih ys (by simp only [ofRows, Batch.mk.injEq]; exact ⟨a2, b2, c2, d2, e2, f2, g2⟩)
        subst this
        cases x; cases y
        simp only at a1 b1 c1 d1 e1 f1 g1
        subst a1 b1 c1 d1 e1 f1 g1
        rfl
  have ed := inj _ _ b.d_eq
  have ec := inj _ _ b.c_eq
  have ep := inj _ _ b.p_eq
  refine ⟨?_, ?_, ?_⟩
  · intro r hr
    rw [ed] at hr
    obtain ⟨g, hg, hrg⟩ := List.mem_flatten.1 hr
    obtain ⟨t, ht, hR⟩ := b.during.mem_right hg
    exact goodRows_during htok (List.mem_filter.1 ht).2 hR r hrg
  · intro r hr
    rw [ec] at hr
    obtain ⟨g, hg, hrg⟩ := List.mem_flatten.1 hr
    obtain ⟨t, ht, hR⟩ := b.discard.mem_right hg
    refine goodRows_discard htok (List.mem_filter.1 ht).2 (hand_nonneg h1 h2) hR ?_ r hrg
    intro r' hr'
    have := b.c_one
    simp only [oneAllowed, List.all_eq_true] at this
    exact this _ (List.mem_map.2 ⟨r', by rw [ec]; exact List.mem_flatten.2 ⟨g, hg, hr'⟩, rfl⟩)
  · intro r hr
    rw [ep] at hr
    obtain ⟨g, hg, hrg⟩ := List.mem_flatten.1 hr
    obtain ⟨t, ht, hR⟩ := b.post.mem_right hg
    obtain ⟨ht1, ht2⟩ := List.mem_filter.1 ht
    exact goodRows_post htok ht2 (hf t ht1) hR r hrg

/-! ### C100 -/

theorem forwardLoop_total {R : Type} {sample : Bool} {size : Nat} {perm : Nat → List Nat}
    (hp : ∀ n, (perm n).Perm (List.range n)) {run : HeadName → Batch → Except PyErr R} :
    ∀ (l : List (HeadName × List Row)),
      (∀ x ∈ l, ∀ rows : List Row, (∀ r ∈ rows, r ∈ x.2) → ∃ r, run x.1 (ofRows rows) = .ok r) →
      ∃ out, forwardLoop sample size perm run (l.map (fun x => (x.1, ofRows x.2))) = .ok out
  | [], _ => ⟨[], rfl⟩
  | (hd, rows) :: l, h => by
    obtain ⟨out, ho⟩ := forwardLoop_total (sample := sample) (size := size) hp l (fun x hx => h x (by simp [hx]))
    simp only [List.map_cons, forwardLoop]
    split
    · exact ⟨out, ho⟩
    · obtain ⟨used, hu, hs⟩ := sample_ofRows (sample := sample) (size := size) hp rows
      have hsub : ∀ r ∈ used, r ∈ rows := by
        unfold Selected at hs
        split at hs
        · obtain ⟨_, rest, hperm⟩ := hs
          exact fun r hr => hperm.mem_iff.1 (by simp [hr])
        · subst hs; exact fun r hr => hr
      obtain ⟨r, hr⟩ := h (hd, rows) (by simp) used hsub
      rw [hu]
      exact ⟨(hd, ofRows used, r) :: out, by simp only [hr, ho]; rfl⟩

/-- C100: when tensors can be built from games of accepted rounds, the network accepts them: no assertion, no shape or index
error, with or without sampling, for all parameters. -/
theorem C100_network_accepts {v : Variant} {games : List (List RoundSt)} (hs : ∀ s ∈ games.flatten, AcceptedRound s)
    {d c p : Batch} (h : prepareBatches v (gameTurns games) (gameTokens games) = .ok (d, c, p)) (gelu : ℝ → ℝ)
    (params : Params v) (sample : Bool) (size : Nat) {perm : Nat → List Nat} (hp : ∀ n, (perm n).Perm (List.range n)) :
    ∃ out, forward sample size perm (runRows v gelu params) d c p = .ok out := by
  have hf : ∀ s ∈ games.flatten, ∀ t ∈ s.halfturns, FourLists t := by
    intro s hs'
    obtain ⟨est, sh, g, a, evs, hs''⟩ := hs s hs'
    exact fourLists_accepted hs''
  obtain ⟨rows, h1, rfl, rfl, rfl⟩ := C64_batches hf h
  have good : ∀ x ∈ rows, (∀ r ∈ x.1, RowGood v .during r) ∧ (∀ r ∈ x.2.1, RowGood v .discard r) ∧
      ∀ r ∈ x.2.2, RowGood v .post r := by
    intro x hx
    obtain ⟨s, hsm, hb⟩ := h1.mem_right hx
    exact accepted_good (hs s hsm) hb
  have hrun : ∀ (hd : HeadName) (all : List Row), (∀ r ∈ all, RowGood v hd r) → ∀ used : List Row, (∀ r ∈ used, r ∈ all) →
      ∃ r, runRows v gelu params hd (ofRows used) = .ok r := by
    intro hd all hg used hu
    obtain ⟨o, ho⟩ := runBatch_rows (h := hd) (rows := used) (fun r hr => hg r (hu r hr)) gelu params
    exact ⟨_, by simp only [runRows, ho]; rfl⟩
  apply forwardLoop_total hp [(.during, _), (.discard, _), (.post, _)]
  intro x hx
  simp only [List.mem_cons, List.not_mem_nil, or_false] at hx
  rcases hx with rfl | rfl | rfl
  · exact hrun _ _ (fun r hr => by
      obtain ⟨x, hx, hr⟩ := List.mem_flatMap.1 hr
      exact (good x hx).1 r hr)
  · exact hrun _ _ (fun r hr => by
      obtain ⟨x, hx, hr⟩ := List.mem_flatMap.1 hr
      exact (good x hx).2.1 r hr)
  · exact hrun _ _ (fun r hr => by
      obtain ⟨x, hx, hr⟩ := List.mem_flatMap.1 hr
      exact (good x hx).2.2 r hr)

/-- accepted rounds whose tensors can be built exist -/
example (v : Variant) : ∃ s, AcceptedRound s ∧ ∃ d c p, prepareBatches v (gameTurns [[s]]) (gameTokens [[s]]) = .ok (d, c, p) := by
  obtain ⟨s, hs, h⟩ := okAnd_ok (passRound_tensors v)
  simp only [Bool.and_eq_true] at h
  obtain ⟨⟨d, c, p⟩, hb, -⟩ := okAnd_ok h.1
  refine ⟨s, ⟨_, _, _, _, _, hs⟩, ?_⟩
  have hz : zipRounds (gameTurns [[s]]) (gameTokens [[s]]) = [((s, s.halfturns), s.encoding_tokens)] := by
    rw [zipRounds_games]; rfl
  simp only [prepareBatches, hz, List.mapM_cons, List.mapM_nil, hb]
  refine ⟨Batch.cat [d], Batch.cat [c], Batch.cat [p], ?_⟩
  show stackBatches v [d] [c] [p] = _
  simp [stackBatches]

end MJ
