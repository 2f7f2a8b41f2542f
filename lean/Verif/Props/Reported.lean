import Verif.Props.Alone
import Verif.Props.Builds
import Verif.Props.LossFloat
import Verif.Props.Learning
/-!
C170: what the reported loss tells about the play.
-/
namespace MJ
open Real Finset

/-- the loss of a sample is near 10^9 if the mask forbids its label and near 0 if not, up to a bound that depends on the logits of
the allowed actions only -/
theorem loss_near {n : ℕ} (hn : n ≤ 154) (mask : Fin n → Int) (l : Fin n → ℝ) {c : ℝ} (hl : ∀ a, mask a ≠ 0 → |l a| ≤ c)
    (hm : ∃ a, mask a ≠ 0) (y : Fin n) :
    |crossEntropy (maskedLogits mask l) y - (if mask y = 0 then 1000000000 else 0)| ≤ 2 * c + 6 := by
  obtain ⟨a, ha⟩ := hm
  have hca := abs_le.1 (hl a ha)
  have hc : 0 ≤ c := (abs_nonneg _).trans (hl a ha)
  have hup : ∑ i, exp (maskedLogits mask l i) ≤ 256 * exp c := by
    calc ∑ i, exp (maskedLogits mask l i) ≤ ∑ _i : Fin n, exp c := by
          refine sum_le_sum fun i _ => exp_le_exp.2 ?_
          unfold maskedLogits
          split
          · linarith
          · rename_i hi
            exact (abs_le.1 (hl i hi)).2
      _ = n * exp c := by simp
      _ ≤ 256 * exp c := by
          have : (n : ℝ) ≤ 154 := by exact_mod_cast hn
          have := exp_pos c
          nlinarith
  have hlow : exp (-c) ≤ ∑ i, exp (maskedLogits mask l i) := by
    refine le_trans ?_ (single_le_sum (f := fun i => exp (maskedLogits mask l i)) (fun i _ => (exp_pos _).le) (mem_univ a))
    refine exp_le_exp.2 ?_
    rw [maskedLogits, if_neg ha]
    exact hca.1
  have h1 := log_le_log (exp_pos _) hlow
  have h2 := log_le_log ((exp_pos _).trans_le hlow) hup
  rw [log_exp] at h1
  have h256 : log 256 ≤ 5.6 := by
    rw [show (256 : ℝ) = 2 ^ 8 by norm_num, log_pow]
    have := log_two_lt_d9
    push_cast
    linarith
  rw [log_mul (by norm_num) (exp_ne_zero _), log_exp] at h2
  unfold crossEntropy
  generalize log (∑ i, exp (maskedLogits mask l i)) = L at *
  by_cases hy : mask y = 0
  · rw [if_pos hy, maskedLogits, if_pos hy, abs_le]
    constructor <;> linarith
  · have := abs_le.1 (hl y hy)
    rw [if_neg hy, maskedLogits, if_neg hy, abs_le]
    constructor <;> linarith

end MJ
namespace MJ
open Spec Net

/-- the mask of the sample does not allow its label -/
def Spec.forbidden (r : Row) : Bool := r.mask.getD r.y.toNat 0 == 0

/-- C170: the loss of one sample: near 10^9 if its label is forbidden and near 0 otherwise. -/
theorem C170_sample {v : Variant} {h : HeadName} {r : Row} {X : Input v h 1} (hX : Enters r X) {gelu : ℝ → ℝ} {p : Params v}
    {o : Output h 1} (ho : run gelu p X = .ok o) {c : ℝ} (hc : ∀ a, outputBound p.ln_f (p.heads h) a ≤ c) :
    |o.loss - (if forbidden r then 1000000000 else 0)| ≤ 2 * c + 6 := by
  obtain ⟨-, -, h3, h4, h5⟩ := run_ok.1 ho
  have hf : (forbidden r = true) ↔ X.mask 0 (X.y 0) = 0 := by
    have h1 := hX.mask (X.y 0)
    have h2 := hX.label
    have h6 : r.y.toNat = (X.y 0).val := by omega
    rw [forbidden, h6, beq_iff_eq, List.getD, h1, Option.getD_some]
  have hd : actionDim h ≤ 154 := by cases h <;> decide
  have := loss_near hd (X.mask 0) _ (fun a _ => (rawLogits_bound gelu p X
    (fun b t => ((embed v p.tables (X.player b) t.val (X.tokens b t)).toOption).getD 0) 0 a).trans (hc a)) (h3 0) (X.y 0)
  rw [h5, h4]
  simp only [Finset.univ_unique, Fin.default_eq_zero, Fin.isValue, Finset.sum_singleton, Nat.cast_one, div_one, hf]
  exact this

/-- C170: the loss of a batch: 10^9 times the share of the forbidden labels, up to a number that depends on the two last layers
only. -/
theorem C170_batch {v : Variant} {h : HeadName} {used : List Row} {gelu : ℝ → ℝ} {p : Params v} {result : List (List ℝ) × ℝ}
    (he : EvaluatedAlone v gelu p h used result) (hne : used ≠ []) {c : ℝ} (hc : ∀ a, outputBound p.ln_f (p.heads h) a ≤ c) :
    |result.2 - 1000000000 * (used.countP forbidden / used.length)| ≤ 2 * c + 6 := by
  obtain ⟨os, h1, -, h2⟩ := he
  have key : |(os.map (·.loss)).sum - 1000000000 * used.countP forbidden| ≤ (2 * c + 6) * used.length := by
    clear hne h2
    induction h1 with
    | nil => simp
    | @cons r o rs os h _ ih =>
      obtain ⟨X, hX, ho⟩ := h
      have h3 := C170_sample hX ho hc
      simp only [List.map_cons, List.sum_cons, List.countP_cons, List.length_cons, Nat.cast_add, Nat.cast_one]
      rw [abs_le] at ih h3 ⊢
      by_cases hf : forbidden r = true
      · simp only [hf, if_true, Nat.cast_one] at h3 ⊢
        constructor <;> linarith
      · simp only [hf, if_false, Nat.cast_zero, Bool.false_eq_true] at h3 ⊢
        constructor <;> linarith
  have hl : (0 : ℝ) < used.length := by exact_mod_cast List.length_pos_iff.2 hne
  rw [h2, avg, List.length_map, ← h1.length, ← mul_div_assoc, ← sub_div, abs_div, abs_of_pos hl, div_le_iff₀ hl]
  exact key

/-- of how many samples of a round the label is forbidden: draws with a decision at which riichi is not possible and no kan is made;
discards of a kind of which the player has no tile at the end of the round; no calls -/
def Spec.forbiddenIn (s : RoundSt) : HeadName → Nat
  | .during => (s.halfturns.filter HalfTurn.decides).countP fun
    | .during _ _ _ _ r n => r.isEmpty && n.all (fun d => !d.executed)
    | _ => false
  | .discard => (s.halfturns.filter HalfTurn.isDiscard).countP fun
    | .discard _ o _ t => decide (s.hand_tensors o.player (t / 4) ≤ 0)
    | _ => false
  | .post => 0

theorem Spec.AllPairs.countP {α β : Type} {R : α → β → Prop} {as : List α} {bs : List β} (h : AllPairs R as bs) {f : α → Bool}
    {g : β → Bool} (hi : ∀ a b, a ∈ as → R a b → f a = g b) : as.countP f = bs.countP g := by
  induction h with
  | nil => rfl
  | cons h1 _ ih =>
    rw [List.countP_cons, List.countP_cons, ih (fun a b ha => hi a b (by simp [ha])), hi _ _ (by simp) h1]

theorem ownAction_ge {d : NakiDecision} {k : Nat} (h : ownAction d k) : 3 ≤ k := by
  obtain ⟨j, h1, h2⟩ := h
  have : k = j := by omega
  subst this
  unfold Code.get_during_turn_filter_idx at h1
  split at h1
  · simp only [Except.ok.injEq] at h1; omega
  · split at h1
    · simp only [Except.ok.injEq] at h1; omega
    · cases h1

/-- C170: which labels are forbidden can be seen from the round. -/
theorem C170_round {s : RoundSt} (hs : AcceptedRound s) {v : Variant} {dr cr pr : List Row}
    (h : buildTensors v s s.halfturns s.encoding_tokens = .ok (ofRows dr, ofRows cr, ofRows pr)) :
    dr.countP forbidden = forbiddenIn s .during ∧ cr.countP forbidden = forbiddenIn s .discard ∧
      pr.countP forbidden = forbiddenIn s .post := by
  have inj : ∀ r1 r2 : List Row, ofRows r1 = ofRows r2 → r1 = r2 := by
    intro r1
    induction r1 with
    | nil =>
      intro r2 h
      cases r2 with
      | nil => rfl
      | cons => simp [ofRows] at h
    | cons x xs ih =>
      intro r2 h
      cases r2 with
      | nil => simp [ofRows] at h
      | cons y ys =>
        simp only [ofRows, List.map_cons, Batch.mk.injEq, List.cons.injEq] at h
        obtain ⟨⟨a1, a2⟩, ⟨b1, b2⟩, ⟨c1, c2⟩, ⟨d1, d2⟩, ⟨e1, e2⟩, ⟨f1, f2⟩, ⟨g1, g2⟩⟩ := h
        have : xs = ys := ih ys (by simp only [ofRows, Batch.mk.injEq]; exact ⟨a2, b2, c2, d2, e2, f2, g2⟩)
        subst this
        cases x; cases y
        simp only at a1 b1 c1 d1 e1 f1 g1
        subst a1 b1 c1 d1 e1 f1 g1
        rfl
  obtain ⟨est, sh, g, a, evs, hs⟩ := hs
  have hf := fourLists_accepted hs
  refine ⟨?_, ?_, ?_⟩
  · obtain ⟨⟨rows, e, hr, -⟩, -, -⟩ := head_rows hf h
    obtain rfl := inj _ _ e
    refine (hr.countP ?_).symm
    intro t row ht hrow
    obtain ⟨p, o, e, a, r, n, rfl, hne⟩ := decides_during (List.mem_filter.1 ht).2
    simp only [RowsOf, if_neg hne] at hrow
    obtain ⟨row', hrow', -, hm, hl⟩ := hrow
    simp only [List.cons.injEq, and_true] at hrow'
    subst hrow'
    dsimp only
    rw [forbidden, List.getD]
    rcases hl with ⟨l1, d, l2, rfl, hd, -, k, hk, hy⟩ | ⟨hn, hy⟩
    · have h1 := (hm.2.1 k (.inr (.inr (.inr ⟨d, by simp, k, hk, rfl⟩)))).2
      rw [hy, Int.toNat_natCast, h1]
      simp [hd]
    · rw [hy]
      have hall : n.all (fun d => !d.executed) = true := by
        rw [List.all_eq_true]
        intro x hx
        simp [hn x hx]
      rw [hall, Bool.and_true]
      cases r with
      | nil =>
        have h1 := hm.2.2 2 (by omega) (by
          rintro (h | ⟨h, -⟩ | ⟨-, h⟩ | ⟨d, -, h⟩)
          · omega
          · omega
          · exact h rfl
          · have := ownAction_ge h
            omega)
        simp [h1]
      | cons x xs =>
        have h1 := (hm.2.1 2 (.inr (.inr (.inl ⟨rfl, by simp⟩)))).2
        simp [h1]
  · obtain ⟨rows, e, hr⟩ := C59_discard_rows_partial hs h
    obtain rfl := inj _ _ e
    refine (hr.countP ?_).symm
    intro t row ht hrow
    cases t with
    | during => exact hrow.elim
    | post => exact hrow.elim
    | discard p o e t =>
      obtain ⟨-, h1, h2, h3⟩ := hrow
      dsimp only
      rw [forbidden, h3, Int.toNat_natCast, List.getD, h1 _ (by omega)]
      by_cases h4 : 0 < s.hand_tensors o.player (t / 4)
      · simp [h4]
      · simp [h4, not_lt.1 h4]
  · obtain ⟨groups, e, hr⟩ := C62_call_rows hf h
    obtain rfl := inj _ _ e
    rw [forbiddenIn, List.countP_eq_zero]
    intro row hrow
    obtain ⟨rows, hrows, hrow⟩ := List.mem_flatten.1 hrow
    obtain ⟨t, -, hc⟩ := hr.mem_right hrows
    cases t with
    | during => exact hc.elim
    | discard => exact hc.elim
    | post q o e a n =>
      obtain ⟨pl, -, -, -, -, -, k, hk, -, hk2⟩ := AllPairs.mem_right hc hrow
      simp [forbidden, hk, hk2]

/-- C170: what would repair the draws: what the player really did (C60) is allowed by the mask in every case. -/
theorem C170_repair {s : RoundSt} (hs : AcceptedRound s) {v : Variant} {d c p : Batch}
    (h : buildTensors v s s.halfturns s.encoding_tokens = .ok (d, c, p)) :
    AllPairs (fun t mask => ∀ y, OwnLabelSpec t y → ∃ k : Nat, y = k ∧ mask[k]? = some 1) (s.halfturns.filter HalfTurn.decides) d.mask := by
  obtain ⟨est, sh, g, a, evs, hs⟩ := hs
  refine (C61_own_masks (fourLists_accepted hs) h).imp ?_
  intro t mask ht hm y hy
  cases t with
  | discard => exact hm.elim
  | post => exact hm.elim
  | during p o e a r n =>
    have hm := hm.1.2.1
    simp only [OwnLabelSpec] at hy
    split at hy
    · rename_i ha
      exact ⟨1, hy, (hm 1 (.inr (.inl ⟨rfl, by rintro rfl; simp at ha⟩))).2⟩
    · split at hy
      · rename_i hr
        exact ⟨2, hy, (hm 2 (.inr (.inr (.inl ⟨rfl, by rintro rfl; simp at hr⟩)))).2⟩
      · rcases hy with ⟨l1, d, l2, rfl, -, -, k, hk, rfl⟩ | ⟨-, rfl⟩
        · exact ⟨k, rfl, (hm k (.inr (.inr (.inr ⟨d, by simp, k, hk, rfl⟩)))).2⟩
        · exact ⟨0, rfl, (hm 0 (.inl rfl)).2⟩

/-- C170: so the loss that is reported for a batch of accepted games is, for each head, 10^9 times the share of forbidden labels
among the samples that are used, up to a number that depends on the two last layers only; without sampling the forbidden labels are
those of all rounds. -/
theorem C170_games_partial {v : Variant} {games : List (List RoundSt)} (hs : ∀ s ∈ games.flatten, AcceptedRound s)
    {d c p : Batch} (h : prepareBatches v (gameTurns games) (gameTokens games) = .ok (d, c, p)) (gelu : ℝ → ℝ)
    (params : Params v) (sample : Bool) {size : Nat} (hsz : 0 < size) {perm : Nat → List Nat}
    (hp : ∀ n, (perm n).Perm (List.range n)) {out : List (HeadName × Batch × List (List ℝ) × ℝ)}
    (ho : forward sample size perm (runRows v gelu params) d c p = .ok out) (hd : HeadName) (b : Batch) (ls : List (List ℝ))
    (loss : ℝ) (hmem : (hd, b, ls, loss) ∈ out) {k : ℝ} (hk : ∀ a, outputBound params.ln_f (params.heads hd) a ≤ k) :
    ∃ used, b = ofRows used ∧ used ≠ [] ∧ |loss - 1000000000 * (used.countP forbidden / used.length)| ≤ 2 * k + 6 ∧
      used.countP forbidden ≤ (games.flatten.map (forbiddenIn · hd)).sum ∧
      (sample = false → used.countP forbidden = (games.flatten.map (forbiddenIn · hd)).sum) := by
  obtain ⟨rows, h1, h2⟩ := C144_games hs h gelu params sample size hp ho
  obtain ⟨⟨hd', all⟩, hx, e1, used, e2, hsel, he⟩ := h2.mem_right hmem
  dsimp only at e1 e2 hsel he
  subst e1
  have hall : all.countP forbidden = (games.flatten.map (forbiddenIn · hd)).sum := by
    have tot : ∀ ss : List RoundSt, (∀ s ∈ ss, AcceptedRound s) → ∀ rows : List (List Row × List Row × List Row),
        AllPairs (fun s r => buildTensors v s s.halfturns s.encoding_tokens = .ok (ofRows r.1, ofRows r.2.1, ofRows r.2.2)) ss rows →
        (rows.flatMap (·.1)).countP forbidden = (ss.map (forbiddenIn · .during)).sum ∧
        (rows.flatMap (·.2.1)).countP forbidden = (ss.map (forbiddenIn · .discard)).sum ∧
        (rows.flatMap (·.2.2)).countP forbidden = (ss.map (forbiddenIn · .post)).sum := by
      intro ss hs rows h
      induction h with
      | nil => exact ⟨rfl, rfl, rfl⟩
      | cons h1 _ ih =>
        obtain ⟨a1, a2, a3⟩ := C170_round (hs _ (by simp)) h1
        obtain ⟨b1, b2, b3⟩ := ih (fun s hs' => hs s (by simp [hs']))
        simp only [List.flatMap_cons, List.countP_append, List.map_cons, List.sum_cons]
        exact ⟨by rw [a1, b1], by rw [a2, b2], by rw [a3, b3]⟩
    obtain ⟨t1, t2, t3⟩ := tot _ hs _ h1
    have hx := (List.mem_filter.1 hx).1
    simp only [List.mem_cons, List.not_mem_nil, or_false, Prod.mk.injEq] at hx
    rcases hx with ⟨rfl, rfl⟩ | ⟨rfl, rfl⟩ | ⟨rfl, rfl⟩
    · exact t1
    · exact t2
    · exact t3
  have hne : all ≠ [] := by
    have := (List.mem_filter.1 hx).2
    rintro rfl
    simp at this
  unfold Selected at hsel
  split at hsel
  · rename_i hcond
    obtain ⟨hlen, rest, hperm⟩ := hsel
    have hu : used ≠ [] := by
      rintro rfl
      simp at hlen
      omega
    refine ⟨used, e2, hu, C170_batch he hu hk, ?_, fun h => ?_⟩
    · rw [← hall, ← hperm.countP_eq, List.countP_append]
      omega
    · rw [h] at hcond
      simp at hcond
  · subst hsel
    exact ⟨used, e2, hne, C170_batch he hne hk, hall.le, fun _ => hall⟩

/-- C170: the loss of the calls does tell how well they are predicted. -/
theorem C170_calls_partial {v : Variant} {games : List (List RoundSt)} (hs : ∀ s ∈ games.flatten, AcceptedRound s)
    {d c p : Batch} (h : prepareBatches v (gameTurns games) (gameTokens games) = .ok (d, c, p)) (gelu : ℝ → ℝ)
    (params : Params v) (sample : Bool) {size : Nat} (hsz : 0 < size) {perm : Nat → List Nat}
    (hp : ∀ n, (perm n).Perm (List.range n)) {out : List (HeadName × Batch × List (List ℝ) × ℝ)}
    (ho : forward sample size perm (runRows v gelu params) d c p = .ok out) (b : Batch) (ls : List (List ℝ))
    (loss : ℝ) (hmem : (HeadName.post, b, ls, loss) ∈ out) {k : ℝ} (hk : ∀ a, outputBound params.ln_f (params.heads .post) a ≤ k) :
    |loss| ≤ 2 * k + 6 := by
  obtain ⟨used, -, -, h1, h2, -⟩ := C170_games_partial hs h gelu params sample hsz hp ho .post b ls loss hmem hk
  have h0 : (games.flatten.map (forbiddenIn · .post)).sum = 0 := by
    rw [List.sum_eq_zero_iff]
    intro x hx
    obtain ⟨s, -, rfl⟩ := List.mem_map.1 hx
    rfl
  have : used.countP forbidden = 0 := by omega
  rw [this] at h1
  simpa using h1

/-- one sample with a forbidden label -/
theorem one_forbidden {v : Variant} {h : HeadName} {rows : List Row} (hg : ∀ r ∈ rows, RowGood v h r) {k : Nat}
    (hy : (ofRows rows).y = [(k : Int)]) (hm : (ofRows rows).mask.map (fun m => m.getD k 0) = [0]) (gelu : ℝ → ℝ) (p : Params v) :
    ∃ ls loss, runRows v gelu p h (ofRows rows) = .ok (ls, loss) ∧
      ∀ c : ℝ, (∀ a, outputBound p.ln_f (p.heads h) a ≤ c) → |loss - 1000000000| ≤ 2 * c + 6 := by
  obtain ⟨o, ho⟩ := runBatch_rows (h := h) hg gelu p
  have hr : ∃ r, runRows v gelu p h (ofRows rows) = .ok r := ⟨_, by simp only [runRows, ho]; rfl⟩
  obtain ⟨⟨ls, loss⟩, hr⟩ := hr
  refine ⟨ls, loss, hr, fun c hc => ?_⟩
  obtain ⟨r, rfl⟩ : ∃ r, rows = [r] := by
    have : rows.length = 1 := by simpa [ofRows] using congrArg List.length hy
    exact List.length_eq_one_iff.1 this
  have h1 := C170_batch (C144_alone hg hr) (by simp) hc
  have hf : forbidden r = true := by
    simp only [ofRows, List.map_cons, List.map_nil, List.cons.injEq, and_true] at hy hm
    rw [forbidden, hy, Int.toNat_natCast, hm]
    rfl
  simpa [hf] using h1

/-- C170 does not hold: there is a round whose loss of the draws and whose loss of the discards are about 10^9, whatever the
network. -/
theorem C170_reported_violated (v : Variant) :
    ∃ s, AcceptedRound s ∧ ∃ d c p, buildTensors v s s.halfturns s.encoding_tokens = .ok (d, c, p) ∧
      ∀ (gelu : ℝ → ℝ) (params : Params v),
        (∃ ls loss, runRows v gelu params .during d = .ok (ls, loss) ∧
          ∀ k : ℝ, (∀ a, outputBound params.ln_f (params.heads .during) a ≤ k) → |loss - 1000000000| ≤ 2 * k + 6) ∧
        ∃ ls loss, runRows v gelu params .discard c = .ok (ls, loss) ∧
          ∀ k : ℝ, (∀ a, outputBound params.ln_f (params.heads .discard) a ≤ k) → |loss - 1000000000| ≤ 2 * k + 6 := by
  obtain ⟨s, hs, h⟩ := okAnd_ok (passRound_tensors v)
  simp only [Bool.and_eq_true, beq_iff_eq] at h
  obtain ⟨⟨d, c, p⟩, hb, h1⟩ := okAnd_ok h.1
  simp only [Bool.and_eq_true, beq_iff_eq] at h1
  have ha : AcceptedRound s := ⟨_, _, _, _, _, hs⟩
  refine ⟨s, ha, d, c, p, hb, fun gelu params => ?_⟩
  obtain ⟨⟨dr, rfl, -⟩, ⟨cr, rfl, -⟩, ⟨pr, rfl, -⟩⟩ := head_rows (fourLists_accepted hs) hb
  obtain ⟨g1, g2, -⟩ := accepted_good ha hb
  exact ⟨one_forbidden g1 (k := 2) h1.1.1.1 h1.1.1.2 gelu params, one_forbidden g2 (k := 30) h1.1.2 h1.2 gelu params⟩

/-- C170: an example of the bound: if the weights of the output layer are at most 1/2, those of the last layer norm at most 2 and the
biases at most 1, then the loss is within 1096 of 10^9 times the share. -/
theorem C170_usual {n : ℕ} (ln : LayerNorm 64) (l : Linear 64 n) (h1 : ∀ i, |ln.weight i| ≤ 2 ∧ |ln.bias i| ≤ 1)
    (h2 : ∀ a, |l.bias a| ≤ 1 ∧ ∀ i, |l.weight a i| ≤ 1 / 2) (a : Fin n) : outputBound ln l a ≤ 545 := by
  unfold outputBound
  have : ∑ i, |l.weight a i| * (8 * |ln.weight i| + |ln.bias i|) ≤ ∑ _i : Fin 64, (1 / 2 : ℝ) * (8 * 2 + 1) := by
    refine Finset.sum_le_sum (fun i _ => ?_)
    have h3 := h1 i
    apply mul_le_mul ((h2 a).2 i) (by linarith [h3.1, h3.2]) (by positivity) (by norm_num)
  have h5 := (h2 a).1
  simp at this
  linarith

/-- C170: in float32, once a sample of the batch has the loss 10^9, the sum of the losses is a multiple of 64: the other losses are
not told apart more finely. -/
theorem C170_steps {A : Loss32.Arith} (g : Spec.Float32 A) {losses : List ℝ} {mean : ℝ} (h : Loss32.Mean A losses mean)
    (h0 : ∀ x ∈ losses, 0 ≤ x) (hf : ∀ x ∈ losses, Loss32.IsFloat x) (hm : 1000000000 ∈ losses) :
    ∃ n : ℤ, 15625000 ≤ n ∧ mean = A.round (n * 64 / losses.length) := by
  obtain ⟨t, ht, rfl⟩ := h
  have h1 := Loss32.SumOf.ge g ht h0 hf _ hm
  obtain ⟨n, hn⟩ := Loss32.isFloat_big (Loss32.SumOf.isFloat g ht hf) (by rw [abs_of_nonneg (by linarith)]; linarith)
  refine ⟨n, ?_, by rw [hn]⟩
  have : (15625000 : ℝ) ≤ n := by rw [hn] at h1; linarith
  exact_mod_cast this

/-- C170: the same for the validation loss, with the mean of the shares. -/
theorem C170_validation {losses : List (List ℝ)} {shares : List ℝ} {δ : ℝ}
    (h : AllPairs (fun x q => |x - 1000000000 * q| ≤ δ) losses.flatten shares) (hne : ∃ b ∈ losses, b ≠ []) :
    ∃ val, valLoss losses = .ok val ∧ |val - 1000000000 * avg shares| ≤ δ := by
  refine ⟨_, (C144_validation losses).2 hne, ?_⟩
  have hl : (0 : ℝ) < losses.flatten.length := by
    obtain ⟨b, hb, hb'⟩ := hne
    have : losses.flatten ≠ [] := fun h => hb' (List.flatten_eq_nil_iff.1 h b hb)
    exact_mod_cast List.length_pos_iff.2 this
  generalize losses.flatten = l at *
  have key : |l.sum - 1000000000 * shares.sum| ≤ δ * l.length := by
    clear hl
    induction h with
    | nil => simp
    | cons h1 _ ih =>
      simp only [List.sum_cons, List.length_cons, Nat.cast_add, Nat.cast_one]
      rw [abs_le] at ih h1 ⊢
      constructor <;> linarith
  rw [avg, avg, ← h.length, ← mul_div_assoc, ← sub_div, abs_div, abs_of_pos hl, div_le_iff₀ hl]
  exact key

/-- the bound of the last two layers for all parameters that training reaches -/
theorem moderate_bound {v : Variant} {p : Params v} (hp : Moderate p) (h : HeadName) (a : Fin (actionDim h)) :
    outputBound p.ln_f (p.heads h) a ≤ 310000000 := by
  unfold outputBound
  have : ∑ i, |(p.heads h).weight a i| * (8 * |p.ln_f.weight i| + |p.ln_f.bias i|) ≤ ∑ _i : Fin 64, (730 : ℝ) * (8 * 730 + 730) := by
    refine Finset.sum_le_sum (fun i _ => ?_)
    have h1 : |p.ln_f.weight i| ≤ 730 := hp (.ln_f (.weight i)) (.inl ⟨_, rfl⟩)
    have h2 : |p.ln_f.bias i| ≤ 730 := hp (.ln_f (.bias i)) (.inl ⟨_, rfl⟩)
    have h3 : |(p.heads h).weight a i| ≤ 730 := hp (.head h (.weight a i)) (.inr ⟨_, _, rfl⟩)
    exact mul_le_mul h3 (by linarith) (by positivity) (by norm_num)
  have h5 : |(p.heads h).bias a| ≤ 730 := hp (.head h (.bias a)) (.inr ⟨_, _, rfl⟩)
  simp at this
  linarith

/-- with such parameters the loss of a single sample tells whether its label is forbidden -/
theorem told_moderate {v : Variant} {h : HeadName} {r : Row} {X : Input v h 1} (hX : Enters r X) {gelu : ℝ → ℝ} {p : Params v}
    (hp : Moderate p) {o : Output h 1} (ho : run gelu p X = .ok o) : 650000000 < o.loss ↔ forbidden r = true := by
  obtain ⟨-, -, h3, h4, h5⟩ := run_ok.1 ho
  have hf : (forbidden r = true) ↔ X.mask 0 (X.y 0) = 0 := by
    have h1 := hX.mask (X.y 0)
    have h2 := hX.label
    have h6 : r.y.toNat = (X.y 0).val := by omega
    rw [forbidden, h6, beq_iff_eq, List.getD, h1, Option.getD_some]
  have hd : actionDim h ≤ 154 := by cases h <;> decide
  have hl := fun a => (rawLogits_bound gelu p X
    (fun b t => ((embed v p.tables (X.player b) t.val (X.tokens b t)).toOption).getD 0) 0 a).trans (moderate_bound hp h a)
  have h6 : o.loss = crossEntropy (o.logits 0) (X.y 0) := by simp [h5]
  rw [hf, h6, h4]
  dsimp only
  generalize rawLogits gelu p X (fun b t => ((embed v p.tables (X.player b) t.val (X.tokens b t)).toOption).getD 0) 0 = l at *
  constructor
  · intro h7
    by_contra hy
    have := loss_near hd (X.mask 0) l (fun a _ => hl a) (h3 0) (X.y 0)
    rw [if_neg hy, sub_zero] at this
    have := (abs_le.1 this).2
    linarith
  · intro hy
    obtain ⟨a, ha⟩ := h3 0
    have h8 : Real.exp (l a) ≤ ∑ i, Real.exp (maskedLogits (X.mask 0) l i) := by
      refine le_trans ?_ (Finset.single_le_sum (f := fun i => Real.exp (maskedLogits (X.mask 0) l i)) (fun i _ => (Real.exp_pos _).le)
        (Finset.mem_univ a))
      rw [maskedLogits, if_neg ha]
    have h9 := Real.log_le_log (Real.exp_pos _) h8
    rw [Real.log_exp] at h9
    have h10 := (abs_le.1 (hl a)).1
    rw [crossEntropy, show maskedLogits (X.mask 0) l (X.y 0) = -1000000000 by rw [maskedLogits, if_pos hy]]
    linarith

/-- C170: at every moment of every training, of any length and with any data, the loss of a single sample tells whether its label is
forbidden: it is above 6.5·10^8 if it is, and not if it is not; provided the numbers of the last two layers were at most 730 at the
beginning. -/
theorem C170_told {v : Variant} {gelu : ℝ → ℝ} {grad : Backward v}
    (runs : List (Chance v × List (Batch × Batch × Batch))) {p p' : Params v}
    {ls : List (List (Lesson v))} (hl : learnRuns gelu grad runs p = .ok (ls, p')) (hp : Moderate p) {q : Params v}
    (hq : q = p' ∨ ∃ l ∈ ls, ∃ y ∈ l, q = y.before.params) {h : HeadName} {r : Row} {X : Input v h 1} (hX : Enters r X) {o : Output h 1}
    (ho : run gelu q X = .ok o) : 650000000 < o.loss ↔ forbidden r = true :=
  told_moderate hX (learn_moderate runs hl hp hq) ho

end MJ
