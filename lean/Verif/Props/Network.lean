import Verif.Proofs.Network
import Verif.Model.Forward
import Verif.Proofs.Rows
import Verif.Props.Embedding
/-!
Properties of the networks and of `forward`.
-/
namespace MJ
open Spec Net
open scoped BigOperators

/-! ### C94: which samples the network is evaluated on -/

theorem pick_map {α β : Type} [Inhabited β] (f : α → β) (l : List α) (idx : List Nat) (hi : ∀ i ∈ idx, i < l.length) :
    pick (l.map f) idx = (idx.filterMap (fun i => l[i]?)).map f := by
  unfold pick
  induction idx with
  | nil => rfl
  | cons i is ih =>
    have h1 := hi i (by simp)
    have h2 := ih (fun j hj => hi j (by simp [hj]))
    rw [List.map_cons, h2]
    simp [h1]

theorem pick_ofRows (rows : List Row) (idx : List Nat) (hi : ∀ i ∈ idx, i < rows.length) :
    (ofRows rows).pick idx = ofRows (idx.filterMap (fun i => rows[i]?)) := by
  unfold Batch.pick ofRows
  simp only [pick_map _ _ _ hi]

theorem filterMap_range {α : Type} (l : List α) : (List.range l.length).filterMap (fun i => l[i]?) = l := by
  induction l with
  | nil => rfl
  | cons x xs ih =>
    rw [List.length_cons, List.range_succ_eq_map, List.filterMap_cons, List.filterMap_map]
    simpa [Function.comp_def] using ih

theorem sample_ofRows {sample : Bool} {size : Nat} {perm : Nat → List Nat} (hp : ∀ n, (perm n).Perm (List.range n))
    (rows : List Row) : ∃ used, sampleRows sample size perm (ofRows rows) = ofRows used ∧ Selected sample size rows used := by
  have hl : (ofRows rows).encodings.length = rows.length := by simp [ofRows]
  unfold sampleRows Selected
  rw [hl]
  by_cases h : sample = true ∧ size < rows.length
  · have hc : (sample && decide (rows.length > size)) = true := by simp [h.1, h.2]
    rw [if_pos hc]
    simp only [if_pos h]
    have hlt : ∀ i ∈ (perm rows.length).take size, i < rows.length := fun i hi =>
      List.mem_range.1 ((hp _).mem_iff.1 (List.mem_of_mem_take hi))
    have hlt' : ∀ i ∈ perm rows.length, i < rows.length := fun i hi => List.mem_range.1 ((hp _).mem_iff.1 hi)
    refine ⟨_, pick_ofRows rows _ hlt, ?_, (((perm rows.length).drop size).filterMap (fun i => rows[i]?)), ?_⟩
    · have : ∀ l : List Nat, (∀ i ∈ l, i < rows.length) → (l.filterMap (fun i => rows[i]?)).length = l.length := by
        intro l
        induction l with
        | nil => intro _; rfl
        | cons i is ih =>
          intro hh
          have h1 := hh i (by simp)
          have h2 := ih (fun j hj => hh j (by simp [hj]))
          simp [h1, h2]
      rw [this _ hlt, List.length_take, (hp _).length_eq, List.length_range]
      omega
    · rw [← List.filterMap_append, List.take_append_drop]
      have := (hp rows.length).filterMap (fun i => rows[i]?)
      rwa [filterMap_range] at this
  · have hc : ¬ (sample && decide (rows.length > size)) = true := by
      simp only [Bool.and_eq_true, decide_eq_true_eq]
      exact h
    rw [if_neg hc]
    simp only [if_neg h]
    exact ⟨rows, rfl, rfl⟩

theorem forwardLoop_rows {R : Type} {sample : Bool} {size : Nat} {perm : Nat → List Nat}
    (hp : ∀ n, (perm n).Perm (List.range n)) {run : HeadName → Batch → Except PyErr R} :
    ∀ {l : List (HeadName × List Row)} {out : List (HeadName × Batch × R)},
    forwardLoop sample size perm run (l.map (fun x => (x.1, ofRows x.2))) = .ok out →
    AllPairs (fun x o => o.1 = x.1 ∧ ∃ used, o.2.1 = ofRows used ∧ Selected sample size x.2 used ∧
      run x.1 (ofRows used) = .ok o.2.2) (l.filter (fun x => !x.2.isEmpty)) out
  | [], out, h => by
    simp only [List.map_nil, forwardLoop, Except.ok.injEq] at h
    subst h
    exact .nil
  | (hd, rows) :: l, out, h => by
    simp only [List.map_cons, forwardLoop] at h
    have hl : (ofRows rows).encodings.length = rows.length := by simp [ofRows]
    rw [hl] at h
    by_cases h0 : rows.length = 0
    · rw [if_pos h0] at h
      have : rows = [] := List.eq_nil_of_length_eq_zero h0
      subst this
      simpa using forwardLoop_rows hp h
    · rw [if_neg h0] at h
      simp only [bind_ok] at h
      obtain ⟨r, h1, rs, h2, h3⟩ := h
      simp only [Except.ok.injEq] at h3
      subst h3
      obtain ⟨used, hu, hs⟩ := sample_ofRows (sample := sample) (size := size) hp rows
      have hne : rows ≠ [] := fun h => h0 (by simp [h])
      rw [List.filter_cons_of_pos (by simpa using hne)]
      refine .cons ⟨rfl, used, hu, hs, ?_⟩ (forwardLoop_rows hp h2)
      rw [← hu]; exact h1

/-- C94: for each of the three heads that has samples, in the order own turn, discard, call, the network is evaluated
exactly once, on whole samples: on all of them, or, when sampling and there are more than the sample size, on as many
different samples as the sample size. -/
theorem C94_samples {R : Type} {sample : Bool} {size : Nat} {perm : Nat → List Nat}
    (hp : ∀ n, (perm n).Perm (List.range n)) {run : HeadName → Batch → Except PyErr R} {during discard post : List Row}
    {out : List (HeadName × Batch × R)}
    (h : forward sample size perm run (ofRows during) (ofRows discard) (ofRows post) = .ok out) :
    AllPairs (fun x o => o.1 = x.1 ∧ ∃ used, o.2.1 = ofRows used ∧ Selected sample size x.2 used ∧
        run x.1 (ofRows used) = .ok o.2.2)
      ([(HeadName.during, during), (.discard, discard), (.post, post)].filter (fun x => !x.2.isEmpty)) out :=
  forwardLoop_rows hp (l := [(.during, during), (.discard, discard), (.post, post)]) h

/-- the identity is a permutation; three samples of which two are taken -/
example : ∃ rows : List Row, (forward true 2 (fun n => (List.range n).reverse) (fun _ b => .ok b.y)
    (ofRows []) (ofRows rows) (ofRows []) : Except PyErr _) =
      .ok [(.discard, ofRows [⟨[], [], [], [], [], 7, 0⟩, ⟨[], [], [], [], [], 6, 0⟩], [7, 6])] :=
  ⟨[⟨[], [], [], [], [], 5, 0⟩, ⟨[], [], [], [], [], 6, 0⟩, ⟨[], [], [], [], [], 7, 0⟩], by rfl⟩

/-! ### C95: samples do not influence each other -/

/-- C95: the logits of a sample are the same in every batch that contains it. -/
theorem C95_logits_independent {v : Variant} {h : HeadName} {B B' : ℕ} {gelu : ℝ → ℝ} {p : Params v} {X : Input v h B}
    {Y : Input v h B'} {o : Output h B} {o' : Output h B'} (hX : run gelu p X = .ok o) (hY : run gelu p Y = .ok o')
    (b : Fin B) (b' : Fin B') (hrow : row X b = row Y b') : o.logits b = o'.logits b' := by
  have h1 := run_re hX (fun _ : Fin 1 => b)
  have h2 := run_re hY (fun _ : Fin 1 => b')
  have e1 : X.re (fun _ : Fin 1 => b) = row X b := rfl
  have e2 : Y.re (fun _ : Fin 1 => b') = row Y b' := rfl
  rw [e1, hrow, ← e2, h2] at h1
  simp only [Except.ok.injEq, Output.mk.injEq] at h1
  exact (congrFun h1.1 0).symm

/-- C95: a batch is evaluated without exception iff each of its samples is, and then its loss is the mean of the losses
of the samples evaluated alone. -/
theorem C95_loss_mean {v : Variant} {h : HeadName} {B : ℕ} {gelu : ℝ → ℝ} {p : Params v} {X : Input v h B} :
    ((∃ o, run gelu p X = .ok o) ↔ ∀ b, ∃ o, run gelu p (row X b) = .ok o) ∧
    ∀ (o : Output h B) (os : Fin B → Output h 1), run gelu p X = .ok o → (∀ b, run gelu p (row X b) = .ok (os b)) →
      o.loss = (∑ b, (os b).loss) / B ∧ ∀ b, o.logits b = (os b).logits 0 := by
  refine ⟨⟨fun ⟨o, ho⟩ b => ⟨_, run_re ho (fun _ : Fin 1 => b)⟩, fun hr => ?_⟩, ?_⟩
  · let L : T2 B (actionDim h) := fun b => maskedLogits (X.mask b) (rawLogits gelu p X
      (fun b t => ((embed v p.tables (X.player b) t.val (X.tokens b t)).toOption).getD 0) b)
    refine ⟨⟨L, (∑ b, crossEntropy (L b) (X.y b)) / B⟩, run_ok.2 ⟨?_, ?_, ?_, rfl, rfl⟩⟩
    · intro b; obtain ⟨o, ho⟩ := hr b; exact (run_ok.1 ho).1 0
    · intro b; obtain ⟨o, ho⟩ := hr b; exact (run_ok.1 ho).2.1 0
    · intro b; obtain ⟨o, ho⟩ := hr b; exact (run_ok.1 ho).2.2.1 0
  · intro o os ho hos
    have key : ∀ b, os b = ⟨fun _ => o.logits b, (∑ _x : Fin 1, crossEntropy (o.logits b) (X.y b)) / (1 : ℕ)⟩ := by
      intro b
      have h1 := run_re ho (fun _ : Fin 1 => b)
      have e1 : X.re (fun _ : Fin 1 => b) = row X b := rfl
      rw [e1, hos b, Except.ok.injEq] at h1
      exact h1
    refine ⟨?_, fun b => by rw [key b]⟩
    rw [(run_ok.1 ho).2.2.2.2]
    congr 1
    refine Finset.sum_congr rfl (fun b _ => ?_)
    rw [key b]
    simp

/-! ### C96: the validation loss -/

/-- the mean of a list -/
noncomputable def Spec.avg (l : List ℝ) : ℝ := l.sum / l.length

/-- C96: the validation loss is not the mean over the decisions: heads with few samples count as much as heads with
many.  `groups` are the losses of the samples, by batch and head. -/
theorem C96_validation_mean_violated :
    ¬ ∀ groups : List (List (List ℝ)), (∀ b ∈ groups, ∀ g ∈ b, g ≠ []) → groups.flatten ≠ [] →
      valLoss (groups.map (fun b => b.map avg)) = .ok (avg groups.flatten.flatten) := by
  intro h
  have := h [[[0], [1, 1]]] (by simp) (by simp)
  simp [valLoss, avg] at this
  norm_num at this

/-- C96: it fails exactly if there is no loss, that is, no sample in any batch used. -/
theorem C96_no_samples (losses : List (List ℝ)) :
    (∀ e, valLoss losses = .error e ↔ e = .zeroDivision ∧ ∀ b ∈ losses, b = []) := by
  intro e
  have h : losses.flatten.length = 0 ↔ ∀ b ∈ losses, b = [] := by
    rw [List.length_eq_zero_iff, List.flatten_eq_nil_iff]
  unfold valLoss
  split
  · rename_i h0
    rw [h] at h0
    constructor
    · intro he; exact ⟨by cases he; rfl, h0⟩
    · rintro ⟨rfl, -⟩; rfl
  · rename_i h0
    rw [h] at h0
    constructor
    · intro he; cases he
    · rintro ⟨-, h1⟩; exact absurd h1 h0

/-- C96: it is the mean over the heads and batches of the mean losses; this is the mean over the decisions if all of
them have equally many samples. -/
theorem C96_validation_mean_partial (groups : List (List (List ℝ))) (n : ℕ) (hn : ∀ b ∈ groups, ∀ g ∈ b, g.length = n)
    (hne : groups.flatten ≠ []) :
    valLoss (groups.map (fun b => b.map avg)) = .ok (avg groups.flatten.flatten) := by
  have e : (groups.map (fun b => b.map avg)).flatten = groups.flatten.map avg := by
    rw [List.map_flatten]
  unfold valLoss
  rw [e, List.length_map, if_neg (fun h0 => hne (List.eq_nil_of_length_eq_zero h0))]
  have hg : ∀ g ∈ groups.flatten, g.length = n := by
    intro g hg
    obtain ⟨b, hb, hgb⟩ := List.mem_flatten.1 hg
    exact hn b hb g hgb
  congr 1
  generalize groups.flatten = l at hg
  have h1 : (l.map avg).sum = l.flatten.sum / n := by
    clear hne e
    induction l with
    | nil => simp
    | cons g gs ih =>
      rw [List.map_cons, List.sum_cons, ih (fun g hg' => hg g (by simp [hg'])), List.flatten_cons, List.sum_append, add_div,
        avg, hg g (by simp)]
  have h2 : (l.flatten.length : ℝ) = n * l.length := by
    clear h1 hne e
    induction l with
    | nil => simp
    | cons g gs ih =>
      have := ih (fun g hg' => hg g (by simp [hg']))
      rw [List.flatten_cons, List.length_append, Nat.cast_add, this, hg g (by simp), List.length_cons]
      push_cast; ring
  rw [h1, avg, h2, div_div]

/-- losses that are 1 in the heads with `k` samples and 0 elsewhere -/
def onesAt (k : ℕ) (n : ℕ) : List ℝ := List.replicate n (if n = k then 1 else 0)

theorem onesAt_sums (k : ℕ) : ∀ l : List ℕ, (∀ n ∈ l, n ≠ 0) →
    ((l.map (onesAt k)).map avg).sum = (l.count k : ℝ) ∧ (l.map (onesAt k)).flatten.sum = (l.count k : ℝ) * k := by
  intro l
  induction l with
  | nil => simp
  | cons n l ih =>
    intro h
    obtain ⟨h1, h2⟩ := ih (fun m hm => h m (by simp [hm]))
    have hn : (n : ℝ) ≠ 0 := by exact_mod_cast h n (by simp)
    simp only [List.map_cons, List.sum_cons, List.flatten_cons, List.sum_append, h1, h2, List.count_cons, avg, onesAt,
      List.sum_replicate, List.length_replicate, nsmul_eq_mul]
    by_cases hk : n = k
    · subst hk
      simp only [if_true, beq_self_eq_true, Nat.cast_add, Nat.cast_one, mul_one, div_self hn]
      constructor <;> ring
    · simp [hk]

/-- C96: exactly: given how many samples the heads have in each batch, the validation loss is the mean over the
decisions whatever the losses are if and only if all these numbers are equal. -/
theorem C96_validation_mean_iff (sizes : List (List ℕ)) (hpos : ∀ b ∈ sizes, ∀ n ∈ b, n ≠ 0) (hne : sizes.flatten ≠ []) :
    (∀ groups : List (List (List ℝ)), groups.map (fun b => b.map List.length) = sizes →
      valLoss (groups.map (fun b => b.map avg)) = .ok (avg groups.flatten.flatten)) ↔
    ∀ m ∈ sizes.flatten, ∀ n ∈ sizes.flatten, m = n := by
  constructor
  · intro h
    have hp : ∀ n ∈ sizes.flatten, n ≠ 0 := by
      intro n hn
      obtain ⟨b, hb, hn⟩ := List.mem_flatten.1 hn
      exact hpos b hb n hn
    have key : ∀ k ∈ sizes.flatten, (sizes.flatten.sum : ℝ) = k * sizes.flatten.length := by
      intro k hk
      have := h (sizes.map (fun b => b.map (onesAt k))) (by
        rw [List.map_map]
        conv_rhs => rw [← List.map_id sizes]
        refine List.map_congr_left fun b _ => ?_
        simp only [Function.comp, List.map_map, id]
        conv_rhs => rw [← List.map_id b]
        refine List.map_congr_left fun n _ => ?_
        simp [onesAt])
      have e1 : (sizes.map (fun b => b.map (onesAt k))).flatten = sizes.flatten.map (onesAt k) := by rw [List.map_flatten]
      have e2 : ((sizes.map (fun b => b.map (onesAt k))).map (fun b => b.map avg)).flatten
          = (sizes.flatten.map (onesAt k)).map avg := by
        rw [← e1, List.map_flatten]
      have e3 : ∀ l : List ℕ, (l.map (onesAt k)).flatten.length = l.sum := by
        intro l
        induction l with
        | nil => rfl
        | cons n l ih => simp [onesAt, ih]
      generalize hl : sizes.flatten = l at *
      obtain ⟨s1, s2⟩ := onesAt_sums k l hp
      unfold valLoss at this
      rw [e1, e2, List.length_map, List.length_map, if_neg (fun h0 => hne (List.eq_nil_of_length_eq_zero h0)), s1,
        avg, s2, e3] at this
      simp only [Except.ok.injEq] at this
      have hc : (l.count k : ℝ) ≠ 0 := by
        have := List.count_pos_iff.2 hk
        exact_mod_cast this.ne'
      have hL : (l.length : ℝ) ≠ 0 := by
        exact_mod_cast (fun h0 => hne (List.eq_nil_of_length_eq_zero h0))
      have hS : (l.sum : ℝ) ≠ 0 := by
        have : k ≤ l.sum := List.le_sum_of_mem hk
        have := hp k hk
        exact_mod_cast (by omega : l.sum ≠ 0)
      rw [div_eq_div_iff hL hS] at this
      have h' : (l.count k : ℝ) * (l.sum : ℝ) = (l.count k : ℝ) * (k * l.length) := by rw [this]; ring
      exact mul_left_cancel₀ hc h'
    intro m hm n hn
    have h1 := key m hm
    have h2 := key n hn
    have hL : (sizes.flatten.length : ℝ) ≠ 0 := by
      exact_mod_cast (fun h0 => hne (List.eq_nil_of_length_eq_zero h0))
    have : (m : ℝ) = n := mul_right_cancel₀ hL (h1.symm.trans h2)
    exact_mod_cast this
  · intro h groups hg
    obtain ⟨n, hn⟩ := List.exists_mem_of_ne_nil _ hne
    refine C96_validation_mean_partial groups n ?_ ?_
    · intro b hb g hgb
      refine h _ ?_ _ hn
      rw [← hg]
      exact List.mem_flatten.2 ⟨b.map List.length, List.mem_map.2 ⟨b, hb, rfl⟩, List.mem_map.2 ⟨g, hgb, rfl⟩⟩
    · intro h0
      apply hne
      rw [← hg, ← List.map_flatten, h0]
      rfl

/-- two heads with one and two samples: the loss depends on which head loses -/
example : ¬ ∀ groups : List (List (List ℝ)), groups.map (fun b => b.map List.length) = [[1, 2]] →
    valLoss (groups.map (fun b => b.map avg)) = .ok (avg groups.flatten.flatten) := by
  rw [C96_validation_mean_iff [[1, 2]] (by decide) (by decide)]
  decide

/-! ### C97: masking works for all inputs -/

/-- C97: if the parameters of the last two layers are not astronomically large, then for every input every allowed action
gets a larger logit than every forbidden one, so that the best action is always allowed. -/
theorem C97_forbidden_below {v : Variant} {h : HeadName} {B : ℕ} {gelu : ℝ → ℝ} {p : Params v} {X : Input v h B}
    {o : Output h B} (hr : run gelu p X = .ok o) (hp : ∀ a, outputBound p.ln_f (p.heads h) a < 1000000000) (b : Fin B)
    (a f : Fin (actionDim h)) (ha : X.mask b a ≠ 0) (hf : X.mask b f = 0) : o.logits b f < o.logits b a := by
  rw [(run_ok.1 hr).2.2.2.1]
  simp only [maskedLogits, hf, if_true, if_neg ha]
  have h1 := rawLogits_bound gelu p X (fun b t => ((embed v p.tables (X.player b) t.val (X.tokens b t)).toOption).getD 0) b a
  have h2 := hp a
  have h3 := neg_abs_le (rawLogits gelu p X (fun b t => ((embed v p.tables (X.player b) t.val (X.tokens b t)).toOption).getD 0) b a)
  linarith

/-- parameters of absolute value at most 1000 are small enough -/
theorem C97_small {n : ℕ} (ln : LayerNorm 64) (l : Linear 64 n) (h1 : ∀ i, |ln.weight i| ≤ 1000 ∧ |ln.bias i| ≤ 1000)
    (h2 : ∀ a, |l.bias a| ≤ 1000 ∧ ∀ i, |l.weight a i| ≤ 1000) (a : Fin n) : outputBound ln l a < 1000000000 := by
  unfold outputBound
  have : ∑ i, |l.weight a i| * (8 * |ln.weight i| + |ln.bias i|) ≤ ∑ _i : Fin 64, (1000 : ℝ) * (8 * 1000 + 1000) := by
    refine Finset.sum_le_sum (fun i _ => ?_)
    have h3 := h1 i
    have h4 := (h2 a).2 i
    apply mul_le_mul h4 (by linarith [h3.1, h3.2]) (by positivity) (by norm_num)
  have h5 := (h2 a).1
  simp at this
  linarith

/-! ### C98: padding and attention -/

/-- C98: nothing keeps attention away from the padding: in every head, with all parameters and for all inputs, every
position, so also every padding position, has positive weight; the weights add up to 1, so the actual events have less
than all of it. -/
theorem C98_padding_attention_violated {B T Q : ℕ} (hd : Head) (k : T3 B T embdSize) (q : T3 B Q embdSize) (b : Fin B)
    (i : Fin Q) :
    (∀ t, 0 < hd.wei k q b i t) ∧ (0 < T → ∑ t, hd.wei k q b i t = 1) ∧
    ∀ (events : Finset (Fin T)) (t : Fin T), t ∉ events → ∑ u ∈ events, hd.wei k q b i u < 1 := by
  have hpos : ∀ t, 0 < hd.wei k q b i t := fun t => by
    unfold Head.wei softmaxLast
    exact softmax_pos _ t
  have hsum : 0 < T → ∑ t, hd.wei k q b i t = 1 := fun h => by
    unfold Head.wei softmaxLast
    exact softmax_sum _ h
  refine ⟨hpos, hsum, ?_⟩
  intro events t ht
  have h1 := hsum t.pos
  have h2 : ∑ u ∈ insert t events, hd.wei k q b i u ≤ ∑ u, hd.wei k q b i u :=
    Finset.sum_le_sum_of_subset_of_nonneg (Finset.subset_univ _) (fun u _ _ => (hpos u).le)
  rw [Finset.sum_insert ht, h1] at h2
  have := hpos t
  linarith

/-- two positions with the same vector before the blocks have the same vector after each of them -/
theorem encBlocks_same {B T : ℕ} (gelu : ℝ → ℝ) (blocks : List EncoderBlock) (x : T3 B T embdSize) (b : Fin B)
    (t u : Fin T) (h : x b t = x b u) : encBlocks gelu blocks x b t = encBlocks gelu blocks x b u := by
  unfold encBlocks
  induction blocks generalizing x with
  | nil => exact h
  | cons e es ih =>
    rw [List.foldl_cons]
    apply ih
    have ha : e.self_attention.fwd (fun b t => e.ln1.fwd (x b t)) (fun b t => e.ln1.fwd (x b t))
        (fun b t => e.ln1.fwd (x b t)) b t = e.self_attention.fwd (fun b t => e.ln1.fwd (x b t))
        (fun b t => e.ln1.fwd (x b t)) (fun b t => e.ln1.fwd (x b t)) b u := by
      have hw : ∀ hd : Head, hd.wei (fun b t => e.ln1.fwd (x b t)) (fun b t => e.ln1.fwd (x b t)) b t =
          hd.wei (fun b t => e.ln1.fwd (x b t)) (fun b t => e.ln1.fwd (x b t)) b u := by
        intro hd
        unfold Head.wei softmaxLast bmm
        simp only [h]
      unfold MultiHeadAttention.fwd Head.fwd bmm
      simp only [hw]
    funext i
    unfold EncoderBlock.fwd
    simp only [h, ha]

/-- C98, what happens instead: in the ordered model all padding positions of a sample have the same encoder output, so
every head of the decoder gives each of them the same weight. -/
theorem C98_padding_alike_partial {h : HeadName} {B : ℕ} {p : Params .ordered} (h0 : p.tables.empty = 0)
    {X : Input .ordered h B} {emb : T3 B 150 embdSize} (he : embedAll p X = .ok emb) (gelu : ℝ → ℝ) (b : Fin B)
    (t u : Fin 150) (ht : X.tokens b t = BitVec.ofNat 64 padId) (hu : X.tokens b u = BitVec.ofNat 64 padId) :
    encBlocks gelu p.encoder emb b t = encBlocks gelu p.encoder emb b u ∧
    ∀ {Q : ℕ} (hd : Head) (q : T3 B Q embdSize) (i : Fin Q),
      hd.wei (encBlocks gelu p.encoder emb) q b i t = hd.wei (encBlocks gelu p.encoder emb) q b i u := by
  have hs : encBlocks gelu p.encoder emb b t = encBlocks gelu p.encoder emb b u := by
    apply encBlocks_same
    unfold embedAll at he
    split at he
    · simp only [Except.ok.injEq] at he
      subst he
      simp only [embed, ht, hu]
      rw [C69_padding_zero (add_zero 0) p.tables h0 _ _ t.isLt, C69_padding_zero (add_zero 0) p.tables h0 _ _ u.isLt]
    · simp at he
  refine ⟨hs, ?_⟩
  intro Q hd q i
  unfold Head.wei softmaxLast softmax bmm transpose12
  simp only [hs]

/-- with keys of zero the attention is spread evenly over all 150 positions, whatever number of events there is -/
example {B : ℕ} (hd : Head) (hk : hd.key = ⟨fun _ _ => 0, fun _ => 0⟩) (k q : T3 B 150 embdSize) (b : Fin B) (i t : Fin 150) :
    hd.wei k q b i t = 1 / 150 := by
  unfold Head.wei softmaxLast softmax bmm transpose12 Linear.fwd
  simp [hk]

/-! ### C99: parameters without influence -/

/-- two sets of parameters that differ at most in the keys and queries of the decoder's self-attention layers -/
def Spec.SameButSelfKeys {v : Variant} (p p' : Params v) : Prop :=
  p.tables = p'.tables ∧ p.encoder = p'.encoder ∧ p.state_net = p'.state_net ∧ p.ln_f = p'.ln_f ∧ p.heads = p'.heads ∧
  AllPairs (fun d d' : DecoderBlock => d.cross_attention = d'.cross_attention ∧ d.ffwd = d'.ffwd ∧ d.ln1 = d'.ln1 ∧
    d.ln2 = d'.ln2 ∧ d.ln3 = d'.ln3 ∧ d.self_attention.proj = d'.self_attention.proj ∧
    ∀ n, (d.self_attention.heads n).value = (d'.self_attention.heads n).value) p.decoder p'.decoder

theorem selfAttention_one {B : ℕ} (m : MultiHeadAttention) (x : T3 B 1 embdSize) (b : Fin B) (i : Fin 1) :
    m.fwd x x x b i = m.proj.fwd (fun j => (m.heads j.divNat).value.fwd (x b i) j.modNat) := by
  unfold MultiHeadAttention.fwd Head.fwd bmm
  congr 1
  funext j
  rw [Fin.sum_univ_one]
  have : (m.heads j.divNat).wei x x b i 0 = 1 := by
    unfold Head.wei softmaxLast
    exact softmax_one _ _
  rw [this, one_mul, show i = 0 from Subsingleton.elim _ _]

/-- C99: in the ordered model the key and query parameters of the decoder's self-attention layers have no influence at
all on logits or loss (and so never get a gradient): the sequence has length one. -/
theorem C99_influence_violated {h : HeadName} {B : ℕ} (gelu : ℝ → ℝ) (p p' : Params .ordered) (hp : SameButSelfKeys p p')
    (X : Input .ordered h B) : run gelu p X = run gelu p' X := by
  obtain ⟨h1, h2, h3, h4, h5, h6⟩ := hp
  obtain ⟨tb, en, sn, dc, ln, hd⟩ := p
  obtain ⟨tb', en', sn', dc', ln', hd'⟩ := p'
  simp only at h1 h2 h3 h4 h5 h6
  subst h1 h2 h3 h4 h5
  have key : ∀ (enc : T3 B 150 embdSize) (x : T3 B 1 embdSize), dc.foldl (fun x d => d.fwdOrdered gelu x enc) x =
      dc'.foldl (fun x d => d.fwdOrdered gelu x enc) x := by
    intro enc
    induction h6 with
    | nil => intro x; rfl
    | @cons d d' ds ds' hd _ ih =>
      intro x
      obtain ⟨e1, e2, e3, e4, e5, e6, e7⟩ := hd
      rw [List.foldl_cons, List.foldl_cons, ← ih]
      congr 1
      funext b t i
      unfold DecoderBlock.fwdOrdered
      simp only [e1, e2, e3, e4, e5, selfAttention_one, e6, e7]
  have hraw : ∀ emb, rawLogits gelu (⟨tb, en, sn, dc, ln, hd⟩ : Params .ordered) X emb =
      rawLogits gelu (⟨tb, en, sn, dc', ln, hd⟩ : Params .ordered) X emb := by
    intro emb
    unfold rawLogits decBlocks
    simp only [key]
  unfold run
  simp only [hraw]
  rfl

end MJ
