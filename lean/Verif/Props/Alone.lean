import Verif.Props.RoundSeats
import Verif.Props.Pipeline
/-!
C144: what the network computes for a batch is what it computes for each sample of the batch, and every number that enters
is an entry of the sample.
-/
namespace MJ
open Spec Net

/-- the one-sample input consists of the entries of the sample; no entry is missing -/
structure Spec.Enters {v : Variant} {h : HeadName} (r : Row) (X : Input v h 1) : Prop where
  tokens : ∀ j : Fin 150, ∃ t, r.tokens[j.val]? = some t ∧ X.tokens 0 j = BitVec.ofNat 64 t
  x1 : ∀ (c : Fin (chan v)) (k : Fin 37) (w : Fin (width v)), ∃ (pl : List (List Int)) (sl : List Int) (n : Int),
    r.x1[c.val]? = some pl ∧ pl[k.val]? = some sl ∧ sl[w.val]? = some n ∧ X.x1 0 c k w = ((n : Int) : ℝ)
  x2 : ∀ (i : Fin 7) (q : Fin 4), ∃ (li : List Int) (n : Int), r.x2[i.val]? = some li ∧ li[q.val]? = some n ∧ X.x2 0 i q = ((n : Int) : ℝ)
  x3 : ∀ i : Fin 4, ∃ n, r.x3[i.val]? = some n ∧ X.x3 0 i = ((n : Int) : ℝ)
  mask : ∀ a : Fin (actionDim h), r.mask[a.val]? = some (X.mask 0 a)
  label : ((X.y 0).val : Int) = r.y
  player : X.player 0 = (r.player : Int)

/-- **C144.** A sample determines what the network is given. -/
theorem C144_determined {v : Variant} {h : HeadName} {r : Row} {X Y : Input v h 1} (hX : Enters r X) (hY : Enters r Y) :
    X = Y := by
  obtain ⟨a1, a2, a3, a4, a5, a6, a7⟩ := hX
  obtain ⟨b1, b2, b3, b4, b5, b6, b7⟩ := hY
  cases X
  cases Y
  simp only [Input.mk.injEq]
  have one : ∀ i : Fin 1, i = 0 := fun i => Subsingleton.elim _ _
  refine ⟨?_, ?_, ?_, ?_, ?_, ?_, ?_⟩
  · funext i j
    rw [one i]
    obtain ⟨t, e1, e2⟩ := a1 j
    obtain ⟨t', e1', e2'⟩ := b1 j
    rw [e1, Option.some.injEq] at e1'
    subst e1'
    exact e2.trans e2'.symm
  · funext i c k w
    rw [one i]
    obtain ⟨p, s, n, e1, e2, e3, e4⟩ := a2 c k w
    obtain ⟨p', s', n', e1', e2', e3', e4'⟩ := b2 c k w
    rw [e1, Option.some.injEq] at e1'
    subst e1'
    rw [e2, Option.some.injEq] at e2'
    subst e2'
    rw [e3, Option.some.injEq] at e3'
    subst e3'
    exact e4.trans e4'.symm
  · funext i c k
    rw [one i]
    obtain ⟨s, n, e2, e3, e4⟩ := a3 c k
    obtain ⟨s', n', e2', e3', e4'⟩ := b3 c k
    rw [e2, Option.some.injEq] at e2'
    subst e2'
    rw [e3, Option.some.injEq] at e3'
    subst e3'
    exact e4.trans e4'.symm
  · funext i c
    rw [one i]
    obtain ⟨n, e3, e4⟩ := a4 c
    obtain ⟨n', e3', e4'⟩ := b4 c
    rw [e3, Option.some.injEq] at e3'
    subst e3'
    exact e4.trans e4'.symm
  · funext i a
    rw [one i]
    have := (a5 a).symm.trans (b5 a)
    simpa using this
  · funext i
    rw [one i]
    have := a6.trans b6.symm
    exact Fin.ext (by simpa using this)
  · funext i
    rw [one i]
    exact a7.trans b7.symm

theorem getD_of {α : Type} {l : List α} {i : Nat} {x d : α} (h : l[i]? = some x) : l.getD i d = x := by simp [List.getD, h]

/-- one sample of the batch -/
theorem holds_row {v : Variant} {h : HeadName} {rows : List Row} (hg : ∀ r ∈ rows, RowGood v h r)
    (b : Fin (ofRows rows).encodings.length) {r : Row} (hb : rows[b.val]? = some r) :
    Enters r (row (toInput v h (ofRows rows)) b) := by
  have g := hg r (List.mem_of_getElem? hb)
  have at_ : ∀ {α : Type} (l : List α) (i n : Nat), l.length = n → i < n → ∃ x, l[i]? = some x := by
    intro α l i n hl hi
    exact ⟨l[i], List.getElem?_eq_getElem (by omega)⟩
  have e1 : (ofRows rows).encodings.getD b [] = r.tokens := by simp [ofRows, List.getD, hb]
  have e2 : (ofRows rows).x1.getD b [] = r.x1 := by simp [ofRows, List.getD, hb]
  have e3 : (ofRows rows).x2.getD b [] = r.x2 := by simp [ofRows, List.getD, hb]
  have e4 : (ofRows rows).x3.getD b [] = r.x3 := by simp [ofRows, List.getD, hb]
  have e5 : (ofRows rows).mask.getD b [] = r.mask := by simp [ofRows, List.getD, hb]
  have e6 : (ofRows rows).y.getD b 0 = r.y := by simp [ofRows, List.getD, hb]
  have e7 : (ofRows rows).player.getD b 0 = r.player := by simp [ofRows, List.getD, hb]
  refine ⟨?_, ?_, ?_, ?_, ?_, ?_, ?_⟩
  · intro j
    obtain ⟨t, ht⟩ := at_ r.tokens j 150 g.tokens_len j.2
    refine ⟨t, ht, ?_⟩
    show BitVec.ofNat 64 (((ofRows rows).encodings.getD b []).getD j 0) = _
    rw [e1, getD_of ht]
  · intro c k w
    obtain ⟨p, hp⟩ := at_ r.x1 c _ g.x1_len.1 c.2
    have gp := g.x1_len.2 p (List.mem_of_getElem? hp)
    obtain ⟨s, hs⟩ := at_ p k 37 gp.1 k.2
    obtain ⟨n, hn⟩ := at_ s w _ (gp.2 s (List.mem_of_getElem? hs)) w.2
    refine ⟨p, s, n, hp, hs, hn, ?_⟩
    show (((((((ofRows rows).x1.getD b []).getD c []).getD k []).getD w 0 : Int)) : ℝ) = _
    rw [e2, getD_of hp, getD_of hs, getD_of hn]
  · intro i q
    obtain ⟨s, hs⟩ := at_ r.x2 i 7 g.x2_len.1 i.2
    obtain ⟨n, hn⟩ := at_ s q 4 (g.x2_len.2 s (List.mem_of_getElem? hs)) q.2
    refine ⟨s, n, hs, hn, ?_⟩
    show (((((ofRows rows).x2.getD b []).getD i []).getD q 0 : Int) : ℝ) = _
    rw [e3, getD_of hs, getD_of hn]
  · intro i
    obtain ⟨n, hn⟩ := at_ r.x3 i 4 g.x3_len i.2
    refine ⟨n, hn, ?_⟩
    show ((((ofRows rows).x3.getD b []).getD i 0 : Int) : ℝ) = _
    rw [e4, getD_of hn]
  · intro a
    obtain ⟨n, hn⟩ := at_ r.mask a _ g.mask_len a.2
    show _ = some (((ofRows rows).mask.getD b []).getD a 0)
    rw [e5, getD_of hn]
    exact hn
  · have hl := g.label
    have hy : ((ofRows rows).y.getD b 0).toNat < actionDim h := by rw [e6]; omega
    show (((if hy : ((ofRows rows).y.getD b 0).toNat < actionDim h then (⟨((ofRows rows).y.getD b 0).toNat, hy⟩ : Fin (actionDim h))
      else ⟨0, by cases h <;> decide⟩).val : Nat) : Int) = r.y
    rw [dif_pos hy]
    show ((((ofRows rows).y.getD b 0).toNat : Nat) : Int) = r.y
    rw [e6]
    omega
  · show (((ofRows rows).player.getD b 0 : Nat) : Int) = _
    rw [e7]

theorem sum_ofFn {n : ℕ} (f : Fin n → ℝ) : (List.ofFn f).sum = ∑ i, f i := List.sum_ofFn

/-- the result for a head: the logits of each sample evaluated alone, and the mean of the losses -/
def Spec.EvaluatedAlone (v : Variant) (gelu : ℝ → ℝ) (p : Params v) (h : HeadName) (used : List Row)
    (result : List (List ℝ) × ℝ) : Prop :=
  ∃ os : List (Output h 1), AllPairs (fun r o => ∃ X : Input v h 1, Enters r X ∧ run gelu p X = .ok o) used os ∧
    result.1 = os.map (fun o => List.ofFn (o.logits 0)) ∧ result.2 = avg (os.map (·.loss))

/-- **C144.** What the network yields for a batch: the logits of each sample evaluated alone, in order, and the mean of
their losses. -/
theorem C144_alone {v : Variant} {h : HeadName} {rows : List Row} (hg : ∀ r ∈ rows, RowGood v h r) {gelu : ℝ → ℝ}
    {p : Params v} {ls : List (List ℝ)} {loss : ℝ} (hr : runRows v gelu p h (ofRows rows) = .ok (ls, loss)) :
    EvaluatedAlone v gelu p h rows (ls, loss) := by
  simp only [runRows, bind_ok, Except.ok.injEq, Prod.mk.injEq] at hr
  obtain ⟨o, ho, hls, hloss⟩ := hr
  have hrun : run gelu p (toInput v h (ofRows rows)) = .ok o := by
    unfold runBatch at ho
    simpa only [shapeOk_rows hg, labelsOk_rows hg, not_true_eq_false, if_false] using ho
  have hex := C95_loss_mean.1.1 ⟨o, hrun⟩
  choose os hos using hex
  obtain ⟨c1, c2⟩ := C95_loss_mean.2 o os hrun hos
  have e : (ofRows rows).encodings.length = rows.length := by simp [ofRows]
  refine ⟨List.ofFn os, ?_, ?_, ?_⟩
  · refine .of_get (by rw [List.length_ofFn, e]) ?_
    intro i r o' hri hoi
    rw [List.getElem?_ofFn] at hoi
    split at hoi
    · rename_i hi
      rw [Option.some.injEq] at hoi
      subst hoi
      exact ⟨_, holds_row hg ⟨i, hi⟩ hri, hos ⟨i, hi⟩⟩
    · cases hoi
  · show ls = _
    rw [← hls, List.map_ofFn]
    congr 1
    funext i
    simp only [Function.comp, c2]
  · show loss = _
    rw [← hloss, c1, avg, List.map_ofFn, List.length_ofFn, sum_ofFn]
    rfl

/-- **C144.** What `forward` yields for a batch of accepted games: for each head that has samples, the logits of the samples
evaluated one by one and the mean of their losses. -/
theorem C144_games {v : Variant} {games : List (List RoundSt)} (hs : ∀ s ∈ games.flatten, AcceptedRound s)
    {d c p : Batch} (h : prepareBatches v (gameTurns games) (gameTokens games) = .ok (d, c, p)) (gelu : ℝ → ℝ)
    (params : Params v) (sample : Bool) (size : Nat) {perm : Nat → List Nat} (hp : ∀ n, (perm n).Perm (List.range n))
    {out : List (HeadName × Batch × List (List ℝ) × ℝ)}
    (ho : forward sample size perm (runRows v gelu params) d c p = .ok out) :
    ∃ rows : List (List Row × List Row × List Row),
      AllPairs (fun s r => buildTensors v s s.halfturns s.encoding_tokens = .ok (ofRows r.1, ofRows r.2.1, ofRows r.2.2))
        games.flatten rows ∧
      AllPairs (fun x o => o.1 = x.1 ∧ ∃ used, o.2.1 = ofRows used ∧ Selected sample size x.2 used ∧
          EvaluatedAlone v gelu params x.1 used o.2.2)
        ([(HeadName.during, rows.flatMap (·.1)), (.discard, rows.flatMap (·.2.1)), (.post, rows.flatMap (·.2.2))].filter
          (fun x => !x.2.isEmpty)) out := by
  have hf : ∀ s ∈ games.flatten, ∀ t ∈ s.halfturns, FourLists t := by
    intro s hs'
    obtain ⟨est, sh, g, a, evs, hs''⟩ := hs s hs'
    exact fourLists_accepted hs''
  obtain ⟨rows, h1, rfl, rfl, rfl⟩ := C64_batches hf h
  have good : ∀ x ∈ rows, (∀ r ∈ x.1, RowGood v .during r) ∧ (∀ r ∈ x.2.1, RowGood v .discard r) ∧
      ∀ r ∈ x.2.2, RowGood v .post r := by
    intro x hx
    obtain ⟨s, hsm, hb⟩ := h1.mem_right hx
    exact accepted_good (hs s hsm) hb
  refine ⟨rows, h1, (C94_samples hp ho).imp ?_⟩
  rintro ⟨hd, all⟩ ⟨hd', b, ls, loss⟩ hx ⟨e1, used, e2, hsel, hr⟩
  refine ⟨e1, used, e2, hsel, ?_⟩
  have hall : ∀ r ∈ all, RowGood v hd r := by
    have hx := (List.mem_filter.1 hx).1
    simp only [List.mem_cons, List.not_mem_nil, or_false, Prod.mk.injEq] at hx
    rcases hx with ⟨rfl, rfl⟩ | ⟨rfl, rfl⟩ | ⟨rfl, rfl⟩ <;> intro r hr <;> obtain ⟨x, hx, hr⟩ := List.mem_flatMap.1 hr
    · exact (good x hx).1 r hr
    · exact (good x hx).2.1 r hr
    · exact (good x hx).2.2 r hr
  have hused : ∀ r ∈ used, RowGood v hd r := by
    intro r hr
    apply hall
    unfold Selected at hsel
    split at hsel
    · obtain ⟨_, rest, hperm⟩ := hsel
      exact hperm.subset (List.mem_append_left _ hr)
    · exact (show used = all from hsel) ▸ hr
  exact C144_alone hused hr

/-- **C144.** The validation loss is the mean of the losses, and raises ZeroDivisionError exactly if there are none. -/
theorem C144_validation (losses : List (List ℝ)) :
    ((∀ b ∈ losses, b = []) → valLoss losses = .error .zeroDivision) ∧
    ((∃ b ∈ losses, b ≠ []) → valLoss losses = .ok (avg losses.flatten)) := by
  unfold valLoss
  constructor
  · intro h
    rw [if_pos]
    rw [List.flatten_eq_nil_iff.2 h]
    rfl
  · rintro ⟨b, hb, hne⟩
    rw [if_neg]
    · rfl
    · intro h0
      exact hne (List.flatten_eq_nil_iff.1 (List.eq_nil_of_length_eq_zero h0) b hb)

end MJ
