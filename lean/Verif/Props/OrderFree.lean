import Verif.Props.Alone
/-!
C166: the order of the games of a batch, of the samples and of the batches does not matter in evaluation.
-/
namespace MJ
open Spec Net

/-- **C166.** There is a function of the sample alone, its logits and its loss, such that the network yields for any batch of
samples the logits one after the other and the mean of the losses. -/
theorem C166_function (v : Variant) (gelu : ℝ → ℝ) (p : Params v) (h : HeadName) :
    ∃ f : Row → List ℝ × ℝ, ∀ rows : List Row, (∀ r ∈ rows, RowGood v h r) →
      runRows v gelu p h (ofRows rows) = .ok (rows.map (fun r => (f r).1), avg (rows.map (fun r => (f r).2))) := by
  classical
  let P : Row → Output h 1 → Prop := fun r o => ∃ X : Input v h 1, Enters r X ∧ run gelu p X = .ok o
  let f : Row → List ℝ × ℝ := fun r => if hr : ∃ o, P r o then (List.ofFn (hr.choose.logits 0), hr.choose.loss) else ([], 0)
  have hf : ∀ r o, P r o → f r = (List.ofFn (o.logits 0), o.loss) := by
    intro r o ho
    have hr : ∃ o, P r o := ⟨o, ho⟩
    have e : hr.choose = o := by
      obtain ⟨X, h1, h2⟩ := hr.choose_spec
      obtain ⟨Y, h3, h4⟩ := ho
      rw [C144_determined h1 h3, h4] at h2
      exact (Except.ok.inj h2).symm
    show (if hr : ∃ o, P r o then (List.ofFn (hr.choose.logits 0), hr.choose.loss) else ([], 0)) = _
    rw [dif_pos hr, e]
  refine ⟨f, fun rows hg => ?_⟩
  obtain ⟨o, ho⟩ := runBatch_rows hg gelu p
  have hrun : runRows v gelu p h (ofRows rows) = .ok (List.ofFn (fun i => List.ofFn (o.logits i)), o.loss) := by
    unfold runRows
    rw [ho]
    rfl
  obtain ⟨os, h1, h2, h3⟩ := C144_alone hg hrun
  have key : ∀ {rs : List Row} {os : List (Output h 1)}, AllPairs P rs os →
      os.map (fun o => List.ofFn (o.logits 0)) = rs.map (fun r => (f r).1) ∧ os.map (·.loss) = rs.map (fun r => (f r).2) := by
    intro rs os hp
    induction hp with
    | nil => exact ⟨rfl, rfl⟩
    | cons ha _ ih => simp only [List.map_cons, hf _ _ ha, ih.1, ih.2, and_self]
  rw [hrun]
  dsimp only at h2 h3
  rw [h2, h3, (key h1).1, (key h1).2]

theorem avg_perm {l l' : List ℝ} (h : l.Perm l') : avg l = avg l' := by
  unfold avg
  rw [h.sum_eq, h.length_eq]

theorem zip_map_right {α β : Type} (f : α → β) : ∀ l : List α, l.zip (l.map f) = l.map (fun a => (a, f a))
  | [] => rfl
  | a :: l => by simp [zip_map_right f l]

/-- **C166.** Samples in another order: the same loss, and for each sample the same logits. -/
theorem C166_samples {v : Variant} {h : HeadName} {rows rows' : List Row} (hg : ∀ r ∈ rows, RowGood v h r)
    (hp : rows.Perm rows') (gelu : ℝ → ℝ) (p : Params v) :
    ∃ ls ls' loss, runRows v gelu p h (ofRows rows) = .ok (ls, loss) ∧ runRows v gelu p h (ofRows rows') = .ok (ls', loss) ∧
      ls.length = rows.length ∧ ls'.length = rows'.length ∧ (rows.zip ls).Perm (rows'.zip ls') := by
  obtain ⟨f, hf⟩ := C166_function v gelu p h
  refine ⟨_, rows'.map (fun r => (f r).1), _, hf rows hg, ?_, by simp, by simp, ?_⟩
  · rw [hf rows' (fun r hr => hg r (hp.symm.subset hr)), avg_perm (hp.map (fun r => (f r).2))]
  · rw [zip_map_right, zip_map_right]
    exact hp.map _

/-- **C166.** The loss of two lots of samples put together is the mean of the losses, weighted by the numbers of samples. -/
theorem C166_parts {v : Variant} {h : HeadName} {rows rows' : List Row} (hg : ∀ r ∈ rows, RowGood v h r)
    (hg' : ∀ r ∈ rows', RowGood v h r) (hne : rows ≠ []) (hne' : rows' ≠ []) (gelu : ℝ → ℝ) (p : Params v) :
    ∃ ls ls' loss loss', runRows v gelu p h (ofRows rows) = .ok (ls, loss) ∧ runRows v gelu p h (ofRows rows') = .ok (ls', loss') ∧
      runRows v gelu p h (ofRows (rows ++ rows')) =
        .ok (ls ++ ls', (rows.length * loss + rows'.length * loss') / (rows.length + rows'.length)) := by
  obtain ⟨f, hf⟩ := C166_function v gelu p h
  refine ⟨_, _, _, _, hf rows hg, hf rows' hg', ?_⟩
  rw [hf _ (fun r hr => (List.mem_append.1 hr).elim (hg r) (hg' r))]
  have h1 : (rows.length : ℝ) ≠ 0 := by simpa using hne
  have h2 : (rows'.length : ℝ) ≠ 0 := by simpa using hne'
  simp only [List.map_append, avg, List.sum_append, List.length_append, List.length_map, Nat.cast_add]
  rw [mul_div_cancel₀ _ h1, mul_div_cancel₀ _ h2]

theorem mapM_fun {α β : Type} {f : α → Except PyErr β} {g : α → β} : ∀ {l : List α}, (∀ a ∈ l, f a = .ok (g a)) →
    l.mapM f = .ok (l.map g)
  | [], _ => rfl
  | a :: l, h => by
    rw [List.mapM_cons, h a (by simp), mapM_fun (fun x hx => h x (by simp [hx]))]
    rfl

/-- **C166.** Rounds in another order, or distributed over the games in another way: `prepare_batches` builds the same samples,
in another order. -/
theorem C166_prepared {v : Variant} {games games' : List (List RoundSt)} {d c p : Batch}
    (hf : ∀ s ∈ games.flatten, ∀ t ∈ s.halfturns, FourLists t) (hp : games.flatten.Perm games'.flatten)
    (h : prepareBatches v (gameTurns games) (gameTokens games) = .ok (d, c, p)) :
    ∃ rd rc rp rd' rc' rp', d = ofRows rd ∧ c = ofRows rc ∧ p = ofRows rp ∧
      prepareBatches v (gameTurns games') (gameTokens games') = .ok (ofRows rd', ofRows rc', ofRows rp') ∧
      rd.Perm rd' ∧ rc.Perm rc' ∧ rp.Perm rp' := by
  classical
  obtain ⟨rows, h1, h2, h3, h4⟩ := C64_batches hf h
  let R : RoundSt → List Row × List Row × List Row → Prop := fun s r =>
    buildTensors v s s.halfturns s.encoding_tokens = .ok (ofRows r.1, ofRows r.2.1, ofRows r.2.2)
  have key : ∀ {ss : List RoundSt} {rs : List (List Row × List Row × List Row)}, AllPairs R ss rs → ∀ s ∈ ss, ∃ r, R s r := by
    intro ss rs hp
    induction hp with
    | nil => simp
    | cons ha _ ih =>
      intro s hs
      rcases List.mem_cons.1 hs with rfl | hs
      · exact ⟨_, ha⟩
      · exact ih s hs
  let g : RoundSt → List Row × List Row × List Row := fun s => if hs : ∃ r, R s r then hs.choose else ([], [], [])
  have hg : ∀ s ∈ games.flatten, R s (g s) := by
    intro s hs
    have hr := key h1 s hs
    show R s (if hs : ∃ r, R s r then hs.choose else ([], [], []))
    rw [dif_pos hr]
    exact hr.choose_spec
  have hprep : ∀ gs : List (List RoundSt), (∀ s ∈ gs.flatten, R s (g s)) → prepareBatches v (gameTurns gs) (gameTokens gs) =
      stackBatches v ((gs.flatten.map g).map (fun r => ofRows r.1)) ((gs.flatten.map g).map (fun r => ofRows r.2.1))
        ((gs.flatten.map g).map (fun r => ofRows r.2.2)) := by
    intro gs hgs
    have e : (zipRounds (gameTurns gs) (gameTokens gs)).mapM (fun r => buildTensors v r.1.1 r.1.2 r.2) =
        .ok ((gs.flatten.map (fun s => ((s, s.halfturns), s.encoding_tokens))).map
          (fun x => (ofRows (g x.1.1).1, ofRows (g x.1.1).2.1, ofRows (g x.1.1).2.2))) := by
      rw [zipRounds_games]
      refine mapM_fun fun a ha => ?_
      obtain ⟨s, hs, rfl⟩ := List.mem_map.1 ha
      exact hgs s hs
    unfold prepareBatches
    rw [e]
    show stackBatches v _ _ _ = _
    simp only [List.map_map, Function.comp_def]
  have cat : ∀ {l : List (List Row × List Row × List Row)} (q : List Row × List Row × List Row → List Row),
      Batch.cat (l.map (fun r => ofRows (q r))) = ofRows (l.flatMap q) := by
    intro l q
    rw [List.flatMap_def, ← cat_ofRows, List.map_map]
    rfl
  have hg' : ∀ s ∈ games'.flatten, R s (g s) := fun s hs => hg s (hp.symm.subset hs)
  rw [hprep games hg] at h
  have hnil : games.flatten.map g = [] ↔ games'.flatten.map g = [] := by
    rw [List.map_eq_nil_iff, List.map_eq_nil_iff]
    constructor
    · intro h0; rw [h0] at hp; exact hp.symm.eq_nil
    · intro h0; rw [h0] at hp; exact hp.eq_nil
  have hpm := hp.map g
  unfold stackBatches at h
  split at h
  · simp at h
  · rename_i hs
    simp only [Except.ok.injEq, Prod.mk.injEq] at h
    obtain ⟨rfl, rfl, rfl⟩ := h
    refine ⟨_, _, _, (games'.flatten.map g).flatMap (·.1), (games'.flatten.map g).flatMap (·.2.1),
      (games'.flatten.map g).flatMap (·.2.2), cat (·.1), cat (·.2.1), cat (·.2.2), ?_, hpm.flatMap_right _, hpm.flatMap_right _,
      hpm.flatMap_right _⟩
    rw [hprep games' hg', stackBatches, if_neg, cat (·.1), cat (·.2.1), cat (·.2.2)]
    simp only [List.map_eq_nil_iff, or_self] at hs ⊢ hnil
    rw [← hnil]
    exact hs

theorem forward_all {R : Type} {size : Nat} {perm : Nat → List Nat} {run : HeadName → Batch → Except PyErr R}
    {fn : HeadName → List Row → R} {l : List (HeadName × List Row)} (hr : ∀ x ∈ l, run x.1 (ofRows x.2) = .ok (fn x.1 x.2)) :
    forwardLoop false size perm run (l.map (fun x => (x.1, ofRows x.2))) =
      .ok ((l.filter (fun x => !x.2.isEmpty)).map (fun x => (x.1, ofRows x.2, fn x.1 x.2))) := by
  induction l with
  | nil => rfl
  | cons x l ih =>
    obtain ⟨h, rows⟩ := x
    have ih := ih (fun x hx => hr x (by simp [hx]))
    simp only [List.map_cons, forwardLoop]
    cases rows with
    | nil => simpa [ofRows] using ih
    | cons r rs =>
      have e : (ofRows (r :: rs)).encodings.length ≠ 0 := by simp [ofRows]
      rw [if_neg e, ih]
      have e2 : sampleRows false size perm (ofRows (r :: rs)) = ofRows (r :: rs) := by simp [sampleRows]
      have e3 := hr (h, r :: rs) (by simp)
      dsimp only at e3
      rw [e2, e3]
      rfl

/-- **C166.** What `forward` yields in evaluation for the same rounds in another order: the same heads with the same losses, and for
each sample the same logits. -/
theorem C166_games {v : Variant} {games games' : List (List RoundSt)} (hs : ∀ s ∈ games.flatten, AcceptedRound s)
    (hp : games.flatten.Perm games'.flatten) {d c p : Batch}
    (h : prepareBatches v (gameTurns games) (gameTokens games) = .ok (d, c, p)) (gelu : ℝ → ℝ) (params : Params v) (size size' : Nat)
    (perm perm' : Nat → List Nat) :
    ∃ d' c' p' out out', prepareBatches v (gameTurns games') (gameTokens games') = .ok (d', c', p') ∧
      forward false size perm (runRows v gelu params) d c p = .ok out ∧
      forward false size' perm' (runRows v gelu params) d' c' p' = .ok out' ∧
      AllPairs (fun o o' => o.1 = o'.1 ∧ o.2.2.2 = o'.2.2.2 ∧ ∃ used used', o.2.1 = ofRows used ∧ o'.2.1 = ofRows used' ∧
        o.2.2.1.length = used.length ∧ o'.2.2.1.length = used'.length ∧ (used.zip o.2.2.1).Perm (used'.zip o'.2.2.1)) out out' := by
  have hf : ∀ s ∈ games.flatten, ∀ t ∈ s.halfturns, FourLists t := by
    intro s hs'
    obtain ⟨est, sh, g, a, evs, hs''⟩ := hs s hs'
    exact fourLists_accepted hs''
  obtain ⟨rows, h1, e1, e2, e3⟩ := C64_batches hf h
  obtain ⟨rd, rc, rp, rd', rc', rp', f1, f2, f3, hprep, p1, p2, p3⟩ := C166_prepared hf hp h
  have inj : ∀ r1 r2 : List Row, ofRows r1 = ofRows r2 → r1 = r2 := by
    intro r1
    induction r1 with
    | nil => intro r2 h; cases r2 with
      | nil => rfl
      | cons a l => simp [ofRows] at h
    | cons a l ih =>
      intro r2 h
      cases r2 with
      | nil => simp [ofRows] at h
      | cons b m =>
        simp only [ofRows, List.map_cons, Batch.mk.injEq, List.cons.injEq] at h
        obtain ⟨⟨a1, b1⟩, ⟨a2, b2⟩, ⟨a3, b3⟩, ⟨a4, b4⟩, ⟨a5, b5⟩, ⟨a6, b6⟩, a7, b7⟩ := h
        rw [ih m (by simp [ofRows, b1, b2, b3, b4, b5, b6, b7])]
        congr 1
        cases a; cases b
        simp_all
  have good : ∀ x ∈ rows, (∀ r ∈ x.1, RowGood v .during r) ∧ (∀ r ∈ x.2.1, RowGood v .discard r) ∧
      ∀ r ∈ x.2.2, RowGood v .post r := by
    intro x hx
    obtain ⟨s, hsm, hb⟩ := h1.mem_right hx
    exact accepted_good (hs s hsm) hb
  have g1 : ∀ r ∈ rd, RowGood v .during r := by
    rw [inj _ _ (f1.symm.trans e1)]
    intro r hr; obtain ⟨x, hx, hr⟩ := List.mem_flatMap.1 hr; exact (good x hx).1 r hr
  have g2 : ∀ r ∈ rc, RowGood v .discard r := by
    rw [inj _ _ (f2.symm.trans e2)]
    intro r hr; obtain ⟨x, hx, hr⟩ := List.mem_flatMap.1 hr; exact (good x hx).2.1 r hr
  have g3 : ∀ r ∈ rp, RowGood v .post r := by
    rw [inj _ _ (f3.symm.trans e3)]
    intro r hr; obtain ⟨x, hx, hr⟩ := List.mem_flatMap.1 hr; exact (good x hx).2.2 r hr
  have hfn : ∃ f : HeadName → Row → List ℝ × ℝ, ∀ h (rows : List Row), (∀ r ∈ rows, RowGood v h r) →
      runRows v gelu params h (ofRows rows) = .ok (rows.map (fun r => (f h r).1), avg (rows.map (fun r => (f h r).2))) :=
    ⟨fun h => (C166_function v gelu params h).choose, fun h => (C166_function v gelu params h).choose_spec⟩
  obtain ⟨f, hfr⟩ := hfn
  subst f1 f2 f3
  let l : List (HeadName × List Row) := [(.during, rd), (.discard, rc), (.post, rp)]
  let l' : List (HeadName × List Row) := [(.during, rd'), (.discard, rc'), (.post, rp')]
  let fn : HeadName → List Row → List (List ℝ) × ℝ := fun h rows => (rows.map (fun r => (f h r).1), avg (rows.map (fun r => (f h r).2)))
  have r1 : ∀ x ∈ l, runRows v gelu params x.1 (ofRows x.2) = .ok (fn x.1 x.2) := by
    intro x hx
    simp only [l, List.mem_cons, List.not_mem_nil, or_false] at hx
    rcases hx with rfl | rfl | rfl
    · exact hfr _ _ g1
    · exact hfr _ _ g2
    · exact hfr _ _ g3
  have r2 : ∀ x ∈ l', runRows v gelu params x.1 (ofRows x.2) = .ok (fn x.1 x.2) := by
    intro x hx
    simp only [l', List.mem_cons, List.not_mem_nil, or_false] at hx
    rcases hx with rfl | rfl | rfl
    · exact hfr _ _ fun r hr => g1 r (p1.symm.subset hr)
    · exact hfr _ _ fun r hr => g2 r (p2.symm.subset hr)
    · exact hfr _ _ fun r hr => g3 r (p3.symm.subset hr)
  refine ⟨_, _, _, _, _, hprep, forward_all r1, forward_all r2, ?_⟩
  have hl : AllPairs (fun x y => x.1 = y.1 ∧ x.2.Perm y.2) l l' := .cons ⟨rfl, p1⟩ (.cons ⟨rfl, p2⟩ (.cons ⟨rfl, p3⟩ .nil))
  generalize l = l at hl
  generalize l' = l' at hl
  clear r1 r2
  induction hl with
  | nil => exact .nil
  | @cons a b as bs hab _ ih =>
    obtain ⟨ha, rows1⟩ := a
    obtain ⟨hb, rows2⟩ := b
    obtain ⟨rfl, hq⟩ := hab
    dsimp only at hq
    have e : rows1.isEmpty = rows2.isEmpty := by
      cases rows1 <;> cases rows2 <;> simp_all
    simp only [List.filter_cons, e]
    split
    · simp only [List.map_cons]
      refine .cons ⟨rfl, ?_, rows1, rows2, rfl, rfl, by simp [fn], by simp [fn], ?_⟩ ih
      · exact avg_perm (hq.map _)
      · simp only [fn]
        rw [zip_map_right, zip_map_right]
        exact hq.map _
    · exact ih

/-- the hypotheses can be met: a round in the first game of a batch, and in the second -/
example (v : Variant) : ∃ (games games' : List (List RoundSt)) (d c p : Batch), games ≠ games' ∧ games.flatten.Perm games'.flatten ∧
    (∀ s ∈ games.flatten, AcceptedRound s) ∧ prepareBatches v (gameTurns games) (gameTokens games) = .ok (d, c, p) := by
  obtain ⟨s, hs, h⟩ := okAnd_ok (passRound_tensors v)
  simp only [Bool.and_eq_true] at h
  obtain ⟨⟨d, c, p⟩, hb, -⟩ := okAnd_ok h.1
  refine ⟨[[s]], [[], [s]], Batch.cat [d], Batch.cat [c], Batch.cat [p], by simp, by simp, ?_, ?_⟩
  · intro t ht
    simp only [List.flatten_cons, List.flatten_nil, List.append_nil, List.mem_singleton] at ht
    exact ht ▸ ⟨_, _, _, _, _, hs⟩
  · have hz : zipRounds (gameTurns [[s]]) (gameTokens [[s]]) = [((s, s.halfturns), s.encoding_tokens)] := by
      rw [zipRounds_games]; rfl
    simp only [prepareBatches, hz, List.mapM_cons, List.mapM_nil, hb]
    show stackBatches v [d] [c] [p] = _
    simp [stackBatches]

/-- **C166.** Batches in another order: the same validation loss. -/
theorem C166_validation {losses losses' : List (List ℝ)} (h : losses.Perm losses') : valLoss losses = valLoss losses' := by
  have hp : losses.flatten.Perm losses'.flatten := h.flatten
  unfold valLoss
  rw [hp.length_eq, hp.sum_eq]

end MJ
