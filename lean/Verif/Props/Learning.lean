import Verif.Model.Learning
import Verif.Props.Influence
import Verif.Props.Optimizer
/-!
Property C151: what training does to a whole network, loss by loss.
-/
namespace MJ.Net
open Spec

/-! ### all numbers -/

theorem Linear.get_update {m n : ℕ} (l : Linear m n) (f) (c) : (l.update f).get c = f c (l.get c) := by cases c <;> rfl
theorem LayerNorm.get_update {n : ℕ} (l : LayerNorm n) (f) (c) : (l.update f).get c = f c (l.get c) := by cases c <;> rfl
theorem Head.get_update (h : Head) (f) (c) : (h.update f).get c = f c (h.get c) := by
  rcases c with c | c | c <;> cases c <;> rfl
theorem MultiHeadAttention.get_update (a : MultiHeadAttention) (f) (c) : (a.update f).get c = f c (a.get c) := by
  rcases c with ⟨n, c⟩ | c
  · exact Head.get_update (a.heads n) (fun c => f (.head n c)) c
  · cases c <;> rfl
theorem FeedForward.get_update (x : FeedForward) (f) (c) : (x.update f).get c = f c (x.get c) := by
  rcases c with c | c <;> cases c <;> rfl
theorem EncoderBlock.get_update (e : EncoderBlock) (f) (c) : (e.update f).get c = f c (e.get c) := by
  cases c with
  | attn c => exact MultiHeadAttention.get_update e.self_attention (fun c => f (.attn c)) c
  | feed c => exact FeedForward.get_update e.ffwd (fun c => f (.feed c)) c
  | ln1 c => cases c <;> rfl
  | ln2 c => cases c <;> rfl
theorem DecoderBlock.get_update (d : DecoderBlock) (f) (c) : (d.update f).get c = f c (d.get c) := by
  cases c with
  | self c => exact MultiHeadAttention.get_update d.self_attention (fun c => f (.self c)) c
  | cross c => exact MultiHeadAttention.get_update d.cross_attention (fun c => f (.cross c)) c
  | feed c => exact FeedForward.get_update d.ffwd (fun c => f (.feed c)) c
  | ln1 c => cases c <;> rfl
  | ln2 c => cases c <;> rfl
  | ln3 c => cases c <;> rfl
theorem StateTail.get_update {n : ℕ} (s : StateTail n) (f) (c) : (s.update f).get c = f c (s.get c) := by
  rcases c with c | c | c <;> cases c <;> rfl
theorem StateNet1.get_update (s : StateNet1) (f) (c) : (s.update f).get c = f c (s.get c) := by
  cases c with
  | conv1 c => cases c <;> rfl
  | conv2 c => cases c <;> rfl
  | tail c => exact StateTail.get_update s.tail (fun c => f (.tail c)) c
theorem StateNet2.get_update {c o : ℕ} (s : StateNet2 c o) (f) (d) : (s.update f).get d = f d (s.get d) := by
  cases d with
  | conv1 c => cases c <;> rfl
  | conv2 c => cases c <;> rfl
  | tail c => exact StateTail.get_update s.tail (fun c => f (.tail c)) c
theorem getState_update (v : Variant) (s : StateNet v) (f) (c) : getState v (updateState v s f) c = f c (getState v s c) := by
  cases v
  · exact StateNet1.get_update s f c
  · exact StateNet2.get_update s f c
  · exact StateNet2.get_update s f c

/-- the number is one of the trainable ones of the model -/
def Params.Has {v : Variant} (p : Params v) (c : Coord v) : Prop := c.Exists p.encoder.length p.decoder.length

theorem Params.get_update {v : Variant} (p : Params v) (f : Coord v → ℝ → ℝ) {c : Coord v} (hc : p.Has c) :
    (p.update f).get c = f c (p.get c) := by
  match c, hc with
  | .table name i j, hc =>
    obtain ⟨_, h1, h2⟩ := hc
    cases name <;> first | rfl | exact absurd rfl h1 | exact absurd rfl h2
  | .enc k c, hc =>
    have hk : k < p.encoder.length := hc
    simp only [Params.get, Params.update, List.getElem?_mapIdx, List.getElem?_eq_getElem hk, Option.map_some, Option.elim]
    exact EncoderBlock.get_update _ _ _
  | .state c, _ => exact getState_update v _ _ _
  | .dec k c, hc =>
    have hk : k < p.decoder.length := hc
    simp only [Params.get, Params.update, List.getElem?_mapIdx, List.getElem?_eq_getElem hk, Option.map_some, Option.elim]
    exact DecoderBlock.get_update _ _ _
  | .ln_f c, _ => exact LayerNorm.get_update p.ln_f (fun c => f (.ln_f c)) c
  | .head h c, _ => exact Linear.get_update (p.heads h) (fun c => f (.head h c)) c

theorem Params.has_update {v : Variant} (p : Params v) (f : Coord v → ℝ → ℝ) (c : Coord v) : (p.update f).Has c ↔ p.Has c := by
  unfold Params.Has Params.update
  simp only [List.length_mapIdx]

theorem mapIdx_same {α : Type} (l : List α) (f : ℕ → α → α) (h : ∀ k a, f k a = a) : l.mapIdx f = l := by
  refine List.ext_getElem? (fun k => ?_)
  rw [List.getElem?_mapIdx]
  cases l[k]? with
  | none => rfl
  | some a => simp [h]

theorem Params.update_same {v : Variant} (p : Params v) (f : Coord v → ℝ → ℝ) (h : ∀ c x, f c x = x) : p.update f = p := by
  have hf : f = fun _ x => x := by funext c x; exact h c x
  subst hf
  obtain ⟨T, enc, st, dec, ln, hd⟩ := p
  unfold Params.update
  dsimp only
  rw [mapIdx_same enc (fun _ e => e.update fun _ x => x) (fun _ _ => rfl), mapIdx_same dec (fun _ d => d.update fun _ x => x) (fun _ _ => rfl)]
  cases v <;> rfl

/-! ### one step -/

/-- what belongs to one number -/
def Learner.entry {v : Variant} (s : Learner v) (c : Coord v) : EntryState := ⟨s.sched, s.adam c, s.params.get c⟩

theorem step_entry {v : Variant} (s : Learner v) (g : Coord v → Option ℝ) {c : Coord v} (hc : s.params.Has c) :
    (s.step g).entry c = lossStep false (g c) (s.entry c) := by
  unfold Learner.entry Learner.step lossStep
  dsimp only
  rw [Params.get_update _ _ hc]
  rfl

theorem step_has {v : Variant} (s : Learner v) (g : Coord v → Option ℝ) (c : Coord v) : (s.step g).params.Has c ↔ s.params.Has c :=
  Params.has_update _ _ _

/-- **C151.** The first loss of a call of `train` changes nothing in the model. -/
theorem C151_first {v : Variant} (p : Params v) (g : Coord v → Option ℝ) : ((Learner.begin p).step g).params = p := by
  show p.update (fun c x => (adamStep (1e-3 * lrFactor (Learner.begin p).sched) .init x (g c)).2) = p
  refine Params.update_same p _ (fun c x => ?_)
  have h0 : lrFactor (Learner.begin p).sched = 0 := C75_warmup.1
  rw [h0]
  cases g c <;> simp [adamStep]

/-! ### the losses one after the other -/

/-- the gradients of a loss -/
def Lesson.grads {v : Variant} (grad : Backward v) (ch : Chance v) (y : Lesson v) : Coord v → Option ℝ :=
  grad y.before.params y.head y.batch (ch.drop y.before.sched y.head y.batch)

/-- the losses follow each other: each is computed by the network in training mode with the parameters that all the optimiser
steps before have left, and is followed by one step -/
def Follows {v : Variant} (gelu : ℝ → ℝ) (grad : Backward v) (ch : Chance v) : List (Lesson v) → Learner v → Learner v → Prop
  | [], s, s' => s' = s
  | y :: ys, s, s' => y.before = s ∧ runRowsDrop v gelu s.params (ch.drop s.sched) y.head y.batch = .ok (y.logits, y.loss) ∧
      Follows gelu grad ch ys (s.step (y.grads grad ch)) s'

variable {v : Variant} {gelu : ℝ → ℝ} {grad : Backward v} {ch : Chance v}

theorem Follows.append {ys zs : List (Lesson v)} {s s' s'' : Learner v} (h : Follows gelu grad ch ys s s')
    (h' : Follows gelu grad ch zs s' s'') : Follows gelu grad ch (ys ++ zs) s s'' := by
  induction ys generalizing s with
  | nil => cases (show s' = s from h); exact h'
  | cons y ys ih => exact ⟨h.1, h.2.1, ih h.2.2⟩

theorem learnLoop_follows : ∀ (l : List (HeadName × Batch)) {s s' : Learner v} {ys : List (Lesson v)},
    learnLoop gelu grad ch l s = .ok (ys, s') → Follows gelu grad ch ys s s'
  | [], s, s', ys, h => by
    simp only [learnLoop, Except.ok.injEq, Prod.mk.injEq] at h
    obtain ⟨rfl, rfl⟩ := h
    rfl
  | (hd, b) :: l, s, s', ys, h => by
    simp only [learnLoop] at h
    split at h
    · exact learnLoop_follows l h
    · simp only [bind_ok, Except.ok.injEq, Prod.mk.injEq] at h
      obtain ⟨o, ho, ⟨r1, r2⟩, hr, rfl, rfl⟩ := h
      exact ⟨rfl, ho, learnLoop_follows l hr⟩

/-- **C151.** The losses of training follow each other. -/
theorem C151_interleaved : ∀ (l : List (Batch × Batch × Batch)) {s s' : Learner v} {ys : List (Lesson v)},
    learnAll gelu grad ch l s = .ok (ys, s') → Follows gelu grad ch ys s s'
  | [], s, s', ys, h => by
    simp only [learnAll, Except.ok.injEq, Prod.mk.injEq] at h
    obtain ⟨rfl, rfl⟩ := h
    rfl
  | t :: l, s, s', ys, h => by
    simp only [learnAll, bind_ok, Except.ok.injEq, Prod.mk.injEq] at h
    obtain ⟨⟨r1, r2⟩, hr, ⟨q1, q2⟩, hq, rfl, rfl⟩ := h
    exact (learnLoop_follows _ hr).append (C151_interleaved l hq)

/-- what a step does to one number -/
noncomputable def entryFold (e : EntryState) (l : List (Bool × Option ℝ)) : EntryState := l.foldl (fun e x => lossStep x.1 x.2 e) e

theorem follows_entry {ys : List (Lesson v)} {s s' : Learner v} (h : Follows gelu grad ch ys s s') {c : Coord v}
    (hc : s.params.Has c) :
    s'.entry c = entryFold (s.entry c) (ys.map (fun y => (false, y.grads grad ch c))) ∧ s'.params.Has c ∧
    ∀ y ∈ ys, y.before.params.Has c := by
  induction ys generalizing s with
  | nil => cases (show s' = s from h); exact ⟨rfl, hc, fun _ h => absurd h (by simp)⟩
  | cons y ys ih =>
    obtain ⟨h1, h2, h3⟩ := ih h.2.2 ((step_has _ _ c).2 hc)
    refine ⟨?_, h2, ?_⟩
    · rw [h1, step_entry _ _ hc]
      rfl
    · intro z hz
      rcases List.mem_cons.1 hz with rfl | hz
      · rw [h.1]; exact hc
      · exact h3 z hz

/-! the same with the entries of C134 -/

theorem entryAfter_congr {restart restart' : ℕ → Bool} {g g' : ℕ → Option ℝ} (x : ℝ) : ∀ (n : ℕ),
    (∀ k < n, restart k = restart' k ∧ g k = g' k) → entryAfter restart g x n = entryAfter restart' g' x n
  | 0, _ => rfl
  | n + 1, h => by
    simp only [entryAfter]
    rw [entryAfter_congr x n (fun k hk => h k (by omega)), (h n (by omega)).1, (h n (by omega)).2]

theorem entryFold_after (x : ℝ) (l : List (Bool × Option ℝ)) :
    entryFold ⟨0, .init, x⟩ l = entryAfter (fun n => (l.getD n (false, none)).1) (fun n => (l.getD n (false, none)).2) x l.length := by
  induction l using List.reverseRecOn with
  | nil => rfl
  | append_singleton l a ih =>
    unfold entryFold at ih ⊢
    rw [List.foldl_append, ih, List.length_append]
    simp only [List.foldl_cons, List.foldl_nil, List.length_singleton, entryAfter]
    have e1 : ((l ++ [a]).getD l.length (false, none)) = a := by
      simp [List.getD, List.getElem?_append_right (le_refl _)]
    rw [e1]
    congr 1
    refine entryAfter_congr x _ (fun k hk => ?_)
    have : (l ++ [a]).getD k (false, none) = l.getD k (false, none) := by
      simp [List.getD, List.getElem?_append_left hk]
    rw [this]
    exact ⟨rfl, rfl⟩

/-- the losses of several calls of `train`: for each whether it is the first of its call, and the gradient of the number -/
def history (grad : Backward v) (c : Coord v) (runs : List (Chance v × List (Lesson v))) : List (Bool × Option ℝ) :=
  runs.flatMap (fun r => r.2.mapIdx (fun i y => (i == 0, y.grads grad r.1 c)))

theorem entryFold_first (e : EntryState) (ch : Chance v) (c : Coord v) (ys : List (Lesson v)) :
    (entryFold e (ys.mapIdx (fun i y => (i == 0, y.grads grad ch c)))).value =
      (entryFold ⟨0, .init, e.value⟩ (ys.map (fun y => (false, y.grads grad ch c)))).value := by
  cases ys with
  | nil => rfl
  | cons y ys =>
    have : (y :: ys).mapIdx (fun i y => (i == 0, y.grads grad ch c)) = (true, y.grads grad ch c) :: ys.map (fun y => (false, y.grads grad ch c)) := by
      rw [List.mapIdx_cons]
      simp only [beq_self_eq_true, List.cons.injEq, true_and]
      refine List.ext_getElem? (fun k => ?_)
      rw [List.getElem?_mapIdx, List.getElem?_map]
      simp
    rw [this]
    unfold entryFold
    simp only [List.map_cons, List.foldl_cons]
    congr 2

theorem history_entry (c : Coord v) (runs : List (Chance v × List (Batch × Batch × Batch))) {p p' : Params v}
    {ls : List (List (Lesson v))} (h : learnRuns gelu grad runs p = .ok (ls, p')) (hc : p.Has c) (e : EntryState)
    (he : e.value = p.get c) :
    p'.get c = (entryFold e (history grad c ((runs.map (·.1)).zip ls))).value ∧ p'.Has c := by
  induction runs generalizing p ls e with
  | nil =>
    simp only [learnRuns, Except.ok.injEq, Prod.mk.injEq] at h
    obtain ⟨rfl, rfl⟩ := h
    exact ⟨he.symm, hc⟩
  | cons r runs ih =>
    simp only [learnRuns, bind_ok, Except.ok.injEq, Prod.mk.injEq] at h
    obtain ⟨⟨r1, r2⟩, hr, ⟨q1, q2⟩, hq, rfl, rfl⟩ := h
    have hf := C151_interleaved _ hr
    obtain ⟨h1, h2, _⟩ := follows_entry hf (c := c) hc
    have h3 : r2.params.get c = (entryFold e (r1.mapIdx (fun i y => (i == 0, y.grads grad r.1 c)))).value := by
      rw [entryFold_first, he]
      exact congrArg EntryState.value h1
    obtain ⟨h4, h5⟩ := ih hq h2 _ h3.symm
    refine ⟨?_, h5⟩
    rw [h4]
    unfold history entryFold
    simp only [List.map_cons, List.zip_cons_cons, List.flatMap_cons, List.foldl_append]

/-- **C151.** In any number of calls of `train` every single number of the model goes the way described by C134: the gradients
are those of the losses, and the optimiser starts anew with each call. -/
theorem C151_numbers (c : Coord v) (runs : List (Chance v × List (Batch × Batch × Batch))) {p p' : Params v}
    {ls : List (List (Lesson v))} (h : learnRuns gelu grad runs p = .ok (ls, p')) (hc : p.Has c) :
    let l := history grad c ((runs.map (·.1)).zip ls)
    p'.get c = (entryAfter (fun n => (l.getD n (false, none)).1) (fun n => (l.getD n (false, none)).2) (p.get c) l.length).value := by
  dsimp only
  rw [(history_entry c runs h hc ⟨0, .init, p.get c⟩ rfl).1, entryFold_after]

/-! ### bounds -/

/-- the numbers of the last two layers are at most 730 -/
def Moderate (p : Params v) : Prop := ∀ c, (∃ d, c = .ln_f d) ∨ (∃ h d, c = .head h d) → |p.get c| ≤ 730

theorem Moderate.below {p : Params v} (hp : Moderate p) {h : HeadName} {B : ℕ} (gelu : ℝ → ℝ) (X : Input v h B) (b : Fin B)
    (a f : Fin (actionDim h)) (ha : X.mask b a ≠ 0) (hf : X.mask b f = 0) :
    (∀ o, run gelu p X = .ok o → o.logits b f < o.logits b a) ∧
    (∀ r o, runDrop gelu p r X = .ok o → o.logits b f < o.logits b a) := by
  have hb : ∀ a, outputBound p.ln_f (p.heads h) a < 1000000000 := C97_small _ _
    (fun i => ⟨(hp (.ln_f (.weight i)) (.inl ⟨_, rfl⟩)).trans (by norm_num), (hp (.ln_f (.bias i)) (.inl ⟨_, rfl⟩)).trans (by norm_num)⟩)
    (fun a => ⟨(hp (.head h (.bias a)) (.inr ⟨_, _, rfl⟩)).trans (by norm_num),
      fun i => (hp (.head h (.weight a i)) (.inr ⟨_, _, rfl⟩)).trans (by norm_num)⟩)
  exact ⟨fun o ho => C97_forbidden_below ho hb b a f ha hf, fun r o ho => C130_forbidden_below ho hb b a f ha hf⟩

theorem follows_take {ys : List (Lesson v)} {s s' : Learner v} (h : Follows gelu grad ch ys s s') {y : Lesson v} (hy : y ∈ ys) :
    ∃ zs, Follows gelu grad ch zs s y.before := by
  induction ys generalizing s with
  | nil => exact absurd hy (by simp)
  | cons z ys ih =>
    rcases List.mem_cons.1 hy with rfl | hy
    · exact ⟨[], h.1⟩
    · obtain ⟨zs, hz⟩ := ih h.2.2 hy
      exact ⟨z :: zs, h.1, h.2.1, hz⟩

theorem follows_moderate {ys : List (Lesson v)} {p : Params v} {s' : Learner v} (h : Follows gelu grad ch ys (.begin p) s')
    (hp : Moderate p) : Moderate s'.params := by
  intro c hc
  have hx : (Learner.begin p).params.Has c := by rcases hc with ⟨d, rfl⟩ | ⟨hd, d, rfl⟩ <;> trivial
  have h1 := congrArg EntryState.value (follows_entry h hx).1
  have h2 : (Learner.begin p).entry c = ⟨0, .init, p.get c⟩ := rfl
  rw [h2, entryFold_after] at h1
  show |(s'.entry c).value| ≤ 730
  rw [h1]
  exact (C134_bounded _ _ _ _).trans (max_le (hp c hc) le_rfl)

/-- the numbers of the last two layers stay at most 730 -/
theorem learn_moderate (runs : List (Chance v × List (Batch × Batch × Batch))) {p p' : Params v}
    {ls : List (List (Lesson v))} (h : learnRuns gelu grad runs p = .ok (ls, p')) (hp : Moderate p) {q : Params v}
    (hq : q = p' ∨ ∃ l ∈ ls, ∃ y ∈ l, q = y.before.params) : Moderate q := by
  induction runs generalizing p ls with
  | nil =>
    simp only [learnRuns, Except.ok.injEq, Prod.mk.injEq] at h
    obtain ⟨rfl, rfl⟩ := h
    rcases hq with rfl | ⟨l, hl, _⟩
    · exact hp
    · exact absurd hl (by simp)
  | cons r runs ih =>
    simp only [learnRuns, bind_ok, Except.ok.injEq, Prod.mk.injEq] at h
    obtain ⟨⟨r1, r2⟩, hr, ⟨q1, q2⟩, hq', rfl, rfl⟩ := h
    have hf := C151_interleaved _ hr
    have key : (∃ y ∈ r1, q = y.before.params) ∨ (q = q2 ∨ ∃ l ∈ q1, ∃ y ∈ l, q = y.before.params) := by
      rcases hq with hq | ⟨l, hl, hy⟩
      · exact .inr (.inl hq)
      · rcases List.mem_cons.1 hl with rfl | hl
        · exact .inl hy
        · exact .inr (.inr ⟨l, hl, hy⟩)
    rcases key with ⟨y, hy, rfl⟩ | hq2
    · obtain ⟨zs, hz⟩ := follows_take hf hy
      exact follows_moderate hz hp
    · exact ih hq' (follows_moderate hf hp) hq2

/-- **C151.** At every loss of training, and at the end, every allowed action gets a larger logit than every forbidden one, on
every input, if the numbers of the last two layers were at most 730 at the beginning. -/
theorem C151_forbidden_below (runs : List (Chance v × List (Batch × Batch × Batch))) {p p' : Params v}
    {ls : List (List (Lesson v))} (h : learnRuns gelu grad runs p = .ok (ls, p')) (hp : Moderate p) {q : Params v}
    (hq : q = p' ∨ ∃ l ∈ ls, ∃ y ∈ l, q = y.before.params) {hd : HeadName} {B : ℕ} (gelu' : ℝ → ℝ) (X : Input v hd B) (b : Fin B)
    (a f : Fin (actionDim hd)) (ha : X.mask b a ≠ 0) (hf : X.mask b f = 0) :
    (∀ o, run gelu' q X = .ok o → o.logits b f < o.logits b a) ∧
    (∀ r o, runDrop gelu' q r X = .ok o → o.logits b f < o.logits b a) := by
  exact (learn_moderate runs h hp hq).below gelu' X b a f ha hf

/-! ### what is left alone -/

/-- **C151.** The last layer of a head is changed by the losses of this head only; the tables of positions and players and the
empty embedding and the number of blocks are never changed.  `hn`: the loss of a head has no gradient for the last layer of
another one (C132_other_heads). -/
theorem C151_untouched (hn : ∀ p h b r h' d, h' ≠ h → grad p h b r (.head h' d) = none) {ys : List (Lesson v)} {s s' : Learner v}
    (h : Follows gelu grad ch ys s s') :
    (∀ hd, (∀ y ∈ ys, y.head ≠ hd) → s'.params.heads hd = s.params.heads hd) ∧ (FixedTables s.params.tables → FixedTables s'.params.tables) ∧
    s'.params.encoder.length = s.params.encoder.length ∧ s'.params.decoder.length = s.params.decoder.length ∧
    s'.sched = s.sched + ys.length := by
  induction ys generalizing s with
  | nil => cases (show s' = s from h); exact ⟨fun _ _ => rfl, id, rfl, rfl, rfl⟩
  | cons y ys ih =>
    obtain ⟨h1, h2, h3, h4, h5⟩ := ih h.2.2
    refine ⟨fun hd hy => ?_, fun hT => h2 ⟨hT.1, hT.2.1, hT.2.2⟩, ?_, ?_, ?_⟩
    · rw [h1 hd (fun z hz => hy z (by simp [hz]))]
      have hg : ∀ d, y.grads grad ch (.head hd d) = none := fun d => hn _ _ _ _ _ _ (hy y (by simp)).symm
      unfold Learner.step Params.update
      dsimp only
      simp only [hg]
      rfl
    · rw [h3]; exact List.length_mapIdx
    · rw [h4]; exact List.length_mapIdx
    · rw [h5]
      show s.sched + 1 + ys.length = _
      rw [List.length_cons]
      omega

/-! ### dead numbers -/

/-- of `loss.backward()`: a number on which the loss of these samples depends in no model has gradient zero or none -/
def Honest (gelu : ℝ → ℝ) (grad : Backward v) : Prop :=
  ∀ (p : Params v) (h : HeadName) (b : Batch) (r : HeadName → (b : Batch) → NetDrop v b.encodings.length) (c : Coord v),
    (∀ p' x, runRowsDrop v gelu (p'.set x c) r h b = runRowsDrop v gelu p' r h b) → ∀ g, grad p h b (r h b) c = some g → g = 0

theorem dead_rows (c : Coord v) (hc : c.Dead) (h : HeadName) (b : Batch) (hb : ∀ row ∈ b.encodings, ∀ t ∈ row, LogToken t)
    (r : HeadName → (b : Batch) → NetDrop v b.encodings.length) (p : Params v) (x : ℝ) :
    runRowsDrop v gelu (p.set x c) r h b = runRowsDrop v gelu p r h b := by
  unfold runRowsDrop
  by_cases h1 : shapeOk v h b
  · have hX : ∀ (i : Fin b.encodings.length) (j : Fin 150), ∃ n, LogToken n ∧ (toInput v h b).tokens i j = BitVec.ofNat 64 n := by
      intro i j
      have hs := h1
      unfold shapeOk at hs
      simp only [Bool.and_eq_true, List.all_eq_true, beq_iff_eq] at hs
      have hrow : b.encodings.getD i [] = b.encodings[i.val] := by simp [List.getD]
      have hlen := hs.1.1.1.1.1.1.1.1.1.1 _ (List.getElem_mem i.isLt)
      have hj : (b.encodings[i.val]).getD j 0 = (b.encodings[i.val])[j.val]'(by rw [hlen]; exact j.isLt) := by
        rw [List.getD, List.getElem?_eq_getElem (by rw [hlen]; exact j.isLt)]; rfl
      refine ⟨_, hb _ (List.getElem_mem i.isLt) _ (List.getElem_mem (by rw [hlen]; exact j.isLt)), ?_⟩
      show BitVec.ofNat 64 ((b.encodings.getD i []).getD j 0) = _
      rw [hrow, hj]
    rw [(C99_dead gelu p x c hc (toInput v h b) hX).2]
  · simp [h1, bind, Except.bind]

/-- **C151.** Training does not learn the dead numbers (C99): whatever the data, each loss that reaches one only makes it smaller,
by a factor that depends on nothing but the number of the loss. -/
theorem C151_dead (hg : Honest gelu grad) (c : Coord v) (hc : c.Dead) {ys : List (Lesson v)} {s s' : Learner v}
    (h : Follows gelu grad ch ys s s') (hx : s.params.Has c) (h0 : (s.adam c).exp_avg = 0)
    (hy : ∀ y ∈ ys, ∀ row ∈ y.batch.encodings, ∀ t ∈ row, LogToken t) :
    s'.params.get c = s.params.get c *
      (ys.map (fun y => if (y.grads grad ch c).isSome then 1 - 0.00001 * lrFactor y.before.sched else 1)).prod ∧
    (s'.adam c).exp_avg = 0 := by
  induction ys generalizing s with
  | nil => cases (show s' = s from h); exact ⟨by simp, h0⟩
  | cons y ys ih =>
    obtain ⟨hb, _, hf⟩ := h
    have hgr : ∀ g, y.grads grad ch c = some g → g = 0 :=
      hg y.before.params y.head y.batch (ch.drop y.before.sched) c (fun p' x => dead_rows c hc y.head y.batch (hy y (by simp)) _ p' x)
    have hs : (s.step (y.grads grad ch)).params.get c =
        s.params.get c * (if (y.grads grad ch c).isSome then 1 - 0.00001 * lrFactor y.before.sched else 1) ∧
        ((s.step (y.grads grad ch)).adam c).exp_avg = 0 := by
      unfold Learner.step
      dsimp only
      rw [Params.get_update _ _ hx, hb]
      generalize hgc : y.grads grad ch c = gc at hgr
      cases gc with
      | none => simp [adamStep, h0]
      | some g =>
        have := hgr g rfl
        subst this
        have e : ((s.adam c).next 0).exp_avg = 0 := by simp [AdamState.next, h0]
        refine ⟨?_, e⟩
        simp only [adamStep, AdamState.direction, e, zero_div, mul_zero, sub_zero, Option.isSome_some, if_true]
        ring
    obtain ⟨h1, h2⟩ := ih hf ((step_has _ _ c).2 hx) hs.2 (fun z hz => hy z (by simp [hz]))
    refine ⟨?_, h2⟩
    rw [h1, hs.1, List.map_cons, List.prod_cons, mul_assoc]

/-- the loss as a number, for the derivative -/
noncomputable def lossOf (gelu : ℝ → ℝ) (p : Params v) (h : HeadName) (b : Batch) (d : NetDrop v b.encodings.length) : ℝ :=
  if shapeOk v h b ∧ labelsOk h b then (runDrop gelu p d (toInput v h b)).toOption.elim 0 (·.loss) else 0

theorem lossOf_rows (p : Params v) (h : HeadName) (b : Batch) (r : HeadName → (b : Batch) → NetDrop v b.encodings.length) :
    lossOf gelu p h b (r h b) = (runRowsDrop v gelu p r h b).toOption.elim 0 (·.2) := by
  unfold lossOf runRowsDrop
  by_cases h1 : shapeOk v h b
  · by_cases h2 : labelsOk h b
    · simp only [h1, h2, and_self, if_true, not_true_eq_false, if_false, pure_bind]
      cases runDrop gelu p (r h b) (toInput v h b) <;> rfl
    · simp [h1, h2, bind, Except.bind, Except.toOption]
  · simp [h1, bind, Except.bind, Except.toOption]

/-- the partial derivatives of the loss, except for the last layers of other heads -/
noncomputable def slopes (gelu : ℝ → ℝ) : Backward v := fun p h b d c =>
  match c with
  | .head h' _ => if h' = h then some (deriv (fun x => lossOf gelu (p.set x c) h b d) (p.get c)) else none
  | _ => some (deriv (fun x => lossOf gelu (p.set x c) h b d) (p.get c))

/-- C151: the partial derivatives are gradients of the kind supposed. -/
example : Honest gelu (slopes gelu : Backward v) ∧ ∀ p h b r h' d, h' ≠ h → (slopes gelu : Backward v) p h b r (.head h' d) = none := by
  refine ⟨?_, fun p h b r h' d hne => by simp [slopes, hne]⟩
  intro p h b r c hsame g hg
  have key : deriv (fun x => lossOf gelu (p.set x c) h b (r h b)) (p.get c) = 0 := by
    have : (fun x => lossOf gelu (p.set x c) h b (r h b)) = fun _ => lossOf gelu p h b (r h b) := by
      funext x
      rw [lossOf_rows, lossOf_rows, hsame]
    rw [this, deriv_const]
  unfold slopes at hg
  split at hg
  · split at hg
    · rw [← Option.some.inj hg]; exact key
    · cases hg
  · rw [← Option.some.inj hg]; exact key

/-! ### no exceptions -/

theorem forwardLoop_each {R : Type} {sample : Bool} {size : ℕ} {perm : ℕ → List ℕ} {run : HeadName → Batch → Except PyErr R} :
    ∀ {l : List (HeadName × Batch)} {out}, forwardLoop sample size perm run l = .ok out →
      ∀ x ∈ l, x.2.encodings.length ≠ 0 → ∃ o, run x.1 (sampleRows sample size perm x.2) = .ok o
  | [], _, _, x, hx, _ => absurd hx (by simp)
  | (h, b) :: l, out, ho, x, hx, hne => by
    simp only [forwardLoop] at ho
    split at ho
    · rename_i hb
      rcases List.mem_cons.1 hx with rfl | hx
      · exact absurd hb hne
      · exact forwardLoop_each ho x hx hne
    · simp only [bind_ok] at ho
      obtain ⟨o, h1, os, h2, _⟩ := ho
      rcases List.mem_cons.1 hx with rfl | hx
      · exact ⟨o, h1⟩
      · exact forwardLoop_each h2 x hx hne

theorem learnLoop_ok : ∀ (l : List (HeadName × Batch)) (s : Learner v),
    (∀ x ∈ l, x.2.encodings.length ≠ 0 → ∀ (p : Params v) n,
      ∃ o, runRowsDrop v gelu p (ch.drop n) x.1 (sampleRows true 2250 (ch.perm n) x.2) = .ok o) →
    ∃ ys s', learnLoop gelu grad ch l s = .ok (ys, s') ∧
      ys.map (·.head) = (l.filter (fun x => !x.2.encodings.isEmpty)).map (·.1)
  | [], s, _ => ⟨[], s, rfl, rfl⟩
  | (h, b) :: l, s, hl => by
    simp only [learnLoop]
    split
    · rename_i hb
      obtain ⟨ys, s', h1, h2⟩ := learnLoop_ok l s (fun x hx => hl x (by simp [hx]))
      refine ⟨ys, s', h1, ?_⟩
      have : b.encodings.isEmpty = true := by rw [List.isEmpty_iff_length_eq_zero]; exact hb
      simp [h2, this]
    · rename_i hb
      obtain ⟨o, ho⟩ := hl (h, b) (by simp) hb s.params s.sched
      obtain ⟨ys, s', h1, h2⟩ := learnLoop_ok l
        (s.step (grad s.params h (sampleRows true 2250 (ch.perm s.sched) b) (ch.drop s.sched h (sampleRows true 2250 (ch.perm s.sched) b))))
        (fun x hx => hl x (by simp [hx]))
      refine ⟨⟨s, h, sampleRows true 2250 (ch.perm s.sched) b, o.1, o.2⟩ :: ys, s', ?_, ?_⟩
      · dsimp only at ho
        simp only [ho, h1, bind, Except.bind]
      · have : b.encodings.isEmpty = false := by rw [Bool.eq_false_iff, Ne, List.isEmpty_iff_length_eq_zero]; exact hb
        simp [h2, this]

def nullLinear (m n : ℕ) : Linear m n := ⟨fun _ _ => 0, fun _ => 0⟩
def zeroTail (n : ℕ) : StateTail n := ⟨nullLinear _ _, nullLinear _ _, nullLinear _ _⟩
def zeroConv (c o : ℕ) : Conv2d c o := ⟨fun _ _ _ _ => 0, fun _ => 0⟩
/-- a model without blocks all of whose numbers are zero -/
def zeroModel (v : Variant) : Params v :=
  { tables := ⟨0, fun _ => 0, fun _ => 0, fun _ => 0, fun _ => 0, fun _ => 0, fun _ => 0, fun _ => 0⟩
    encoder := []
    state_net := match v with
      | .basic => (⟨⟨fun _ _ _ => 0, fun _ => 0⟩, ⟨fun _ _ _ => 0, fun _ => 0⟩, zeroTail _⟩ : StateNet1)
      | .conv => (⟨zeroConv _ _, zeroConv _ _, zeroTail _⟩ : StateNet2 3 8)
      | .ordered => (⟨zeroConv _ _, zeroConv _ _, zeroTail _⟩ : StateNet2 6 16)
    decoder := []
    ln_f := ⟨fun _ => 0, fun _ => 0⟩
    heads := fun _ => nullLinear _ _ }

/-- **C151.** On directories of logs of games played by the rules training goes through, whatever the parameters become in between:
for every batch the losses are yielded in the order of the heads, as many as counted in C83 and C123, one for each head that
has samples. -/
theorem C151_trains {N : Type} {pi : PyInt} (hpi : ReadsDecimals pi) {est : Estimate} {sh : List Int → Except PyErr Int}
    (he : ∀ q, RealHand q → ∃ b, est q = .ok b) (hs : ∀ l, RealConcealed l → ∃ n, sh l = .ok n) {content : N → Elem}
    {listing : List N} (hd : GoodDirectory pi content listing) {n : Nat} (hn : 0 < n) (v : Variant) :
    ∀ g ∈ epochBatches pi est sh content listing n, ∃ d c p k,
      prepareBatches v (gameTurns g) (gameTokens g) = .ok (d, c, p) ∧ batchLosses v g = .ok k ∧ 1 ≤ k ∧
      ∀ (gelu : ℝ → ℝ) (grad : Backward v) (ch : Chance v), (∀ m n, (ch.perm m n).Perm (List.range n)) → ∀ s : Learner v,
        ∃ ys s', learnBatch gelu grad ch (d, c, p) s = .ok (ys, s') ∧ ys.length = k ∧ (ys.map (·.head)).Sublist [.during, .discard, .post] := by
  intro g hg
  obtain ⟨_, _, _, _, h5⟩ := C123_batches hpi he hs hd hn v
  obtain ⟨k, hk, hb, h6⟩ := h5 g hg
  obtain ⟨d, c, p, _, hp, _⟩ := h6 id (zeroModel v) false 0 (perm := List.range) (fun _ => List.Perm.refl _)
  refine ⟨d, c, p, k, hp, hb, hk, fun gelu grad ch hperm s => ?_⟩
  obtain ⟨ys, s', h1, h2⟩ := learnLoop_ok (gelu := gelu) (grad := grad) (ch := ch) [(.during, d), (.discard, c), (.post, p)] s (by
    intro x hx hne q m
    obtain ⟨d', c', p', out, hp', hf⟩ := h6 gelu q true 2250 (perm := ch.perm m) (hperm m)
    obtain ⟨out', hf'⟩ := (C130_forward (ch.drop m) true 2250 (ch.perm m) d' c' p').2 ⟨out, hf⟩
    rw [hp] at hp'
    simp only [Except.ok.injEq, Prod.mk.injEq] at hp'
    obtain ⟨rfl, rfl, rfl⟩ := hp'
    exact forwardLoop_each hf' x hx hne)
  refine ⟨ys, s', h1, ?_, ?_⟩
  · have hl := congrArg List.length h2
    rw [List.length_map, List.length_map] at hl
    rw [hl]
    unfold batchLosses at hb
    rw [hp] at hb
    have hk' : ([d, c, p].filter (fun b => !b.encodings.isEmpty)).length = k := Except.ok.inj hb
    rw [← hk']
    have : [d, c, p] = [((.during, d) : HeadName × Batch), (.discard, c), (.post, p)].map (·.2) := rfl
    rw [this, List.filter_map, List.length_map]
    rfl
  · rw [h2]
    exact (List.filter_sublist (l := [((.during, d) : HeadName × Batch), (.discard, c), (.post, p)])).map (·.1)

end MJ.Net
