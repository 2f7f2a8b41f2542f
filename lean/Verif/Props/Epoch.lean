import Verif.Spec.Epoch
import Verif.Props.RoundQuestions
import Verif.Props.LogFile
import Verif.Props.Training
import Mathlib.Data.List.Perm.Subperm
/-!
C123: from log files to losses, for a whole epoch.
-/
namespace MJ
open Spec

/-- the document is the log of the game, which is of a kind that is used -/
def Spec.WrittenGame (pi : PyInt) (root : Elem) (rs : List LogRound) : Prop :=
  ∃ go iss, HasGameType pi root go ∧ Acceptable ⟨go⟩ ∧ AllPairs WritesRound iss rs ∧ relevant (traverse root) = iss.flatten

/-- the document is the log of a complete game of another kind -/
def Spec.OtherGame (pi : PyInt) (root : Elem) : Prop :=
  ∃ go, HasGameType pi root go ∧ ¬ Acceptable ⟨go⟩ ∧ grouping (traverse root) = .fine

theorem accepts_le_four {acts : List Act} (hw : ∀ x ∈ acts, x.who < 4)
    (h : ∀ pre p post, acts = pre ++ .accept p :: post → Act.accept p ∉ post) : acts.countP Act.isAccept ≤ 4 := by
  have hnd : (acts.filter Act.isAccept).Nodup := by
    clear hw
    induction acts with
    | nil => simp
    | cons x acts ih =>
      have ih := ih (fun pre p post e => h (x :: pre) p post (by simp [e]))
      rw [List.filter_cons]
      split
      · rename_i hx
        refine List.nodup_cons.2 ⟨?_, ih⟩
        intro hm
        cases x with
        | accept p => exact h [] p acts rfl (List.mem_filter.1 hm).1
        | _ => simp [Act.isAccept] at hx
      · exact ih
  have hsub : acts.filter Act.isAccept ⊆ [.accept 0, .accept 1, .accept 2, .accept 3] := by
    intro x hx
    obtain ⟨h1, h2⟩ := List.mem_filter.1 hx
    have := hw x h1
    cases x with
    | accept p =>
      have : p = 0 ∨ p = 1 ∨ p = 2 ∨ p = 3 := by simp only [Act.who] at this; omega
      rcases this with rfl | rfl | rfl | rfl <;> simp
    | _ => simp [Act.isAccept] at h2
  have := (List.subperm_of_subset hnd hsub).length_le
  rw [List.countP_eq_length_filter]
  simpa using this

theorem ev_entry {acts : List Act} (hw : ∀ x ∈ acts, x.who < 4) : acts.map Act.ev = logOf acts := by
  unfold logOf
  apply List.map_congr_left
  intro x hx
  have := hw x hx
  cases x <;> simp_all [Act.ev, Act.entry, Act.who, Fin.ofNat, Nat.mod_eq_of_lt]

/-- a round played by the rules is processed; if there is a discard, there is a discard half-turn -/
theorem round_processed {est : Estimate} {sh : List Int → Except PyErr Int} (he : ∀ q, RealHand q → ∃ b, est q = .ok b)
    (hs : ∀ l, RealConcealed l → ∃ n, sh l = .ok n) (g : GameInfo) {r : LogRound} (hr : PlayedByRules r) :
    ∃ s, processRound est sh g r.attr r.events = .ok s ∧ PlayedRound s ∧
      ((∃ p t, Act.discard p t ∈ r.acts) → ∃ t ∈ s.halfturns, t.isDiscard = true) := by
  obtain ⟨round, honba, sticks, x, y, first, hseed, hf, hl⟩ := hr.deal
  have hw := hl.consistent.who
  have hd : r.attr.Deals r.hai first := ⟨fun _ _ => rfl, round, honba, sticks, x, y, by rw [← hseed]; rfl⟩
  have hrs : ∀ e ∈ r.results.map (fun x => Ev.result x.1 (.ok x.2)), ∃ w sc, e = .result w (.ok sc) := by
    intro e he
    obtain ⟨x, _, rfl⟩ := List.mem_map.1 he
    exact ⟨_, _, rfl⟩
  have hev : r.events = logOf r.acts ++ r.results.map (fun x => .result x.1 (.ok x.2)) := by
    unfold LogRound.events
    rw [ev_entry hw]
  rw [hev]
  obtain ⟨s, h⟩ := C122_accepted he hs g (a := r.attr) rfl hr.points rfl hr.dealer hd hf hl hr.calls
    (rs := r.results.map (fun x => .result x.1 (.ok x.2))) (by simp [hr.ended]) hrs
  refine ⟨s, h, ⟨est, sh, g, r.attr, _, h, ?_⟩, ?_⟩
  · rw [logOf_acts hw hrs]
    refine ⟨hl.consistent.kans, hl.consistent.codes, ?_, accepts_le_four hw hr.riichi⟩
    rintro sc ⟨⟩
    exact hr.points
  · rintro ⟨p, t, hpt⟩
    obtain ⟨c, s0, acts, rest, h1, h3, h4, h5, h2⟩ := accepted_reached h
    have hacts := acts_of_events h3 h4 h5
    rw [logOf_acts hw hrs] at hacts
    subst hacts
    have hturns := C43_halfturns h1 h2
    have hmem : ∀ (l : List Act) (n : Nat), Act.discard p t ∈ l → ∃ e, Turn.discard p e t ∈ turnsFrom n l := by
      intro l
      induction l with
      | nil => intro n h; simp at h
      | cons z l ih =>
        intro n h
        rcases List.mem_cons.1 h with rfl | h
        · exact ⟨n, by simp [turnsFrom, Act.turns]⟩
        · obtain ⟨e, he⟩ := ih (n + z.tokenCount) h
          exact ⟨e, by simp [turnsFrom, he]⟩
    obtain ⟨e, he⟩ := hmem r.acts 0 hpt
    rw [← hturns] at he
    obtain ⟨ht, hm, heq⟩ := List.mem_map.1 he
    refine ⟨ht, hm, ?_⟩
    cases ht with
    | discard => rfl
    | during => simp [HalfTurn.turn] at heq
    | post => simp [HalfTurn.turn] at heq

/-- games of which the tensors can be built and yield a discard sample -/
def GoodGame (ss : List RoundSt) : Prop := (∀ s ∈ ss, PlayedRound s) ∧ ∃ s ∈ ss, ∃ t ∈ s.halfturns, t.isDiscard = true

theorem game_processed {pi : PyInt} (hpi : ReadsDecimals pi) {est : Estimate} {sh : List Int → Except PyErr Int}
    (he : ∀ q, RealHand q → ∃ b, est q = .ok b) (hs : ∀ l, RealConcealed l → ∃ n, sh l = .ok n) {root : Elem}
    {rs : List LogRound} (hw : WrittenGame pi root rs) (hr : ∀ r ∈ rs, PlayedByRules r) (hd : HasDiscard rs) :
    ∃ ss, process pi est sh root = .ok ss ∧ ss.length = rs.length ∧ GoodGame ss := by
  obtain ⟨go, iss, h1, h2, h3, h4⟩ := hw
  rw [C102_log hpi est sh root go rs iss h1 h2 h3 h4]
  obtain ⟨ss, hss⟩ := mapM_total (fun r : LogRound => processRound est sh ⟨go⟩ r.attr r.events) rs (fun r hr' => by
    obtain ⟨s, h, _⟩ := round_processed he hs ⟨go⟩ (hr r hr')
    exact ⟨s, h⟩)
  have hp := mapM_pairs hss
  refine ⟨ss, hss, hp.length.symm, ?_, ?_⟩
  · intro s hsm
    obtain ⟨r, hrm, h⟩ := hp.mem_right hsm
    obtain ⟨s', h', hpl, _⟩ := round_processed he hs ⟨go⟩ (hr r hrm)
    rw [h] at h'
    cases h'
    exact hpl
  · obtain ⟨r, hrm, hdis⟩ := hd
    obtain ⟨s, hsm, h⟩ := hp.mem_left hrm
    obtain ⟨s', h', _, hh⟩ := round_processed he hs ⟨go⟩ (hr r hrm)
    rw [h] at h'
    cases h'
    exact ⟨s, hsm, hh hdis⟩

/-! ### batches -/

/-- a batch of games that can be used yields at least one loss, whatever the parameters -/
theorem batch_losses {v : Variant} {games : List (List RoundSt)} (h : ∀ ss ∈ games, GoodGame ss) (hne : games ≠ []) :
    ∃ k, 1 ≤ k ∧ batchLosses v games = .ok k ∧ ∀ (gelu : ℝ → ℝ) (params : Net.Params v) (sample : Bool) (size : Nat)
      {perm : Nat → List Nat}, (∀ n, (perm n).Perm (List.range n)) →
      ∃ d c p out, prepareBatches v (gameTurns games) (gameTokens games) = .ok (d, c, p) ∧
        forward sample size perm (Net.runRows v gelu params) d c p = .ok out := by
  have hpl : ∀ s ∈ games.flatten, PlayedRound s := by
    intro s hs
    obtain ⟨ss, h1, h2⟩ := List.mem_flatten.1 hs
    exact (h ss h1).1 s h2
  obtain ⟨ss, hss⟩ := List.exists_mem_of_ne_nil _ hne
  obtain ⟨_, s, hsm, t, ht, htd⟩ := h ss hss
  have hsf : s ∈ games.flatten := List.mem_flatten.2 ⟨ss, hss, hsm⟩
  have hflat : games.flatten ≠ [] := List.ne_nil_of_mem hsf
  have hfwd := fun gelu params sample size {perm} hp => C101_pipeline (v := v) hpl hflat gelu params sample size (perm := perm) hp
  obtain ⟨d, c, p, hb⟩ := build_played (v := v) hpl hflat
  have hf : ∀ s ∈ games.flatten, ∀ t ∈ s.halfturns, FourLists t := by
    intro s hs'
    obtain ⟨est, sh, g, a, evs, hs'', _⟩ := hpl s hs'
    exact fourLists_accepted hs''
  obtain ⟨rows, h1, rfl, rfl, rfl⟩ := C64_batches hf hb
  obtain ⟨r, hr, hbt⟩ := h1.mem_left hsf
  obtain ⟨est, sh, g, a, evs, hs'', _⟩ := hpl s hsf
  obtain ⟨rows', he, hp⟩ := C59_discard_rows_partial hs'' hbt
  have hlen : 0 < r.2.1.length := by
    have : r.2.1.length = rows'.length := by
      have := congrArg (fun b : Batch => b.encodings.length) he
      simpa [ofRows] using this
    rw [this, ← hp.length]
    exact List.length_pos_iff.2 (List.ne_nil_of_mem (List.mem_filter.2 ⟨ht, htd⟩))
  have hne' : (ofRows (rows.flatMap (·.2.1))).encodings.isEmpty = false := by
    have : rows.flatMap (·.2.1) ≠ [] := by
      obtain ⟨x, hx⟩ := List.exists_mem_of_length_pos hlen
      exact List.ne_nil_of_mem (List.mem_flatMap.2 ⟨r, hr, hx⟩)
    simpa [ofRows] using this
  refine ⟨([ofRows (rows.flatMap (·.1)), ofRows (rows.flatMap (·.2.1)), ofRows (rows.flatMap (·.2.2))].filter
      (fun b => !b.encodings.isEmpty)).length, ?_, ?_, hfwd⟩
  · exact List.length_pos_iff.2 (List.ne_nil_of_mem (a := ofRows (rows.flatMap (·.2.1)))
      (List.mem_filter.2 ⟨List.mem_cons_of_mem _ List.mem_cons_self, by rw [hne']; rfl⟩))
  · unfold batchLosses
    rw [hb]
    rfl

/-- if the last file is used, no batch is empty -/
theorem loop_nonempty {N α : Type} {process : N → Except PyErr α} (k : Nat) : ∀ (l : Loader N), 0 < l.batch_size →
    (∀ f, l.file_list.getLast? = some f → ∃ x, process f = .ok x) → ∀ b ∈ (l.loop process k).1, b ≠ [] := by
  induction k with
  | zero => intro l _ _ b hb; simp [Loader.loop] at hb
  | succ k ih =>
    intro l hn hlast b hb
    unfold Loader.loop at hb
    by_cases hs : l.current_index ≥ l.file_list.length
    · have e : l.next process = (.stop, { l with batch_count := l.batch_count + 1 }) := by
        unfold Loader.next
        dsimp only
        rw [if_pos hs]
      rw [e] at hb
      simp at hb
    · have hne : l.file_list.drop l.current_index ≠ [] := by
        simp only [ne_eq, List.drop_eq_nil_iff]
        omega
      cases hf : fillBatch process l.batch_size (l.file_list.drop l.current_index) l.current_index [] with
      | mk i o =>
      cases o with
      | none =>
        have e : l.next process = (.exit, { l with batch_count := l.batch_count + 1, current_index := i }) := by
          unfold Loader.next
          dsimp only
          rw [if_neg hs, hf]
        rw [e] at hb
        simp at hb
      | some b' =>
        have e : l.next process = (.batch b', { l with batch_count := l.batch_count + 1, current_index := i }) := by
          unfold Loader.next
          dsimp only
          rw [if_neg hs, hf]
        rw [e] at hb
        simp only at hb
        rcases List.mem_cons.1 hb with rfl | hb
        · obtain ⟨read, rest, hfs, hi, hbv, h1, h2, h3, h4⟩ := fillBatch_some hf (by simp)
          by_cases hr : rest = []
          · subst hr
            rw [List.append_nil] at hfs
            obtain ⟨f, hfl⟩ : ∃ f, l.file_list.getLast? = some f := by
              cases hh : l.file_list.getLast? with
              | none => rw [List.getLast?_eq_none_iff] at hh; simp [hh] at hs
              | some f => exact ⟨f, rfl⟩
            obtain ⟨x, hx⟩ := hlast f hfl
            have hmem : f ∈ read := by
              rw [← hfs]
              have : (l.file_list.drop l.current_index).getLast? = some f := by
                rw [List.getLast?_drop, if_neg (by omega), hfl]
              exact List.mem_of_getLast? this
            rw [hbv, List.nil_append]
            refine List.ne_nil_of_mem (a := x) ?_
            unfold valid
            exact List.mem_filterMap.2 ⟨f, hmem, by rw [hx]; rfl⟩
          · have := h3 hr
            intro h0
            rw [h0] at this
            simp at this
            omega
        · exact ih { l with batch_count := l.batch_count + 1, current_index := i } hn hlast b hb

theorem estimate_total {n : Nat} : ∀ l : List (Except PyErr Nat), (∀ b ∈ l, ∃ k, 1 ≤ k ∧ b = .ok k) → ∀ bc num,
    ∃ u m, estimateLoop n l bc num = .ok (u, m) ∧ num ≤ m ∧ (l ≠ [] → 1 ≤ m)
  | [], _, bc, num => ⟨bc, num, rfl, Nat.le_refl _, by simp⟩
  | b :: l, h, bc, num => by
    obtain ⟨k, hk, rfl⟩ := h b (by simp)
    by_cases hc : bc * n ≥ 20
    · refine ⟨bc + 1, num + k, ?_, by omega, fun _ => by omega⟩
      show (if bc * n ≥ 20 then _ else _) = _
      rw [if_pos hc]
    · obtain ⟨u, m, h1, h2, _⟩ := estimate_total l (fun b hb => h b (by simp [hb])) (bc + 1) (num + k)
      refine ⟨u, m, ?_, by omega, fun _ => by omega⟩
      show (if bc * n ≥ 20 then _ else _) = _
      rw [if_neg hc]
      exact h1

theorem epoch_total {n : Nat} {val : List (Except PyErr Nat)} (hv : ∀ b ∈ val, ∃ k, 1 ≤ k ∧ b = .ok k) (hvne : val ≠ []) :
    ∀ l : List (Except PyErr Nat), (∀ b ∈ l, ∃ k, 1 ≤ k ∧ b = .ok k) → ∀ bc step vals, ∃ r, epochLoop n val l bc step vals = .ok r
  | [], _, bc, step, vals => ⟨(step, vals), rfl⟩
  | b :: l, h, bc, step, vals => by
    obtain ⟨k, hk, rfl⟩ := h b (by simp)
    have ih := epoch_total (n := n) hv hvne l (fun b hb => h b (by simp [hb]))
    by_cases hc : (bc * n) % 1000 < n
    · obtain ⟨r, hr⟩ := ih (bc + 1) (step + k) (vals ++ [bc])
      refine ⟨r, ?_⟩
      obtain ⟨u, m, h1, _, h2⟩ := estimate_total (n := n) val hv 0 0
      have h3 : estimateLoss n val = .ok u := by
        unfold estimateLoss
        rw [h1]
        show (if m = 0 then _ else _) = _
        have := h2 hvne
        rw [if_neg (by omega)]
      show (if (bc * n) % 1000 < n then _ else _) = _
      rw [if_pos hc, h3]
      show (if step + k = 0 then _ else _) = _
      rw [if_neg (by omega)]
      exact hr
    · obtain ⟨r, hr⟩ := ih (bc + 1) (step + k) vals
      refine ⟨r, ?_⟩
      show (if (bc * n) % 1000 < n then _ else _) = _
      rw [if_neg hc]
      exact hr

/-- A directory of logs: each is the log of a game that was played by the rules and in which somebody discards, or of a
game of another kind; the last one is of the former. -/
def Spec.GoodDirectory {N : Type} (pi : PyInt) (content : N → Elem) (listing : List N) : Prop :=
  (∀ f ∈ listing, (∃ rs, WrittenGame pi (content f) rs ∧ (∀ r ∈ rs, PlayedByRules r) ∧ HasDiscard rs) ∨ OtherGame pi (content f)) ∧
  ∃ f rs, listing.getLast? = some f ∧ WrittenGame pi (content f) rs ∧ (∀ r ∈ rs, PlayedByRules r) ∧ HasDiscard rs

/-- the batches of games a loader yields for a directory in one epoch -/
def epochBatches {N : Type} (pi : PyInt) (est : Estimate) (sh : List Int → Except PyErr Int) (content : N → Elem)
    (listing : List N) (n : Nat) : List (List (List RoundSt)) :=
  ((Loader.init listing n).loop (fun f => process pi est sh (content f)) (listing.length + 1)).1

theorem other_skipped {pi : PyInt} {est : Estimate} {sh : List Int → Except PyErr Int} {root : Elem} (h : OtherGame pi root) :
    process pi est sh root = .error .invalidGame := by
  obtain ⟨go, h1, h2, h3⟩ := h
  have h4 := (C29_rejections pi root).2 go h1
  rw [h3] at h4
  obtain ⟨rounds, h5⟩ := h4
  exact (C30_only_standard_games pi est sh root ⟨go⟩ rounds h5).1 h2

/-- C123: an epoch over a directory of logs visits every game once, in full, and no batch raises in the network, whatever
its parameters. -/
theorem C123_batches {N : Type} {pi : PyInt} (hpi : ReadsDecimals pi) {est : Estimate} {sh : List Int → Except PyErr Int}
    (he : ∀ q, RealHand q → ∃ b, est q = .ok b) (hs : ∀ l, RealConcealed l → ∃ n, sh l = .ok n) {content : N → Elem}
    {listing : List N} (hd : GoodDirectory pi content listing) {n : Nat} (hn : 0 < n) (v : Variant) :
    ((Loader.init listing n).loop (fun f => process pi est sh (content f)) (listing.length + 1)).2.1 = .finished ∧
    (epochBatches pi est sh content listing n).flatten = listing.filterMap (fun f => (process pi est sh (content f)).toOption) ∧
    (∀ f ∈ listing, ∀ rs, WrittenGame pi (content f) rs → (∀ r ∈ rs, PlayedByRules r) → HasDiscard rs →
      ∃ ss, process pi est sh (content f) = .ok ss ∧ ss.length = rs.length) ∧
    epochBatches pi est sh content listing n ≠ [] ∧
    ∀ b ∈ epochBatches pi est sh content listing n, ∃ k, 1 ≤ k ∧ batchLosses v b = .ok k ∧
      ∀ (gelu : ℝ → ℝ) (params : Net.Params v) (sample : Bool) (size : Nat) {perm : Nat → List Nat},
      (∀ n, (perm n).Perm (List.range n)) → ∃ d c p out, prepareBatches v (gameTurns b) (gameTokens b) = .ok (d, c, p) ∧
        forward sample size perm (Net.runRows v gelu params) d c p = .ok out := by
  obtain ⟨hall, f0, rs0, hl0, hw0, hp0, hd0⟩ := hd
  have hok : ∀ f rs, WrittenGame pi (content f) rs → (∀ r ∈ rs, PlayedByRules r) → HasDiscard rs →
      ∃ ss, process pi est sh (content f) = .ok ss ∧ ss.length = rs.length ∧ GoodGame ss :=
    fun f rs h1 h2 h3 => game_processed hpi he hs h1 h2 h3
  have hnf : ∀ f ∈ listing, fatal (fun f => process pi est sh (content f)) f = false := by
    intro f hf
    unfold fatal
    rcases hall f hf with ⟨rs, h1, h2, h3⟩ | h
    · obtain ⟨ss, h4, _⟩ := hok f rs h1 h2 h3
      simp only [h4]
    · simp only [other_skipped h]
  obtain ⟨h1, h2⟩ := C70_epoch (Loader.init listing n) hn hnf (Nat.lt_succ_self _)
  have hne : ∀ b ∈ epochBatches pi est sh content listing n, b ≠ [] := by
    refine loop_nonempty _ _ hn ?_
    intro f hf
    have : f = f0 := by
      have : listing.getLast? = some f := hf
      rw [hl0] at this
      exact (Option.some.inj this).symm
    subst this
    obtain ⟨ss, h4, _⟩ := hok f rs0 hw0 hp0 hd0
    exact ⟨ss, h4⟩
  have hgood : ∀ ss ∈ (epochBatches pi est sh content listing n).flatten, GoodGame ss := by
    intro ss hss
    have hss : ss ∈ valid (fun f => process pi est sh (content f)) listing := by
      have := h2
      exact this ▸ hss
    obtain ⟨f, hf, hfx⟩ := List.mem_filterMap.1 hss
    rcases hall f hf with ⟨rs, h3, h4, h5⟩ | h
    · obtain ⟨ss', h6, _, h7⟩ := hok f rs h3 h4 h5
      simp only [h6] at hfx
      cases hfx
      exact h7
    · simp only [other_skipped h] at hfx
      cases hfx
  refine ⟨h1, h2, ?_, ?_, ?_⟩
  · intro f hf rs h3 h4 h5
    obtain ⟨ss, h6, h7, _⟩ := hok f rs h3 h4 h5
    exact ⟨ss, h6, h7⟩
  · intro h0
    have h3 : (epochBatches pi est sh content listing n).flatten = valid (fun f => process pi est sh (content f)) listing := h2
    rw [h0] at h3
    obtain ⟨ss, h4, _⟩ := hok f0 rs0 hw0 hp0 hd0
    have : ss ∈ valid (fun f => process pi est sh (content f)) listing :=
      List.mem_filterMap.2 ⟨f0, List.mem_of_getLast? hl0, by simp only [h4]; rfl⟩
    rw [← h3] at this
    simp at this
  · intro b hb
    exact batch_losses (fun ss hss => hgood ss (List.mem_flatten.2 ⟨b, hb, hss⟩)) (hne b hb)

/-- C123: an iteration of training on such directories of training and validation games does not raise. -/
theorem C123_epoch {N : Type} {pi : PyInt} (hpi : ReadsDecimals pi) {est : Estimate} {sh : List Int → Except PyErr Int}
    (he : ∀ q, RealHand q → ∃ b, est q = .ok b) (hs : ∀ l, RealConcealed l → ∃ n, sh l = .ok n) {content : N → Elem}
    {train val : List N} (ht : GoodDirectory pi content train) (hv : GoodDirectory pi content val) {n : Nat} (hn : 0 < n)
    (v : Variant) (step : Nat) :
    ∃ r, epochLoop n ((epochBatches pi est sh content val n).map (batchLosses v))
      ((epochBatches pi est sh content train n).map (batchLosses v)) 0 step [] = .ok r := by
  have key : ∀ l, GoodDirectory pi content l → ∀ b ∈ (epochBatches pi est sh content l n).map (batchLosses v), ∃ k, 1 ≤ k ∧ b = .ok k := by
    intro l hl b hb
    obtain ⟨b', hb', rfl⟩ := List.mem_map.1 hb
    obtain ⟨_, _, _, _, h5⟩ := C123_batches hpi he hs hl hn v
    obtain ⟨k, hk, h6, _⟩ := h5 b' hb'
    exact ⟨k, hk, h6⟩
  refine epoch_total (key val hv) ?_ _ (key train ht) 0 step []
  obtain ⟨_, _, _, h4, _⟩ := C123_batches hpi he hs hv hn v
  simpa using h4

/-! ### every game can be written to a log -/

/-- the element of an event -/
def writeAct : Act → Item
  | .dora t => ⟨"DORA", [("hai", toString t)]⟩
  | .declare p => ⟨"REACH", [("who", toString p), ("step", "1")]⟩
  | .accept p => ⟨"REACH", [("who", toString p), ("step", "2")]⟩
  | .call p c => ⟨"N", [("who", toString p), ("m", toString c)]⟩
  | .draw p t => ⟨String.ofList (drawLetter p :: (toString t).toList), []⟩
  | .discard p t => ⟨String.ofList (discardLetter p :: (toString t).toList), []⟩

def writeInit (r : LogRound) : Item :=
  ⟨"INIT", [("seed", commas (r.seed.map toString)), ("ten", commas (r.ten.map toString)), ("oya", toString r.dealer),
    ("hai0", commas ((r.hai 0).map toString)), ("hai1", commas ((r.hai 1).map toString)),
    ("hai2", commas ((r.hai 2).map toString)), ("hai3", commas ((r.hai 3).map toString))]⟩

def writeResult (x : Bool × List Int) : Item := ⟨if x.1 then "AGARI" else "RYUUKYOKU", [("sc", commas (x.2.map toString))]⟩

def writeRound (r : LogRound) : List Item := writeInit r :: (r.acts.map writeAct ++ r.results.map writeResult)

/-- the document of a game -/
def writeGame (go : Nat) (rs : List LogRound) : Elem :=
  .node "mjloggm" [("ver", "2.3")] (.node "GO" [("type", toString go)] [] ::
    (rs.flatMap writeRound).map (fun i => .node i.tag i.attrib []))

theorem writeAct_writes {x : Act} (h : x.who < 4) : Writes (writeAct x) x := by
  cases x with
  | dora t => exact ⟨rfl, rfl⟩
  | declare p => exact ⟨rfl, rfl, rfl⟩
  | accept p => exact ⟨rfl, rfl, rfl⟩
  | call p c => exact ⟨rfl, rfl, rfl⟩
  | draw p t => exact ⟨h, rfl⟩
  | discard p t => exact ⟨h, rfl⟩

theorem allPairs_of_map {α β : Type} {R : β → α → Prop} {f : α → β} : ∀ {l : List α}, (∀ x ∈ l, R (f x) x) → AllPairs R (l.map f) l
  | [], _ => .nil
  | x :: l, h => .cons (h x (by simp)) (allPairs_of_map (fun y hy => h y (by simp [hy])))

theorem writeRound_writes {r : LogRound} (hr : PlayedByRules r) (hres : ∀ x ∈ r.results, x.2 ≠ []) : WritesRound (writeRound r) r := by
  obtain ⟨round, honba, sticks, x, y, first, hseed, hf, hl⟩ := hr.deal
  refine ⟨_, r.acts.map writeAct, r.results.map writeResult, rfl, ⟨rfl, rfl, ?_, rfl, rfl, ?_, ?_⟩, ?_, ?_⟩
  · intro h0
    have := hr.points
    simp [h0] at this
  · rw [hseed]; simp
  · intro p hp
    refine ⟨?_, ?_⟩
    · rcases (show p = 0 ∨ p = 1 ∨ p = 2 ∨ p = 3 by omega) with rfl | rfl | rfl | rfl <;> rfl
    · intro h0
      have := hf.size p hp
      simp [h0] at this
  · exact allPairs_of_map (fun x hx => writeAct_writes (hl.consistent.who x hx))
  · refine allPairs_of_map (fun x hx => ⟨rfl, rfl, hres x hx⟩)

theorem traverseAll_flat (l : List Item) : traverseAll (l.map (fun i => .node i.tag i.attrib [])) = l := by
  induction l with
  | nil => simp [traverseAll]
  | cons i l ih => simp [traverseAll, traverse, ih]

/-- every game that was played by the rules can be written to a log -/
theorem writeGame_written {go : Nat} (hgo : Acceptable ⟨go⟩) {rs : List LogRound} (hr : ∀ r ∈ rs, PlayedByRules r)
    (hres : ∀ r ∈ rs, ∀ x ∈ r.results, x.2 ≠ []) : WrittenGame String.toInt? (writeGame go rs) rs := by
  have hround : ∀ r ∈ rs, WritesRound (writeRound r) r := fun r h => writeRound_writes (hr r h) (hres r h)
  have htags : ∀ i ∈ rs.flatMap writeRound, i.tag ∉ bookkeeping ∧ i.tag ≠ "GO" := by
    intro i hi
    obtain ⟨r, hrm, hi⟩ := List.mem_flatMap.1 hi
    obtain ⟨round, honba, sticks, x, y, first, hseed, hf, hl⟩ := (hr r hrm).deal
    have : i.tag ∉ bookkeeping := by
      rcases List.mem_cons.1 hi with rfl | hi
      · show "INIT" ∉ bookkeeping
        decide
      · rcases List.mem_append.1 hi with hi | hi
        · obtain ⟨a, ha, rfl⟩ := List.mem_map.1 hi
          exact (writes_tag (writeAct_writes (hl.consistent.who a ha))).2.2
        · obtain ⟨a, ha, rfl⟩ := List.mem_map.1 hi
          show (if a.1 then "AGARI" else "RYUUKYOKU") ∉ bookkeeping
          split <;> decide
    exact ⟨this, fun h => this (by rw [h]; decide)⟩
  refine ⟨go, rs.map writeRound, ⟨.node "GO" [("type", toString go)] [], toString go, ?_, rfl, ?_⟩, hgo, allPairs_of_map hround, ?_⟩
  · show List.filter _ (Elem.node "GO" [("type", toString go)] [] :: _) = _
    rw [List.filter_cons_of_pos (by rfl), List.filter_eq_nil_iff.2]
    intro e he
    obtain ⟨i, hi, rfl⟩ := List.mem_map.1 he
    simpa [Elem.tag] using (htags i hi).2
  · exact ⟨_, readsDecimals_toInt go, by simp [gameBits]⟩
  · show relevant (traverse (.node "mjloggm" _ (.node "GO" _ [] :: _))) = _
    simp only [traverse, traverseAll, traverseAll_flat]
    unfold relevant
    rw [List.filter_cons_of_neg (by decide)]
    simp only [List.singleton_append]
    rw [List.filter_cons_of_neg (by show ¬ decide ("GO" ∉ bookkeeping) = true; decide), List.filter_eq_self.2, List.flatMap_def]
    intro i hi
    simpa using (htags i hi).1

/-! ### the hypotheses hold of a directory with one game -/

def addedRound : LogRound :=
  { hai := dealtAdd, ten := [250, 250, 250, 250], dealer := 0, seed := [0, 0, 0, 0, 0, 132], acts := addedActs
    results := [(false, [250, 0, 250, 0, 250, 0, 250, 0])] }

theorem addedRound_played : PlayedByRules addedRound where
  deal := ⟨0, 0, 0, 0, 0, 132, rfl, dealAdd_fair, addedActs_legal⟩
  points := rfl
  dealer := by decide
  calls := addedActs_proper
  riichi := by
    intro pre p post e
    have : Act.accept p ∉ addedActs := by simp [addedActs, addActs]
    exact absurd (by rw [show addedActs = _ from e]; simp) this
  ended := by simp [addedRound]

theorem addedGame_good : GoodDirectory String.toInt? (fun _ : Unit => writeGame 169 [addedRound]) [()] := by
  have h1 : WrittenGame String.toInt? (writeGame 169 [addedRound]) [addedRound] :=
    writeGame_written (by unfold Acceptable; decide) (by simp [addedRound_played]) (by simp [addedRound])
  have h2 : ∀ r ∈ [addedRound], PlayedByRules r := by simp [addedRound_played]
  have h3 : HasDiscard [addedRound] := ⟨addedRound, by simp, 0, 82, by decide⟩
  exact ⟨fun f _ => .inl ⟨_, h1, h2, h3⟩, (), _, rfl, h1, h2, h3⟩

example : ∃ r, epochLoop 5 ((epochBatches String.toInt? strict strictShanten (fun _ : Unit => writeGame 169 [addedRound]) [()] 5).map
      (batchLosses .ordered))
    ((epochBatches String.toInt? strict strictShanten (fun _ : Unit => writeGame 169 [addedRound]) [()] 5).map
      (batchLosses .ordered)) 0 0 [] = .ok r :=
  C123_epoch readsDecimals_toInt (fun q hq => ⟨false, if_pos hq⟩) (fun l hl => ⟨3, if_pos hl⟩) addedGame_good addedGame_good
    (by decide) _ 0

end MJ
