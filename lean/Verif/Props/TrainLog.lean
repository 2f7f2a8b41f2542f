import Verif.Spec.TrainTold
import Verif.Props.Program
/-!
C159: what the log of training tells.
-/
namespace MJ

open MJ.Data (Text)
open MJ.Command
open MJ.Spec
open MJ.Spec.Told

namespace TrainLog

variable {α : Type} (processFile : Text → Except PyErr α) (yields : List α → Nat × Option PyErr)

/-- what a loop over a loader gets from where the loader is -/
def servedFrom (losses : List α → Except PyErr Nat) (l : Loader Text) (n : Nat) : List (Except PyErr Nat) :=
  (l.loop processFile n).1.map losses ++
    (if (l.loop processFile n).2.1 = .exited then [.error .systemExit] else [])

theorem next_facts (l : Loader Text) : (l.next processFile).2.file_list = l.file_list ∧
    (l.next processFile).2.batch_size = l.batch_size ∧ (l.next processFile).2.batch_count = l.batch_count + 1 := by
  unfold Loader.next
  dsimp only
  split
  · exact ⟨rfl, rfl, rfl⟩
  · split <;> exact ⟨rfl, rfl, rfl⟩

theorem next_count (l : Loader Text) (c : Nat) : ({ l with batch_count := c } : Loader Text).next processFile =
    ((l.next processFile).1, { (l.next processFile).2 with batch_count := c + 1 }) := by
  unfold Loader.next
  dsimp only
  split
  · rfl
  · split <;> rfl

theorem loop_count : ∀ (n : Nat) (l : Loader Text) (c : Nat),
    ((({ l with batch_count := c } : Loader Text).loop processFile n).1 = (l.loop processFile n).1) ∧
    ((({ l with batch_count := c } : Loader Text).loop processFile n).2.1 = (l.loop processFile n).2.1) := by
  intro n
  induction n with
  | zero => intro l c; exact ⟨rfl, rfl⟩
  | succ n ih =>
    intro l c
    unfold Loader.loop
    rw [next_count]
    rcases h : l.next processFile with ⟨r, l'⟩
    cases r with
    | stop => exact ⟨rfl, rfl⟩
    | exit => exact ⟨rfl, rfl⟩
    | batch g =>
      dsimp only
      obtain ⟨h1, h2⟩ := ih l' (c + 1)
      exact ⟨by rw [h1], h2⟩

theorem servedFrom_count (losses : List α → Except PyErr Nat) (l : Loader Text) (c n : Nat) :
    servedFrom processFile losses { l with batch_count := c } n = servedFrom processFile losses l n := by
  unfold servedFrom
  rw [(loop_count processFile n l c).1, (loop_count processFile n l c).2]

theorem servedFrom_stop {losses : List α → Except PyErr Nat} {l l' : Loader Text} {n : Nat}
    (h : l.next processFile = (.stop, l')) : servedFrom processFile losses l (n + 1) = [] := by
  unfold servedFrom Loader.loop
  rw [h]
  rfl

theorem servedFrom_exit {losses : List α → Except PyErr Nat} {l l' : Loader Text} {n : Nat}
    (h : l.next processFile = (.exit, l')) : servedFrom processFile losses l (n + 1) = [.error .systemExit] := by
  unfold servedFrom Loader.loop
  rw [h]
  rfl

theorem servedFrom_batch {losses : List α → Except PyErr Nat} {l l' : Loader Text} {n : Nat} {g : List α}
    (h : l.next processFile = (.batch g, l')) :
    servedFrom processFile losses l (n + 1) = losses g :: servedFrom processFile losses l' n := by
  unfold servedFrom
  rw [Loader.loop, h]
  rfl

theorem fillSaid_quiet (bs : Nat) : ∀ (fs : List Text) (len : Nat), ∀ x ∈ fillSaid processFile bs fs len,
    ∀ y, x ≠ .log y := by
  intro fs
  induction fs with
  | nil => intro len x hx; exact absurd hx (by simp [fillSaid])
  | cons f fs ih =>
    intro len x hx y
    unfold fillSaid at hx
    split at hx
    · split at hx
      · exact ih _ x hx y
      · exact ih _ x hx y
      · rw [List.mem_singleton] at hx
        rw [hx]
        exact fun h => nomatch h
      · exact absurd hx (by simp)
      · rcases List.mem_cons.1 hx with h | h
        · rw [h]
          exact fun h => nomatch h
        · exact ih _ x h y
    · exact absurd hx (by simp)

theorem loaderSaid_quiet (l : Loader Text) : ∀ x ∈ loaderSaid processFile l, ∀ y, x ≠ .log y := by
  intro x hx
  unfold loaderSaid at hx
  split at hx
  · exact absurd hx (by simp)
  · exact fillSaid_quiet processFile _ _ _ x hx

theorem logFile_quiet {said : List Said} (h : ∀ x ∈ said, ∀ y, x ≠ .log y) : logFile said = [] := by
  unfold logFile
  rw [List.filterMap_eq_nil_iff]
  intro x hx
  cases x with
  | log y => exact absurd rfl (h _ hx y)
  | _ => rfl

theorem logFile_append (a b : List Said) : logFile (a ++ b) = logFile a ++ logFile b := List.filterMap_append

theorem logFile_map (f : Nat → LogLine) (a : List Nat) : logFile (a.map (fun s => .log (f s))) = a.map f := by
  unfold logFile
  induction a with
  | nil => rfl
  | cons x a ih => rw [List.map_cons, List.filterMap_cons, ih, List.map_cons]

theorem valLoop_spec (bs : Nat) : ∀ (n : Nat) (l : Loader Text) (b num : Nat),
    (valLoop processFile yields bs n l b num).2.1 =
      (estimateLoop bs (servedFrom processFile (lossesOf yields) l n) b num).map (·.2) ∧
    (valLoop processFile yields bs n l b num).2.2.file_list = l.file_list ∧
    (valLoop processFile yields bs n l b num).2.2.batch_size = l.batch_size ∧
    (∀ x ∈ (valLoop processFile yields bs n l b num).1, ∀ y, x ≠ .log y) := by
  intro n
  induction n with
  | zero => intro l b num; exact ⟨rfl, rfl, rfl, by simp [valLoop]⟩
  | succ n ih =>
    intro l b num
    obtain ⟨f1, f2, -⟩ := next_facts processFile l
    rcases h : l.next processFile with ⟨r, l'⟩
    rw [h] at f1 f2
    dsimp only at f1 f2
    cases r with
    | stop =>
      rw [servedFrom_stop processFile h, valLoop, h]
      exact ⟨rfl, f1, f2, by simp⟩
    | exit =>
      rw [servedFrom_exit processFile h, valLoop, h]
      exact ⟨rfl, f1, f2, loaderSaid_quiet processFile l⟩
    | batch g =>
      rw [servedFrom_batch processFile h, valLoop, h]
      dsimp only
      have hq : ∀ x ∈ loaderSaid processFile l ++ [Said.valBatch l'.batch_count], ∀ y, x ≠ .log y := by
        intro x hx y
        rcases List.mem_append.1 hx with h | h
        · exact loaderSaid_quiet processFile l x h y
        · rw [List.mem_singleton.1 h]
          exact fun h => nomatch h
      rcases hy : yields g with ⟨k, o⟩
      cases o with
      | some e =>
        have hl : lossesOf yields g = .error e := by rw [lossesOf, hy]
        rw [hl]
        exact ⟨rfl, f1, f2, hq⟩
      | none =>
        have hl : lossesOf yields g = .ok k := by rw [lossesOf, hy]
        rw [hl]
        dsimp only [estimateLoop, bind, Except.bind]
        by_cases hb : b * bs ≥ 20
        · rw [if_pos hb, if_pos hb]
          exact ⟨rfl, f1, f2, hq⟩
        · rw [if_neg hb, if_neg hb]
          obtain ⟨i1, i2, i3, i4⟩ := ih l' (b + 1) (num + k)
          refine ⟨i1, i2.trans f1, i3.trans f2, ?_⟩
          intro x hx y
          rcases List.mem_append.1 hx with h | h
          · exact hq x h y
          · exact i4 x h y

/-- validation: its result is that of `estimateLoss`, it writes nothing to the log file, and it leaves the loader at
its first file -/
theorem valPass_spec (bs : Nat) (l : Loader Text) (h0 : l.current_index = 0) :
    (valPass processFile yields bs l).2.1 =
      (estimateLoss bs (servedFrom processFile (lossesOf yields) l (l.file_list.length + 1))).map (fun _ => ()) ∧
    (∀ x ∈ (valPass processFile yields bs l).1, ∀ y, x ≠ .log y) ∧
    ((valPass processFile yields bs l).2.1 = .ok () →
      ∃ c, (valPass processFile yields bs l).2.2 = { l with batch_count := c }) := by
  obtain ⟨h1, h2, h3, h4⟩ := valLoop_spec processFile yields bs (l.file_list.length + 1) l 0 0
  unfold valPass estimateLoss
  rcases hv : valLoop processFile yields bs (l.file_list.length + 1) l 0 0 with ⟨said, r, l'⟩
  rw [hv] at h1 h2 h3 h4
  dsimp only at h1 h2 h3 h4
  cases he : estimateLoop bs (servedFrom processFile (lossesOf yields) l (l.file_list.length + 1)) 0 0 with
  | error e =>
    rw [he] at h1
    dsimp only [Except.map] at h1
    rw [h1]
    exact ⟨rfl, h4, fun h => nomatch h⟩
  | ok p =>
    obtain ⟨used, num⟩ := p
    rw [he] at h1
    dsimp only [Except.map] at h1
    rw [h1]
    dsimp only [bind, Except.bind]
    refine ⟨?_, h4, fun _ => ⟨l'.batch_count, ?_⟩⟩
    · split <;> rfl
    · cases l with
      | mk fl ci bsz bc =>
        cases l'
        dsimp only at h0 h2 h3
        subst h0 h2 h3
        rfl

theorem logFile_rates (step k : Nat) : logFile (rateLines step k) =
    ((List.range' (step + 1) k).filter (fun s => s % 10000 == 0)).map .rate := logFile_map _ _

/-- a loop over the batches has the result of `epochLoop`; if it is completed, the lines of the log file are those of
`passLines`, and the loader has counted one call more than there are batches -/
theorem trainPass_spec (bs i part : Nat) (v0 : Loader Text) (hv0 : v0.current_index = 0) :
    ∀ (n : Nat) (l : Loader Text) (c b step : Nat) (vals : List Nat), (l.loop processFile n).2.1 ≠ .running →
    let r := trainPass processFile yields bs i part n l { v0 with batch_count := c } b step
    r.2.1 = (epochLoop bs (servedFrom processFile (lossesOf yields) v0 (v0.file_list.length + 1))
      (servedFrom processFile (lossesOf yields) l n) b step vals).map (·.1) ∧
    (∀ x ∈ logFile r.1, isMark x = false) ∧
    (∀ s, r.2.1 = .ok s → ∃ ks : List Nat, ∃ c',
      servedFrom processFile (lossesOf yields) l n = ks.map .ok ∧ s = step + ks.sum ∧
      logFile r.1 = passLines bs i part ks l.batch_count b step ∧
      r.2.2.1.file_list = l.file_list ∧ r.2.2.1.batch_size = l.batch_size ∧
      r.2.2.1.batch_count = l.batch_count + ks.length + 1 ∧ r.2.2.2 = { v0 with batch_count := c' }) := by
  intro n
  induction n with
  | zero => intro l c b step vals h; exact absurd rfl h
  | succ n ih =>
    intro l c b step vals hrun
    obtain ⟨f1, f2, f3⟩ := next_facts processFile l
    rcases h : l.next processFile with ⟨r, l'⟩
    rw [h] at f1 f2 f3
    dsimp only at f1 f2 f3
    cases r with
    | stop =>
      rw [servedFrom_stop processFile h, trainPass, h]
      refine ⟨rfl, by simp [logFile], ?_⟩
      intro s hs
      cases hs
      exact ⟨[], c, rfl, by simp, rfl, f1, f2, by simpa using f3, rfl⟩
    | exit =>
      rw [servedFrom_exit processFile h, trainPass, h]
      refine ⟨rfl, ?_, fun s hs => nomatch hs⟩
      dsimp only
      rw [logFile_quiet (loaderSaid_quiet processFile l)]
      simp
    | batch g =>
      have hrun' : (l'.loop processFile n).2.1 ≠ .running := by
        rw [Loader.loop, h] at hrun
        exact hrun
      rw [servedFrom_batch processFile h, trainPass, h]
      dsimp only
      rcases hy : yields g with ⟨k, o⟩
      dsimp only
      generalize hsaid : loaderSaid processFile l ++ [Said.log (.batch part l'.batch_count)] ++ rateLines step k = said
      have hlog : logFile said = .batch part (l.batch_count + 1) ::
          ((List.range' (step + 1) k).filter (fun s => s % 10000 == 0)).map .rate := by
        rw [← hsaid, logFile_append, logFile_append, logFile_quiet (loaderSaid_quiet processFile l), logFile_rates, f3]
        rfl
      have hmark : ∀ x ∈ logFile said, isMark x = false := by
        intro x hx
        rw [hlog] at hx
        rcases List.mem_cons.1 hx with e | e
        · rw [e]; rfl
        · obtain ⟨s, -, rfl⟩ := List.mem_map.1 e
          rfl
      cases o with
      | some e =>
        have hl : lossesOf yields g = .error e := by rw [lossesOf, hy]
        rw [hl]
        exact ⟨rfl, hmark, fun s hs => nomatch hs⟩
      | none =>
        have hl : lossesOf yields g = .ok k := by rw [lossesOf, hy]
        rw [hl]
        dsimp only [epochLoop, bind, Except.bind]
        by_cases hb : b * bs % 1000 < bs
        · rw [if_pos hb, if_pos hb]
          obtain ⟨v1, v2, v3⟩ := valPass_spec processFile yields bs { v0 with batch_count := c } hv0
          rw [servedFrom_count] at v1
          rcases hv : valPass processFile yields bs { v0 with batch_count := c } with ⟨vsaid, vr, v'⟩
          rw [hv] at v1 v2 v3
          dsimp only at v1 v2 v3
          have hvl : logFile vsaid = [] := logFile_quiet v2
          cases he : estimateLoss bs (servedFrom processFile (lossesOf yields) v0 (v0.file_list.length + 1)) with
          | error e =>
            rw [he] at v1
            dsimp only [Except.map] at v1
            rw [v1]
            refine ⟨rfl, ?_, fun s hs => nomatch hs⟩
            dsimp only
            rw [logFile_append, hvl, List.append_nil]
            exact hmark
          | ok used =>
            rw [he] at v1
            dsimp only [Except.map] at v1
            subst v1
            dsimp only
            by_cases h0 : step + k = 0
            · rw [if_pos h0, if_pos h0]
              refine ⟨rfl, ?_, fun s hs => nomatch hs⟩
              dsimp only
              rw [logFile_append, hvl, List.append_nil]
              exact hmark
            · rw [if_neg h0, if_neg h0]
              obtain ⟨c1, rfl⟩ := v3 rfl
              obtain ⟨i1, i2, i3⟩ := ih l' c1 (b + 1) (step + k) (vals ++ [b]) hrun'
              have hl2 : ∀ rest : List Said, logFile (said ++ vsaid ++ [Said.log (.val i b)] ++ rest) =
                  logFile said ++ ([.val i b] ++ logFile rest) := by
                intro rest
                rw [logFile_append, logFile_append, logFile_append, hvl, List.append_nil, List.append_assoc]
                rfl
              refine ⟨i1, ?_, ?_⟩
              · intro x hx
                rw [hl2] at hx
                rcases List.mem_append.1 hx with e | e
                · exact hmark x e
                · rcases List.mem_append.1 e with e | e
                  · rw [List.mem_singleton.1 e]; rfl
                  · exact i2 x e
              · intro s hs
                obtain ⟨ks, c2, k1, k2, k3, k4, k5, k6, k7⟩ := i3 s hs
                refine ⟨k :: ks, c2, by rw [k1]; rfl, by rw [k2, List.sum_cons, Nat.add_assoc], ?_, k4.trans f1,
                  k5.trans f2, by rw [k6, f3, List.length_cons]; omega, k7⟩
                rw [hl2, k3, hlog, f3, passLines, if_pos hb]
                rfl
        · rw [if_neg hb, if_neg hb]
          obtain ⟨i1, i2, i3⟩ := ih l' c (b + 1) (step + k) vals hrun'
          refine ⟨i1, ?_, ?_⟩
          · intro x hx
            rw [logFile_append] at hx
            rcases List.mem_append.1 hx with e | e
            · exact hmark x e
            · exact i2 x e
          · intro s hs
            obtain ⟨ks, c2, k1, k2, k3, k4, k5, k6, k7⟩ := i3 s hs
            refine ⟨k :: ks, c2, by rw [k1]; rfl, by rw [k2, List.sum_cons, Nat.add_assoc], ?_, k4.trans f1,
              k5.trans f2, by rw [k6, f3, List.length_cons]; omega, k7⟩
            rw [logFile_append, k3, hlog, f3, passLines, if_neg hb]
            rfl

/-- a loader at its first file after `c` calls -/
def counted (paths : List Text) (bs c : Nat) : Loader Text := ⟨paths, 0, bs, c⟩

theorem served_counted (losses : List α → Except PyErr Nat) (bs : Nat) (paths : List Text) (c : Nat) :
    servedFrom processFile losses (counted paths bs c) (paths.length + 1) = served processFile losses bs paths :=
  servedFrom_count processFile losses (Loader.init paths bs) c _

theorem oks (ks : List Nat) : (ks.map (Except.ok (ε := PyErr))).filterMap Except.toOption = ks := by
  induction ks with
  | nil => rfl
  | cons k ks ih => rw [List.map_cons, List.filterMap_cons, ih]; rfl

theorem reset_counted {l : Loader Text} {paths : List Text} {bs c : Nat} (h1 : l.file_list = paths)
    (h2 : l.batch_size = bs) (h3 : l.batch_count = c) : l.reset = counted paths bs c := by
  subst h1 h2 h3
  rfl

/-- one iteration -/
theorem pass_spec (bs : Nat) (hbs : 0 < bs) (i part : Nat) (paths val : List Text) (count c step : Nat) :
    let r := trainPass processFile yields bs i part (paths.length + 1)
      (counted paths bs count) (counted val bs c) 0 step
    r.2.1 = (epochLoop bs (served processFile (lossesOf yields) bs val)
      (served processFile (lossesOf yields) bs paths) 0 step []).map (·.1) ∧
    (∀ x ∈ logFile r.1, isMark x = false) ∧
    (∀ s, r.2.1 = .ok s → ∃ c', s = step + (counts processFile yields bs paths).sum ∧
      logFile r.1 = passLines bs i part (counts processFile yields bs paths) count 0 step ∧
      r.2.2.1.reset =
        counted paths bs (count + (counts processFile yields bs paths).length + 1) ∧
      r.2.2.2 = counted val bs c') := by
  have hrun : ((counted paths bs count).loop processFile
      (paths.length + 1)).2.1 ≠ .running := by
    have e := (loop_count processFile (paths.length + 1) (Loader.init paths bs) count).2
    intro h
    rw [show ((counted paths bs count).loop processFile (paths.length + 1)).2.1 = _ from e] at h
    revert h
    exact (C71_full (process := processFile) (Loader.init paths bs) hbs (Nat.lt_succ_self _)).2
  obtain ⟨h1, h2, h3⟩ := trainPass_spec processFile yields bs i part (Loader.init val bs) rfl (paths.length + 1)
    (counted paths bs count) c 0 step [] hrun
  rw [served_counted] at h1
  refine ⟨h1, h2, ?_⟩
  intro s hs
  obtain ⟨ks, c', k1, k2, k3, k4, k5, k6, k7⟩ := h3 s hs
  rw [served_counted] at k1
  have hk : counts processFile yields bs paths = ks := by
    unfold counts
    rw [k1, oks]
  rw [hk]
  refine ⟨c', k2, k3, ?_, k7⟩
  exact reset_counted k4 k5 k6

theorem filter_none {l : List LogLine} (h : ∀ x ∈ l, isMark x = false) : l.filter isMark = [] := by
  rw [List.filter_eq_nil_iff]
  intro x hx
  rw [h x hx]
  exact Bool.false_ne_true

theorem marks_succ (parts : Nat) (name : Text) (k n : Nat) : marks parts name k (n + 1) =
    [.iter k, .loading k (k % parts), .processed k (k % parts), .saved (ckptName name k)] ++
      marks parts name (k + 1) n := by
  unfold marks
  rw [List.range'_succ, List.flatMap_cons]

/-- the loaders after `count` calls -/
def kept (P : Nat → List Text) (bs : Nat) (count : Nat → Nat) (p : Nat) : Loader Text :=
  (counted (P p) bs (count p))

/-- the run with the loaders that are kept is the run with fresh loaders; the log file of a run -/
theorem iterationsSaid_spec (bs : Nat) (hbs : 0 < bs) (parts : Nat) (name : Text) (P : Nat → List Text)
    (val : List Text) : ∀ (todo i step : Nat) (count : Nat → Nat) (c : Nat) (files : List File),
    let r := iterationsSaid processFile yields bs parts name todo i step (kept P bs count)
      (counted val bs c) files
    r.2 = iterations (fun i step => epochLoop bs (served processFile (lossesOf yields) bs val)
      (served processFile (lossesOf yields) bs (P (i % parts))) 0 step []) name todo i step files ∧
    ((r.2.1 = .completed ∧ r.2.2.1 = completeLog i todo ∧
      logFile r.1 = iterLines bs parts name (fun p => counts processFile yields bs (P p)) todo i step count ++
        [.completed]) ∨
     ∃ m < todo, ∃ e, r.2.1 = .raised e ∧ r.2.2.1 = completeLog i m ++ [.start (i + m) ((i + m) % 8)] ∧
      ∃ rest, (∀ x ∈ rest, isMark x = false) ∧
      logFile r.1 = iterLines bs parts name (fun p => counts processFile yields bs (P p)) m i step count ++
        [.iter (i + m), .loading (i + m) ((i + m) % parts)] ++ rest) := by
  intro todo
  induction todo with
  | zero =>
    intro i step count c files
    exact ⟨rfl, .inl ⟨rfl, rfl, rfl⟩⟩
  | succ todo ih =>
    intro i step count c files
    obtain ⟨h1, h2, h3⟩ := pass_spec processFile yields bs hbs i (i % parts) (P (i % parts)) val (count (i % parts)) c
      step
    dsimp only at h1 h2 h3 ⊢
    rw [iterationsSaid, iterations]
    dsimp only
    have hlen : (kept P bs count (i % parts)).file_list.length + 1 = (P (i % parts)).length + 1 := rfl
    have hk : kept P bs count (i % parts) =
      (counted (P (i % parts)) bs (count (i % parts))) := rfl
    rw [hlen, hk]
    rcases hp : trainPass processFile yields bs i (i % parts) ((P (i % parts)).length + 1)
      (counted (P (i % parts)) bs (count (i % parts)))
      (counted val bs c) 0 step with ⟨said, r, l, v⟩
    rw [hp] at h1 h2 h3
    dsimp only at h1 h2 h3
    cases he : epochLoop bs (served processFile (lossesOf yields) bs val)
      (served processFile (lossesOf yields) bs (P (i % parts))) 0 step [] with
    | error e =>
      rw [he] at h1
      dsimp only [Except.map] at h1
      subst h1
      dsimp only
      refine ⟨rfl, .inr ⟨0, Nat.succ_pos _, e, rfl, rfl, logFile said, h2, ?_⟩⟩
      rw [logFile_append]
      rfl
    | ok q =>
      obtain ⟨s, vals⟩ := q
      rw [he] at h1
      dsimp only [Except.map] at h1
      subst h1
      dsimp only
      obtain ⟨c', k1, k2, k3, rfl⟩ := h3 s rfl
      have hupd : (fun p => if p = i % parts then l.reset else kept P bs count p) =
          kept P bs (fun p => if p = i % parts then
            count p + (counts processFile yields bs (P (i % parts))).length + 1 else count p) := by
        funext p
        unfold kept
        dsimp only
        by_cases h : p = i % parts
        · rw [if_pos h, if_pos h, k3, h]
        · rw [if_neg h, if_neg h]
      rw [hupd]
      obtain ⟨i1, i2⟩ := ih (i + 1) s (fun p => if p = i % parts then
            count p + (counts processFile yields bs (P (i % parts))).length + 1 else count p) c'
            (writeFile files ⟨ckptName name i, true⟩)
      generalize iterationsSaid processFile yields bs parts name todo (i + 1) s
        (kept P bs (fun p => if p = i % parts then
            count p + (counts processFile yields bs (P (i % parts))).length + 1 else count p))
        (counted val bs c') (writeFile files ⟨ckptName name i, true⟩) = r at *
      obtain ⟨rs, re, rev, rf⟩ := r
      dsimp only at i1 i2 ⊢
      refine ⟨by rw [← i1], ?_⟩
      have hlog : logFile ([Said.log (.iter i), .log (.loading i (i % parts))] ++ said ++
          [.log (.processed i (i % parts)), .log (.saved (ckptName name i))] ++ rs) =
          [.iter i, .loading i (i % parts)] ++
            passLines bs i (i % parts) (counts processFile yields bs (P (i % parts))) (count (i % parts)) 0 step ++
            [.processed i (i % parts), .saved (ckptName name i)] ++ logFile rs := by
        rw [logFile_append, logFile_append, logFile_append, k2]
        rfl
      rw [hlog]
      rcases i2 with ⟨a, b, d⟩ | ⟨m, hm, e, a, b, rest, hr, d⟩
      · left
        refine ⟨a, ?_, ?_⟩
        · rw [b, Command.completeLog_succ]
        · rw [d, iterLines, k1]
          simp only [List.append_assoc]
      · right
        have ei : i + 1 + m = i + (m + 1) := by omega
        refine ⟨m + 1, Nat.succ_lt_succ hm, e, a, ?_, rest, hr, ?_⟩
        · rw [b, Command.completeLog_succ, ← ei]; rfl
        · rw [d, iterLines, k1, ← ei]
          simp only [List.append_assoc]

theorem passLines_marks (bs i part : Nat) : ∀ (ks : List Nat) (count b step : Nat),
    ∀ x ∈ passLines bs i part ks count b step, isMark x = false := by
  intro ks
  induction ks with
  | nil => intro count b step x hx; exact absurd hx (by simp [passLines])
  | cons k ks ih =>
    intro count b step x hx
    rw [passLines] at hx
    rcases List.mem_cons.1 hx with h | h
    · rw [h]; rfl
    · rcases List.mem_append.1 h with h | h
      · obtain ⟨s, -, rfl⟩ := List.mem_map.1 h
        rfl
      · rcases List.mem_append.1 h with h | h
        · split at h
          · rw [List.mem_singleton.1 h]; rfl
          · exact absurd h (by simp)
        · exact ih _ _ _ x h

theorem iterLines_marks (bs parts : Nat) (name : Text) (ks : Nat → List Nat) : ∀ (todo i step : Nat)
    (count : Nat → Nat), (iterLines bs parts name ks todo i step count).filter isMark = marks parts name i todo := by
  intro todo
  induction todo with
  | zero => intro i step count; rfl
  | succ todo ih =>
    intro i step count
    rw [iterLines, marks_succ, List.filter_append, List.filter_append, List.filter_append, ih,
      filter_none (passLines_marks bs i _ _ _ _ _)]
    rfl

theorem rates_append (step a b : Nat) :
    (List.range' (step + 1) a).filter (fun s => s % 10000 == 0) ++
      (List.range' (step + a + 1) b).filter (fun s => s % 10000 == 0) =
    (List.range' (step + 1) (a + b)).filter (fun s => s % 10000 == 0) := by
  rw [← List.filter_append]
  congr 1
  have : step + a + 1 = step + 1 + 1 * a := by omega
  rw [this, List.range'_append]

theorem rateOf_map (l : List Nat) : (l.map LogLine.rate).filterMap rateOf = l := by
  induction l with
  | nil => rfl
  | cons x l ih => rw [List.map_cons, List.filterMap_cons, ih]; rfl

theorem passLines_rates (bs i part : Nat) : ∀ (ks : List Nat) (count b step : Nat),
    (passLines bs i part ks count b step).filterMap rateOf =
      (List.range' (step + 1) ks.sum).filter (fun s => s % 10000 == 0) := by
  intro ks
  induction ks with
  | nil => intro count b step; rfl
  | cons k ks ih =>
    intro count b step
    have e : (if b * bs % 1000 < bs then [LogLine.val i b] else []).filterMap rateOf = [] := by split <;> rfl
    have e2 : rateOf (.batch part (count + 1)) = none := rfl
    rw [passLines, List.filterMap_cons_none e2, List.filterMap_append, List.filterMap_append, ih, rateOf_map,
      List.sum_cons, ← rates_append, e, List.nil_append]

theorem iterLines_rates (bs parts : Nat) (name : Text) (ks : Nat → List Nat) : ∀ (todo i step : Nat)
    (count : Nat → Nat), (iterLines bs parts name ks todo i step count).filterMap rateOf =
      (List.range' (step + 1) ((List.range' i todo).map (fun i => (ks (i % parts)).sum)).sum).filter
        (fun s => s % 10000 == 0) := by
  intro todo
  induction todo with
  | zero => intro i step count; rfl
  | succ todo ih =>
    intro i step count
    rw [iterLines, List.filterMap_append, List.filterMap_append, List.filterMap_append, ih, passLines_rates,
      List.range'_succ, List.map_cons, List.sum_cons, ← rates_append]
    have e1 : [LogLine.iter i, .loading i (i % parts)].filterMap rateOf = [] := rfl
    have e2 : [LogLine.processed i (i % parts), .saved (ckptName name i)].filterMap rateOf = [] := rfl
    rw [e1, e2, List.nil_append, List.append_nil]

theorem batchNumber_rates (l : List Nat) : (l.map LogLine.rate).filterMap batchNumber = [] := by
  rw [List.filterMap_eq_nil_iff]
  intro x hx
  obtain ⟨s, -, rfl⟩ := List.mem_map.1 hx
  rfl

theorem valOf_rates (l : List Nat) : (l.map LogLine.rate).filterMap valOf = [] := by
  rw [List.filterMap_eq_nil_iff]
  intro x hx
  obtain ⟨s, -, rfl⟩ := List.mem_map.1 hx
  rfl

theorem passLines_numbers (bs i part : Nat) : ∀ (ks : List Nat) (count b step : Nat),
    (passLines bs i part ks count b step).filterMap batchNumber =
      (List.range' (count + 1) ks.length).map (fun n => (part, n)) := by
  intro ks
  induction ks with
  | nil => intro count b step; rfl
  | cons k ks ih =>
    intro count b step
    have e : (if b * bs % 1000 < bs then [LogLine.val i b] else []).filterMap batchNumber = [] := by split <;> rfl
    have e2 : batchNumber (.batch part (count + 1)) = some (part, count + 1) := rfl
    rw [passLines, List.filterMap_cons_some e2, List.filterMap_append, List.filterMap_append, ih, batchNumber_rates,
      List.length_cons, List.range'_succ, e]
    rfl

theorem passLines_vals (bs i part : Nat) : ∀ (ks : List Nat) (count b step : Nat),
    (passLines bs i part ks count b step).filterMap valOf =
      ((List.range' b ks.length).filter (fun b => decide (b * bs % 1000 < bs))).map (fun b => (i, b)) := by
  intro ks
  induction ks with
  | nil => intro count b step; rfl
  | cons k ks ih =>
    intro count b step
    have e2 : valOf (.batch part (count + 1)) = none := rfl
    rw [passLines, List.filterMap_cons_none e2, List.filterMap_append, List.filterMap_append, ih, valOf_rates,
      List.length_cons, List.range'_succ, List.filter_cons]
    by_cases h : b * bs % 1000 < bs
    · rw [if_pos h, if_pos (decide_eq_true h)]
      rfl
    · rw [if_neg h, if_neg (by simp [h])]
      rfl

/-- how often the part `p` is used in `m` iterations from iteration `i` on -/
def uses (parts i m p : Nat) : Nat := ((List.range' i m).filter (fun t => t % parts == p)).length

theorem window (q : Nat) (p : Nat) (hp : p < q) : ∀ i, uses q i q p = 1 := by
  intro i
  induction i with
  | zero =>
    unfold uses
    have e : (List.range' 0 q).filter (fun t => t % q == p) = (List.range q).filter (fun t => t == p) := by
      rw [List.range_eq_range']
      apply List.filter_congr
      intro t ht
      rw [List.mem_range'_1] at ht
      rw [Nat.mod_eq_of_lt (by omega)]
    rw [e, ← List.countP_eq_length_filter]
    exact List.count_eq_one_of_mem List.nodup_range (List.mem_range.2 hp)
  | succ i ih =>
    unfold uses at ih ⊢
    have e1 : List.range' i (q + 1) = i :: List.range' (i + 1) q := List.range'_succ
    have e2 : List.range' i (q + 1) = List.range' i q ++ [i + q] := by
      rw [List.range'_concat, Nat.one_mul]
    have h : ((List.range' i (q + 1)).filter (fun t => t % q == p)).length =
        ((List.range' i (q + 1)).filter (fun t => t % q == p)).length := rfl
    conv at h => lhs; rw [e1]
    conv at h => rhs; rw [e2]
    rw [List.filter_cons, List.filter_append, List.length_append, List.filter_cons, Nat.add_mod_right, ih] at h
    by_cases hi : (i % q == p) = true
    · rw [if_pos hi, if_pos hi] at h
      simp only [List.length_cons, List.filter_nil, List.length_nil] at h
      omega
    · rw [if_neg hi, if_neg hi] at h
      simp only [List.filter_nil, List.length_nil] at h
      omega

theorem uses_self (q : Nat) (hq : 0 < q) : ∀ (m i : Nat), uses q i m ((i + m) % q) = m / q := by
  intro m
  induction m using Nat.strongRecOn with
  | ind m ih =>
    intro i
    by_cases hm : m < q
    · rw [Nat.div_eq_of_lt hm]
      unfold uses
      rw [List.length_eq_zero_iff, List.filter_eq_nil_iff]
      intro t ht
      rw [List.mem_range'_1] at ht
      intro he
      have he : t % q = (i + m) % q := by simpa using he
      have h1 : (i + m - t) % q = 0 := Nat.sub_mod_eq_zero_of_mod_eq he.symm
      rw [Nat.mod_eq_of_lt (by omega)] at h1
      omega
    · have hm : q ≤ m := by omega
      obtain ⟨n, rfl⟩ : ∃ n, m = q + n := ⟨m - q, by omega⟩
      have e : List.range' i (q + n) = List.range' i q ++ List.range' (i + q) n := by
        have := (List.range'_append (s := i) (m := q) (n := n) (step := 1)).symm
        rwa [Nat.one_mul] at this
      have h1 : uses q i (q + n) ((i + (q + n)) % q) =
          uses q i q ((i + (q + n)) % q) + uses q (i + q) n ((i + q + n) % q) := by
        unfold uses
        rw [e, List.filter_append, List.length_append, Nat.add_assoc]
      rw [h1, window q _ (Nat.mod_lt _ hq), ih n (by omega), Nat.add_comm q n, Nat.add_div_right _ hq]
      omega

/-- the lines of the first `m` iterations and of the others -/
theorem iterLines_split (bs parts : Nat) (name : Text) (ks : Nat → List Nat) : ∀ (m todo i step : Nat)
    (count : Nat → Nat), iterLines bs parts name ks (m + todo) i step count =
      iterLines bs parts name ks m i step count ++
      iterLines bs parts name ks todo (i + m)
        (step + ((List.range' i m).map (fun i => (ks (i % parts)).sum)).sum)
        (fun p => count p + uses parts i m p * ((ks p).length + 1)) := by
  intro m
  induction m with
  | zero =>
    intro todo i step count
    have e : (fun p => count p + uses parts i 0 p * ((ks p).length + 1)) = count := by
      funext p
      simp [uses]
    rw [e]
    simp [iterLines]
  | succ m ih =>
    intro todo i step count
    have e : m + 1 + todo = (m + todo) + 1 := by omega
    rw [e, iterLines, iterLines, ih]
    have e2 : i + 1 + m = i + (m + 1) := by omega
    have e3 : step + (ks (i % parts)).sum + ((List.range' (i + 1) m).map (fun i => (ks (i % parts)).sum)).sum =
        step + ((List.range' i (m + 1)).map (fun i => (ks (i % parts)).sum)).sum := by
      rw [List.range'_succ, List.map_cons, List.sum_cons, Nat.add_assoc]
    have e4 : (fun p => (if p = i % parts then count p + (ks (i % parts)).length + 1 else count p) +
          uses parts (i + 1) m p * ((ks p).length + 1)) =
        (fun p => count p + uses parts i (m + 1) p * ((ks p).length + 1)) := by
      funext p
      unfold uses
      rw [List.range'_succ, List.filter_cons]
      by_cases hp : p = i % parts
      · rw [if_pos hp, if_pos (by simp [hp]), List.length_cons, Nat.add_mul, Nat.one_mul, hp]
        omega
      · rw [if_neg hp, if_neg (by simpa using fun h => hp h.symm)]
    rw [e2, e3, e4]
    simp only [List.append_assoc]

theorem fill_le (bs : Nat) : ∀ (fs : List Text) (idx : Nat) (acc : List α),
    idx ≤ (fillBatch processFile bs fs idx acc).1 := by
  intro fs
  induction fs with
  | nil => intro idx acc; exact Nat.le_refl _
  | cons f fs ih =>
    intro idx acc
    unfold fillBatch
    split
    · split
      · exact Nat.le_trans (Nat.le_succ _) (ih _ _)
      · exact Nat.le_trans (Nat.le_succ _) (ih _ _)
      · exact Nat.le_succ _
      · exact Nat.le_succ _
      · exact Nat.le_trans (Nat.le_succ _) (ih _ _)
    · exact Nat.le_refl _

theorem fill_troubles (bs : Nat) : ∀ (fs : List Text) (idx : Nat) (acc : List α),
    (fillSaid processFile bs fs acc.length).filterMap troubleOf =
      (fs.take ((fillBatch processFile bs fs idx acc).1 - idx)).filter (odd processFile) := by
  intro fs
  induction fs with
  | nil => intro idx acc; simp [fillSaid]
  | cons f fs ih =>
    intro idx acc
    unfold fillBatch fillSaid
    by_cases hl : acc.length < bs
    · rw [if_pos hl, if_pos hl]
      have take1 : ∀ n, idx + 1 ≤ n → (f :: fs).take (n - idx) = f :: fs.take (n - (idx + 1)) := by
        intro n hn
        have : n - idx = (n - (idx + 1)) + 1 := by omega
        rw [this, List.take_succ_cons]
      cases hp : processFile f with
      | ok x =>
        have ho : odd processFile f = false := by unfold odd; rw [hp]
        dsimp only
        rw [take1 _ (fill_le processFile bs fs (idx + 1) (acc ++ [x])), List.filter_cons_of_neg (by simp [ho]),
          ← ih (idx + 1) (acc ++ [x]), List.length_append]
        rfl
      | error e =>
        cases e with
        | invalidGame =>
          have ho : odd processFile f = false := by unfold odd; rw [hp]
          dsimp only
          rw [take1 _ (fill_le processFile bs fs (idx + 1) acc), List.filter_cons_of_neg (by simp [ho]),
            ← ih (idx + 1) acc]
        | assertion =>
          have ho : odd processFile f = false := by unfold odd; rw [hp]
          dsimp only
          rw [take1 _ (Nat.le_refl _), List.filter_cons_of_neg (by simp [ho])]
          simp [troubleOf]
        | systemExit =>
          have ho : odd processFile f = false := by unfold odd; rw [hp]
          dsimp only
          rw [take1 _ (Nat.le_refl _), List.filter_cons_of_neg (by simp [ho])]
          simp
        | _ =>
          have ho : odd processFile f = true := by unfold odd; rw [hp]
          dsimp only
          rw [take1 _ (fill_le processFile bs fs (idx + 1) acc), List.filter_cons_of_pos ho,
            ← ih (idx + 1) acc]
          rfl
    · rw [if_neg hl, if_neg hl]
      simp

end TrainLog

open TrainLog

theorem TrainLog.job_facts {pyInt : Text → Option Int} {listdir : Text → Option (List Text)} {argv : List Text}
    {j : Job} (hj : prepare pyInt listdir argv = .ok j) : 0 < j.net.batchSize ∧ j.train.length = 8 := by
  obtain ⟨⟨prog, name, n, rfl, -, -⟩, -⟩ := (C145_prepared pyInt listdir argv).1 ⟨j, hj⟩
  obtain ⟨h1, -, -, h2⟩ := C145_job hj
  exact ⟨Command.batch_pos h1, (C146_files h2 0).1⟩

/-- C159: the program with its loaders kept from iteration to iteration, as in Python, does what the program with
fresh loaders does. -/
theorem C159_run {α : Type} (pyInt : Text → Option Int) (listdir : Text → Option (List Text))
    (digit : Char → Option Nat) (processFile : Text → Except PyErr α) (yields : Net → List α → Nat × Option PyErr)
    (argv : List Text) (files : List File) :
    (programSaid pyInt listdir digit processFile yields argv files).2 =
      program pyInt listdir digit processFile (fun net => lossesOf (yields net)) argv files := by
  unfold programSaid program
  cases hj : prepare pyInt listdir argv with
  | error e => rfl
  | ok j =>
    have hpos := (job_facts hj).1
    have key : ∀ k, (iterationsSaid processFile (yields j.net) j.net.batchSize j.train.length j.name j.iters k 0
        j.loaders (Loader.init j.val j.net.batchSize) files).2 =
        iterations (j.epoch processFile (fun net => lossesOf (yields net))) j.name j.iters k 0 files := by
      intro k
      exact (iterationsSaid_spec processFile (yields j.net) j.net.batchSize hpos j.train.length j.name
        (fun p => j.train.getD p []) j.val j.iters k 0 (fun _ => 0) 0 files).1
    dsimp only
    generalize findLatest digit j.name (files.map (·.name)) = fl
    rcases fl with ⟨latest_iter, _ | file⟩
    · exact key 0
    · dsimp only
      cases hc : files.any (fun f => f.name == file && f.complete) with
      | true => simp only [if_true]; exact key _
      | false => rfl

/-- the log file of a run from a directory that is ready for iteration `k` -/
theorem TrainLog.log_ready {α : Type} {pyInt : Text → Option Int} {listdir : Text → Option (List Text)}
    {digit : Char → Option Nat} (hd : DigitsOk digit) (processFile : Text → Except PyErr α)
    (yields : Net → List α → Nat × Option PyErr) {argv : List Text} {files : List File} {j : Job}
    (hj : prepare pyInt listdir argv = .ok j) {k : Nat} (hk : ReadyFor j.name k files) :
    let r := programSaid pyInt listdir digit processFile yields argv files
    let ks := fun p => counts processFile (yields j.net) j.net.batchSize (j.train.getD p [])
    (r.2 = (.completed, completeLog k j.iters, saveAll j.name k j.iters files) ∧
      logFile r.1 = opening j.name k ::
        (iterLines j.net.batchSize j.train.length j.name ks j.iters k 0 (fun _ => 0) ++ [.completed])) ∨
    ∃ m < j.iters, ∃ e,
      r.2 = (.raised e, completeLog k m ++ [.start (k + m) ((k + m) % 8)], saveAll j.name k m files) ∧
      ∃ rest, (∀ x ∈ rest, isMark x = false) ∧
      logFile r.1 = opening j.name k ::
        (iterLines j.net.batchSize j.train.length j.name ks m k 0 (fun _ => 0) ++
          [.iter (k + m), .loading (k + m) ((k + m) % j.train.length)] ++ rest) := by
  dsimp only
  have hpos := (job_facts hj).1
  have hrun : programSaid pyInt listdir digit processFile yields argv files =
      (.log (opening j.name k) :: (iterationsSaid processFile (yields j.net) j.net.batchSize j.train.length j.name
        j.iters k 0 j.loaders (Loader.init j.val j.net.batchSize) files).1,
       (iterationsSaid processFile (yields j.net) j.net.batchSize j.train.length j.name
        j.iters k 0 j.loaders (Loader.init j.val j.net.batchSize) files).2) := by
    unfold programSaid opening
    rw [hj]
    dsimp only
    rcases findLatest_dirOk hd hk.1 with ⟨h0, e⟩ | ⟨h0, e⟩
    · rw [e, h0]
      rfl
    · rw [e]
      dsimp only
      obtain ⟨f, hf, hn, hc⟩ := hk.2 h0
      rw [if_pos (List.any_eq_true.mpr ⟨f, hf, by rw [hn, hc, beq_self_eq_true]; rfl⟩), if_neg (by omega)]
      have : ((k : Int) - 1 + 1).toNat = k := by omega
      rw [this]
  have hout := C147_outcome hd processFile (fun net => lossesOf (yields net)) hj hk
  rw [← C159_run] at hout
  obtain ⟨-, h2⟩ := iterationsSaid_spec processFile (yields j.net) j.net.batchSize hpos j.train.length j.name
    (fun p => j.train.getD p []) j.val j.iters k 0 (fun _ => 0) 0 files
  rw [hrun] at hout ⊢
  change (_ ∧ _) ∨ _ at h2
  have hlog : ∀ x l, logFile (Said.log x :: l) = x :: logFile l := fun _ _ => rfl
  dsimp only at hout ⊢
  rw [hlog]
  have hloaders : kept (fun p => j.train.getD p []) j.net.batchSize (fun _ => 0) = j.loaders := rfl
  have hval : counted j.val j.net.batchSize 0 = Loader.init j.val j.net.batchSize := rfl
  rw [hloaders, hval] at h2
  generalize iterationsSaid processFile (yields j.net) j.net.batchSize j.train.length j.name
        j.iters k 0 j.loaders (Loader.init j.val j.net.batchSize) files = r at *
  obtain ⟨said, ended, evs, fls⟩ := r
  dsimp only at hout h2 ⊢
  rcases h2 with ⟨a, b, c⟩ | ⟨m, hm, e, a, b, rest, hr, c⟩
  · rcases hout with h | ⟨m, hm, s, e, -, h⟩
    · exact .inl ⟨h, by rw [c]⟩
    · rw [a] at h
      cases h
  · rcases hout with h | ⟨m', hm', s, e', -, h⟩
    · rw [a] at h
      cases h
    · have hmm : m' = m := by
        have h1 : evs = completeLog k m' ++ [.start (k + m') ((k + m') % 8)] := by
          rw [Prod.mk.injEq, Prod.mk.injEq] at h
          exact h.2.1
        rw [b] at h1
        have h2 := congrArg List.getLast? h1
        simp at h2
        omega
      subst hmm
      have h1 : e' = e := by
        rw [Prod.mk.injEq, a] at h
        have := h.1
        cases this
        rfl
      subst h1
      exact .inr ⟨m', hm', e', h, rest, hr, by rw [c]⟩

/-- C159: the lines about iterations and checkpoints.  If a run is completed, they are the opening line, the lines of
all iterations and `Training completed.`; if it ends with an exception, they are the opening line, the lines of the
iterations whose checkpoints are written, and the beginning of the iteration that was not completed. -/
theorem C159_marks {α : Type} {pyInt : Text → Option Int} {listdir : Text → Option (List Text)}
    {digit : Char → Option Nat} (hd : DigitsOk digit) (processFile : Text → Except PyErr α)
    (yields : Net → List α → Nat × Option PyErr) {argv : List Text} {files : List File} {j : Job}
    (hj : prepare pyInt listdir argv = .ok j) {k : Nat} (hk : ReadyFor j.name k files) :
    let r := programSaid pyInt listdir digit processFile yields argv files
    (r.2 = (.completed, completeLog k j.iters, saveAll j.name k j.iters files) ∧
      (logFile r.1).filter isMark = opening j.name k :: (marks 8 j.name k j.iters ++ [.completed])) ∨
    ∃ m < j.iters, ∃ e,
      r.2 = (.raised e, completeLog k m ++ [.start (k + m) ((k + m) % 8)], saveAll j.name k m files) ∧
      (logFile r.1).filter isMark = opening j.name k ::
        (marks 8 j.name k m ++ [.iter (k + m), .loading (k + m) ((k + m) % 8)]) := by
  have h8 := (job_facts hj).2
  have ho : isMark (opening j.name k) = true := by
    unfold opening
    split <;> rfl
  rcases log_ready hd processFile yields hj hk with ⟨a, b⟩ | ⟨m, hm, e, a, rest, hr, b⟩
  · refine .inl ⟨a, ?_⟩
    rw [b, List.filter_cons_of_pos ho, List.filter_append, iterLines_marks, h8]
    rfl
  · refine .inr ⟨m, hm, e, a, ?_⟩
    rw [b, List.filter_cons_of_pos ho, List.filter_append, List.filter_append, iterLines_marks, h8, filter_none hr,
      List.append_nil]
    rfl

/-- C159: a checkpoint is said to be saved if and only if it has been written, and an iteration is said to begin if
and only if it has begun. -/
theorem C159_saved {α : Type} {pyInt : Text → Option Int} {listdir : Text → Option (List Text)}
    {digit : Char → Option Nat} (hd : DigitsOk digit) (processFile : Text → Except PyErr α)
    (yields : Net → List α → Nat × Option PyErr) {argv : List Text} {files : List File} {j : Job}
    (hj : prepare pyInt listdir argv = .ok j) {k : Nat} (hk : ReadyFor j.name k files) (i : Nat) :
    let r := programSaid pyInt listdir digit processFile yields argv files
    (.saved (ckptName j.name i) ∈ logFile r.1 ↔ .save i ∈ r.2.2.1) ∧
    (.iter i ∈ logFile r.1 ↔ .start i (i % 8) ∈ r.2.2.1) ∧
    (.completed ∈ logFile r.1 ↔ r.2.1 = .completed) := by
  dsimp only
  have key : ∀ x, isMark x = true → ∀ l : List LogLine, x ∈ l ↔ x ∈ l.filter isMark := by
    intro x hx l
    rw [List.mem_filter, hx]
    simp
  have ho : ∀ x, (∃ f, x = LogLine.saved f) ∨ (∃ i, x = .iter i) ∨ x = .completed → x ≠ opening j.name k := by
    intro x hx h
    unfold opening at h
    split at h <;> (rcases hx with ⟨f, rfl⟩ | ⟨f, rfl⟩ | rfl <;> cases h)
  rw [key _ rfl, key (.iter i) rfl, key .completed rfl]
  have inj : ∀ a, ckptName j.name i = ckptName j.name a ↔ i = a :=
    fun a => ⟨fun h => ckptName_inj hd h, fun h => by rw [h]⟩
  rcases C159_marks hd processFile yields hj hk with ⟨a, b⟩ | ⟨m, hm, e, a, b⟩
  · rw [a, b]
    simp only [List.mem_cons, ho _ (.inl ⟨_, rfl⟩), ho _ (.inr (.inl ⟨_, rfl⟩)), ho _ (.inr (.inr rfl)), false_or,
      marks, completeLog, List.mem_append, List.mem_flatMap, List.not_mem_nil, or_false, reduceCtorEq,
      LogLine.saved.injEq, LogLine.iter.injEq, TrainEv.save.injEq, TrainEv.start.injEq, inj, or_true, and_true]
    refine ⟨trivial, ?_⟩
    constructor
    · rintro ⟨a, h, rfl⟩
      exact ⟨i, h, rfl, rfl⟩
    · rintro ⟨a, h, rfl, -⟩
      exact ⟨i, h, rfl⟩
  · rw [a, b]
    simp only [List.mem_cons, ho _ (.inl ⟨_, rfl⟩), ho _ (.inr (.inl ⟨_, rfl⟩)), ho _ (.inr (.inr rfl)), false_or,
      marks, completeLog, List.mem_append, List.mem_flatMap, List.not_mem_nil, or_false, reduceCtorEq,
      LogLine.saved.injEq, LogLine.iter.injEq, TrainEv.save.injEq, TrainEv.start.injEq, inj, and_false,
      exists_false]
    refine ⟨trivial, ?_, by simp⟩
    constructor
    · rintro (⟨a, h, rfl⟩ | rfl)
      · exact .inl ⟨i, h, rfl, rfl⟩
      · exact .inr ⟨rfl, rfl⟩
    · rintro (⟨a, h, rfl, -⟩ | ⟨rfl, -⟩)
      · exact .inl ⟨i, h, rfl⟩
      · exact .inr rfl

/-- C159: after a run that ended with an exception, the log of the next run opens with the iteration that was not
completed. -/
theorem C159_next {α β : Type} {pyInt : Text → Option Int} {listdir : Text → Option (List Text)}
    {digit : Char → Option Nat} (hd : DigitsOk digit) (processFile : Text → Except PyErr α)
    (yields : Net → List α → Nat × Option PyErr) {argv : List Text} {files : List File} {j : Job}
    (hj : prepare pyInt listdir argv = .ok j) {k : Nat} (hk : ReadyFor j.name k files)
    {pyInt' : Text → Option Int} {listdir' : Text → Option (List Text)} (processFile' : Text → Except PyErr β)
    (yields' : Net → List β → Nat × Option PyErr) {argv' : List Text} {j' : Job}
    (hj' : prepare pyInt' listdir' argv' = .ok j') (hname : j'.name = j.name) {e : PyErr}
    (hr : (programSaid pyInt listdir digit processFile yields argv files).2.1 = .raised e) :
    let r := programSaid pyInt listdir digit processFile yields argv files
    let r' := programSaid pyInt' listdir' digit processFile' yields' argv' r.2.2.2
    ∃ i, (∃ a b, (logFile r.1).filter isMark = a ++ [.iter i, b] ∧ .saved (ckptName j.name i) ∉ logFile r.1) ∧
      (logFile r'.1).head? = some (opening j.name i) := by
  dsimp only
  rcases C159_marks hd processFile yields hj hk with ⟨a, b⟩ | ⟨m, hm, e, a, b⟩
  · rw [a] at hr
    cases hr
  · refine ⟨k + m, ⟨_, _, by rw [b, ← List.cons_append], ?_⟩, ?_⟩
    · rw [(C159_saved hd processFile yields hj hk (k + m)).1, a]
      simp only [completeLog, List.mem_append, List.mem_flatMap, List.mem_cons, List.not_mem_nil, or_false, reduceCtorEq,
        false_or, TrainEv.save.injEq, not_exists, not_and, List.mem_range'_1]
      intro x hx
      omega
    · rw [a]
      have hk' : ReadyFor j'.name (k + m) (saveAll j.name k m files) := by
        rw [hname]
        exact Command.saveAll_ready hd m k files hk
      rw [← hname]
      rcases log_ready hd processFile' yields' hj' hk' with ⟨-, b⟩ | ⟨_, _, _, -, _, -, b⟩ <;> (rw [hname] at b ⊢; rw [b]; rfl)

/-- C159: the steps at which the learning rate is logged are all multiples of 10000 up to the number of losses in the
completed run, in order. -/
theorem C159_rates {α : Type} {pyInt : Text → Option Int} {listdir : Text → Option (List Text)}
    {digit : Char → Option Nat} (hd : DigitsOk digit) (processFile : Text → Except PyErr α)
    (yields : Net → List α → Nat × Option PyErr) {argv : List Text} {files : List File} {j : Job}
    (hj : prepare pyInt listdir argv = .ok j) {k : Nat} (hk : ReadyFor j.name k files) :
    let r := programSaid pyInt listdir digit processFile yields argv files
    r.2.1 = .completed → (logFile r.1).filterMap rateOf =
      (List.range' 1 ((List.range' k j.iters).map
        (fun i => (counts processFile (yields j.net) j.net.batchSize (j.filesOf i)).sum)).sum).filter
          (fun s => s % 10000 == 0) := by
  dsimp only
  intro h
  rcases log_ready hd processFile yields hj hk with ⟨a, b⟩ | ⟨m, hm, e, a, rest, hr, b⟩
  · have ho : rateOf (opening j.name k) = none := by
      unfold opening
      split <;> rfl
    rw [b, List.filterMap_cons_none ho, List.filterMap_append, iterLines_rates]
    exact List.append_nil _
  · rw [a] at h
    cases h

/-- C159: the lines of an iteration of a completed run, between its beginning and its end: the numbers of the batches
and the batches after which validation is done.  The numbers do not begin with 1 if the part has been used before in
the same run: the loader counts on, and it counts the call that ends a loop as well. -/
theorem C159_numbers_partial {α : Type} {pyInt : Text → Option Int} {listdir : Text → Option (List Text)}
    {digit : Char → Option Nat} (hd : DigitsOk digit) (processFile : Text → Except PyErr α)
    (yields : Net → List α → Nat × Option PyErr) {argv : List Text} {files : List File} {j : Job}
    (hj : prepare pyInt listdir argv = .ok j) {k : Nat} (hk : ReadyFor j.name k files) :
    let r := programSaid pyInt listdir digit processFile yields argv files
    r.2.1 = .completed → ∀ m < j.iters,
      let i := k + m
      let n := (counts processFile (yields j.net) j.net.batchSize (j.filesOf i)).length
      ∃ before lines after, logFile r.1 = before ++ [.iter i, .loading i (i % 8)] ++ lines ++
          [.processed i (i % 8), .saved (ckptName j.name i)] ++ after ∧
        (∀ x ∈ lines, isMark x = false) ∧
        lines.filterMap batchNumber = (List.range' (m / 8 * (n + 1) + 1) n).map (fun b => (i % 8, b)) ∧
        lines.filterMap valOf = ((List.range n).filter (fun b => decide (b * j.net.batchSize % 1000 <
          j.net.batchSize))).map (fun b => (i, b)) := by
  dsimp only
  intro h m hm
  rcases log_ready hd processFile yields hj hk with ⟨a, b⟩ | ⟨m, hm, e, a, rest, hr, b⟩
  · have h8 := (job_facts hj).2
    obtain ⟨t, ht⟩ : ∃ t, j.iters = m + (t + 1) := ⟨j.iters - m - 1, by omega⟩
    rw [h8, ht, iterLines_split, iterLines] at b
    rw [uses_self 8 (by decide) m k] at b
    have hf : ∀ i, j.filesOf i = j.train.getD (i % 8) [] := by
      intro i
      unfold Job.filesOf
      rw [h8]
    rw [hf]
    have shape : ∀ (o : LogLine) (A h P t B c : List LogLine),
        o :: ((A ++ (h ++ P ++ t ++ B)) ++ c) = (o :: A) ++ h ++ P ++ t ++ (B ++ c) := by
      intro o A h P t B c
      simp only [List.append_assoc, List.cons_append]
    refine ⟨_, _, _, b.trans (shape _ _ _ _ _ _ _), passLines_marks _ _ _ _ _ _ _, ?_, ?_⟩
    · rw [passLines_numbers, Nat.zero_add]
    · rw [passLines_vals, List.range_eq_range']
  · rw [a] at h
    cases h

/-- C159: in a run of at most eight iterations, the batches of each iteration are numbered from 1. -/
theorem C159_eight {α : Type} {pyInt : Text → Option Int} {listdir : Text → Option (List Text)}
    {digit : Char → Option Nat} (hd : DigitsOk digit) (processFile : Text → Except PyErr α)
    (yields : Net → List α → Nat × Option PyErr) {argv : List Text} {files : List File} {j : Job}
    (hj : prepare pyInt listdir argv = .ok j) {k : Nat} (hk : ReadyFor j.name k files) (h8 : j.iters ≤ 8) :
    let r := programSaid pyInt listdir digit processFile yields argv files
    r.2.1 = .completed → ∀ m < j.iters,
      let i := k + m
      let n := (counts processFile (yields j.net) j.net.batchSize (j.filesOf i)).length
      ∃ before lines after, logFile r.1 = before ++ [.iter i, .loading i (i % 8)] ++ lines ++
          [.processed i (i % 8), .saved (ckptName j.name i)] ++ after ∧
        (∀ x ∈ lines, isMark x = false) ∧
        lines.filterMap batchNumber = (List.range' 1 n).map (fun b => (i % 8, b)) := by
  dsimp only
  intro h m hm
  obtain ⟨a, b, c, h1, h2, h3, -⟩ := C159_numbers_partial hd processFile yields hj hk h m hm
  refine ⟨a, b, c, h1, h2, ?_⟩
  rw [h3, Nat.div_eq_of_lt (by omega), Nat.zero_mul]

/-- C159: what a call of a loader prints about files: the unexpected errors, and only these, are named, in order;
games that are rejected as invalid leave no trace. -/
theorem C159_skipped {α : Type} (processFile : Text → Except PyErr α) (l : Loader Text) :
    (loaderSaid processFile l).filterMap troubleOf =
      ((l.file_list.drop l.current_index).take ((l.next processFile).2.current_index - l.current_index)).filter
        (odd processFile) := by
  unfold loaderSaid Loader.next
  dsimp only
  by_cases h : l.current_index ≥ l.file_list.length
  · rw [if_pos h, if_pos h]
    simp
  · rw [if_neg h, if_neg h]
    have := fill_troubles processFile l.batch_size (l.file_list.drop l.current_index) l.current_index ([] : List α)
    rw [List.length_nil] at this
    rw [this]
    rcases fillBatch processFile l.batch_size (l.file_list.drop l.current_index) l.current_index ([] : List α) with
      ⟨idx, _ | g⟩ <;> rfl

/-- C159 fails for runs of more than eight iterations: the ninth iteration uses the first part again, and its only
batch has the number 3. -/
theorem C159_numbers_violated :
    let int : Text → Option Int := fun s => if s = ['9'] then some 9 else none
    let dirs : Text → Option (List Text) := fun _ => some [['a']]
    let proc : Text → Except PyErr Nat := fun _ => .ok 1
    let digit : Char → Option Nat := fun c => if '0' ≤ c ∧ c ≤ '9' then some (c.toNat - 48) else none
    let argv : List Text := [['p'], "transformer_conv".toList, ['9']]
    let r := programSaid int dirs digit proc (fun _ b => (b.length, none)) argv []
    r.2.1 = .completed ∧ (logFile r.1).filterMap batchNumber =
      [(0, 1), (1, 1), (2, 1), (3, 1), (4, 1), (5, 1), (6, 1), (7, 1), (0, 3)] := by decide +kernel

/-- non-vacuity of `C159_marks` and `C159_next`: a file of 2013 fails an assertion; the log of the first run ends with
the beginning of iteration 1, that of the second opens with it. -/
example :
    let int : Text → Option Int := fun s => if s = ['3'] then some 3 else none
    let dirs : Text → Option (List Text) := fun d => some (if d = yearDir 2013 then [['b']] else [['a']])
    let proc : Text → Except PyErr Nat := fun p => if p = yearDir 2013 ++ ['b'] then .error .assertion else .ok 1
    let digit : Char → Option Nat := fun c => if '0' ≤ c ∧ c ≤ '9' then some (c.toNat - 48) else none
    let argv : List Text := [['p'], "transformer_conv".toList, ['3']]
    let run := programSaid int dirs digit proc (fun _ b => (b.length, none)) argv
    let f : Text := ckptName "transformer_conv".toList 0
    (run []).1 = [.log .fresh, .log (.iter 0), .log (.loading 0 0), .log (.batch 0 1), .valBatch 1, .log (.val 0 0),
      .log (.processed 0 0), .log (.saved f), .log (.iter 1), .log (.loading 1 1),
      .assertion (yearDir 2013 ++ ['b'])] ∧
    (run [⟨f, true⟩]).1 = [.log (.loaded f 1), .log (.iter 1), .log (.loading 1 1),
      .assertion (yearDir 2013 ++ ['b'])] := by decide +kernel

/-- non-vacuity of `C159_skipped`: an invalid game, a file with an unexpected error, and a game -/
example :
    let proc : Text → Except PyErr Nat := fun p =>
      if p = ['a'] then .error .invalidGame else if p = ['b'] then .error .index else .ok 1
    loaderSaid proc (Loader.init [['a'], ['b'], ['c'], ['b']] 1) = [.unexpected ['b']] := by decide +kernel

end MJ
