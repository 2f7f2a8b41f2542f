import Verif.Model.Program
import Verif.Props.Command
import Verif.Props.Epoch
/-!
C147: what the training program does, from its arguments to its checkpoints.
-/
namespace MJ

open MJ.Data (Text)
open MJ.Command
open MJ.Spec

/-- the events of complete iterations -/
def Spec.completeLog (k n : Nat) : List TrainEv :=
  (List.range' k n).flatMap (fun i => [TrainEv.start i (i % 8), .save i])

/-- the directory after the iterations `k`, …, `k + n - 1` -/
def Spec.saveAll (name : Text) : Nat → Nat → List File → List File
  | _, 0, files => files
  | k, n + 1, files => saveAll name (k + 1) n (writeFile files ⟨ckptName name k, true⟩)

theorem Command.completeLog_succ (k n : Nat) :
    completeLog k (n + 1) = .start k (k % 8) :: .save k :: completeLog (k + 1) n := by
  unfold completeLog
  rw [List.range'_succ, List.flatMap_cons]
  rfl

theorem Command.iterations_spec (epoch : Nat → Nat → Except PyErr (Nat × List Nat)) (name : Text) :
    ∀ (todo i step : Nat) (files : List File),
    (iterations epoch name todo i step files = (.completed, completeLog i todo, saveAll name i todo files) ∧
      iterations epoch name todo i step files =
        (.completed, trainLoop name none todo i files)) ∨
    ∃ m < todo, ∃ s e, epoch (i + m) s = .error e ∧
      iterations epoch name todo i step files =
        (.raised e, completeLog i m ++ [.start (i + m) ((i + m) % 8)], saveAll name i m files) ∧
      iterations epoch name todo i step files =
        (.raised e, trainLoop name (some (m, .beforeSave)) todo i files) := by
  intro todo
  induction todo with
  | zero => intro i step files; exact .inl ⟨rfl, rfl⟩
  | succ todo ih =>
    intro i step files
    cases he : epoch i step with
    | error e =>
      right
      have h1 : iterations epoch name (todo + 1) i step files = (.raised e, [.start i (i % 8)], files) := by
        rw [iterations, he]
      exact ⟨0, Nat.succ_pos _, step, e, he, h1, h1⟩
    | ok r =>
      obtain ⟨step', vals⟩ := r
      have h1 : iterations epoch name (todo + 1) i step files =
          ((iterations epoch name todo (i + 1) step' (writeFile files ⟨ckptName name i, true⟩)).1,
            .start i (i % 8) :: .save i ::
              (iterations epoch name todo (i + 1) step' (writeFile files ⟨ckptName name i, true⟩)).2.1,
            (iterations epoch name todo (i + 1) step' (writeFile files ⟨ckptName name i, true⟩)).2.2) := by
        rw [iterations, he]
      rcases ih (i + 1) step' (writeFile files ⟨ckptName name i, true⟩) with ⟨a, b⟩ | ⟨m, hm, s, e, h2, a, b⟩
      · left
        constructor
        · rw [h1, a, Command.completeLog_succ]; rfl
        · rw [h1, b]; rfl
      · right
        have ei : i + 1 + m = i + (m + 1) := by omega
        refine ⟨m + 1, Nat.succ_lt_succ hm, s, e, ?_, ?_, ?_⟩
        · rw [← ei]; exact h2
        · rw [h1, a, Command.completeLog_succ, ← ei]; rfl
        · rw [h1, b]; rfl

/-- the number of the next iteration, if a run does anything: the directory holds the checkpoints `0 … k-1`, and the
last of them is complete -/
def Spec.ReadyFor (name : Text) (k : Nat) (files : List File) : Prop :=
  DirOk name k files ∧ (0 < k → ∃ f ∈ files, f.name = ckptName name (k - 1) ∧ f.complete = true)

theorem Command.program_ready {α : Type} {pyInt : Text → Option Int} {listdir : Text → Option (List Text)}
    {digit : Char → Option Nat} (hd : DigitsOk digit) (processFile : Text → Except PyErr α)
    (losses : Net → List α → Except PyErr Nat) {argv : List Text} {files : List File} {j : Job}
    (hj : prepare pyInt listdir argv = .ok j) {k : Nat} (hk : ReadyFor j.name k files) :
    program pyInt listdir digit processFile losses argv files =
      iterations (j.epoch processFile losses) j.name j.iters k 0 files := by
  unfold program
  rw [hj]
  dsimp only
  rcases findLatest_dirOk hd hk.1 with ⟨h0, e⟩ | ⟨h0, e⟩
  · rw [e, h0]
  · rw [e]
    dsimp only
    obtain ⟨f, hf, hn, hc⟩ := hk.2 h0
    rw [if_pos (List.any_eq_true.mpr ⟨f, hf, by rw [hn, hc, beq_self_eq_true]; rfl⟩)]
    congr 1
    omega

/-- C147: whatever the games are, a run of the program is a run of `trainRun`, interrupted before the save of the
first iteration that raises; so C74 holds for every history of such runs. -/
theorem C147_is_run {α : Type} (pyInt : Text → Option Int) (listdir : Text → Option (List Text))
    (digit : Char → Option Nat) (processFile : Text → Except PyErr α) (losses : Net → List α → Except PyErr Nat)
    (argv : List Text) (files : List File) {j : Job} (hj : prepare pyInt listdir argv = .ok j) :
    ∃ crash, (program pyInt listdir digit processFile losses argv files).2 =
      trainRun digit j.name j.iters crash files := by
  have key : ∀ k, ∃ crash, (iterations (j.epoch processFile losses) j.name j.iters k 0 files).2 =
      trainLoop j.name crash j.iters k files := by
    intro k
    rcases Command.iterations_spec (j.epoch processFile losses) j.name j.iters k 0 files with
      ⟨-, h⟩ | ⟨m, -, s, e, -, -, h⟩
    · exact ⟨none, by rw [h]⟩
    · exact ⟨some (m, .beforeSave), by rw [h]⟩
  unfold program trainRun
  rw [hj]
  dsimp only
  generalize findLatest digit j.name (files.map (·.name)) = fl
  rcases fl with ⟨latest_iter, _ | file⟩
  · exact key _
  · dsimp only
    cases hc : files.any (fun f => f.name == file && f.complete) with
    | true => simp only [if_true]; exact key _
    | false => exact ⟨none, rfl⟩

/-- C147: a run of the program saves the iterations from the first one not yet saved up to the one that raises, or
all that it was asked for; nothing else is written. -/
theorem C147_outcome {α : Type} {pyInt : Text → Option Int} {listdir : Text → Option (List Text)}
    {digit : Char → Option Nat} (hd : DigitsOk digit) (processFile : Text → Except PyErr α)
    (losses : Net → List α → Except PyErr Nat) {argv : List Text} {files : List File} {j : Job}
    (hj : prepare pyInt listdir argv = .ok j) {k : Nat} (hk : ReadyFor j.name k files) :
    program pyInt listdir digit processFile losses argv files =
        (.completed, completeLog k j.iters, saveAll j.name k j.iters files) ∨
    ∃ m < j.iters, ∃ step e, j.epoch processFile losses (k + m) step = .error e ∧
      program pyInt listdir digit processFile losses argv files =
        (.raised e, completeLog k m ++ [.start (k + m) ((k + m) % 8)], saveAll j.name k m files) := by
  rw [Command.program_ready hd processFile losses hj hk]
  rcases Command.iterations_spec (j.epoch processFile losses) j.name j.iters k 0 files with
    ⟨h, -⟩ | ⟨m, hm, s, e, h1, h, -⟩
  · exact .inl h
  · exact .inr ⟨m, hm, s, e, h1, h⟩

theorem Command.saveAll_ready {digit : Char → Option Nat} (hd : DigitsOk digit) {name : Text} :
    ∀ (n k : Nat) (files : List File), ReadyFor name k files → ReadyFor name (k + n) (saveAll name k n files) := by
  intro n
  induction n with
  | zero => intro k files h; exact h
  | succ n ih =>
    intro k files h
    have h1 : ReadyFor name (k + 1) (writeFile files ⟨ckptName name k, true⟩) := by
      refine ⟨h.1.write hd true, fun _ => ⟨⟨ckptName name k, true⟩, ?_, rfl, rfl⟩⟩
      unfold writeFile
      exact List.mem_append_right _ (List.mem_singleton.mpr rfl)
    have := ih (k + 1) _ h1
    rw [Nat.add_assoc, Nat.add_comm 1] at this
    exact this

/-- C147: if an iteration raises whatever the number of steps done before, then no run gets beyond it: each run ends
with an exception in this iteration, without having written anything, so that the next run is in the same situation. -/
theorem C147_blocked {α : Type} {pyInt : Text → Option Int} {listdir : Text → Option (List Text)}
    {digit : Char → Option Nat} (hd : DigitsOk digit) {processFile : Text → Except PyErr α}
    {losses : Net → List α → Except PyErr Nat} {argv : List Text} {files : List File} {j : Job}
    (hj : prepare pyInt listdir argv = .ok j) {k : Nat} (hk : ReadyFor j.name k files) (hpos : 0 < j.iters)
    (hfail : ∀ step r, j.epoch processFile losses k step ≠ .ok r) :
    ∃ e, program pyInt listdir digit processFile losses argv files = (.raised e, [.start k (k % 8)], files) := by
  rw [Command.program_ready hd processFile losses hj hk]
  obtain ⟨n, hn⟩ : ∃ n, j.iters = n + 1 := ⟨j.iters - 1, by omega⟩
  rw [hn, iterations]
  cases he : j.epoch processFile losses k 0 with
  | error e => exact ⟨e, rfl⟩
  | ok r => exact absurd he (hfail 0 r)

/-- the batch sizes are positive -/
theorem Command.batch_pos {name : Text} {net : Net} (h : chooseNet name = .ok net) : 0 < net.batchSize := by
  have := C145_names.2.2.1 name net h
  have key : ∀ m ∈ trainable, 0 < m.2 := by decide +kernel
  exact key _ this

/-- C147: one file for which an assertion fails is enough: every iteration of its year ends the program, so that
training never gets beyond the first such iteration, however often it is restarted. -/
theorem C147_assertion_blocks {α : Type} {j : Job} (hpos : 0 < j.net.batchSize) {processFile : Text → Except PyErr α}
    {losses : Net → List α → Except PyErr Nat} {i : Nat} {p : Text} (hp : p ∈ j.filesOf i)
    (h : processFile p = .error .assertion) (step : Nat) (r : Nat × List Nat) :
    j.epoch processFile losses i step ≠ .ok r := by
  intro hr
  have hf : fatal processFile p = true := by
    unfold fatal
    rw [h]
  obtain ⟨h1, -⟩ := C72_fatal (process := processFile) (Loader.init (j.filesOf i) j.net.batchSize) hpos ⟨p, hp, hf⟩
    (Nat.lt_succ_self _)
  have hs : (.error .systemExit : Except PyErr Nat) ∈
      served processFile (losses j.net) j.net.batchSize (j.filesOf i) := by
    unfold served
    have h2 : ((Loader.init (j.filesOf i) j.net.batchSize).loop processFile ((j.filesOf i).length + 1)).2.1 = .exited := h1
    simp only [h2, if_true]
    exact List.mem_append_right _ (List.mem_singleton.mpr rfl)
  obtain ⟨ls, e, -⟩ := C83_steps _ _ _ _ _ hr
  rw [e] at hs
  obtain ⟨n, -, hn⟩ := List.mem_map.mp hs
  cases hn

/-- which tensors a network works on -/
def Command.NetClass.variant : NetClass → Variant
  | .basic => .basic
  | .conv => .conv
  | .convLarge => .conv
  | .convOrdered => .ordered

/-- C147: with the games of legal rounds in all nine directories the program runs through, whatever network was
chosen: it completes exactly the iterations asked for, beginning with the first one not yet saved, saves each, and
leaves the directory ready for the next run. -/
theorem C147_runs {pyInt : Text → Option Int} {listdir : Text → Option (List Text)} {digit : Char → Option Nat}
    (hd : DigitsOk digit) {pi : PyInt} (hpi : ReadsDecimals pi) {est : Estimate} {sh : List Int → Except PyErr Int}
    (he : ∀ q, RealHand q → ∃ b, est q = .ok b) (hs : ∀ l, RealConcealed l → ∃ n, sh l = .ok n)
    (content : Text → Elem) {prog name n : Text} (hname : name ∈ accepted) {iters : Int} (hn : pyInt n = some iters)
    (htrain : ∀ d ∈ trainDirs, ∃ names, listdir d = some names ∧ GoodDirectory pi content (names.map (d ++ ·)))
    (hval : ∃ names, listdir valDir = some names ∧ GoodDirectory pi content (names.map (valDir ++ ·)))
    {files : List File} {k : Nat} (hk : ReadyFor name k files) :
    program pyInt listdir digit (fun p => process pi est sh (content p)) (fun net => batchLosses net.cls.variant)
        [prog, name, n] files =
      (.completed, completeLog k iters.toNat, saveAll name k iters.toNat files) ∧
    ReadyFor name (k + iters.toNat) (saveAll name k iters.toNat files) := by
  refine ⟨?_, Command.saveAll_ready hd _ _ _ hk⟩
  have hp : ∃ j, prepare pyInt listdir [prog, name, n] = .ok j := by
    rw [C145_prepared]
    refine ⟨⟨prog, name, n, rfl, hname, by rw [hn]; rfl⟩, ?_, ?_⟩
    · intro d hd'
      obtain ⟨names, h, -⟩ := htrain d hd'
      rw [h]; rfl
    · obtain ⟨names, h, -⟩ := hval
      rw [h]; rfl
  obtain ⟨j, hj⟩ := hp
  obtain ⟨hnet, hjn, ⟨k', hk', hit⟩, hl⟩ := C145_job hj
  rw [hn] at hk'
  cases hk'
  have hpos := Command.batch_pos hnet
  have hserved : ∀ paths, GoodDirectory pi content paths →
      served (fun p => process pi est sh (content p)) (batchLosses j.net.cls.variant) j.net.batchSize paths =
        (epochBatches pi est sh content paths j.net.batchSize).map (batchLosses j.net.cls.variant) := by
    intro paths hg
    obtain ⟨h1, -⟩ := C123_batches hpi he hs hg hpos j.net.cls.variant
    unfold served epochBatches
    simp only [h1]
    exact List.append_nil _
  have hgv : GoodDirectory pi content j.val := by
    obtain ⟨-, names, h1, h2⟩ := Command.loaders_ok.mp hl
    obtain ⟨names', h3, h4⟩ := hval
    rw [h1] at h3
    cases h3
    replace h2 : j.val = names.map (valDir ++ ·) := h2
    rw [h2]; exact h4
  have hgt : ∀ i, GoodDirectory pi content (j.filesOf i) := by
    intro i
    obtain ⟨-, names, h1, h2⟩ := C146_files hl i
    have hm : yearDir (yearOf i) ∈ trainDirs := by
      rw [← Command.trainDirs_get, List.getD_eq_getElem _ _ (by
        have : trainDirs.length = 8 := by decide +kernel
        rw [this]; exact Nat.mod_lt _ (by decide))]
      exact List.getElem_mem _
    obtain ⟨names', h3, h4⟩ := htrain _ hm
    rw [h1] at h3
    cases h3
    rw [h2]; exact h4
  subst hjn
  rcases C147_outcome hd (fun p => process pi est sh (content p)) (fun net => batchLosses net.cls.variant) hj hk with
    h | ⟨m, -, step, e, h, -⟩
  · rw [h, hit]
  · exfalso
    obtain ⟨r, hr⟩ := C123_epoch hpi he hs (hgt (k + m)) hgv hpos j.net.cls.variant step
    unfold Job.epoch at h
    rw [hserved _ hgv, hserved _ (hgt (k + m)), hr] at h
    cases h

/-- non-vacuity: an empty directory is ready for iteration 0 -/
example (name : Text) : ReadyFor name 0 [] :=
  ⟨⟨fun i hi => absurd hi (Nat.not_lt_zero _), fun f hf => by cases hf⟩, fun h => absurd h (by decide)⟩

/-- non-vacuity of `C147_outcome` and `C147_blocked`: the games are numbers, one file of 2013 fails an assertion; the
program does iteration 0 and then never gets beyond iteration 1. -/
example :
    let int : Text → Option Int := fun s => if s = ['3'] then some 3 else none
    let dirs : Text → Option (List Text) := fun d => some (if d = yearDir 2013 then [['b']] else [['a']])
    let proc : Text → Except PyErr Nat := fun p => if p = yearDir 2013 ++ ['b'] then .error .assertion else .ok 1
    let digit : Char → Option Nat := fun c => if '0' ≤ c ∧ c ≤ '9' then some (c.toNat - 48) else none
    let argv : List Text := [['p'], "transformer_conv".toList, ['3']]
    let run := program int dirs digit proc (fun _ b => .ok b.length) argv
    let f : File := ⟨ckptName "transformer_conv".toList 0, true⟩
    run [] = (.raised .systemExit, [.start 0 0, .save 0, .start 1 1], [f]) ∧
    run [f] = (.raised .systemExit, [.start 1 1], [f]) := by decide +kernel

end MJ
