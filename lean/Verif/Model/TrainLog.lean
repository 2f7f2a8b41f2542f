import Verif.Model.Program
/-!
What the training program says: the log file and the console (MahjongAI/supervised_learning.py:125-189,209-214,
MahjongAI/utils/dataloader.py:20-60).

`log_message` writes a line to the console and to the log file; `print` writes to the console only.  The loaders are
made with `log_message` for training and with `print` for validation.  Lines are given by what is put into them; the
time of day and the values of losses and learning rates are left out.

In contrast to `Command.program`, the loaders are kept from iteration to iteration, with their batch counts, as in
Python.  `yields` says of a batch how many losses the network yields and what it raises then, if anything.
-/
namespace MJ.Command

open MJ.Data (Text)

/-- a line of the log file -/
inductive LogLine where
  /-- `Loaded model from {latest_checkpoint}, starting from iter {latest_iter + 1}` -/
  | loaded (file : Text) (next : Nat)
  /-- `No checkpoint found. Starting training from iter 0.` -/
  | fresh
  /-- `iter {iter}` -/
  | iter (i : Nat)
  /-- `iter {iter} | Loading {repr(train_dataloader)}`; a loader is given by its number -/
  | loading (i part : Nat)
  /-- `{self.__repr__()} - Batch {self.batch_count}` -/
  | batch (part n : Nat)
  /-- `Current learning rate: {current_lr}`, at the given step -/
  | rate (step : Nat)
  /-- `iter {iter} | batch {batch_count} | val loss {val_loss} | loss {loss.item()}` -/
  | val (i b : Nat)
  /-- `iter {iter} | Processed {repr(train_dataloader)}` -/
  | processed (i part : Nat)
  /-- `Model saved at {model_path}` -/
  | saved (file : Text)
  /-- `Training completed.` -/
  | completed
  deriving DecidableEq, Repr

/-- what is written: a line of the log file, which is printed as well, or a line that is only printed -/
inductive Said where
  | log (l : LogLine)
  /-- `{self.__repr__()} - Batch {self.batch_count}` of the validation loader -/
  | valBatch (n : Nat)
  /-- `Assertion error: {e} happened in {filename}` -/
  | assertion (path : Text)
  /-- `Unexpected error: {e} happened in {filename}` -/
  | unexpected (path : Text)
  deriving DecidableEq, Repr

/-- the log file -/
def logFile (said : List Said) : List LogLine :=
  said.filterMap fun
    | .log l => some l
    | _ => none

/-- what the `while` loop of `__next__` prints (MahjongAI/utils/dataloader.py:28-49): the files from `current_index`
on and the length of the batch so far -/
def fillSaid {α : Type} (processFile : Text → Except PyErr α) (batch_size : Nat) : List Text → Nat → List Said
  | [], _ => []
  | f :: fs, len =>
    if len < batch_size then
      match processFile f with
      | .ok _ => fillSaid processFile batch_size fs (len + 1)
      | .error .invalidGame => fillSaid processFile batch_size fs len
      | .error .assertion => [.assertion f]
      | .error .systemExit => []
      | .error _ => .unexpected f :: fillSaid processFile batch_size fs len
    else []

/-- what `__next__` prints before the line of the batch -/
def loaderSaid {α : Type} (processFile : Text → Except PyErr α) (l : Loader Text) : List Said :=
  if l.current_index ≥ l.file_list.length then []
  else fillSaid processFile l.batch_size (l.file_list.drop l.current_index) 0

/-- the lines about the learning rate during `k` steps (MahjongAI/supervised_learning.py:157-166) -/
def rateLines (step k : Nat) : List Said :=
  ((List.range' (step + 1) k).filter (fun s => s % 10000 == 0)).map (fun s => .log (.rate s))

/-- the loop of `estimate_loss` (MahjongAI/supervised_learning.py:198-203), at most `n` calls of `__next__`: what is
printed, the number of losses, and the loader -/
def valLoop {α : Type} (processFile : Text → Except PyErr α) (yields : List α → Nat × Option PyErr)
    (batch_size : Nat) : Nat → Loader Text → Nat → Nat → List Said × Except PyErr Nat × Loader Text
  | 0, l, _, num => ([], .ok num, l)
  | n + 1, l, batch_count, num =>
    match l.next processFile with
    | (.stop, l') => ([], .ok num, l')
    | (.exit, l') => (loaderSaid processFile l, .error .systemExit, l')
    | (.batch games, l') =>
      let said := loaderSaid processFile l ++ [.valBatch l'.batch_count]
      match yields games with
      | (_, some e) => (said, .error e, l')
      | (k, none) =>
        if batch_count * batch_size ≥ 20 then (said, .ok (num + k), l')
        else
          let r := valLoop processFile yields batch_size n l' (batch_count + 1) (num + k)
          (said ++ r.1, r.2)

/-- `estimate_loss` (MahjongAI/supervised_learning.py:192-207) -/
def valPass {α : Type} (processFile : Text → Except PyErr α) (yields : List α → Nat × Option PyErr)
    (batch_size : Nat) (l : Loader Text) : List Said × Except PyErr Unit × Loader Text :=
  match valLoop processFile yields batch_size (l.file_list.length + 1) l 0 0 with
  | (said, .error e, l') => (said, .error e, l')
  | (said, .ok num, l') => (said, if num = 0 then .error .zeroDivision else .ok (), l'.reset)

/-- the loop over the batches of iteration `i` (MahjongAI/supervised_learning.py:150-173), at most `n` calls of
`__next__`: what is said, `current_step`, and the two loaders -/
def trainPass {α : Type} (processFile : Text → Except PyErr α) (yields : List α → Nat × Option PyErr)
    (batch_size i part : Nat) : Nat → Loader Text → Loader Text → Nat → Nat →
    List Said × Except PyErr Nat × Loader Text × Loader Text
  | 0, l, v, _, step => ([], .ok step, l, v)
  | n + 1, l, v, batch_count, step =>
    match l.next processFile with
    | (.stop, l') => ([], .ok step, l', v)
    | (.exit, l') => (loaderSaid processFile l, .error .systemExit, l', v)
    | (.batch games, l') =>
      let said := loaderSaid processFile l ++ [.log (.batch part l'.batch_count)] ++
        rateLines step (yields games).1
      match yields games with
      | (_, some e) => (said, .error e, l', v)
      | (k, none) =>
        if (batch_count * batch_size) % 1000 < batch_size then
          match valPass processFile yields batch_size v with
          | (vsaid, .error e, v') => (said ++ vsaid, .error e, l', v')
          | (vsaid, .ok _, v') =>
            if step + k = 0 then (said ++ vsaid, .error .unboundLocal, l', v')
            else
              let r := trainPass processFile yields batch_size i part n l' v' (batch_count + 1) (step + k)
              (said ++ vsaid ++ [.log (.val i batch_count)] ++ r.1, r.2)
        else
          let r := trainPass processFile yields batch_size i part n l' v (batch_count + 1) (step + k)
          (said ++ r.1, r.2)

/-- the iterations (MahjongAI/supervised_learning.py:143-189); `loaders` gives the training loaders by their number -/
def iterationsSaid {α : Type} (processFile : Text → Except PyErr α) (yields : List α → Nat × Option PyErr)
    (batch_size parts : Nat) (name : Text) : Nat → Nat → Nat → (Nat → Loader Text) → Loader Text → List File →
    List Said × Ended × List TrainEv × List File
  | 0, _, _, _, _, files => ([.log .completed], .completed, [], files)
  | todo + 1, i, step, loaders, v, files =>
    let part := i % parts
    let head := [.log (.iter i), .log (.loading i part)]
    match trainPass processFile yields batch_size i part ((loaders part).file_list.length + 1) (loaders part) v 0
      step with
    | (said, .error e, _, _) => (head ++ said, .raised e, [.start i (i % 8)], files)
    | (said, .ok step, l, v) =>
      let r := iterationsSaid processFile yields batch_size parts name todo (i + 1) step
        (fun p => if p = part then l.reset else loaders p) v (writeFile files ⟨ckptName name i, true⟩)
      (head ++ said ++ [.log (.processed i part), .log (.saved (ckptName name i))] ++ r.1, r.2.1,
        .start i (i % 8) :: .save i :: r.2.2.1, r.2.2.2)

/-- the training loaders of a run when they are made (MahjongAI/supervised_learning.py:135-138) -/
def Job.loaders (j : Job) (part : Nat) : Loader Text := Loader.init (j.train.getD part []) j.net.batchSize

/-- the program (MahjongAI/supervised_learning.py:56-189,217-245) with what it says.  What Python says when an
exception ends the program, and what the argument check prints, are left out. -/
def programSaid {α : Type} (pyInt : Text → Option Int) (listdir : Text → Option (List Text))
    (digit : Char → Option Nat) (processFile : Text → Except PyErr α) (yields : Net → List α → Nat × Option PyErr)
    (argv : List Text) (files : List File) : List Said × Ended × List TrainEv × List File :=
  match prepare pyInt listdir argv with
  | .error e => ([], .refused e, [], files)
  | .ok j =>
    let run := fun i => iterationsSaid processFile (yields j.net) j.net.batchSize j.train.length j.name j.iters i 0
      j.loaders (Loader.init j.val j.net.batchSize) files
    match findLatest digit j.name (files.map (·.name)) with
    | (latest_iter, some file) =>
      if files.any (fun f => f.name == file && f.complete) then
        let r := run (latest_iter + 1).toNat
        (.log (.loaded file (latest_iter + 1).toNat) :: r.1, r.2)
      else ([], .unreadable, [], files)
    | (_, none) =>
      let r := run 0
      (.log .fresh :: r.1, r.2)

end MJ.Command
