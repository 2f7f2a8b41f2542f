import Verif.Model.Command
import Verif.Model.DataLoader
/-!
The training program from its arguments to its checkpoints (MahjongAI/supervised_learning.py), put together from the
loaders (`Model/DataLoader`), the loop over the batches (`epochLoop`), the search for the checkpoint (`findLatest`)
and the preparation (`Model/Command`).

What happens to one game and to one batch is a parameter: `processFile path` is `process(path)`, and `losses` says
how many losses the network yields for a batch, or what it raises.  Other interruptions than exceptions are in
`trainRun`.
-/
namespace MJ.Command

open MJ.Data (Text)

/-- what a loop over a loader gets in turn: for each batch the number of losses; at the end perhaps `sys.exit`
(MahjongAI/utils/dataloader.py:39-41) -/
def served {α : Type} (processFile : Text → Except PyErr α) (losses : List α → Except PyErr Nat) (n : Nat)
    (paths : List Text) : List (Except PyErr Nat) :=
  let r := (Loader.init paths n).loop processFile (paths.length + 1)
  r.1.map losses ++ (if r.2.1 = .exited then [.error .systemExit] else [])

/-- the loop over the batches of iteration `i` (MahjongAI/supervised_learning.py:147-173); every loader begins with
its first file: it is reset after each use (l.187,204) -/
def Job.epoch {α : Type} (j : Job) (processFile : Text → Except PyErr α) (losses : Net → List α → Except PyErr Nat)
    (i step : Nat) : Except PyErr (Nat × List Nat) :=
  epochLoop j.net.batchSize (served processFile (losses j.net) j.net.batchSize j.val)
    (served processFile (losses j.net) j.net.batchSize (j.filesOf i)) 0 step []

/-- how the program ends -/
inductive Ended where
  | completed
  | refused (e : Err)
  /-- the checkpoint was not completely written -/
  | unreadable
  | raised (e : PyErr)
  deriving DecidableEq, Repr

/-- the iterations (MahjongAI/supervised_learning.py:143-189): `epoch i step` is the loop over the batches, `step` is
`current_step` -/
def iterations (epoch : Nat → Nat → Except PyErr (Nat × List Nat)) (name : Text) :
    Nat → Nat → Nat → List File → Ended × List TrainEv × List File
  | 0, _, _, files => (.completed, [], files)
  | todo + 1, i, step, files =>
    match epoch i step with
    | .error e => (.raised e, [.start i (i % 8)], files)
    | .ok (step, _) =>
      let r := iterations epoch name todo (i + 1) step (writeFile files ⟨ckptName name i, true⟩)
      (r.1, .start i (i % 8) :: .save i :: r.2.1, r.2.2)

/-- the program (MahjongAI/supervised_learning.py:56-189,217-245).  If a directory is missing and the checkpoint is
unreadable as well, Python reports the latter. -/
def program {α : Type} (pyInt : Text → Option Int) (listdir : Text → Option (List Text)) (digit : Char → Option Nat)
    (processFile : Text → Except PyErr α) (losses : Net → List α → Except PyErr Nat) (argv : List Text)
    (files : List File) : Ended × List TrainEv × List File :=
  match prepare pyInt listdir argv with
  | .error e => (.refused e, [], files)
  | .ok j =>
    match findLatest digit j.name (files.map (·.name)) with
    | (latest_iter, some file) =>
      if files.any (fun f => f.name == file && f.complete) then
        iterations (j.epoch processFile losses) j.name j.iters (latest_iter + 1).toNat 0 files
      else (.unreadable, [], files)
    | (_, none) => iterations (j.epoch processFile losses) j.name j.iters 0 0 files

end MJ.Command
