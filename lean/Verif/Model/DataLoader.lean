import Verif.Model.Py
/-!
The data loader (MahjongAI/utils/dataloader.py).

`process(path)` is a parameter: a function from file names to its result or exception.  The directory
listing of `os.listdir` is any list of names.  Logging is in `Model/TrainLog`.  Exceptions outside Python's
`Exception` (interrupts) are not modelled.
-/
namespace MJ

/-- the fields of `DataLoader` (MahjongAI/utils/dataloader.py:9-15) that change behaviour -/
structure Loader (N : Type) where
  file_list : List N
  current_index : Nat
  batch_size : Nat
  batch_count : Nat

/-- `__init__` (MahjongAI/utils/dataloader.py:9-15) -/
def Loader.init {N : Type} (listing : List N) (batch_size : Nat) : Loader N := ⟨listing, 0, batch_size, 0⟩

/-- what one call of `__next__` does: return a batch, raise StopIteration, or leave the program -/
inductive Next (α : Type) where
  | batch (games : List α)
  | stop
  | exit
  deriving DecidableEq, Repr

/-- the `while` loop (MahjongAI/utils/dataloader.py:28-49): the files from `current_index` on, `current_index`,
and the batch so far.  Result: the new `current_index` and the batch, `none` for `sys.exit`. -/
def fillBatch {N α : Type} (process : N → Except PyErr α) (batch_size : Nat) :
    List N → Nat → List α → Nat × Option (List α)
  | [], idx, acc => (idx, some acc)
  | f :: fs, idx, acc =>
    if acc.length < batch_size then
      match process f with
      | .ok x => fillBatch process batch_size fs (idx + 1) (acc ++ [x])
      | .error .invalidGame => fillBatch process batch_size fs (idx + 1) acc
      | .error .assertion => (idx + 1, none)
      | .error .systemExit => (idx + 1, none)
      | .error _ => fillBatch process batch_size fs (idx + 1) acc
    else (idx, some acc)

/-- `__next__` (MahjongAI/utils/dataloader.py:20-53) -/
def Loader.next {N α : Type} (process : N → Except PyErr α) (l : Loader N) : Next α × Loader N :=
  let l := { l with batch_count := l.batch_count + 1 }
  if l.current_index ≥ l.file_list.length then (.stop, l)
  else
    match fillBatch process l.batch_size (l.file_list.drop l.current_index) l.current_index [] with
    | (idx, some games) => (.batch games, { l with current_index := idx })
    | (idx, none) => (.exit, { l with current_index := idx })

/-- `reset` (MahjongAI/utils/dataloader.py:55-57) -/
def Loader.reset {N : Type} (l : Loader N) : Loader N := { l with current_index := 0 }

/-- how a `for` loop over the loader ends -/
inductive LoopEnd where
  | finished
  | exited
  | running
  deriving DecidableEq, Repr

/-- a `for` loop over the loader, at most `n` calls of `__next__`: the batches it gets, how it ends (`running`
if `n` calls were not enough), and the loader afterwards -/
def Loader.loop {N α : Type} (process : N → Except PyErr α) : Nat → Loader N → List (List α) × LoopEnd × Loader N
  | 0, l => ([], .running, l)
  | n + 1, l =>
    match l.next process with
    | (.stop, l') => ([], .finished, l')
    | (.exit, l') => ([], .exited, l')
    | (.batch b, l') =>
      let r := Loader.loop process n l'
      (b :: r.1, r.2)

end MJ
