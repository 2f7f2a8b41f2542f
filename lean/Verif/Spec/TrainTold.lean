import Verif.Model.TrainLog
/-!
What the log of training ought to say: the lines of a run in which nothing goes wrong, from the numbers of losses of
the batches alone.
-/
namespace MJ.Spec.Told

open MJ.Data (Text)
open MJ.Command

/-- the network's answer to a batch, without what it yielded before it raised -/
def lossesOf {α : Type} (yields : List α → Nat × Option PyErr) (games : List α) : Except PyErr Nat :=
  match yields games with
  | (_, some e) => .error e
  | (k, none) => .ok k

/-- the numbers of losses of the batches that a loop over a loader gets -/
def counts {α : Type} (processFile : Text → Except PyErr α) (yields : List α → Nat × Option PyErr) (bs : Nat)
    (paths : List Text) : List Nat :=
  (served processFile (lossesOf yields) bs paths).filterMap Except.toOption

/-- the lines of a loop over batches that yield `ks` losses: the loader has counted `count` calls, the batch has the
number `b`, `step` steps have been made -/
def passLines (bs i part : Nat) : List Nat → Nat → Nat → Nat → List LogLine
  | [], _, _, _ => []
  | k :: ks, count, b, step =>
    .batch part (count + 1) ::
      (((List.range' (step + 1) k).filter (fun s => s % 10000 == 0)).map .rate ++
        ((if b * bs % 1000 < bs then [.val i b] else []) ++ passLines bs i part ks (count + 1) (b + 1) (step + k)))

/-- the lines of iterations that are completed; `ks p` are the numbers of losses of the batches of part `p`,
`count p` is what its loader has counted -/
def iterLines (bs parts : Nat) (name : Text) (ks : Nat → List Nat) :
    Nat → Nat → Nat → (Nat → Nat) → List LogLine
  | 0, _, _, _ => []
  | todo + 1, i, step, count =>
    [.iter i, .loading i (i % parts)] ++ passLines bs i (i % parts) (ks (i % parts)) (count (i % parts)) 0 step ++
      [.processed i (i % parts), .saved (ckptName name i)] ++
      iterLines bs parts name ks todo (i + 1) (step + (ks (i % parts)).sum)
        (fun p => if p = i % parts then count p + (ks (i % parts)).length + 1 else count p)

/-- the lines about iterations and checkpoints -/
def isMark : LogLine → Bool
  | .batch .. => false
  | .rate .. => false
  | .val .. => false
  | _ => true

/-- the lines about iterations and checkpoints of `n` completed iterations -/
def marks (parts : Nat) (name : Text) (k n : Nat) : List LogLine :=
  (List.range' k n).flatMap (fun i =>
    [LogLine.iter i, .loading i (i % parts), .processed i (i % parts), .saved (ckptName name i)])

/-- the first line -/
def opening (name : Text) (k : Nat) : LogLine := if k = 0 then .fresh else .loaded (ckptName name (k - 1)) k

/-- the step of a line about the learning rate -/
def rateOf : LogLine → Option Nat
  | .rate s => some s
  | _ => none

/-- the number of a line about a batch -/
def batchNumber : LogLine → Option (Nat × Nat)
  | .batch p n => some (p, n)
  | _ => none

/-- the iteration and the batch of a line about validation -/
def valOf : LogLine → Option (Nat × Nat)
  | .val i b => some (i, b)
  | _ => none

/-- the file of a line about an unexpected error -/
def troubleOf : Said → Option Text
  | .unexpected f => some f
  | _ => none

/-- files that cannot be read but do not end the program, and are not games that the code rejects as invalid -/
def odd {α : Type} (processFile : Text → Except PyErr α) (f : Text) : Bool :=
  match processFile f with
  | .ok _ => false
  | .error .invalidGame => false
  | .error .assertion => false
  | .error .systemExit => false
  | .error _ => true

end MJ.Spec.Told
