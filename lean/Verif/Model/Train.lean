import Verif.Model.Py
/-!
Checkpoints and the training loop (MahjongAI/supervised_learning.py).

File names are lists of characters.  `digit` says which characters `\d` matches and what `int` reads them as
(Python accepts all Unicode decimal digits); it is a parameter.  The network, the optimiser and the losses are
left out; what is kept is which files are read and written, which loader is used, how many optimiser steps are
made, and where the loop can raise.
-/
namespace MJ

/-- `model_{model_name}_checkpoint_iter_` (MahjongAI/supervised_learning.py:34,40,180) -/
def ckptPrefix (model : List Char) : List Char := "model_".toList ++ model ++ "_checkpoint_iter_".toList

/-- `.pt` -/
def ptSuffix : List Char := ".pt".toList

/-- a name matches the glob pattern `model_{model_name}_checkpoint_iter_*.pt`
(MahjongAI/supervised_learning.py:34-35); model names without glob metacharacters -/
def globMatch (model name : List Char) : Bool :=
  (ckptPrefix model).isPrefixOf name && ptSuffix.isSuffixOf (name.drop (ckptPrefix model).length)

/-- the longest run of digits at the start, as numbers, and the rest: `\d+` -/
def digitRun (digit : Char → Option Nat) : List Char → List Nat × List Char
  | [] => ([], [])
  | c :: cs =>
    match digit c with
    | some d => let r := digitRun digit cs; (d :: r.1, r.2)
    | none => ([], c :: cs)

/-- `int` of a run of digits -/
def digitsValue (ds : List Nat) : Nat := ds.foldl (fun a d => 10 * a + d) 0

/-- the regular expression matches at the start of the text (MahjongAI/supervised_learning.py:40); result is
group 1 as an integer.  Giving back digits cannot help, since the next pattern character is a dot. -/
def matchHere (digit : Char → Option Nat) (model text : List Char) : Option Nat :=
  if (ckptPrefix model).isPrefixOf text then
    let (ds, rest) := digitRun digit (text.drop (ckptPrefix model).length)
    if ds ≠ [] ∧ ptSuffix.isPrefixOf rest then some (digitsValue ds) else none
  else none

/-- `re.search` (MahjongAI/supervised_learning.py:43-45): the leftmost match -/
def reSearch (digit : Char → Option Nat) (model : List Char) : List Char → Option Nat
  | [] => matchHere digit model []
  | c :: cs =>
    match matchHere digit model (c :: cs) with
    | some n => some n
    | none => reSearch digit model cs

/-- `saved_models/` in front of a name (MahjongAI/supervised_learning.py:34,58) -/
def inDir (name : List Char) : List Char := "saved_models/".toList ++ name

/-- the loop of `find_latest_checkpoint` (MahjongAI/supervised_learning.py:36-48): `max_iter` and
`latest_checkpoint` -/
def latestLoop (digit : Char → Option Nat) (model : List Char) :
    List (List Char) → Int → Option (List Char) → Int × Option (List Char)
  | [], max_iter, latest => (max_iter, latest)
  | file :: files, max_iter, latest =>
    match reSearch digit model (inDir file) with
    | some iter_num =>
      if (iter_num : Int) > max_iter then latestLoop digit model files iter_num (some file)
      else latestLoop digit model files max_iter latest
    | none => latestLoop digit model files max_iter latest

/-- `find_latest_checkpoint` (MahjongAI/supervised_learning.py:28-53) for a directory listing in some order; the
directory is left out of the returned name -/
def findLatest (digit : Char → Option Nat) (model : List Char) (listing : List (List Char)) : Int × Option (List Char) :=
  match latestLoop digit model (listing.filter (globMatch model)) (-1) none with
  | (max_iter, some file) => (max_iter, some file)
  | (_, none) => (0, none)

/-- the decimal digits of a number, `f"{iter}"` -/
def decimal (n : Nat) : List Char :=
  if n < 10 then [Char.ofNat (48 + n)] else decimal (n / 10) ++ [Char.ofNat (48 + n % 10)]
  termination_by n
  decreasing_by omega

/-- the name under which iteration `i` is saved (MahjongAI/supervised_learning.py:179-181) -/
def ckptName (model : List Char) (i : Nat) : List Char := ckptPrefix model ++ decimal i ++ ptSuffix

/-- a file and whether it was completely written -/
structure File where
  name : List Char
  complete : Bool
  deriving DecidableEq, Repr

/-- what a training run does, as far as the disk and the choice of data are concerned -/
inductive TrainEv where
  /-- iteration `i` begins, with the loader of the given number -/
  | start (i shard : Nat)
  /-- the checkpoint of iteration `i` is written -/
  | save (i : Nat)
  deriving DecidableEq, Repr

/-- where a run is interrupted during an iteration -/
inductive Crash where
  | beforeSave
  | duringSave
  deriving DecidableEq, Repr

/-- writing a file, replacing one of the same name -/
def writeFile (files : List File) (f : File) : List File := files.filter (fun g => g.name != f.name) ++ [f]

/-- the loop of `train` (MahjongAI/supervised_learning.py:143-185; `eval_interval` is 1, l.18, so every iteration
is saved): `todo` iterations from `i`; `crash = some (k, c)` interrupts the `k`-th iteration from here -/
def trainLoop (model : List Char) (crash : Option (Nat × Crash)) :
    Nat → Nat → List File → List TrainEv × List File
  | 0, _, files => ([], files)
  | todo + 1, i, files =>
    match crash with
    | some (0, .beforeSave) => ([.start i (i % 8)], files)
    | some (0, .duringSave) => ([.start i (i % 8), .save i], writeFile files ⟨ckptName model i, false⟩)
    | some (k + 1, c) =>
      let r := trainLoop model (some (k, c)) todo (i + 1) (writeFile files ⟨ckptName model i, true⟩)
      (.start i (i % 8) :: .save i :: r.1, r.2)
    | none =>
      let r := trainLoop model none todo (i + 1) (writeFile files ⟨ckptName model i, true⟩)
      (.start i (i % 8) :: .save i :: r.1, r.2)

/-- one run of `train` (MahjongAI/supervised_learning.py:56-187) on a directory listed in the given order.
Loading a file that was not completely written raises (l.123-125), and nothing else happens. -/
def trainRun (digit : Char → Option Nat) (model : List Char) (max_iters : Nat) (crash : Option (Nat × Crash))
    (files : List File) : List TrainEv × List File :=
  match findLatest digit model (files.map (·.name)) with
  | (latest_iter, some file) =>
    if files.any (fun f => f.name == file && f.complete) then
      trainLoop model crash max_iters (latest_iter + 1).toNat files
    else ([], files)
  | (_, none) => trainLoop model crash max_iters 0 files

/-- the models that can be trained (MahjongAI/supervised_learning.py:62-90,225-236) with their batch sizes -/
def trainable : List (List Char × Nat) :=
  [("transformer".toList, 5), ("transformer_conv".toList, 5), ("transformer_conv_large".toList, 2),
   ("transformer_conv_large_3".toList, 2), ("transformer_conv_ordered".toList, 4),
   ("transformer_conv_ordered_large_2".toList, 2), ("transformer_conv_ordered_large_3".toList, 2),
   ("transformer_conv_ordered_large_4".toList, 1), ("transformer_conv_ordered_large_5".toList, 1)]

/-- `estimate_loss` (MahjongAI/supervised_learning.py:190-207): `batches` are the batches of the validation loader
from its beginning, each given by how many losses the model yields for it (or what it raises).  Result: the
number of batches used. -/
def estimateLoop (batch_size : Nat) : List (Except PyErr Nat) → Nat → Nat → Except PyErr (Nat × Nat)
  | [], batch_count, num => .ok (batch_count, num)
  | b :: bs, batch_count, num => do
    let k ← b
    if batch_count * batch_size ≥ 20 then .ok (batch_count + 1, num + k)
    else estimateLoop batch_size bs (batch_count + 1) (num + k)

@[inherit_doc estimateLoop]
def estimateLoss (batch_size : Nat) (batches : List (Except PyErr Nat)) : Except PyErr Nat := do
  let (used, num) ← estimateLoop batch_size batches 0 0
  if num = 0 then .error .zeroDivision else .ok used

/-- one iteration over the training loader (MahjongAI/supervised_learning.py:150-173): for each batch, given by
how many losses the model yields for it, one optimiser and scheduler step per loss; validation on some batches;
`loss` is unbound if the model has not yielded any yet in this call of `train`.  State: `current_step` and the
batch numbers at which validation was done. -/
def epochLoop (batch_size : Nat) (val : List (Except PyErr Nat)) :
    List (Except PyErr Nat) → Nat → Nat → List Nat → Except PyErr (Nat × List Nat)
  | [], _, step, vals => .ok (step, vals)
  | b :: bs, batch_count, step, vals => do
    let k ← b
    let step := step + k
    if (batch_count * batch_size) % 1000 < batch_size then do
      let _ ← estimateLoss batch_size val
      if step = 0 then .error .unboundLocal
      else epochLoop batch_size val bs (batch_count + 1) step (vals ++ [batch_count])
    else epochLoop batch_size val bs (batch_count + 1) step vals

end MJ
