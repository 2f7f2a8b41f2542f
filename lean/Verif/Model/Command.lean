import Verif.Model.Train
import Verif.Model.DataFiles
/-!
The training command as a whole: the program's arguments (MahjongAI/supervised_learning.py:217-245), the choice of
the network (l.62-91) and the directories the games are read from (l.135-141).

Arguments, names and paths are lists of characters.  `pyInt` stands for Python's `int` on a text, `none` where it
raises `ValueError`; `listdir` is the listing of a directory, `none` where `os.listdir` raises `FileNotFoundError`.
-/
namespace MJ.Command

open MJ.Data (Text)

/-- what can go wrong before training begins -/
inductive Err where
  /-- `ValueError` of l.220-222 and of l.238-241 -/
  | usage
  | notInteger
  /-- `AssertionError` of l.225-235 -/
  | unknownName
  /-- `NotImplementedError` of l.90-91 -/
  | notImplemented
  /-- `FileNotFoundError` of `os.listdir` (MahjongAI/utils/dataloader.py) -/
  | noDirectory
  deriving DecidableEq, Repr

/-- the four classes of networks (MahjongAI/supervised_learning.py:9-12) -/
inductive NetClass where
  | basic | conv | convLarge | convOrdered
  deriving DecidableEq, Repr

/-- a network to be trained; the first two classes take no number of layers -/
structure Net where
  cls : NetClass
  layers : Option Nat
  batchSize : Nat
  deriving DecidableEq, Repr

/-- the choice of the network (MahjongAI/supervised_learning.py:62-91) -/
def chooseNet (name : Text) : Except Err Net :=
  if name = "transformer".toList then .ok ⟨.basic, none, 5⟩
  else if name = "transformer_conv".toList then .ok ⟨.conv, none, 5⟩
  else if name = "transformer_conv_large".toList then .ok ⟨.convLarge, some 2, 2⟩
  else if name = "transformer_conv_large_3".toList then .ok ⟨.convLarge, some 3, 2⟩
  else if name = "transformer_conv_ordered".toList then .ok ⟨.convOrdered, some 1, 4⟩
  else if name = "transformer_conv_ordered_large_2".toList then .ok ⟨.convOrdered, some 2, 2⟩
  else if name = "transformer_conv_ordered_large_3".toList then .ok ⟨.convOrdered, some 3, 2⟩
  else if name = "transformer_conv_ordered_large_4".toList then .ok ⟨.convOrdered, some 4, 1⟩
  else if name = "transformer_conv_ordered_large_5".toList then .ok ⟨.convOrdered, some 5, 1⟩
  else .error .notImplemented

/-- the names the program accepts (MahjongAI/supervised_learning.py:225-235) -/
def accepted : List Text :=
  ["transformer".toList, "transformer_conv".toList, "transformer_conv_large".toList,
   "transformer_conv_large_3".toList, "transformer_conv_ordered".toList,
   "transformer_conv_ordered_large_2".toList, "transformer_conv_ordered_large_3".toList,
   "transformer_conv_ordered_large_4".toList, "transformer_conv_ordered_large_5".toList]

/-- the digits of a number, as in `f"{yr}"` -/
def yearText (n : Nat) : Text := (Nat.repr n).toList

/-- `data/processed/{yr}/` -/
def yearDir (yr : Nat) : Text := "data/processed/".toList ++ yearText yr ++ ['/']

/-- `range(2012, 2020)` -/
def trainYears : List Nat := List.range' 2012 8

/-- the directories of the training loaders (MahjongAI/supervised_learning.py:135-138) -/
def trainDirs : List Text := trainYears.map yearDir

/-- the directory of the validation loader (MahjongAI/supervised_learning.py:139-141) -/
def valDir : Text := "data/processed/2021/".toList

/-- a loader lists its directory when it is made and keeps the list (MahjongAI/utils/dataloader.py:19-24); a file is
opened under the directory and its name (`os.path.join`, which puts no second slash) -/
def loader (listdir : Text → Option (List Text)) (dir : Text) : Except Err (List Text) :=
  match listdir dir with
  | none => .error .noDirectory
  | some names => .ok (names.map (dir ++ ·))

/-- the paths of all loaders: those of training, in order, and that of validation
(MahjongAI/supervised_learning.py:135-141) -/
def loaders (listdir : Text → Option (List Text)) : Except Err (List (List Text) × List Text) := do
  let train ← trainDirs.mapM (loader listdir)
  let val ← loader listdir valDir
  return (train, val)

/-- what a run of the program is to do: the network, the checkpoints' name, the number of iterations and the files -/
structure Job where
  net : Net
  name : Text
  iters : Nat
  train : List (List Text)
  val : List Text
  deriving DecidableEq, Repr

/-- the program up to the first iteration (MahjongAI/supervised_learning.py:217-245, 56-142).  The checkpoint is
looked for and loaded between the choice of the network and the loaders (`MJ.trainRun`).  `range` is empty for a
negative number of iterations. -/
def prepare (pyInt : Text → Option Int) (listdir : Text → Option (List Text)) (argv : List Text) : Except Err Job :=
  match argv with
  | [_, name, n] =>
    if name ∈ accepted then
      match pyInt n with
      | none => .error .notInteger
      | some k => do
        let net ← chooseNet name
        let files ← loaders listdir
        return { net, name, iters := k.toNat, train := files.1, val := files.2 }
    else .error .unknownName
  | _ => .error .usage

/-- the files of iteration `i` (MahjongAI/supervised_learning.py:147) -/
def Job.filesOf (j : Job) (i : Nat) : List Text := j.train.getD (i % j.train.length) []

end MJ.Command
