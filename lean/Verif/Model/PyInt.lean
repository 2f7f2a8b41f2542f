import Verif.Model.Train
import Verif.Model.Xml
/-!
Python's `int` applied to a text (CPython, `PyLong_FromUnicodeObject` and `PyLong_FromString` with base 10): it reads the numbers in
the logs (MahjongAI/process_xml.py:51,56,65,126,137,167,168,313,431,523,529,567), the number of iterations
(MahjongAI/supervised_learning.py:239) and the numbers of checkpoints (l.45).

`digit` and `space` say which characters outside ASCII are decimal digits and white space; they are parameters.  That new versions
of Python refuse more than 4300 digits is left out.
-/
namespace MJ

/-- the value of a character as a digit: characters below 127 stand for themselves, others for what Unicode says -/
def digitOf (digit : Char → Option Nat) (space : Char → Bool) (c : Char) : Option Nat :=
  if c.toNat < 127 then (if c.isDigit then some (c.toNat - 48) else none)
  else if space c then none
  else digit c

/-- white space at either end -/
def isBlank (space : Char → Bool) (c : Char) : Bool :=
  if c.toNat < 127 then decide (c ∈ [' ', '\t', '\n', '\x0b', '\x0c', '\r']) else space c

/-- the digits, single underscores between them: the number and the rest.  `under`: the last character was an underscore. -/
def scanDigits (val : Char → Option Nat) : Bool → Nat → List Char → Option (Nat × List Char)
  | under, n, [] => if under then none else some (n, [])
  | under, n, c :: cs =>
    match val c with
    | some d => scanDigits val false (10 * n + d) cs
    | none =>
      if c = '_' then (if under then none else scanDigits val true n cs)
      else if under then none
      else some (n, c :: cs)

/-- an optional sign: whether it is a minus, and the rest -/
def takeSign : List Char → Bool × List Char
  | '+' :: cs => (false, cs)
  | '-' :: cs => (true, cs)
  | cs => (false, cs)

/-- `int(text)`; `none` is ValueError -/
def intChars (digit : Char → Option Nat) (space : Char → Bool) (text : List Char) : Option Int :=
  match takeSign (text.dropWhile (isBlank space)) with
  | (_, []) => none
  | (minus, c :: cs) =>
    if (digitOf digit space c).isNone then none
    else
      match scanDigits (digitOf digit space) false 0 (c :: cs) with
      | none => none
      | some (n, rest) => if rest.all (isBlank space) then some (if minus then -(n : Int) else n) else none

/-- the same for strings -/
def intOf (digit : Char → Option Nat) (space : Char → Bool) : PyInt := fun s => intChars digit space s.toList

end MJ
