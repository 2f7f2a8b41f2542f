import Verif.Spec.Log
import Verif.Spec.Rows
import Verif.Model.Xml
/-!
How a played round is written to a log file, as documented for the log format: the seats' draws are the tags T, U, V, W
followed by the tile number, their discards D, E, F, G; the other events have attributes.  Other attributes may be
present anywhere.
-/
namespace MJ.Spec

/-- a round as it is played -/
structure LogRound where
  /-- the dealt tiles -/
  hai : Nat → List Nat
  /-- the points, in hundreds -/
  ten : List Int
  dealer : Nat
  /-- round, honba, riichi sticks, two dice, first indicator -/
  seed : List Nat
  acts : List Act
  /-- the results: won or drawn, with the changes of points -/
  results : List (Bool × List Int)

/-- numbers separated by commas -/
def commas (l : List String) : String := String.ofList (List.intercalate [','] (l.map String.toList))

def drawLetter : Nat → Char
  | 0 => 'T'
  | 1 => 'U'
  | 2 => 'V'
  | _ => 'W'

def discardLetter : Nat → Char
  | 0 => 'D'
  | 1 => 'E'
  | 2 => 'F'
  | _ => 'G'

/-- attribute `key` has value `v` -/
def Has (i : Item) (key v : String) : Prop := i.attrib.lookup key = some v

/-- the element for an event -/
def Writes (i : Item) : Act → Prop
  | .dora t => i.tag = "DORA" ∧ Has i "hai" (toString t)
  | .declare p => i.tag = "REACH" ∧ Has i "who" (toString p) ∧ Has i "step" "1"
  | .accept p => i.tag = "REACH" ∧ Has i "who" (toString p) ∧ Has i "step" "2"
  | .call p c => i.tag = "N" ∧ Has i "who" (toString p) ∧ Has i "m" (toString c)
  | .draw p t => p < 4 ∧ i.tag = String.ofList (drawLetter p :: (toString t).toList)
  | .discard p t => p < 4 ∧ i.tag = String.ofList (discardLetter p :: (toString t).toList)

def WritesResult (i : Item) (r : Bool × List Int) : Prop :=
  i.tag = (if r.1 then "AGARI" else "RYUUKYOKU") ∧ Has i "sc" (commas (r.2.map toString)) ∧ r.2 ≠ []

def WritesInit (i : Item) (r : LogRound) : Prop :=
  i.tag = "INIT" ∧ Has i "ten" (commas (r.ten.map toString)) ∧ r.ten ≠ [] ∧ Has i "oya" (toString r.dealer) ∧
  Has i "seed" (commas (r.seed.map toString)) ∧ r.seed ≠ [] ∧
  ∀ p < 4, Has i ("hai" ++ toString p) (commas ((r.hai p).map toString)) ∧ r.hai p ≠ []

/-- the elements of a round -/
def WritesRound (is : List Item) (r : LogRound) : Prop :=
  ∃ i events results, is = i :: (events ++ results) ∧ WritesInit i r ∧ AllPairs Writes events r.acts ∧
    AllPairs WritesResult results r.results

/-- the event of the parser's loop that belongs to an event of the game -/
def Act.ev : Act → Ev
  | .dora t => .dora (.ok t)
  | .declare p => .reach (.ok p) (.ok true)
  | .accept p => .reach (.ok p) (.ok false)
  | .call p c => .naki (.ok c) (.ok p)
  | .draw p t => if h : p < 4 then .draw ⟨p, h⟩ (.ok t) else .other
  | .discard p t => if h : p < 4 then .discard ⟨p, h⟩ (.ok t) else .other

/-- what the round is processed with -/
def LogRound.attr (r : LogRound) : InitAttr :=
  { ten := .ok r.ten, oya := .ok r.dealer, seed := .ok r.seed, hai := fun p => .ok (r.hai p) }

@[inherit_doc LogRound.attr]
def LogRound.events (r : LogRound) : List Ev :=
  r.acts.map Act.ev ++ r.results.map (fun x => .result x.1 (.ok x.2))

/-- `int` reads decimal numbers; nothing is assumed about other strings -/
def ReadsDecimals (pi : PyInt) : Prop := ∀ n : Int, pi (toString n) = some n

end MJ.Spec
