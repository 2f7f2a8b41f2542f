import Verif.Model.Round
/-!
`_get_rounds` and the outer loop of `process` (MahjongAI/process_xml.py:31-49, 541-591).

The XML parser is not modelled: a document is the element tree it returns.  Python's `int` on
strings is a parameter.
-/
namespace MJ

/-- an element: tag, attributes, children -/
inductive Elem where
  | node (tag : String) (attrib : List (String × String)) (children : List Elem)

/-- an entry of `events` (MahjongAI/process_xml.py:555) -/
structure Item where
  tag : String
  attrib : List (String × String)
  deriving DecidableEq, Repr

def Elem.tag : Elem → String
  | .node t _ _ => t
def Elem.attrib : Elem → List (String × String)
  | .node _ a _ => a
def Elem.children : Elem → List Elem
  | .node _ _ c => c

mutual
/-- `traverse` (MahjongAI/process_xml.py:554-558): the list it appends to `events` -/
def traverse : Elem → List Item
  | .node t a cs => ⟨t, a⟩ :: traverseAll cs
/-- the loop over the children -/
def traverseAll : List Elem → List Item
  | [] => []
  | c :: cs => traverse c ++ traverseAll cs
end

/-- `d[key]` on attributes; XML attribute names are unique, the first entry is the entry -/
def Item.get (i : Item) (key : String) : Except PyErr String :=
  match i.attrib.lookup key with
  | some v => .ok v
  | none => .error .key

/-- Python's `int(str)`: `none` is ValueError -/
abbrev PyInt := String → Option Int

/-- `int(s)` -/
def parseInt (pi : PyInt) (s : String) : Except PyErr Int :=
  match pi s with
  | some n => .ok n
  | none => .error .value

/-- `int(s)` where a natural number is expected.  Negative numbers are not modelled; they are
treated like unparsable ones. -/
def parseNat (pi : PyInt) (s : String) : Except PyErr Nat :=
  match pi s with
  | some n => if 0 ≤ n then .ok n.toNat else .error .value
  | none => .error .value

/-- the tags skipped at MahjongAI/process_xml.py:576 -/
def bookkeeping : List String := ["mjloggm", "SHUFFLE", "UN", "GO", "TAIKYOKU"]

/-- The grouping loop (MahjongAI/process_xml.py:572-589); state: `rounds` and
`curr_round_events`.  Appending to `None` raises AttributeError. -/
def groupRounds : List Item → List (List Item) → Option (List Item) → Except PyErr (List (List Item))
  | [], rounds, none => .ok rounds
  | [], rounds, some cur => .ok (rounds ++ [cur])
  | e :: es, rounds, cur =>
    if e.tag ∈ bookkeeping then groupRounds es rounds cur
    else if e.tag = "BYE" then .error .invalidGame
    else if e.tag = "INIT" then
      match cur with
      | some c => groupRounds es (rounds ++ [c]) (some [e])
      | none => groupRounds es rounds (some [e])
    else
      match cur with
      | some c => groupRounds es rounds (some (c ++ [e]))
      | none => .error .attribute

/-- The bits of an integer, as far as `GameInfo` looks at them.  `&` on a negative number works on
its two's complement, and all masks of MahjongAI/gameinfo.py are below 256, so a negative number
acts like its residue modulo 256. -/
def gameBits (n : Int) : Nat := if 0 ≤ n then n.toNat else (n % 256).toNat

/-- `GameInfo(int(gametype[0].attrib["type"]))` under `except: raise ValueError`
(MahjongAI/process_xml.py:563-569) -/
def gameType (pi : PyInt) (root : Elem) : Except PyErr GameInfo :=
  match root.children.filter (fun e => e.tag == "GO") with
  | [e] =>
    match e.attrib.lookup "type" with
    | some v =>
      match parseInt pi v with
      | .ok n => .ok ⟨gameBits n⟩
      | .error _ => .error .value
    | none => .error .value
  | _ => .error .value

/-- `_get_rounds` (MahjongAI/process_xml.py:547-591) -/
def getRounds (pi : PyInt) (root : Elem) : Except PyErr (GameInfo × List (List Item)) := do
  let g ← gameType pi root
  let rounds ← groupRounds (traverse root) [] none
  return (g, rounds)

/-- the pieces between the separators -/
def splitChars (sep : Char) : List Char → List (List Char)
  | [] => [[]]
  | c :: cs =>
    if c = sep then [] :: splitChars sep cs
    else
      match splitChars sep cs with
      | [] => [[c]]
      | p :: ps => (c :: p) :: ps

/-- `s.split(",")` -/
def splitComma (s : String) : List String := (splitChars ',' s.toList).map String.ofList

/-- `list(map(int, s.split(",")))` -/
def parseInts (pi : PyInt) (s : String) : Except PyErr (List Int) := (splitComma s).mapM (parseInt pi)
/-- `list(map(int, s.split(",")))` where natural numbers are expected -/
def parseNats (pi : PyInt) (s : String) : Except PyErr (List Nat) := (splitComma s).mapM (parseNat pi)

/-- lookup, then parse -/
def Item.nat (pi : PyInt) (i : Item) (key : String) : Except PyErr Nat :=
  match i.get key with
  | .ok v => parseNat pi v
  | .error e => .error e

/-- position of a letter in a list of four -/
def seatOf (letters : List Char) (c : Char) : Option (Fin 4) :=
  if c = letters.getD 0 ' ' then some 0
  else if c = letters.getD 1 ' ' then some 1
  else if c = letters.getD 2 ' ' then some 2
  else if c = letters.getD 3 ' ' then some 3
  else none

/-- the tests of the event loop (MahjongAI/process_xml.py:123-513); a tag is never empty -/
def toEv (pi : PyInt) (i : Item) : Ev :=
  if i.tag = "DORA" then .dora (i.nat pi "hai")
  else if i.tag = "REACH" then
    .reach (i.nat pi "who") (match i.get "step" with
      | .ok v => .ok (v == "1")
      | .error e => .error e)
  else if i.tag = "N" then .naki (i.nat pi "m") (i.nat pi "who")
  else
    match i.tag.toList with
    | [] => .other
    | ch :: rest =>
      match seatOf ['T', 'U', 'V', 'W'] ch with
      | some p => .draw p (parseNat pi (String.ofList rest))
      | none =>
        match seatOf ['D', 'E', 'F', 'G'] ch with
        | some p => .discard p (parseNat pi (String.ofList rest))
        | none =>
          if i.tag = "AGARI" ∨ i.tag = "RYUUKYOKU" then
            .result (i.tag == "AGARI") (match i.get "sc" with
              | .ok v => parseInts pi v
              | .error e => .error e)
          else .other

/-- the attributes of INIT (MahjongAI/process_xml.py:51-66) -/
def toInit (pi : PyInt) (i : Item) : InitAttr :=
  { ten := match i.get "ten" with
      | .ok v => parseInts pi v
      | .error e => .error e
    oya := i.nat pi "oya"
    seed := match i.get "seed" with
      | .ok v => parseNats pi v
      | .error e => .error e
    hai := fun p => match i.get (if p = 0 then "hai0" else if p = 1 then "hai1" else if p = 2 then "hai2" else "hai3") with
      | .ok v => parseNats pi v
      | .error e => .error e }

/-- the body of the loop over rounds -/
def runRound (pi : PyInt) (est : Estimate) (shanten : List Int → Except PyErr Int) (g : GameInfo) (evs : List Item) :
    Except PyErr RoundSt :=
  match evs with
  | [] => .error .index
  | i :: rest =>
    if i.tag = "INIT" then processRound est shanten g (toInit pi i) (rest.map (toEv pi))
    else .error .assertion

/-- `process` (MahjongAI/process_xml.py:31-544); the final state of each round carries its
`halfturns` and `encoding_tokens` -/
def process (pi : PyInt) (est : Estimate) (shanten : List Int → Except PyErr Int) (root : Elem) :
    Except PyErr (List RoundSt) := do
  let (g, rounds) ← getRounds pi root
  if g.against_human ≠ 1 then throw .invalidGame
  if g.no_red = 1 then throw .invalidGame
  if g.kansaki = 1 then throw .invalidGame
  if g.three_players = 1 then throw .invalidGame
  rounds.mapM (runRound pi est shanten g)

end MJ
