import Verif.Model.DataLoader
/-!
The scripts that make the training data: `MahjongAI/data/filter_raw.sh` and `MahjongAI/data/scrape_data.py`.

Names and page texts are lists of characters.  What the scripts ask of their surroundings is a parameter: `unzip`
(`gunzip` of a content, `none` if it is no gzip file) and `server` (status code and body for a URL).  The messages
the scripts print are left out.
-/
namespace MJ.Data

abbrev Text := List Char

/-- an entry of a directory -/
structure Entry (α : Type) where
  name : Text
  isDir : Bool
  content : α
  deriving DecidableEq, Repr

/-- a pattern `*` of the shell does not match names that begin with a dot -/
def Entry.hidden {α : Type} (e : Entry α) : Bool := e.name.head? == some '.'

/-- `[[ $file == $directory"scc"* ]]`, without the directory on both sides (MahjongAI/data/filter_raw.sh:7) -/
def isScc (n : Text) : Bool := ['s', 'c', 'c'].isPrefixOf n

/-- the first loop (MahjongAI/data/filter_raw.sh:6-11); `rm` does not delete directories -/
def deleteOthers {α : Type} (d : List (Entry α)) : List (Entry α) :=
  d.filter (fun e => e.hidden || isScc e.name || e.isDir)

def dotGz : Text := ['.', 'g', 'z']

/-- `$directory*.gz` (MahjongAI/data/filter_raw.sh:14) -/
def gzNames {α : Type} (d : List (Entry α)) : List Text :=
  (d.filter (fun e => !e.hidden && dotGz.isSuffixOf e.name)).map Entry.name

/-- `${file%.gz}`, the name that `gunzip` gives its result -/
def stem (n : Text) : Text := n.take (n.length - 3)

/-- `gunzip "$file"` (MahjongAI/data/filter_raw.sh:15): leaves directories and broken files alone and does not
overwrite -/
def gunzip {α : Type} (unzip : α → Option α) (d : List (Entry α)) (n : Text) : List (Entry α) :=
  if d.any (fun x => x.name == stem n) then d
  else d.map (fun e =>
    if e.name = n ∧ e.isDir = false then
      match unzip e.content with
      | some c => { e with name := stem n, content := c }
      | none => e
    else e)

/-- the script (MahjongAI/data/filter_raw.sh:6-18).  The entries are listed in the order of the shell's patterns;
a pattern without a match makes `rm` or `gunzip` fail, which changes nothing. -/
def filterRaw {α : Type} (unzip : α → Option α) (d : List (Entry α)) : List (Entry α) :=
  let d := deleteOthers d
  (gzNames d).foldl (gunzip unzip) d

/-- `\s` of the package `re` -/
def isSpace (c : Char) : Bool :=
  let n := c.toNat
  (9 ≤ n && n ≤ 13) || (28 ≤ n && n ≤ 32) || n == 0x85 || n == 0xa0 || n == 0x1680 ||
    (0x2000 ≤ n && n ≤ 0x200a) || n == 0x2028 || n == 0x2029 || n == 0x202f || n == 0x205f || n == 0x3000

/-- `['"]` -/
def isQuote (c : Char) : Bool := c == '\'' || c == '"'

/-- one character of a class: what is left of the text after a match, if there is one -/
def oneOf (p : Char → Bool) : Text → List Text
  | [] => []
  | c :: cs => if p c then [cs] else []

/-- the letters `w` -/
def lit (w : Text) (s : Text) : List Text := if w.isPrefixOf s then [s.drop w.length] else []

/-- `p*`: what can be left, the longest match first -/
def greedy (p : Char → Bool) : Text → List Text
  | [] => [[]]
  | c :: cs => if p c then greedy p cs ++ [c :: cs] else [c :: cs]

/-- `(p*?)`: what is matched and what is left, the shortest match first -/
def lazy (p : Char → Bool) : Text → List (Text × Text)
  | [] => [([], [])]
  | c :: cs => ([], c :: cs) :: (if p c then (lazy p cs).map (fun x => (c :: x.1, x.2)) else [])

/-- `<a\s+[^>]*?href=[\'"](.*?)[\'"].*?>` (MahjongAI/data/scrape_data.py:16) at the start of a text: the group and
the rest of the text, for all ways to match, in the order in which they are tried -/
def anchors (s : Text) : List (Text × Text) :=
  (lit ['<', 'a'] s).flatMap fun s =>
  (oneOf isSpace s).flatMap fun s =>
  (greedy isSpace s).flatMap fun s =>
  (lazy (fun c => c != '>') s).flatMap fun x =>
  (lit ['h', 'r', 'e', 'f', '='] x.2).flatMap fun s =>
  (oneOf isQuote s).flatMap fun s =>
  (lazy (fun c => c != '\n') s).flatMap fun u =>
  (oneOf isQuote u.2).flatMap fun s =>
  (lazy (fun c => c != '\n') s).flatMap fun x =>
  (lit ['>'] x.2).map fun s => (u.1, s)

/-- `re.findall` (MahjongAI/data/scrape_data.py:16): the leftmost match, then the search goes on behind it.  The
number bounds the steps. -/
def findAll : Nat → Text → List Text
  | 0, _ => []
  | _ + 1, [] => []
  | n + 1, c :: s =>
    match (anchors (c :: s)).head? with
    | some (u, rest) => u :: findAll n rest
    | none => findAll n s

/-- `urls` (MahjongAI/data/scrape_data.py:16) -/
def urls (page : Text) : List Text := findAll (page.length + 1) page

def logPrefix : Text := "http://tenhou.net/0/?log=".toList

/-- `url.split("=")` -/
def splitEq : Text → List Text
  | [] => [[]]
  | c :: cs =>
    if c = '=' then [] :: splitEq cs
    else match splitEq cs with
      | [] => [[c]]
      | w :: ws => (c :: w) :: ws

/-- `gid` for the URLs that pass the test (MahjongAI/data/scrape_data.py:20-22) -/
def gid (url : Text) : Option Text :=
  if logPrefix.isPrefixOf url then (splitEq url)[1]? else none

def dotHtml : Text := ".html".toList
def dotLog : Text := ".log".toList

/-- `modified_url` (MahjongAI/data/scrape_data.py:23) -/
def fetchUrl (g : Text) : Text := "https://tenhou.net/0/log/?".toList ++ g

/-- the files of the output directory -/
abbrev Files (β : Type) := List (Text × β)

/-- `open(…, "wb")` and `write` (MahjongAI/data/scrape_data.py:34-35) -/
def writeFile {β : Type} (out : Files β) (n : Text) (c : β) : Files β :=
  if out.any (fun f => f.1 == n) then out.map (fun f => if f.1 = n then (n, c) else f) else out ++ [(n, c)]

/-- one URL (MahjongAI/data/scrape_data.py:19-37).  `none`: a name with a slash lies in a directory that does not
exist, `open` raises. -/
def scrapeUrl {β : Type} (server : Text → Nat × β) (out : Files β) (url : Text) : Option (Files β) :=
  match gid url with
  | none => some out
  | some g =>
    let response := server (fetchUrl g)
    if response.1 = 200 then
      if '/' ∈ g then none else some (writeFile out (g ++ dotLog) response.2)
    else some out

/-- one page after the other (MahjongAI/data/scrape_data.py:9-37); `dir` is what `os.listdir` returns, `none` for an
entry that cannot be read -/
def scrape {β : Type} (server : Text → Nat × β) (dir : List (Entry Text)) (out : Files β) : Option (Files β) :=
  dir.foldlM (fun out e =>
    if dotHtml.isSuffixOf e.name then
      if e.isDir then none else (urls e.content).foldlM (scrapeUrl server) out
    else some out) out

end MJ.Data
