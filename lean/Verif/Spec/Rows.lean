import Verif.Model.Tensors
/-!
What the rows of the training tensors should be, in terms of half-turns.
-/
namespace MJ.Spec
open Code

/-- the two lists have the same length and corresponding entries are related -/
inductive AllPairs {α β : Type} (R : α → β → Prop) : List α → List β → Prop
  | nil : AllPairs R [] []
  | cons {a : α} {b : β} {as : List α} {bs : List β} : R a b → AllPairs R as bs → AllPairs R (a :: as) (b :: bs)

/-- one training sample -/
structure Row where
  tokens : List Nat
  x1 : List (List (List Int))
  x2 : List (List Int)
  x3 : List Int
  mask : List Int
  y : Int
  player : Nat

/-- the samples as one batch: component `i` of every tensor belongs to sample `i` -/
def ofRows (rows : List Row) : Batch :=
  ⟨rows.map (·.tokens), rows.map (·.x1), rows.map (·.x2), rows.map (·.x3), rows.map (·.mask), rows.map (·.y),
    rows.map (·.player)⟩

/-- 150 entries: the first `e` tokens of the round, then zeros -/
def TokensUpTo (tokens : List Nat) (e : Nat) (row : List Nat) : Prop :=
  row.length = 150 ∧ ∀ i < 150, row[i]? = some (if i < e then tokens.getD i 0 else 0)

/-- `m` has `n` entries, 1 for the allowed actions and 0 for the others, and every allowed number is
an action -/
def Allows (n : Nat) (m : List Int) (allowed : Nat → Prop) : Prop :=
  m.length = n ∧ (∀ k, allowed k → k < n ∧ m[k]? = some 1) ∧ ∀ k < n, ¬ allowed k → m[k]? = some 0

/-- the action number of an own-turn kan, of a call -/
def ownAction (d : NakiDecision) (i : Int) : Prop :=
  ∃ k : Nat, get_during_turn_filter_idx d.naki.naki_code = .ok k ∧ i = k
@[inherit_doc ownAction]
def callAction (d : NakiDecision) (i : Int) : Prop := get_post_turn_filter_idx d.naki.naki_code = .ok i

/-- `y` is the action number of the last executed decision, and `dflt` if none is executed -/
def LastExecuted (act : NakiDecision → Int → Prop) (n : List NakiDecision) (dflt y : Int) : Prop :=
  (∃ l1 d l2, n = l1 ++ d :: l2 ∧ d.executed = true ∧ (∀ x ∈ l2, x.executed = false) ∧ act d y) ∨
  ((∀ x ∈ n, x.executed = false) ∧ y = dflt)

/-- own turn: pass, win, riichi and the offered kans -/
def OwnAllowed (a : List AgariDecision) (r : List ReachDecision) (n : List NakiDecision) (k : Nat) : Prop :=
  k = 0 ∨ (k = 1 ∧ a ≠ []) ∨ (k = 2 ∧ r ≠ []) ∨ ∃ d ∈ n, ownAction d k

/-- after a discard or an added kan: pass, win and the offered calls -/
def CallAllowed (a : List AgariDecision) (n : List NakiDecision) (k : Nat) : Prop :=
  k = 0 ∨ (k = 1 ∧ a ≠ []) ∨ ∃ d ∈ n, callAction d k

/-- the (first) win decision is executed -/
def winTaken (a : List AgariDecision) : Bool := a.head?.any (·.executed)

/-- the seats after `q` in turn order -/
def turnOrder (q : Nat) : List Nat := [(q + 1) % 4, (q + 2) % 4, (q + 3) % 4]

/-- `l` up to and including the first element with `f` -/
def upTo (f : Nat → Bool) : List Nat → List Nat
  | [] => []
  | p :: ps => if f p then [p] else p :: upTo f ps

/-- the decisions of player `p` in a post-turn -/
def winsOf (a : List (List AgariDecision)) (p : Nat) : List AgariDecision := a.getD p []
@[inherit_doc winsOf]
def callsOf (n : List (List NakiDecision)) (p : Nat) : List NakiDecision := n.getD p []

/-- the players who decide something and get a row -/
def deciders (q : Nat) (a : List (List AgariDecision)) (n : List (List NakiDecision)) : List Nat :=
  upTo (fun p => winTaken (winsOf a p) || (callsOf n p).any (·.executed))
    ((turnOrder q).filter (fun p => !(winsOf a p).isEmpty || !(callsOf n p).isEmpty))

end MJ.Spec
