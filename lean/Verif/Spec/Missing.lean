import Verif.Spec.Hand
/-!
How many tiles a hand lacks.  A hand is given by a number for each of the 34 kinds.
-/
namespace MJ.Spec.Lack

open MJ.Spec

/-- how many tiles of the blocks are not in the hand -/
def lacking (B : List Block) (h : Nat → Nat) : Nat := ((List.range 34).map (fun j => used B j - h j)).sum

/-- there are `k` sets and a pair of which exactly `n` tiles are not in the hand -/
def Lacks (k : Nat) (h : Nat → Nat) (n : Nat) : Prop :=
  ∃ B : List Block, ∃ q, (∀ b ∈ B, b.valid = true ∧ b.isSet = true) ∧ B.length = k ∧ q < 34 ∧
    lacking (.toitsu q :: B) h = n

/-- `n` is the smallest number of tiles that make the hand contain `k` sets and a pair -/
def Fewest (k : Nat) (h : Nat → Nat) (n : Nat) : Prop := Lacks k h n ∧ ∀ n', Lacks k h n' → n ≤ n'

/-- the hand after drawing a tile of kind `x` -/
def draw (h : Nat → Nat) (x : Nat) (j : Nat) : Nat := h j + if j = x then 1 else 0

/-- the hand after discarding a tile of kind `x` -/
def drop (h : Nat → Nat) (x : Nat) (j : Nat) : Nat := h j - if j = x then 1 else 0

/-- the hand after exchanging tiles `n` times -/
inductive Exchanged : Nat → (Nat → Nat) → (Nat → Nat) → Prop where
  | none (h) : Exchanged 0 h h
  | one {n h h'} (x y : Nat) (hx : x < 34) (hy : y < 34) (hh : 0 < h y) (rest : Exchanged n (draw (drop h y) x) h') :
      Exchanged (n + 1) h h'

/-- there are seven different kinds of whose pairs exactly `n` tiles are not in the hand -/
def PairsLack (h : Nat → Nat) (n : Nat) : Prop :=
  ∃ Q : List Nat, Q.Nodup ∧ Q.length = 7 ∧ (∀ q ∈ Q, q < 34) ∧ (Q.map (fun q => 2 - h q)).sum = n

/-- the terminals and honours -/
def ends : List Nat := (List.range 34).filter (fun j => j / 9 = 3 ∨ j % 9 = 0 ∨ j % 9 = 8)

/-- one of each terminal and honour, and two of one of them, of which exactly `n` are not in the hand -/
def OrphansLack (h : Nat → Nat) (n : Nat) : Prop :=
  ∃ x ∈ ends, (ends.map (fun q => (if q = x then 2 else 1) - h q)).sum = n

/-- `n` tiles lack to one of the three forms of a winning hand -/
def FormLacks (h : Nat → Nat) (n : Nat) : Prop := Lacks 4 h n ∨ PairsLack h n ∨ OrphansLack h n

/-- the smallest number with a property -/
def Least (p : Nat → Prop) (n : Nat) : Prop := p n ∧ ∀ m, p m → n ≤ m

end MJ.Spec.Lack
