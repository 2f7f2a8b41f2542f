import Verif.Spec.MeldObs
/-!
What it means that a hand backs a call, and that a logged call is legal.
-/
namespace MJ.Spec
open Code

instance (c : Nat) : Decidable (WellFormed c) := by
  unfold WellFormed
  generalize meldType c = m
  cases m with
  | none => infer_instance
  | some ty => cases ty <;> infer_instance

/-- counts of a real hand: nothing negative, at most one red five per suit, red fives are
counted in the kind of the five too -/
def HandOk (h : Nat → Int) : Prop :=
  (∀ k, 0 ≤ h k) ∧ ∀ s, s < 3 → h (34 + s) ≤ 1 ∧ h (34 + s) ≤ h (9 * s + 4)

/-- The hand contains the tiles the meld takes from it, red and black fives told apart. -/
def Backs (h : Nat → Int) (v : MeldView) : Prop :=
  (∀ k ∈ v.handKinds, (v.handKinds.count k : Int) ≤ h k) ∧
  ∀ s, s < 3 → 9 * s + 4 ∈ v.handKinds →
    if v.handRed then 1 ≤ h (34 + s) ∧ (v.handKinds.count (9 * s + 4) : Int) - 1 ≤ h (9 * s + 4) - h (34 + s)
    else (v.handKinds.count (9 * s + 4) : Int) ≤ h (9 * s + 4) - h (34 + s)

/-- `c` is a legal logged call by player `p` with hand `h` on player `q`'s discard of kind
`t` (`red`: the discard is a red five). -/
def LegalCall (q p : Nat) (h : Nat → Int) (t : Nat) (red : Bool) (c : Nat) : Prop :=
  p < 4 ∧ q < 4 ∧ p ≠ q ∧ WellFormed c ∧ HandOk h ∧
  ∃ v, view c = some v ∧ (v.type = .chi ∨ v.type = .pon ∨ v.type = .minkan) ∧
    v.calledKind = some t ∧ v.calledRed = red ∧ (v.source : Int) = ((q : Int) - p) % 4 ∧
    (v.type = .chi → ((p : Int) - q) % 4 = 1) ∧ Backs h v

end MJ.Spec
