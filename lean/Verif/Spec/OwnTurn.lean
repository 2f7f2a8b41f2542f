import Verif.Spec.Log
/-!
What a player can do in the own turn, from the log alone.
-/
namespace MJ.Spec

/-- player `p` holds all four tiles of kind `k` concealed -/
def HoldsFour (hai : Nat → List Nat) (acts : List Act) (p k : Nat) : Prop := ∀ t, t / 4 = k → Holds hai acts p t

/-- `held` lists the concealed tiles of player `p` -/
def Concealed (hai : Nat → List Nat) (acts : List Act) (p : Nat) (held : List Nat) : Prop :=
  held.Nodup ∧ ∀ t, t ∈ held ↔ Holds hai acts p t

/-- player `p` has made an open call -/
def HasOpened (acts : List Act) (p : Nat) : Prop := ∃ c, Act.call p c ∈ acts ∧ Code.from_who c ≠ 0

/-- player `p` has a pon of kind `k` and holds the fourth tile: an added kan is possible -/
def CanAddKan (hai : Nat → List Nat) (acts : List Act) (p k : Nat) : Prop :=
  ∃ c t, Act.call p c ∈ acts ∧ Code.is_chi c = false ∧ Code.is_pon c = true ∧ t / 4 = k ∧ Holds hai acts p t ∧
    (∀ x ∈ exposedTiles c, x / 4 = k) ∧ t ∉ exposedTiles c ∧ t ∉ (calledTile c).toList

end MJ.Spec
