import Verif.Spec.Suits
/-!
The same round with the seven honours (four winds, three dragons) exchanged among each other.
-/
namespace MJ.Spec

/-- the suits stay, the honour `x` (0..6) becomes `f x` -/
def Suits.ofHonours (f : Nat → Nat) : Suits := ⟨0, 1, 2, f⟩

/-- the honours are exchanged among each other -/
def Exchanges (f : Nat → Nat) : Prop := (∀ x < 7, f x < 7) ∧ ∀ x < 7, ∀ y < 7, f x = f y → x = y

/-- the number of the action of the call head with the honours exchanged: the pons and the open kans of the honours have the
numbers 113 to 119 and 147 to 153 -/
def calledHonour (f : Nat → Nat) (i : Nat) : Nat :=
  if 113 ≤ i ∧ i < 120 then 113 + f (i - 113) else if 147 ≤ i ∧ i < 154 then 147 + f (i - 147) else i

/-- samples of the call head with the honours exchanged -/
structure CallRowHonours (f : Nat → Nat) (row row' : Row) : Prop extends RowSuits (.ofHonours f) row row' where
  mask : ∀ i < 154, row'.mask[calledHonour f i]? = row.mask[i]?
  y : ∃ i : Nat, i < 154 ∧ row.y = i ∧ row'.y = calledHonour f i

/-- nobody calls a pon of an honour that becomes another one -/
def NoMovedPon (f : Nat → Nat) (acts : List Act) : Prop := ∀ p c, Act.call p c ∈ acts → Code.is_pon c = true →
  (Code.pattern_pon c).color = 3 → f (Code.pattern_pon c).number = (Code.pattern_pon c).number

end MJ.Spec
