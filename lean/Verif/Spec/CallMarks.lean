import Verif.Spec.Legal
/-!
Which calls a discard allows, and which of the calls that are made the program notices, from the log alone.
-/
namespace MJ.Spec

/-- the next player in turn order holds the two other kinds of the run `k, k+1, k+2` around kind `t` -/
def RunPossible (held : List Nat) (p q t k : Nat) : Prop :=
  (q = (p + 1) % 4) ∧ t < 27 ∧ k / 9 = t / 9 ∧ k % 9 < 7 ∧ k ≤ t ∧ t ≤ k + 2 ∧
    ∀ i, k ≤ i → i ≤ k + 2 → i ≠ t → ∃ u ∈ held, u / 4 = i

/-- When a call on the tile `t` by a player with the concealed tiles `held` is noticed.  A chi: not if it is a 4 (6) taken
between 3 and 5 (5 and 7) with the red five in the hand, and not if the red five in the hand is kept back and less than two
tiles of the discarded kind are held.  A pon: only if the tile is not a red five; with a red five from the hand only if
just two are held; otherwise only if the tile called is the lowest of the three copies, and just two are held, or three
with the red five kept back.  An open kan: never. -/
def Noticed (held : List Nat) (t : Nat) : LogMeld → Prop
  | .chi src k x y z w =>
    let hand := (LogMeld.chi src k x y z w).tiles.1
    ¬ (hand.map (· / 4) = [t / 4 - 1, t / 4 + 1] ∧ (t / 4 % 9 = 3 ∨ t / 4 % 9 = 5) ∧ redFive (t / 36) ∈ held) ∧
    ¬ (9 * (t / 36) + 4 ∈ hand.map (· / 4) ∧ redFive (t / 36) ∉ hand ∧ redFive (t / 36) ∈ held ∧ kindCount held (t / 4) < 2)
  | .pon src k u w =>
    let hand := (LogMeld.pon src k u w).tiles.1
    ¬ IsRed t ∧ ((∃ x ∈ hand, IsRed x) → kindCount held (t / 4) = 2) ∧
      ((∀ x ∈ hand, ¬ IsRed x) → w = 0 ∧
        (((t / 4 < 27 ∧ t / 4 % 9 = 4 ∧ redFive (t / 36) ∈ held) → kindCount held (t / 4) = 3) ∧
         (¬ (t / 4 < 27 ∧ t / 4 % 9 = 4 ∧ redFive (t / 36) ∈ held) → kindCount held (t / 4) = 2)))
  | _ => False

/-- the meld `m` of player `p` takes tile `t`, discarded by player `q` -/
structure Takes (m : LogMeld) (p q t : Nat) : Prop where
  valid : m.Valid
  open_ : m.own = false
  called : m.tiles.2 = some t
  source : (p + m.source) % 4 = q
  other : m.source ≠ 0
  left : m.type = .chi → m.source = 3

end MJ.Spec
