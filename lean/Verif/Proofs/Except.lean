import Verif.Model.Round
/-!
Inversion lemmas for the exception monad.
-/
namespace MJ

theorem bind_ok {α β : Type} {x : Except PyErr α} {f : α → Except PyErr β} {b : β} :
    (x >>= f) = .ok b ↔ ∃ a, x = .ok a ∧ f a = .ok b := by
  cases x with
  | error e => simp [bind, Except.bind]
  | ok a => simp [bind, Except.bind]

theorem pure_ok {α : Type} {a b : α} : (pure a : Except PyErr α) = .ok b ↔ a = b := by
  simp [pure, Except.pure]

theorem pyAssert_ok {b : Bool} {u : Unit} : pyAssert b = .ok u ↔ b = true := by
  cases b <;> simp [pyAssert]

theorem checkTile_ok {t : Nat} {u : Unit} : checkTile t = .ok u ↔ t < 136 := by
  unfold checkTile; split <;> simp_all

theorem checkSeat_ok {p : Nat} {u : Unit} : checkSeat p = .ok u ↔ p < 4 := by
  unfold checkSeat; split <;> simp_all

theorem checkTiles_ok {l : List Nat} {u : Unit} : checkTiles l = .ok u ↔ ∀ t ∈ l, t < 136 := by
  unfold checkTiles; split <;> simp_all

end MJ
