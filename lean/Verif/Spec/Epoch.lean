import Verif.Spec.LogFile
import Verif.Spec.Questions
/-!
Games that were played by the rules and written to log files.
-/
namespace MJ.Spec

/-- a round that was played by the rules -/
structure PlayedByRules (r : LogRound) : Prop where
  deal : ∃ round honba sticks x y first, r.seed = [round, honba, sticks, x, y, first] ∧ FairDeal r.hai first ∧
    LegalRound r.hai first r.acts
  points : r.ten.length = 4
  dealer : r.dealer < 4
  calls : ProperCalls r.acts
  /-- nobody pays for a riichi twice -/
  riichi : ∀ pre p post, r.acts = pre ++ .accept p :: post → Act.accept p ∉ post
  ended : r.results ≠ []

/-- a game in which somebody discards -/
def HasDiscard (rs : List LogRound) : Prop := ∃ r ∈ rs, ∃ p t, Act.discard p t ∈ r.acts

end MJ.Spec
