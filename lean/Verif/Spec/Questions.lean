import Verif.Spec.Wins
import Verif.Spec.Legal
/-!
Questions about hands that exist: what the hand evaluator and the shanten calculator may expect to be asked.
-/
namespace MJ.Spec

/-- `n 0 + … + n 33` -/
def total34 (n : Nat → Nat) : Nat := ((List.range 34).map n).sum

/-- a kan, as the evaluator is told about it -/
def MeldArg.isKan (m : MeldArg) : Bool := decide (m.kind = .kan) || decide (m.kind = .shouminkan)

/-- The question is about a hand that exists.  Its tiles are four sets and a pair in number, a kan counting one more, and
at most four of each kind.  The melds are melds of the game, and they and the winning tile are among the tiles. -/
structure RealHand (q : Query) : Prop where
  tiles : ∃ n : Nat → Nat, HandStrings q.man q.pin q.sou q.honors (fun k => (n k : Int)) ∧
    (∀ k < 34, n k ≤ 4) ∧ total34 n = 14 + q.melds.countP MeldArg.isKan ∧
    ∀ k < 34, kindCount (q.melds.flatMap (·.tiles)) k + (if q.win_tile / 4 = k then 1 else 0) ≤ n k
  melds : ∀ arg ∈ q.melds, ∃ m : LogMeld, m.Valid ∧ Describes m.encode arg
  win_tile : q.win_tile < 136
  indicators : ∀ t ∈ q.dora_indicators, t < 136

/-- a table of concealed tiles that exists: four sets and a pair in number, less the sets put down, and at most four of
each kind -/
structure RealConcealed (l : List Int) : Prop where
  length : l.length = 34
  count : ∀ x ∈ l, 0 ≤ x ∧ x ≤ 4
  size : ∃ sets : Nat, sets ≤ 4 ∧ l.sum + 3 * (sets : Int) = 14

/-- Calls as the rules want them: whoever calls a tile calls the one that another player has just discarded, and a kan is
added to an own pon of the kind that has not been extended before. -/
structure ProperCalls (acts : List Act) : Prop where
  claims : ∀ pre p (m : LogMeld) post t, acts = pre ++ .call p m.encode :: post → m.Valid → m.tiles.2 = some t →
    ∃ q, q ≠ p ∧ lastMove pre = some (.discard q t)
  extending : ∀ pre p src k u w post, acts = pre ++ .call p (LogMeld.kakan src k u w).encode :: post →
    (LogMeld.kakan src k u w).Valid → ∃ pre1 pre2 src' u' w', (LogMeld.pon src' k u' w').Valid ∧
      pre = pre1 ++ .call p (LogMeld.pon src' k u' w').encode :: pre2 ∧
      ∀ src'' u'' w'', (LogMeld.kakan src'' k u'' w'').Valid → Act.call p (LogMeld.kakan src'' k u'' w'').encode ∉ pre2

end MJ.Spec
