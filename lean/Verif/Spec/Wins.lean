import Verif.Spec.Win
import Verif.Spec.Table
/-!
What the hand evaluator has to be told when somebody may win, from the log alone.
-/
namespace MJ.Spec

/-- how many tiles of kind `k` player `p` has, concealed or in melds: dealt, drawn or called, and not discarded -/
def owned (hai : Nat → List Nat) (acts : List Act) (p k : Nat) : Int :=
  (kindCount (hai p ++ collect (Act.drawn p) acts ++ collect (Act.called p) acts) k : Nat) -
    (kindCount (collect (Act.discarded p) acts) k : Nat)

/-- a riichi stick is paid -/
def Act.isStick : Act → Bool
  | .accept _ => true
  | _ => false

/-- the melds `ms` are handed over one by one, in order -/
def LaidOut (ms : List LogMeld) (args : List MeldArg) : Prop :=
  args.length = ms.length ∧ ∀ (i : Nat) (m : LogMeld) (arg : MeldArg), ms[i]? = some m → args[i]? = some arg → Describes m.encode arg

/-- The question is about the table as player `p` sees it after the events `acts`, in the round number `round`, which
began with the indicator `first` and `sticks` riichi sticks, `p` having made the calls `ms`. -/
structure AtTable (first round honba sticks : Nat) (acts : List Act) (ms : List LogMeld) (p : Nat) (q : Query) : Prop where
  indicators : q.dora_indicators = first :: collect Act.doras acts
  melds : LaidOut (LogMeld.onTable ms) q.melds
  riichi : q.config.is_riichi = true ↔ Act.accept p ∈ acts
  double : q.config.is_daburu_riichi = true → q.config.is_riichi = true
  round_wind : q.config.round_wind = round / 4
  honba : q.config.tsumi_number = honba
  sticks : q.config.kyoutaku_number = sticks + acts.countP Act.isStick

/-- the calls of player `p` in the log are the melds `ms`, all within the rules -/
structure CallsOf (acts : List Act) (p : Nat) (ms : List LogMeld) : Prop where
  codes : collect (Act.callOf p) acts = ms.map LogMeld.encode
  valid : ∀ m ∈ ms, m.Valid
  once : LogMeld.PonOnce ms

/-- a call that is neither chi nor pon -/
def Act.isOtherCall : Act → Bool
  | .call _ c => !Code.is_chi c && !Code.is_pon c
  | _ => false

/-- the tiles that have left the wall by the program's count: draws, kans, and indicators after the first -/
def wallCount (acts : List Act) : Nat :=
  acts.countP Act.isDraw + acts.countP Act.isOtherCall + (collect Act.doras acts).length

/-- player `p` has discarded a tile of kind `k` -/
def Threw (acts : List Act) (p k : Nat) : Prop := ∃ u ∈ collect (Act.discarded p) acts, u / 4 = k

end MJ.Spec
