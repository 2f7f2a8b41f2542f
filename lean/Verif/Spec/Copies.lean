import Verif.Model.Round
import Verif.Spec.MeldLog
import Verif.Spec.Rows
/-!
The same log with the copies of the tiles renamed: which of the four equal tiles was dealt, drawn, discarded or called.
-/
namespace MJ.Spec
open LogMeld

/-- `π` exchanges copies of the same kind with one another and leaves the red fives alone -/
structure Copies (π : Nat → Nat) : Prop where
  inj : ∀ t t', π t = π t' → t = t'
  kind : ∀ t, π t / 4 = t / 4
  man : π 16 = 16
  pin : π 52 = 52
  sou : π 88 = 88

/-- the same meld with the copies renamed.  A closed kan may name any one of its tiles.  The code of an added kan also
says which tile of the pon had been called; it is left open here. -/
inductive Renamed (π : Nat → Nat) : LogMeld → LogMeld → Prop
  | chi {src k x y z x' y' z' w : Nat} : π (4 * k + x) = 4 * k + x' → π (4 * (k + 1) + y) = 4 * (k + 1) + y' →
      π (4 * (k + 2) + z) = 4 * (k + 2) + z' → Renamed π (.chi src k x y z w) (.chi src k x' y' z' w)
  | pon {src k u w u' w' : Nat} : π (4 * k + u) = 4 * k + u' →
      (LogMeld.pon src k u' w').tiles.2 = (LogMeld.pon src k u w).tiles.2.map π →
      Renamed π (.pon src k u w) (.pon src k u' w')
  | kakan {src k u w u' w' : Nat} : src ≠ 0 → π (4 * k + u) = 4 * k + u' → Renamed π (.kakan src k u w) (.kakan src k u' w')
  | minkan {src t : Nat} : Renamed π (.minkan src t) (.minkan src (π t))
  | ankan {t t' : Nat} : t' / 4 = t / 4 → Renamed π (.ankan t) (.ankan t')

/-- the copy number of the called tile -/
def calledCopy (m : LogMeld) : Option Nat := m.tiles.2.map (· % 4)

/-- the pon includes the red five of its suit -/
def redPon (k u : Nat) : Bool := (k == 4 || k == 13 || k == 22) && u != 0

/-- What the program reads off a pon beyond the kinds and the colours: without a red five, which of the three tiles (in
the order of their copies) was called; with a red five, whether the called tile was copy 3. -/
def Told : LogMeld → LogMeld → Prop
  | .pon src k u w, .pon src' k' u' w' =>
    if redPon k u then calledCopy (.pon src k u w) = some 3 ↔ calledCopy (.pon src' k' u' w') = some 3 else w' = w
  | _, _ => True

/-- the same event with the copies renamed -/
inductive EvCopies (π : Nat → Nat) : Ev → Ev → Prop
  | dora (x : Except PyErr Nat) : EvCopies π (.dora x) (.dora (x.map π))
  | reach (w : Except PyErr Nat) (o : Except PyErr Bool) : EvCopies π (.reach w o) (.reach w o)
  | call {m m' : LogMeld} (w : Except PyErr Nat) : m.Valid → m'.Valid → Renamed π m m' → Told m m' →
      EvCopies π (.naki (.ok m.encode) w) (.naki (.ok m'.encode) w)
  | noCall (e : PyErr) (w : Except PyErr Nat) : EvCopies π (.naki (.error e) w) (.naki (.error e) w)
  | draw (p : Fin 4) (x : Except PyErr Nat) : EvCopies π (.draw p x) (.draw p (x.map π))
  | discard (p : Fin 4) (x : Except PyErr Nat) : EvCopies π (.discard p x) (.discard p (x.map π))
  | result (a : Bool) (sc : Except PyErr (List Int)) : EvCopies π (.result a sc) (.result a sc)
  | other : EvCopies π .other .other

/-- the event is a pon -/
def ponEvent : Ev → Bool
  | .naki (.ok c) _ => decide (meldType c = some .pon)
  | _ => false

/-- the first six entries of the seed, of which the sixth is the first dora indicator -/
def seedCopies (π : Nat → Nat) : List Nat → List Nat
  | [r, h, k, x, y, d] => [r, h, k, x, y, π d]
  | l => l

/-- the same deal with the copies renamed -/
def dealCopies (π : Nat → Nat) (a : InitAttr) : InitAttr :=
  { a with seed := a.seed.map (seedCopies π), hai := fun p => (a.hai p).map (List.map π) }

/-- the hand evaluator does not look at the copy numbers of the winning tile and of the dora indicators -/
def CopyBlind (π : Nat → Nat) (est : Estimate) : Prop :=
  ∀ q : Query, est { q with win_tile := π q.win_tile, dora_indicators := q.dora_indicators.map π } = est q

/-- the same state object with the copies of the dora indicators renamed -/
def objCopies (π : Nat → Nat) (o : StateObj) : StateObj := { o with dora := o.dora.map π }

/-- the same half-turn with the copies of the dora indicators and of the discarded tile renamed; decisions, labels and
positions in the token list are unchanged -/
def turnCopies (π : Nat → Nat) : HalfTurn → HalfTurn
  | .during p o e a r n => .during p (objCopies π o) e a r n
  | .discard p o e t => .discard p (objCopies π o) e (π t)
  | .post p o e a n => .post p (objCopies π o) e a n

/-- both computations raise the same exception, or their results are related by `R` -/
inductive SameOutcome {α β : Type} (R : α → β → Prop) : Except PyErr α → Except PyErr β → Prop
  | ok {a : α} {b : β} : R a b → SameOutcome R (.ok a) (.ok b)
  | error (e : PyErr) : SameOutcome R (.error e) (.error e)

end MJ.Spec
