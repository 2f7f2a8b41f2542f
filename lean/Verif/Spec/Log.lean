import Verif.Model.Naki
import Verif.Model.Constants
/-!
The events of a round as a reader of the log sees them, and the quantities the round loop is
supposed to track, defined from the log alone.
-/
namespace MJ.Spec

/-- one event of a round -/
inductive Act where
  /-- a new dora indicator is turned -/
  | dora (tile : Nat)
  /-- riichi is announced (step 1) -/
  | declare (player : Nat)
  /-- the riichi stick is paid (step 2) -/
  | accept (player : Nat)
  /-- a call with the given code -/
  | call (player code : Nat)
  | draw (player tile : Nat)
  | discard (player tile : Nat)
  deriving DecidableEq, Repr

/-- the tiles that leave the hand of the caller -/
def exposedTiles (code : Nat) : List Nat :=
  match Code.get_exposed code with
  | .ok (ex, _) => ex
  | .error _ => []

/-- the discarded tile a call takes -/
def calledTile (code : Nat) : Option Nat :=
  match Code.get_exposed code with
  | .ok (_, a) => a
  | .error _ => none

/-- tiles player `p` draws -/
def Act.drawn (p : Nat) : Act → List Nat
  | .draw q t => if q = p then [t] else []
  | _ => []

/-- tiles drawn by anyone -/
def Act.drawnByAny : Act → List Nat
  | .draw _ t => [t]
  | _ => []

/-- tiles the others discard or expose in calls, in front of player `p` -/
def Act.shownTo (p : Nat) : Act → List Nat
  | .discard q t => if q = p then [] else [t]
  | .call q c => if q = p then [] else exposedTiles c
  | _ => []

/-- tiles player `p` discards -/
def Act.discarded (p : Nat) : Act → List Nat
  | .discard q t => if q = p then [t] else []
  | _ => []

/-- tiles player `p` exposes in calls -/
def Act.exposed (p : Nat) : Act → List Nat
  | .call q c => if q = p then exposedTiles c else []
  | _ => []

/-- tiles player `p` takes from others in calls -/
def Act.called (p : Nat) : Act → List Nat
  | .call q c => if q = p then (calledTile c).toList else []
  | _ => []

/-- tiles that leave the concealed hand of player `p` -/
def Act.loses (p : Nat) (a : Act) : List Nat := a.discarded p ++ a.exposed p

/-- dora indicators turned -/
def Act.doras : Act → List Nat
  | .dora t => [t]
  | _ => []

def Act.isDraw : Act → Bool
  | .draw .. => true
  | _ => false

def Act.isDiscard : Act → Bool
  | .discard .. => true
  | _ => false

/-- a chi or pon -/
def Act.isChiPon : Act → Bool
  | .call _ c => Code.is_chi c || Code.is_pon c
  | _ => false

/-- an open, added or closed kan -/
def Act.isKan : Act → Bool
  | .call _ c => Code.is_minkan c || Code.is_ankan c || Code.is_kakan c
  | _ => false

/-- a kan in one's own turn -/
def Act.isOwnKan : Act → Bool
  | .call _ c => Code.is_ankan c || Code.is_kakan c
  | _ => false

/-- tiles collected over a list of events -/
def collect (f : Act → List Nat) (acts : List Act) : List Nat := acts.flatMap f

/-- Player `p` holds `t` concealed, given the dealt tiles: dealt and not lost since, or drawn and
not lost since. -/
def Holds (hai : Nat → List Nat) (acts : List Act) (p t : Nat) : Prop :=
  (t ∈ hai p ∧ ∀ a ∈ acts, t ∉ a.loses p) ∨
  ∃ pre post, acts = pre ++ .draw p t :: post ∧ ∀ a ∈ post, t ∉ a.loses p

/-- tile `t` counts in slot `k`: its kind, or the red slot of its suit if it is a red five -/
def InSlot (t k : Nat) : Prop :=
  t / 4 = k ∨ (t = 16 ∧ k = 34) ∨ (t = 52 ∧ k = 35) ∨ (t = 88 ∧ k = 36)

instance (t k : Nat) : Decidable (InSlot t k) := inferInstanceAs (Decidable (_ ∨ _))

/-- how many tiles of the list count in slot `k` -/
def slotCount (l : List Nat) (k : Nat) : Nat := l.countP (fun t => decide (InSlot t k))

/-- how many tiles of the list are of kind `k` -/
def kindCount (l : List Nat) (k : Nat) : Nat := l.countP (fun t => t / 4 == k)

/-- events that move tiles -/
def Act.isMove : Act → Bool
  | .draw .. | .discard .. | .call .. => true
  | _ => false

/-- the last draw, discard or call -/
def lastMove (acts : List Act) : Option Act := (acts.filter Act.isMove).getLast?

/-- the tile the player whose turn it is has just got, by the last move -/
def acquiredOf : Option Act → Option Nat
  | some (.draw _ t) => some t
  | some (.call _ c) => if Code.is_minkan c || Code.is_ankan c || Code.is_kakan c then none else calledTile c
  | _ => none

/-- the player who has to discard next, by the last move -/
def holderOf : Option Act → Option Nat
  | some (.draw p _) => some p
  | some (.call p c) => if Code.is_minkan c || Code.is_ankan c || Code.is_kakan c then none else some p
  | _ => none

/-- closed and added kans are made by the player who has just drawn -/
def KansByDrawer (acts : List Act) : Prop :=
  ∀ pre p c post, acts = pre ++ .call p c :: post → (Code.is_ankan c || Code.is_kakan c) = true →
    ∃ t, lastMove pre = some (.draw p t)

/-- kind, player and position of a half-turn -/
inductive Turn where
  | during (player position : Nat)
  | discard (player position tile : Nat)
  | post (player position : Nat)
  deriving DecidableEq, Repr

/-- how many tokens an event contributes -/
def Act.tokenCount : Act → Nat
  | .draw .. | .declare .. => 0
  | _ => 1

/-- the half-turns an event contributes when `n` tokens came before -/
def Act.turns (n : Nat) : Act → List Turn
  | .draw p _ => [.during p n]
  | .discard p t => [.discard p n t, .post p n]
  | .call p c => if Code.is_kakan c then [.post p (n + 1)] else []
  | _ => []

/-- the half-turns of a round -/
def turnsFrom (n : Nat) : List Act → List Turn
  | [] => []
  | a :: as => a.turns n ++ turnsFrom (n + a.tokenCount) as

end MJ.Spec
