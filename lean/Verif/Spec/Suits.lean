import Verif.Spec.Log
import Verif.Spec.Meld
import Verif.Spec.Shown
import Verif.Spec.MeldLog
import Verif.Spec.Rows
import Verif.Model.Round
/-!
The same round with the three suits exchanged among each other, and the seven honours.
-/
namespace MJ.Spec

/-- which suit becomes of characters, dots and bamboo, and which honour (0..6) of every honour -/
structure Suits where
  m : Nat
  p : Nat
  s : Nat
  z : Nat → Nat

/-- the suit (0, 1, 2) that suit `x` becomes -/
def Suits.on (σ : Suits) (x : Nat) : Nat := if x = 0 then σ.m else if x = 1 then σ.p else if x = 2 then σ.s else x

/-- the six ways to exchange the suits, and the ways to exchange the honours -/
structure Suits.Proper (σ : Suits) : Prop where
  suits : (σ.m, σ.p, σ.s) ∈ [(0, 1, 2), (0, 2, 1), (1, 0, 2), (1, 2, 0), (2, 0, 1), (2, 1, 0)]
  honours : ∀ x < 7, σ.z x < 7
  apart : ∀ x < 7, ∀ y < 7, σ.z x = σ.z y → x = y

/-- slots: nine per suit, seven honours, the red five of each suit -/
def Suits.slot (σ : Suits) (k : Nat) : Nat :=
  if k < 27 then 9 * σ.on (k / 9) + k % 9 else if k < 34 then 27 + σ.z (k - 27) else 34 + σ.on (k - 34)

/-- tiles: 36 per suit, then four per honour -/
def Suits.tile (σ : Suits) (t : Nat) : Nat :=
  if t < 108 then 36 * σ.on (t / 36) + t % 36 else if t < 136 then 108 + 4 * σ.z ((t - 108) / 4) + t % 4 else t

/-- meld codes: 21 patterns of a chi per suit, otherwise the kind -/
def Suits.code (σ : Suits) (c : Nat) : Nat :=
  match meldType c with
  | some .chi => c % 1024 + 1024 * (21 * σ.on (c / 1024 / 21) + c / 1024 % 21)
  | some .pon | some .kakan => c % 512 + 512 * (3 * σ.slot (c / 512 / 3) + c / 512 % 3)
  | some .minkan | some .ankan => c % 256 + 256 * (4 * σ.slot (c / 256 / 4) + c / 256 % 4)
  | none => c

/-- the event with the suits exchanged -/
def Act.suits (σ : Suits) : Act → Act
  | .dora t => .dora (σ.tile t)
  | .declare p => .declare p
  | .accept p => .accept p
  | .call p c => .call p (σ.code c)
  | .draw p t => .draw p (σ.tile t)
  | .discard p t => .discard p (σ.tile t)

/-- tables with one entry per slot -/
def SlotsMoved (σ : Suits) (f f' : Nat → Int) : Prop := ∀ k, f' (σ.slot k) = f k

/-- the tokens of the same event with the suits exchanged -/
inductive TokenSuits (σ : Suits) : Nat → Nat → Prop
  | dora {k t t' : Nat} : new_dora2idx k = .ok t → new_dora2idx (σ.slot k) = .ok t' → TokenSuits σ t t'
  | reach {p t : Nat} : reach2idx p = .ok t → TokenSuits σ t t
  | discard {p k t t' : Nat} {drawn : Bool} : discard2idx p k drawn = .ok t → discard2idx p (σ.slot k) drawn = .ok t' →
      TokenSuits σ t t'
  | call {p c t t' : Nat} : naki2idx p c = .ok t → naki2idx p (σ.code c) = .ok t' → TokenSuits σ t t'

/-- the digit strings of the honours: in order, digits 1 to 7, each honour as often as what it becomes -/
structure HonoursMoved (σ : Suits) (z z' : List Nat) : Prop where
  sorted : z.Pairwise (· ≤ ·)
  sorted' : z'.Pairwise (· ≤ ·)
  digits : ∀ d ∈ z, 1 ≤ d ∧ d ≤ 7
  digits' : ∀ d ∈ z', 1 ≤ d ∧ d ≤ 7
  count : ∀ x < 7, z'.count (1 + σ.z x) = z.count (1 + x)

/-- the question to the hand evaluator with the suits exchanged -/
structure QuerySuits (σ : Suits) (q q' : Query) : Prop where
  man : [q'.man, q'.pin, q'.sou][σ.on 0]? = some q.man
  pin : [q'.man, q'.pin, q'.sou][σ.on 1]? = some q.pin
  sou : [q'.man, q'.pin, q'.sou][σ.on 2]? = some q.sou
  honors : HonoursMoved σ q.honors q'.honors
  win_tile : q'.win_tile = σ.tile q.win_tile
  melds : q'.melds = q.melds.map (fun m => { m with tiles := m.tiles.map σ.tile })
  doras : q'.dora_indicators = q.dora_indicators.map σ.tile
  config : q'.config = q.config

/-- nobody calls a pon -/
def NoPon (acts : List Act) : Prop := ∀ p c, Act.call p c ∈ acts → Code.is_pon c = false

/-- The tile with number `k` becomes the tile with the number of what kind `k` becomes.  (Whether kind `k` can be added to a
pon is looked up as tile `k`.) -/
def Suits.Kept (σ : Suits) (k : Nat) : Prop := σ.tile k = σ.slot k

/-- pons are called only of kinds that are kept in this sense -/
def PonsKept (σ : Suits) (acts : List Act) : Prop := ∀ p c, Act.call p c ∈ acts → Code.is_pon c = true →
  σ.Kept ((Code.pattern_pon c).color * 9 + (Code.pattern_pon c).number)

/-- the meld with the suits exchanged -/
def Suits.naki (σ : Suits) (n : Naki) : Naki := ⟨σ.code n.naki_code, σ.code n.convenient_naki_code⟩

/-- the decision with the suits exchanged -/
def Suits.call (σ : Suits) (d : NakiDecision) : NakiDecision := { d with naki := σ.naki d.naki }

/-- the second evaluator answers about the exchanged hands what the first answers about the hands -/
def EvalSuits (σ : Suits) (est est' : Estimate) : Prop := ∀ q q', QuerySuits σ q q' → est' q' = est q
@[inherit_doc EvalSuits]
def DistanceSuits (σ : Suits) (sh sh' : List Int → Except PyErr Int) : Prop :=
  ∀ f f' : Nat → Int, (∀ k < 34, f' (σ.slot k) = f k) → sh' ((List.range 34).map f') = sh ((List.range 34).map f)

/-- the meld with the suits exchanged -/
def LogMeld.suits (σ : Suits) : LogMeld → LogMeld
  | .chi src k x y z w => .chi src (σ.slot k) x y z w
  | .pon src k u w => .pon src (σ.slot k) u w
  | .kakan src k u w => .kakan src (σ.slot k) u w
  | .minkan src t => .minkan src (σ.tile t)
  | .ankan t => .ankan (σ.tile t)

/-- the number of the own-turn action with the suits exchanged: pass, win, riichi, the closed kans, the added kans -/
def Suits.own (σ : Suits) (i : Nat) : Nat :=
  if i < 3 then i else if i < 37 then 3 + σ.slot (i - 3) else if i < 71 then 37 + σ.slot (i - 37) else i

/-- the same sample with the suits exchanged, apart from mask and label -/
structure RowSuits (σ : Suits) (row row' : Row) : Prop where
  player : row'.player = row.player
  tokens : AllPairs (fun t t' => (t = 0 ∧ t' = 0) ∨ TokenSuits σ t t') row.tokens row'.tokens
  x1 : AllPairs (fun P P' => P.length = 37 ∧ P'.length = 37 ∧ ∀ k < 37, P'[σ.slot k]? = P[k]?) row.x1 row'.x1
  x2 : row'.x2 = row.x2
  x3 : row'.x3 = row.x3

/-- samples of the own-turn head -/
structure OwnRowSuits (σ : Suits) (row row' : Row) : Prop extends RowSuits σ row row' where
  mask : ∀ i < 71, row'.mask[σ.own i]? = row.mask[i]?
  y : ∃ i : Nat, row.y = i ∧ row'.y = σ.own i

/-- samples of the discard head -/
structure DiscardRowSuits (σ : Suits) (row row' : Row) : Prop extends RowSuits σ row row' where
  mask : ∀ k < 37, row'.mask[σ.slot k]? = row.mask[k]?
  y : ∃ k < 34, row.y = (k : Nat) ∧ row'.y = σ.slot k

/-- samples of the call head: the same wins, the calls with the suits exchanged -/
structure CallRowSuits (σ : Suits) (row row' : Row) : Prop extends RowSuits σ row row' where
  actions : ∃ wins calls, (∀ d ∈ calls, WellFormed d.naki.naki_code) ∧
    Allows 154 row.mask (CallAllowed wins calls) ∧ LastExecuted callAction calls (if winTaken wins then 1 else 0) row.y ∧
    Allows 154 row'.mask (CallAllowed wins (calls.map σ.call)) ∧
    LastExecuted callAction (calls.map σ.call) (if winTaken wins then 1 else 0) row'.y

end MJ.Spec
