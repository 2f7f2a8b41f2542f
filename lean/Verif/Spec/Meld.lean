/-!
What a meld code means, independent of the model: the public layout of the
Tenhou `m` attribute and the shapes of melds.
-/
namespace MJ.Spec

inductive MeldType where
  | chi | pon | kakan | minkan | ankan
  deriving DecidableEq, Repr

/-- The type of a meld code, read off single bits: bit 2 is chi, else bit 3 is
pon, else bit 4 is an added kan, else bit 5 must be clear and the seat bits 0-1
separate open from closed kans. -/
def meldType (c : Nat) : Option MeldType :=
  if c.testBit 2 then some .chi
  else if c.testBit 3 then some .pon
  else if c.testBit 4 then some .kakan
  else if c.testBit 5 then none
  else if c.testBit 0 || c.testBit 1 then some .minkan
  else some .ankan

/-- three tiles of consecutive kinds inside one suit (kinds `9 s + n`) -/
def IsRun (tiles : List Nat) : Prop :=
  ∃ k, k % 9 ≤ 6 ∧ (tiles.map (· / 4)).Perm [k, k + 1, k + 2]

/-- `n` different copies of the kind `k` -/
def IsCopies (n k : Nat) (tiles : List Nat) : Prop :=
  tiles.length = n ∧ tiles.Nodup ∧ ∀ t ∈ tiles, t / 4 = k

/-- the tiles taken from the hand and the tile called, for each meld type -/
def Shape : MeldType → List Nat → Option Nat → Prop
  | .chi, ex, acq => ex.length = 2 ∧ ∃ a, acq = some a ∧ IsRun (a :: ex)
  | .pon, ex, acq => ∃ a k, acq = some a ∧ IsCopies 3 k (a :: ex)
  | .kakan, ex, acq => acq = none ∧ ∃ k, IsCopies 1 k ex
  | .minkan, ex, acq => ∃ a k, acq = some a ∧ IsCopies 4 k (a :: ex)
  | .ankan, ex, acq => acq = none ∧ ∃ k, IsCopies 4 k ex

/-- the red five of suit `s` (0 man, 1 pin, 2 sou) -/
def redFive (s : Nat) : Nat := 36 * s + 16

/-- tile number of a red five -/
def IsRed (t : Nat) : Prop := ∃ s, s < 3 ∧ t = redFive s

end MJ.Spec

namespace MJ.Spec

/-- Bit layout of codes that occur in logs: 16 bits, the unused bits are zero and
the pattern number denotes one of the 63 chi patterns or one of the 34 kinds. -/
def WellFormed (c : Nat) : Prop :=
  c < 65536 ∧
  match meldType c with
  | some .chi => c.testBit 9 = false ∧ c / 1024 < 63
  | some .pon => c.testBit 4 = false ∧ c / 128 % 4 = 0 ∧ c / 512 / 3 < 34
  | some .kakan => c / 128 % 4 = 0 ∧ c / 512 / 3 < 34
  | some .minkan => c / 64 % 4 = 0 ∧ c / 256 / 4 < 34
  | some .ankan => c / 64 % 4 = 0 ∧ c / 256 / 4 < 34
  | none => False

/-- What an observer can tell about a meld: its type, the source seat, the kinds
shown from the hand, the kind called, and whether the red five was called or
came from the hand. -/
structure MeldView where
  type : MeldType
  source : Nat
  handKinds : List Nat
  calledKind : Option Nat
  handRed : Bool
  calledRed : Bool
  deriving DecidableEq, Repr

def isRedB (t : Nat) : Bool := t == 16 || t == 52 || t == 88

/-- the view of a meld of type `ty` from seat `src` with the given tiles -/
def viewOf (ty : MeldType) (src : Nat) (hand : List Nat) (called : Option Nat) : MeldView :=
  { type := ty, source := src, handKinds := hand.map (· / 4), calledKind := called.map (· / 4)
    handRed := hand.any isRedB, calledRed := called.any isRedB }

end MJ.Spec
