import Verif.Model.Py
/-!
`MahjongAI/draw.py`, class `Naki`.

Meld codes are natural numbers.  `code & ~mask` is modelled by
`clearBits code mask`.  All subtractions that occur in `_clean_*` are exact in
`Nat` (proved in `Verif/Proofs/Naki.lean`).
-/
namespace MJ

/-- `x & ~m` on non-negative integers. -/
def clearBits (x m : Nat) : Nat := x - (x &&& m)

/-- The tuple returned by the `pattern_*` methods (MahjongAI/draw.py:146, 158,
170, 181, 192). -/
structure Pattern where
  color : Nat
  number : Nat
  which : Nat
  has_red : Bool
  exposed : List Nat
  acquired : Option Nat
  deriving DecidableEq, Repr

/-- `Naki` (MahjongAI/draw.py:57-62): the raw and the canonical code. -/
structure Naki where
  naki_code : Nat
  convenient_naki_code : Nat
  deriving DecidableEq, Repr

/-! The methods depend on `naki_code` only; they are defined on the code. -/
namespace Code

/-- MahjongAI/draw.py:114-115 -/
def from_who (c : Nat) : Nat := c &&& 3
/-- MahjongAI/draw.py:117-118 -/
def is_chi (c : Nat) : Bool := (c &&& 0x4) != 0
/-- MahjongAI/draw.py:120-121 -/
def is_pon (c : Nat) : Bool := !is_chi c && (c &&& 0x8) != 0
/-- MahjongAI/draw.py:123-124 -/
def is_kakan (c : Nat) : Bool := !is_chi c && (c &&& 0x10) != 0
/-- MahjongAI/draw.py:126-127 (truthiness of the returned value) -/
def is_minkan (c : Nat) : Bool := (c &&& 0b111100) == 0 && from_who c != 0
/-- MahjongAI/draw.py:129-130 -/
def is_ankan (c : Nat) : Bool := (c &&& 0b111100) == 0 && from_who c == 0

/-- MahjongAI/draw.py:132-146.  `exposed.pop(which)` is `eraseIdx`/index;
`which < 3` so it never fails. -/
def pattern_chi (c : Nat) : Pattern :=
  let pattern := (c &&& 0xFC00) >>> 10
  let which := pattern % 3
  let pattern := pattern / 3
  let color := pattern / 7
  let number := pattern % 7
  let exposed :=
    [ (9 * color + number + 0) * 4 + ((c &&& 0x0018) >>> 3),
      (9 * color + number + 1) * 4 + ((c &&& 0x0060) >>> 5),
      (9 * color + number + 2) * 4 + ((c &&& 0x0180) >>> 7) ]
  let has_red := exposed.contains (color * 36 + 16)
  { color, number, which, has_red,
    exposed := exposed.eraseIdx which, acquired := exposed[which]? }

/-- MahjongAI/draw.py:148-158 -/
def pattern_pon (c : Nat) : Pattern :=
  let pattern := (c &&& 0xFE00) >>> 9
  let which := pattern % 3
  let pattern := pattern / 3
  let color := pattern / 9
  let number := pattern % 9
  let code := (c &&& 0x0060) >>> 5
  let exposed :=
    ((List.range 4).filter (fun k => k != code)).map (fun k => (9 * color + number) * 4 + k)
  let has_red := decide (color < 3) && exposed.contains (color * 36 + 16)
  { color, number, which, has_red,
    exposed := exposed.eraseIdx which, acquired := exposed[which]? }

/-- MahjongAI/draw.py:160-170 -/
def pattern_kakan (c : Nat) : Pattern :=
  let pattern := (c &&& 0xFE00) >>> 9
  let which := pattern % 3
  let pattern := pattern / 3
  let color := pattern / 9
  let number := pattern % 9
  let has_red := number == 4 && color != 3
  let code := (c &&& 0x0060) >>> 5
  { color, number, which, has_red,
    exposed := [(9 * color + number) * 4 + code], acquired := none }

/-- MahjongAI/draw.py:172-181 -/
def pattern_minkan (c : Nat) : Pattern :=
  let pattern := (c &&& 0xFF00) >>> 8
  let which := pattern % 4
  let pattern := pattern / 4
  let color := pattern / 9
  let number := pattern % 9
  let has_red := number == 4 && color != 3
  let exposed := (List.range 4).map (fun k => (9 * color + number) * 4 + k)
  { color, number, which, has_red,
    exposed := exposed.eraseIdx which, acquired := exposed[which]? }

/-- MahjongAI/draw.py:183-192 -/
def pattern_ankan (c : Nat) : Pattern :=
  let pattern := (c &&& 0xFF00) >>> 8
  let which := pattern % 4
  let pattern := pattern / 4
  let color := pattern / 9
  let number := pattern % 9
  let has_red := number == 4 && color != 3
  let exposed := (List.range 4).map (fun k => (9 * color + number) * 4 + k)
  { color, number, which, has_red, exposed, acquired := none }

/-- MahjongAI/draw.py:78-85.  When `red` holds, `number ≤ 4`, so the shift amount
is a natural number. -/
def clean_chi (c : Nat) : Nat :=
  let p := pattern_chi c
  let code := clearBits c (0x18 ||| 0x60 ||| 0x180)
  let code := code ||| (0x8 ||| 0x20 ||| 0x80)
  if p.has_red then code ^^^ (1 <<< (3 + (4 - p.number) * 2)) else code

/-- MahjongAI/draw.py:87-94 -/
def clean_pon (c : Nat) : Nat :=
  let p := pattern_pon c
  let code := clearBits c 0x60
  if p.has_red then
    let code := code + 0x60
    if p.which != 0 then code - ((p.which - 1) <<< 9) else code
  else code

/-- MahjongAI/draw.py:96-101 -/
def clean_kakan (c : Nat) : Nat :=
  let p := pattern_kakan c
  let code := clearBits c 0x60
  if !p.has_red || p.which != 0 then code ||| 0x20 else code

/-- MahjongAI/draw.py:103-108.  `code -= (which - 1) << 8`; for `which = 0` the
subtrahend is `-256`, hence the form `code + 256 - which * 256`. -/
def clean_minkan (c : Nat) : Nat :=
  let p := pattern_minkan c
  if !p.has_red || p.which != 0 then c + (1 <<< 8) - (p.which <<< 8) else c

/-- MahjongAI/draw.py:110-112 -/
def clean_ankan (c : Nat) : Nat := clearBits c (3 <<< 8)

/-- MahjongAI/draw.py:64-76 -/
def clean (c : Nat) : Except PyErr Nat :=
  if is_chi c then .ok (clean_chi c)
  else if is_pon c then .ok (clean_pon c)
  else if is_kakan c then .ok (clean_kakan c)
  else if is_minkan c then .ok (clean_minkan c)
  else if is_ankan c then .ok (clean_ankan c)
  else .error .value

/-- MahjongAI/draw.py:194-215 -/
def get_exposed (c : Nat) : Except PyErr (List Nat × Option Nat) :=
  if is_chi c then .ok ((pattern_chi c).exposed, (pattern_chi c).acquired)
  else if is_pon c then .ok ((pattern_pon c).exposed, (pattern_pon c).acquired)
  else if is_kakan c then .ok ((pattern_kakan c).exposed, (pattern_kakan c).acquired)
  else if is_minkan c then .ok ((pattern_minkan c).exposed, (pattern_minkan c).acquired)
  else if is_ankan c then .ok ((pattern_ankan c).exposed, (pattern_ankan c).acquired)
  else .error .value

/-- MahjongAI/draw.py:217-233 -/
def get_during_turn_filter_idx (c : Nat) : Except PyErr Nat :=
  if is_ankan c then
    let p := pattern_ankan c
    .ok (3 + 9 * p.color + p.number)
  else if is_kakan c then
    let p := pattern_kakan c
    .ok (37 + 9 * p.color + p.number)
  else .error .zeroDivision

/-- MahjongAI/draw.py:235-266.  In the red-chi branch `number + which - 3` can be
negative in Python; it is floor-divided by 2 as an `Int`.  `acquired` is never
`none` for a pon (the `none` case is unreachable). -/
def get_post_turn_filter_idx (c : Nat) : Except PyErr Int :=
  if is_chi c then
    let p := pattern_chi c
    if p.has_red && p.number + p.which != 4 then
      .ok (2 + 63 + 6 * p.color + p.number * 2 + ((p.number : Int) + p.which - 3) / 2)
    else
      .ok (2 + p.color * 21 + p.number * 3 + p.which)
  else if is_pon c then
    let p := pattern_pon c
    if p.color == 3 then .ok (83 + 30 + p.number)
    else
      match p.acquired with
      | some a =>
        if p.has_red && a % 4 == 3 then .ok (83 + 27 + p.color)
        else .ok (83 + 9 * p.color + p.number)
      | none => .error .typeErr
  else if is_minkan c then
    let p := pattern_minkan c
    .ok (120 + 9 * p.color + p.number)
  else .error .zeroDivision

/-- The code computed by `Naki.from_chi_info` (MahjongAI/draw.py:7-14) when no
exception is raised. -/
def chiInfo (color number which : Nat) (has_red : Bool) : Nat :=
  let pattern := (color * 7 + number) * 3 + which
  let c := 0x3 ||| 0x4 ||| 0x8 ||| 0x20 ||| 0x80 ||| (pattern <<< 10)
  if has_red then c ^^^ (1 <<< (3 + 8 - number * 2)) else c

/-- The code computed by `Naki.from_pon_info` (MahjongAI/draw.py:17-27). -/
def ponInfo (tile which : Nat) (has_red : Bool) (fromWho : Nat) : Nat :=
  let pattern := tile * 3 + which
  let c := (fromWho &&& 3) ||| 0x8 ||| (pattern <<< 9)
  if has_red then c ||| (3 <<< 5) else c

/-- The code computed by `Naki.from_kakan_info` (MahjongAI/draw.py:30-39). -/
def kakanInfo (tile which : Nat) : Nat :=
  let has_red := decide (tile < 27) && tile % 9 == 4
  let pattern := tile * 3 + which
  let c := 0x10 ||| (pattern <<< 9)
  if !has_red || which != 0 then c ||| (1 <<< 5) else c

/-- The code computed by `Naki.from_minkan_info` (MahjongAI/draw.py:42-48). -/
def minkanInfo (tile fromWho which : Nat) : Nat :=
  let pattern := tile * 4 + which
  (fromWho &&& 3) ||| (pattern <<< 8)

/-- The code computed by `Naki.from_ankan_info` (MahjongAI/draw.py:51-55). -/
def ankanInfo (tile : Nat) : Nat := (tile * 4) <<< 8

end Code

namespace Naki

/-- `Naki(naki_code, clean=False)` (MahjongAI/draw.py:57-62) -/
def raw (c : Nat) : Naki := { naki_code := c, convenient_naki_code := c }

/-- `Naki(naki_code)` (MahjongAI/draw.py:57-62) -/
def mk' (c : Nat) : Except PyErr Naki :=
  match Code.clean c with
  | .ok k => .ok { naki_code := c, convenient_naki_code := k }
  | .error e => .error e

/-- `Naki.from_chi_info` (MahjongAI/draw.py:7-14).  `1 << bit` raises ValueError
for a negative `bit = 3 + (4 - number) * 2`, i.e. for `number ≥ 6` with a red. -/
def from_chi_info (color number which : Nat) (has_red : Bool) : Except PyErr Naki :=
  if has_red && decide (6 ≤ number) then .error .value
  else .ok (raw (Code.chiInfo color number which has_red))

/-- `Naki.from_pon_info` (MahjongAI/draw.py:17-27) -/
def from_pon_info (tile which : Nat) (has_red : Bool) (from_who : Nat) : Except PyErr Naki :=
  if which = 0 ∨ which = 1 then .ok (raw (Code.ponInfo tile which has_red from_who))
  else .error .assertion

/-- `Naki.from_kakan_info` (MahjongAI/draw.py:30-39) -/
def from_kakan_info (tile which : Nat) : Except PyErr Naki :=
  if which = 0 ∨ which = 1 then .ok (raw (Code.kakanInfo tile which)) else .error .assertion

/-- `Naki.from_minkan_info` (MahjongAI/draw.py:42-48) -/
def from_minkan_info (tile from_who which : Nat) : Except PyErr Naki :=
  if which = 0 ∨ which = 1 then .ok (raw (Code.minkanInfo tile from_who which))
  else .error .assertion

/-- `Naki.from_ankan_info` (MahjongAI/draw.py:51-55) -/
def from_ankan_info (tile : Nat) : Naki := raw (Code.ankanInfo tile)

end Naki

end MJ
