import Verif.Spec.Epoch
/-!
A program that decides whether a round was played by the rules in the sense of Spec/Epoch.lean.  It looks at the events
in one pass, with the earlier events in reverse order.
-/
namespace MJ.Spec

/-- the fields of a meld code, read by the documented layout -/
def LogMeld.decode (c : Nat) : LogMeld :=
  if c / 4 % 2 = 1 then .chi (c % 4) (c / 3072 / 7 * 9 + c / 3072 % 7) (c / 8 % 4) (c / 32 % 4) (c / 128 % 4) (c / 1024 % 3)
  else if c / 8 % 2 = 1 then .pon (c % 4) (c / 1536) (c / 32 % 4) (c / 512 % 3)
  else if c / 16 % 2 = 1 then .kakan (c % 4) (c / 1536) (c / 32 % 4) (c / 512 % 3)
  else if c % 4 = 0 then .ankan (c / 256)
  else .minkan (c % 4) (c / 256)

/-- the parameters are in range -/
def LogMeld.validB : LogMeld → Bool
  | chi src k x y z w => src.blt 4 && k.blt 27 && (k % 9).ble 6 && x.blt 4 && y.blt 4 && z.blt 4 && w.blt 3
  | pon src k u w => src.blt 4 && k.blt 34 && u.blt 4 && w.blt 3
  | kakan src k u w => src.blt 4 && k.blt 34 && u.blt 4 && w.blt 3
  | minkan src t => Nat.blt 0 src && src.blt 4 && t.blt 136
  | ankan t => t.blt 136

/-- the meld with this code -/
def LogMeld.ofCode (c : Nat) : Option LogMeld :=
  let m := decode c
  if m.validB && m.encode == c then some m else none

/-- the player holds the tile -/
def holdsR (hai : Nat → List Nat) (p t : Nat) : List Act → Bool
  | [] => (hai p).elem t
  | .draw q u :: rev => (q == p && u == t) || holdsR hai p t rev
  | .discard q u :: rev => !(q == p && u == t) && holdsR hai p t rev
  | .call q c :: rev => (!(q == p) || !(exposedTiles c).elem t) && holdsR hai p t rev
  | _ :: rev => holdsR hai p t rev

/-- the tile has not been drawn or turned over -/
def freshR (t : Nat) : List Act → Bool
  | [] => true
  | .draw _ u :: rev => !(u == t) && freshR t rev
  | .dora u :: rev => !(u == t) && freshR t rev
  | _ :: rev => freshR t rev

def unseenR (hai : Nat → List Nat) (first : Nat) (rev : List Act) (t : Nat) : Bool :=
  t.blt 136 && !(hai 0).elem t && !(hai 1).elem t && !(hai 2).elem t && !(hai 3).elem t && !(t == first) && freshR t rev

/-- the last draw, discard or call -/
def lastR : List Act → Option Act
  | [] => none
  | x :: rev => if x.isMove then some x else lastR rev

/-- the time for a call: after the own draw, or after a discard -/
def timeR (own : Bool) (p : Nat) : Option Act → Bool
  | some (.draw q _) => own && q == p
  | some (.discard _ _) => !own
  | _ => false

/-- what may happen next -/
def mayFollowR (hai : Nat → List Nat) (first : Nat) (rev : List Act) : Act → Bool
  | .dora t => unseenR hai first rev t
  | .declare p => p.blt 4 && (match lastR rev with
    | some (.draw _ _) => true
    | _ => false)
  | .accept p => p.blt 4 && (match lastR rev with
    | some (.discard _ _) => true
    | _ => false)
  | .draw p t => p.blt 4 && (holderOf (lastR rev)).isNone && unseenR hai first rev t
  | .discard p t => p.blt 4 && (match holderOf (lastR rev) with
    | some q => q == p
    | none => false) && holdsR hai p t rev
  | .call p c => p.blt 4 && (match LogMeld.ofCode c with
    | some m => m.tiles.1.all (fun t => holdsR hai p t rev) && timeR m.own p (lastR rev)
    | none => false)

/-- the player's last call of a pon or added kan of the kind is a pon -/
def extendable (p k : Nat) : List Act → Bool
  | [] => false
  | .call q c :: rev =>
    if q == p then
      match LogMeld.ofCode c with
      | some (.pon _ k' _ _) => k' == k || extendable p k rev
      | some (.kakan _ k' _ _) => !(k' == k) && extendable p k rev
      | _ => extendable p k rev
    else extendable p k rev
  | _ :: rev => extendable p k rev

/-- a call takes the tile that another player has just discarded -/
def claimsR (rev : List Act) : Act → Bool
  | .call p c =>
    match LogMeld.ofCode c with
    | some m =>
      match m.tiles.2 with
      | some t =>
        match lastR rev with
        | some (.discard q u) => !(q == p) && u == t
        | _ => false
      | none => true
    | none => true
  | _ => true

/-- an added kan extends an own pon -/
def extendingR (rev : List Act) : Act → Bool
  | .call p c =>
    match LogMeld.ofCode c with
    | some (.kakan _ k _ _) => extendable p k rev
    | _ => true
  | _ => true

/-- nobody pays for riichi twice -/
def onceR (rev : List Act) : Act → Bool
  | .accept p => !rev.any (fun
    | .accept q => q == p
    | _ => false)
  | _ => true

/-- all events pass the test, given the earlier ones -/
def allR (f : List Act → Act → Bool) : List Act → Bool
  | [] => true
  | x :: rev => f rev x && allR f rev

/-- four hands of thirteen tiles and the first indicator, all different -/
def fairB (hai : Nat → List Nat) (first : Nat) : Bool :=
  let l := hai 0 ++ hai 1 ++ hai 2 ++ hai 3 ++ [first]
  (hai 0).length == 13 && (hai 1).length == 13 && (hai 2).length == 13 && (hai 3).length == 13 && l.all (fun t => t.blt 136) &&
    decide l.Nodup

/-- the deal is fair and everything that happens may happen -/
def dealR (r : LogRound) : List Nat → Bool
  | [_, _, _, _, _, first] => fairB r.hai first && allR (mayFollowR r.hai first) r.acts.reverse
  | _ => false

/-- the round was played by the rules -/
def checkRules (r : LogRound) : Bool :=
  dealR r r.seed &&
  r.ten.length == 4 && r.dealer.blt 4 && allR claimsR r.acts.reverse && allR extendingR r.acts.reverse &&
  allR onceR r.acts.reverse && !r.results.isEmpty

end MJ.Spec
