/-!
Python-level values shared by all model files.
-/
namespace MJ

/-- The exceptions the modelled code can raise, as values.
`invalidGame` is `InvalidGameException` (MahjongAI/process_xml.py:26-28);
`systemExit` is `sys.exit(1)` (MahjongAI/utils/dataloader.py:45); the others are
Python built-ins.  Messages are not kept. -/
inductive PyErr where
  | assertion
  | value
  | index
  | key
  | attribute
  | typeErr
  | zeroDivision
  | unboundLocal
  | runtime
  | invalidGame
  | systemExit
  deriving DecidableEq, Repr

instance {ε α : Type} [DecidableEq ε] [DecidableEq α] : DecidableEq (Except ε α)
  | .ok a, .ok b => if h : a = b then isTrue (h ▸ rfl) else isFalse (fun e => h (Except.ok.inj e))
  | .error a, .error b =>
    if h : a = b then isTrue (h ▸ rfl) else isFalse (fun e => h (Except.error.inj e))
  | .ok _, .error _ => isFalse (fun h => by cases h)
  | .error _, .ok _ => isFalse (fun h => by cases h)

/-- `assert b` -/
def pyAssert (b : Bool) : Except PyErr Unit :=
  if b then .ok () else .error .assertion

end MJ
