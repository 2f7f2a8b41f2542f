import Verif.Model.Naki
import Verif.Spec.Meld
namespace MJ.Code
open MJ.Spec

/-- The observable view of an accepted meld code, through the public methods
`get_exposed` and `from_who`. -/
def view (c : Nat) : Option MeldView :=
  match meldType c, get_exposed c with
  | some ty, .ok (ex, acq) => some (viewOf ty (from_who c) ex acq)
  | _, _ => none

/-- `c` is an accepted code of type `ty` only: the `is_*` predicates say so. -/
def onlyType (c : Nat) (ty : MeldType) : Prop :=
  is_chi c = (ty == .chi) ∧ is_pon c = (ty == .pon) ∧ is_kakan c = (ty == .kakan) ∧
  is_minkan c = (ty == .minkan) ∧ is_ankan c = (ty == .ankan)

instance (c : Nat) (ty : MeldType) : Decidable (onlyType c ty) := by
  unfold onlyType; infer_instance

end MJ.Code
