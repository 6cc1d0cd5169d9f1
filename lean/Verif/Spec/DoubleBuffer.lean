import Verif.Model.DoubleBuffer

/-!
Vocabulary for the properties of the shared controller lists.
-/

namespace Verif.DoubleBuffer

/-- The realtime thread is going through a list which the service thread may be changing at the
same time. -/
def Race {α : Type} (s : St α) : Prop :=
  s.rt = .iterating ∧ (s.svc = .building ∨ s.svc = .clearing) ∧ s.used = some (!s.current)

/-- The steps of one undisturbed update. -/
def oneUpdate (α : Type) : List (Op α) := [.rtRead, .rtUse, .rtDone]

/-- The step belongs to the realtime thread. -/
def Op.isRt {α : Type} : Op α → Prop
  | .rtRead => True
  | .rtUse => True
  | .rtDone => True
  | _ => False

/-- How many updates assign `used_by_realtime_` in the execution. -/
def uses {α : Type} (ops : List (Op α)) : Nat :=
  (ops.filter fun op => match op with | .rtUse => true | _ => false).length

/-- The service thread is in one of its wait loops. -/
def St.waiting {α : Type} (s : St α) : Prop := s.svc = .waitFree ∨ s.svc = .waitFormer

end Verif.DoubleBuffer
