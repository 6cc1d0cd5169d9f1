import Verif.Spec.Manager

/-!
Vocabulary for the alternation of `starting()` and `stopping()`.
-/

namespace Verif

/-- What an observer of the callbacks of a controller object takes it to be. -/
inductive Life
  | idle
  | running
  | destroyed
deriving DecidableEq, Repr

/-- The callbacks that may come next. `update()` and `stopping()` only come while the controller runs,
and `stopping()` ends that; nothing comes after the destruction. `starting()`, `waiting()` and
`aborting()` only come while the controller does not run; if `lax`, they may also come while it runs. -/
def Life.next (lax : Bool) : Life → Callback → Option Life
  | .idle, .starting => some .running
  | .idle, .waiting => some .idle
  | .idle, .aborting => some .idle
  | .running, .update => some .running
  | .running, .stopping => some .idle
  | .running, .starting => if lax then some .running else none
  | .running, .waiting => if lax then some .idle else none
  | .running, .aborting => if lax then some .idle else none
  | _, _ => none

/-- Effect of an event on what the observer of `c` knows: `none` if the event may not come. -/
def Life.see (lax : Bool) (c : CId) (p : Life) : Event → Option Life
  | .cb c' k => if c' = c then p.next lax k else some p
  | .destroyed c' => if c' = c then (if p = .idle then some .destroyed else none) else some p
  | _ => some p

/-- What the observer of `c` has seen in the end, `none` if some event may not have come. -/
def lifeFrom (lax : Bool) (c : CId) : Life → List Event → Option Life
  | p, [] => some p
  | p, e :: es =>
    match p.see lax c e with
    | none => none
    | some q => lifeFrom lax c q es

/-- From the beginning. -/
def life (lax : Bool) (c : CId) (t : List Event) : Option Life := lifeFrom lax c .idle t

namespace Mgr

/-- The request asks to start no controller twice and none that is running (which a strict request need
not take care of), or asks to start controllers as soon as possible. -/
def SwitchReq.Careful (m : Mgr) (r : SwitchReq) : Prop :=
  r.asap = true ∨ (r.start.Nodup ∧ (r.strictness = strictnessStrict ∨ ∀ n ∈ r.start, ¬ Spec.Runs m n))

/-- All switch requests that are served during the history are careful. -/
def CarefulRun (conf : List ControllerInfo → Bool) : Mgr → List Op → Prop
  | _, [] => True
  | m, op :: ops => (∀ r now p, op = .switch r now p → m.svc = .idle → r.Careful m) ∧
      CarefulRun conf (m.step conf op) ops

end Mgr

end Verif
