import Verif.Model.CombinedHW

/-!
Vocabulary for the properties of combined hardware.
-/

namespace Verif.Combined

/-- The hardware reports the resource `r` in its interface `T`. -/
def Owns (hw : IMan) (T r : String) : Prop := T ∈ hw.getNames ∧ r ∈ hw.getInterfaceResources T

instance (hw : IMan) (T r : String) : Decidable (Owns hw T r) := by unfold Owns; infer_instance

/-- The part of a claim that concerns the hardware, if any. -/
def partOfClaim (hw : IMan) (c : InterfaceResources) : Option InterfaceResources :=
  match c.resources.filter (fun r => Owns hw c.hardwareInterface r) with
  | [] => none
  | rs => some ⟨c.hardwareInterface, rs⟩

/-- The part of a controller that concerns the hardware, if any. A controller without claims
concerns every hardware. -/
def partOf (hw : IMan) (c : ControllerInfo) : Option ControllerInfo :=
  if c.claimed = [] then some ⟨c.name, c.type, []⟩
  else
    match c.claimed.filterMap (partOfClaim hw) with
    | [] => none
    | cl => some ⟨c.name, c.type, cl⟩

/-- The part of a controller list that concerns the hardware. -/
def share (hw : IMan) (list : List ControllerInfo) : List ControllerInfo := list.filterMap (partOf hw)

/-- The resources of every claim form a `std::set`: increasing, without duplicates. -/
def SetClaims (list : List ControllerInfo) : Prop :=
  ∀ c ∈ list, ∀ cl ∈ c.claimed, cl.resources.Pairwise (· < ·)

/-- The list mentions resource `r` of interface `T` as claimed by a controller called `n`. -/
def Mentions (list : List ControllerInfo) (n T r : String) : Prop :=
  ∃ c ∈ list, c.name = n ∧ ∃ cl ∈ c.claimed, cl.hardwareInterface = T ∧ r ∈ cl.resources

/-- The sub-hardware a configuration entry yields, if it loads and initialises. -/
def SubEnv.loads (env : SubEnv) : Option IMan :=
  match env.nodeOk, env.type, env.init with
  | true, some t, .ok hw => if t ∈ env.declared ∧ env.create 0 = true then some hw else none
  | _, _, _ => none

/-- The event says that the sub-hardware accepted. -/
def Event.accepted : Event → Bool
  | .prepareSwitch _ _ _ ok => ok
  | _ => false

/-- The questions `prepareSwitch` has to put, one per sub-hardware in order, with the answers
`reply` gives. The first sub-hardware has number `i`. -/
def asks (reply : Nat → List ControllerInfo → List ControllerInfo → Bool)
    (start stop : List ControllerInfo) : Nat → List IMan → List Event
  | _, [] => []
  | i, hw :: hws =>
    .prepareSwitch i (share hw start) (share hw stop) (reply i (share hw start) (share hw stop)) ::
      asks reply start stop (i + 1) hws

/-- What should be reported for the whole: done only if every part is done. -/
def ReflectsParts (f : List SwitchState → SwitchState) : Prop :=
  ∀ parts, f parts = .done → ∀ p ∈ parts, p = .done

end Verif.Combined
