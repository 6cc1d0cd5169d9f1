import Verif.Model.TransmissionParser

/-!
What a well-formed transmission is.
-/

namespace Verif.Transmission

/-- The result of the parser is well-formed: a name, joints and actuators with names, every joint with a
hardware interface. -/
structure TransInfo.WellFormed (i : TransInfo) : Prop where
  name : i.name ≠ ""
  joints : i.joints ≠ []
  actuators : i.actuators ≠ []
  joint : ∀ j ∈ i.joints, j.name ≠ "" ∧ j.hwIfaces ≠ []
  actuator : ∀ a ∈ i.actuators, a.name ≠ ""

/-- The first child element with this tag. -/
def Elem.child (e : Elem) (tag : String) : Option Elem := e.children.find? fun c => c.tag = tag

/-- A joint or actuator element with a non-empty name. -/
def Elem.Named (e : Elem) : Prop := ∃ n, e.attr "name" = some n ∧ n ≠ ""

/-- The element describes a joint: it has a non-empty name and a hardware interface with a text. -/
def Elem.IsJoint (e : Elem) : Prop :=
  e.Named ∧ ∃ h ∈ e.children, h.tag = "hardwareInterface" ∧ h.text ≠ none

/-- The element describes a transmission: a non-empty name, a first `type` element with a text, no joint or
actuator without a name attribute, at least one proper joint and one named actuator. -/
structure Elem.IsTransmission (e : Elem) : Prop where
  named : e.Named
  type : ∃ t x, e.child "type" = some t ∧ t.text = some x
  joints : ∀ j ∈ e.children, j.tag = "joint" → j.attr "name" ≠ none
  joint : ∃ j ∈ e.children, j.tag = "joint" ∧ j.IsJoint
  actuators : ∀ a ∈ e.children, a.tag = "actuator" → a.attr "name" ≠ none
  actuator : ∃ a ∈ e.children, a.tag = "actuator" ∧ a.Named

open scoped Classical in
/-- The information about the transmission comes from the element. -/
structure TransInfo.From (i : TransInfo) (e : Elem) : Prop where
  name : e.attr "name" = some i.name
  type : ∃ t, e.child "type" = some t ∧ t.text = some i.type
  /-- the joints are the proper joint elements, in order -/
  joints : i.joints.map (·.xml) = e.children.filter fun j => j.tag = "joint" ∧ j.IsJoint
  actuators : i.actuators.map (·.xml) = e.children.filter fun a => a.tag = "actuator" ∧ a.Named
  joint : ∀ j ∈ i.joints, j.xml.attr "name" = some j.name ∧
    (∀ x, x ∈ j.hwIfaces ↔ ∃ h ∈ j.xml.children, h.tag = "hardwareInterface" ∧ h.text = some x) ∧
    j.role = ((j.xml.child "role").bind Elem.text).getD ""
  actuator : ∀ a ∈ i.actuators, a.xml.attr "name" = some a.name

end Verif.Transmission
