/-!
Parsing of transmissions from a robot description (transmission_parser.cpp).

The text of the description is parsed by TinyXML, which is not modelled: the parser starts from
TinyXML's document.
-/

namespace Verif.Transmission

/-- An XML element as TinyXML presents it: `Value()`, the attributes, `GetText()` (null if the first
child is not a text), and the child elements in order. -/
inductive Elem
  | node (tag : String) (attrs : List (String × String)) (text : Option String) (children : List Elem)

namespace Elem

/-- `Value()`. -/
def tag : Elem → String
  | node t _ _ _ => t

/-- The attributes. -/
def attrs : Elem → List (String × String)
  | node _ a _ _ => a

/-- `GetText()`. -/
def text : Elem → Option String
  | node _ _ t _ => t

/-- The child elements. -/
def children : Elem → List Elem
  | node _ _ _ c => c

/-- `Attribute(name)`; `none`: null. -/
def attr (e : Elem) (name : String) : Option String := e.attrs.lookup name

/-- The loop over `FirstChildElement(tag)`, `NextSiblingElement(tag)`. -/
def all (e : Elem) (tag : String) : List Elem := e.children.filter (·.tag = tag)

/-- `FirstChildElement(tag)`. -/
def first (e : Elem) (tag : String) : Option Elem := (e.all tag).head?

end Elem

/-- What TinyXML makes of the text: `Parse` returned null, `Error()`, `RootElement()`. -/
structure Doc where
  null : Bool := false
  error : Bool := false
  root : Option Elem

/-- transmission_info.h 57-63. The serialised element is modelled as the element. -/
structure JointInfo where
  name : String
  hwIfaces : List String
  role : String
  xml : Elem

/-- transmission_info.h 68-73. -/
structure ActuatorInfo where
  name : String
  hwIfaces : List String
  xml : Elem

/-- transmission_info.h 78-84. -/
structure TransInfo where
  name : String
  type : String
  joints : List JointInfo
  actuators : List ActuatorInfo

/-- transmission_parser.cpp 156-169 and 222-235: the texts of the hardware interface elements that have
one. -/
def hwIfaces (e : Elem) : List String := (e.all "hardwareInterface").filterMap Elem.text

/-- transmission_parser.cpp 127-184: the loop of `parseJoints`; `none`: returns false at once. -/
def parseJointList : List Elem → List JointInfo → Option (List JointInfo)
  | [], acc => some acc
  | e :: es, acc =>
    match e.attr "name" with
    -- 143-147
    | none => none
    | some name =>
      -- 137-141
      if name = "" then parseJointList es acc
      else
        -- 149-153
        let role := match e.first "role" with
          | none => ""
          | some r => r.text.getD ""
        let ifaces := hwIfaces e
        -- 170-175
        if ifaces.isEmpty then parseJointList es acc
        else parseJointList es (acc ++ [⟨name, ifaces, role, e⟩])

/-- transmission_parser.cpp 123-193: `parseJoints`; `none`: false. -/
def parseJoints (t : Elem) : Option (List JointInfo) :=
  match parseJointList (t.all "joint") [] with
  | none => none
  | some js => if js.isEmpty then none else some js

/-- transmission_parser.cpp 199-250: the loop of `parseActuators`. -/
def parseActuatorList : List Elem → List ActuatorInfo → Option (List ActuatorInfo)
  | [], acc => some acc
  | e :: es, acc =>
    match e.attr "name" with
    -- 215-219
    | none => none
    | some name =>
      -- 209-213
      if name = "" then parseActuatorList es acc
      else parseActuatorList es (acc ++ [⟨name, hwIfaces e, e⟩])

/-- transmission_parser.cpp 195-259: `parseActuators`. -/
def parseActuators (t : Elem) : Option (List ActuatorInfo) :=
  match parseActuatorList (t.all "actuator") [] with
  | none => none
  | some as => if as.isEmpty then none else some as

/-- transmission_parser.cpp 60-111: one turn of the loop of `parse`; `none`: `continue`. -/
def parseTransmission (t : Elem) : Option TransInfo :=
  match t.attr "name" with
  -- 72-76
  | none => none
  | some name =>
    -- 66-70
    if name = "" then none
    else
      match t.first "type" with
      -- 80-85
      | none => none
      | some ty =>
        match ty.text with
        -- 86-91
        | none => none
        | some type =>
          match parseJoints t with
          -- 95-100
          | none => none
          | some joints =>
            match parseActuators t with
            -- 103-108
            | none => none
            | some actuators => some ⟨name, type, joints, actuators⟩

/-- transmission_parser.cpp 57-113: the loop of `parse`. -/
def parseLoop : List Elem → List TransInfo → List TransInfo
  | [], acc => acc
  | t :: ts, acc =>
    match parseTransmission t with
    | none => parseLoop ts acc
    | some i => parseLoop ts (acc ++ [i])

/-- The outcome of `parse`: false, the transmissions found, or the dereference of a null pointer. -/
inductive Parsed
  | failed
  | ok (infos : List TransInfo)
  | nullDereference

/-- transmission_parser.cpp 42-121: `parse`, the vector of transmissions empty at first. -/
def parse (d : Doc) : Parsed :=
  -- 46-50
  if d.null && d.error then .failed
  else
    match d.root with
    -- 57: `root->FirstChildElement`
    | none => .nullDereference
    | some root => .ok (parseLoop (root.all "transmission") [])

end Verif.Transmission
