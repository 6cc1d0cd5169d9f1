import Verif.Model.ToolsUtils
import Verif.Model.CommandLine

/-!
Model of the graphical front end: rqt_controller_manager/src/rqt_controller_manager/controller_manager.py
and update_combo.py, with `ControllerManagerLister` and `ControllerLister` of controller_manager_msgs
utils.py.

The front end runs in one thread; a step is the handling of one event (a timer, a choice of the user).
While the context menu is open, only timers are handled and its choice. Strings are lists of characters
where the code takes them apart.

Simplifications: what is not drawn in the table or sent to a manager (pop-up with claims, header menu,
fonts) is left out; the parameters and services do not change while one event is handled; settings are
not saved. Qt's combo box and rospy's service proxies are written out from their documentation.
-/

namespace Verif.Gui

open Mgr Tools

/-- Exceptions of the Python interpreter in the front end. -/
inductive Exn
  /-- `IndexError` -/
  | index
  /-- `KeyError` -/
  | key
  /-- `AttributeError`: a method of `None` is called -/
  | attribute
  /-- `TypeError`: `None` is called -/
  | type
  /-- `rospy.ServiceException` -/
  | service
deriving DecidableEq, Repr

/-- What the front end meets in the ROS system when it handles an event. -/
structure World where
  /-- `rosservice.get_service_list` -/
  services : Option (List (List Char))
  /-- `rosservice.get_service_type` -/
  typeOf : List Char → Option (List Char)
  /-- the parameters and their values (as strings) -/
  params : List (List Char × String)
  /-- the process that has advertised a service -/
  server : List Char → Option Nat
  /-- the process runs -/
  alive : Nat → Bool
  /-- the answer of `list_controllers` -/
  listing : Nat → List Entry

/-! ### Combo box -/

/-- `QComboBox` (not in the repository): the items and the current index, `none` for -1. -/
structure Combo where
  items : List (List Char)
  index : Option Nat
deriving DecidableEq

/-- `QComboBox::currentText` (not in the repository). -/
def Combo.text (c : Combo) : List Char := (c.index.bind fun i => c.items[i]?).getD []

/-- `QComboBox::setCurrentIndex` (not in the repository): an index out of range counts as -1. The second
component is the argument of the signal `currentIndexChanged[str]`, which is sent if the index changes. -/
def Combo.setIndex (c : Combo) (i : Option Nat) : Combo × Option (List Char) :=
  let i := i.filter (· < c.items.length)
  if i = c.index then (c, none) else (⟨c.items, i⟩, some (Combo.text ⟨c.items, i⟩))

/-- `QComboBox::clear` and `insertItems(0, vals)` (not in the repository): items inserted into an empty
combo box make the first one current. -/
def Combo.populate (vals : List (List Char)) : Combo := ⟨vals, if vals = [] then none else some 0⟩

/-- update_combo.py 59-66: `_is_permutation`. -/
def isPermutation (a b : List (List Char)) : Bool := a.length = b.length ∧ sortedStr a = sortedStr b

/-- update_combo.py 28-57: `update_combo`. The second component is the signal sent. (The slot runs before
the items are replaced; as it does not use the combo box, the order does not matter.) -/
def updateCombo (c : Combo) (new : List (List Char)) : Combo × Option (List Char) :=
  if isPermutation c.items new then (c, none)
  else
    match new.idxOf? c.text with
    | some i => (((Combo.populate new).setIndex (some i)).1, none)
    | none => (((Combo.populate new).setIndex none).1, (c.setIndex none).2)

/-! ### Names -/

/-- controller_manager.py 447-459: `_append_ns`. -/
def appendNs (ns suffix : List Char) : Except Exn (List Char) :=
  if ns = [] then .error .index
  else .ok ((if ns.getLast? = some '/' then ns else ns ++ ['/']) ++ suffix)

/-- The Python expression `s.rsplit('/', 1)[0]` (built into the language). -/
def beforeLastSlash (s : List Char) : List Char :=
  if '/' ∈ s then ((s.reverse.dropWhile (· ≠ '/')).drop 1).reverse else s

/-- controller_manager.py 419-444: `_resolve_controllers_ns`. -/
def resolveNs (cmNs : List Char) : List Char :=
  if beforeLastSlash cmNs = [] then beforeLastSlash cmNs ++ ['/'] else beforeLastSlash cmNs

/-- controller_manager.py 462-473: `_rosparam_controller_type`; `rospy.get_param` raises `KeyError` if there
is no such parameter. -/
def paramType (w : World) (ns name : List Char) : Except Exn String :=
  match appendNs ns name with
  | .error e => .error e
  | .ok p =>
    match w.params.lookup (p ++ "/type".toList) with
    | some t => .ok t
    | none => .error .key

/-! ### Service proxies -/

/-- `rospy.ServiceProxy(name, ..., persistent=True)` (not in the repository): it stays connected to the
process that had the service at its first call. -/
structure Proxy where
  name : List Char
  conn : Option Nat
deriving DecidableEq

/-- A call of a persistent proxy (rospy, not in the repository): the process that answers, or `none` for
`ServiceException`. A connection is never renewed. -/
def Proxy.call (w : World) (p : Proxy) : Option Nat × Proxy :=
  match p.conn with
  | some i => (if w.alive i then some i else none, p)
  | none =>
    match w.server p.name with
    | some i => if w.alive i then (some i, { p with conn := some i }) else (none, p)
    | none => (none, p)

/-- The name of a service of the manager in the namespace: controller_manager.py 179-199 with `_append_ns`,
utils.py 224 (where rospy removes the doubled slash for a manager in the root namespace). -/
def srvName (ns : List Char) (srv : String) : List Char := withSlash ns ++ srv.toList

/-- utils.py 231-246: `ControllerLister.__call__`. -/
def callLister (w : World) (p : Proxy) : List Entry × Proxy :=
  match p.call w with
  | (some i, p) => (w.listing i, p)
  | (none, _) =>
    match (⟨p.name, none⟩ : Proxy).call w with
    | (some i, p) => (w.listing i, p)
    | (none, p) => ([], p)

/-! ### The plugin -/

/-- controller_manager.py 56-135: the state of the plugin. `controllers` are those last listed, `table`
those in the table shown; `menu` is the controller for which the context menu is open; `managers` is the
list kept by `ControllerManagerLister`. -/
structure Gui where
  combo : Combo := ⟨[], none⟩
  managers : List (List Char) := []
  cmNs : List Char := []
  load : Option Proxy := none
  unload : Option Proxy := none
  switch : Option Proxy := none
  lister : Option Proxy := none
  controllers : List Entry := []
  table : List Entry := []
  menu : Option Entry := none
deriving DecidableEq

/-- controller_manager.py 210-234: the loop of `_list_controllers` over the names found on the parameter
server. -/
def addConfigs (w : World) (ns : List Char) : List (List Char) → List Entry → Except Exn (List Entry)
  | [], l => .ok l
  | n :: names, l =>
    if l.any fun c => c.name = String.ofList n then addConfigs w ns names l
    else
      match paramType w ns n with
      | .error e => .error e
      | .ok t => addConfigs w ns names (l ++ [⟨String.ofList n, t, "uninitialized", []⟩])

/-- controller_manager.py 210-234: `_list_controllers`, with the state of the lister's proxy afterwards. -/
def listAll (g : Gui) (w : World) : Except Exn (List Entry) × Option Proxy :=
  if g.cmNs = [] then (.ok [], g.lister)
  else
    match g.lister with
    | none => (.error .type, none)
    | some p =>
      match controllerNames (w.params.map (·.1)) (resolveNs g.cmNs) with
      | .error _ => (.error .index, some (callLister w p).2)
      | .ok names => (addConfigs w (resolveNs g.cmNs) names (callLister w p).1, some (callLister w p).2)

/-- controller_manager.py 201-208, 236-239: `_update_controllers` with `_show_controllers`. -/
def refresh (g : Gui) (w : World) : Gui × Option Exn :=
  match listAll g w with
  | (.error e, p) => ({ g with lister := p }, some e)
  | (.ok l, p) =>
    if g.controllers ≠ l then ({ g with lister := p, controllers := l, table := l }, none)
    else ({ g with lister := p }, none)

/-- controller_manager.py 166-199: `_on_cm_change` with `_set_cm_services`. -/
def onCmChange (g : Gui) (w : World) (ns : List Char) : Gui × Option Exn :=
  if ns = [] then
    ({ g with cmNs := ns, load := none, unload := none, switch := none, lister := none }, none)
  else
    refresh { g with
      cmNs := ns
      load := some ⟨srvName ns "load_controller", none⟩
      unload := some ⟨srvName ns "unload_controller", none⟩
      switch := some ⟨srvName ns "switch_controller", none⟩
      lister := some ⟨srvName ns "list_controllers", none⟩ } w

/-- A signal of the combo box calls `_on_cm_change` (controller_manager.py 134-135). -/
def onSignal (g : Gui) (w : World) : Option (List Char) → Gui × Option Exn
  | none => (g, none)
  | some ns => onCmChange g w ns

/-- controller_manager.py 163-164 with utils.py 194-203: `_update_cm_list` with
`ControllerManagerLister.__call__`. -/
def updateManagers (g : Gui) (w : World) : Gui × Option Exn :=
  let ms := controllerManagers w.services w.typeOf g.managers
  onSignal { g with managers := ms, combo := (updateCombo g.combo ms).1 } w (updateCombo g.combo ms).2

/-- The choice of the index `i` in the combo box. -/
def setCombo (g : Gui) (w : World) (i : Option Nat) : Gui × Option Exn :=
  onSignal { g with combo := (g.combo.setIndex i).1 } w (g.combo.setIndex i).2

/-- controller_manager.py 145-155: `restore_settings`; `saved` is the namespace saved. -/
def restore (g : Gui) (w : World) (saved : List Char) : Gui × Option Exn :=
  match updateManagers g w with
  | (g, some e) => (g, some e)
  | (g, none) =>
    match g.combo.items.idxOf? saved with
    | some i => setCombo g w (some i)
    | none => (g, none)

/-- The entries of the context menu (controller_manager.py 251-267). -/
inductive Action
  | stop | kill | start | unload | load | spawn
deriving DecidableEq, Repr

/-- controller_manager.py 251-267: the menu for a controller in this state. -/
def menuOf (state : String) : List Action :=
  if state = "running" then [.stop, .kill]
  else if state = "stopped" then [.start, .unload]
  else if state = "initialized" then [.start, .unload]
  else if state = "uninitialized" then [.load, .spawn]
  else []

/-- The requests sent to a manager (controller_manager.py 328-346; those to `switch_controller` are
strict). -/
inductive Req
  | load (n : String)
  | unload (n : String)
  | start (n : String)
  | stop (n : String)
deriving DecidableEq, Repr

/-- controller_manager.py 271-288: the requests for an entry of the menu. -/
def requests (n : String) : Action → List Req
  | .stop => [.stop n]
  | .kill => [.stop n, .unload n]
  | .start => [.start n]
  | .unload => [.unload n]
  | .load => [.load n]
  | .spawn => [.load n, .start n]

/-- What is seen of a step: a request answered by a process, or an exception. -/
inductive Out
  | sent (i : Nat) (r : Req)
  | raised (e : Exn)
deriving DecidableEq, Repr

/-- A call of a proxy that may be `None`. -/
def callProxy (w : World) : Option Proxy → Except Exn Nat × Option Proxy
  | none => (.error .attribute, none)
  | some p =>
    match p.call w with
    | (some i, p) => (.ok i, some p)
    | (none, p) => (.error .service, some p)

/-- controller_manager.py 328-346: `_load_controller`, `_unload_controller`, `_start_controller` and
`_stop_controller`. -/
def send (g : Gui) (w : World) : Req → Gui × Except Exn Nat
  | .load _ => ({ g with load := (callProxy w g.load).2 }, (callProxy w g.load).1)
  | .unload _ => ({ g with unload := (callProxy w g.unload).2 }, (callProxy w g.unload).1)
  | .start _ => ({ g with switch := (callProxy w g.switch).2 }, (callProxy w g.switch).1)
  | .stop _ => ({ g with switch := (callProxy w g.switch).2 }, (callProxy w g.switch).1)

/-- The requests of an action one after the other; an exception ends it. -/
def sendAll (g : Gui) (w : World) : List Req → Gui × List Out
  | [] => (g, [])
  | r :: rs =>
    match send g w r with
    | (g, .error e) => (g, [.raised e])
    | (g, .ok i) => ((sendAll g w rs).1, .sent i r :: (sendAll g w rs).2)

/-- The events. -/
inductive Ev
  /-- the timer for the list of managers -/
  | managers (w : World)
  /-- the timer for the list of controllers -/
  | controllers (w : World)
  /-- the user chooses an item of the combo box -/
  | select (i : Nat) (w : World)
  /-- the settings are restored -/
  | restore (saved : List Char) (w : World)
  /-- the user opens the context menu on a row of the table -/
  | openMenu (row : Nat)
  /-- the user chooses an entry of the menu, or closes it -/
  | choose (a : Option Action) (w : World)

/-- An exception as an observation. -/
def outOf (r : Gui × Option Exn) : Gui × List Out := (r.1, r.2.toList.map Out.raised)

/-- The handling of one event. controller_manager.py 241-288 is the context menu: the row is looked up when
it is opened, `menu.exec_` handles timers until the choice is made. -/
def step (g : Gui) : Ev → Gui × List Out
  | .managers w => outOf (updateManagers g w)
  | .controllers w => outOf (refresh g w)
  | .select i w => if g.menu = none then outOf (setCombo g w (some i)) else (g, [])
  | .restore saved w => if g.menu = none then outOf (restore g w saved) else (g, [])
  | .openMenu row =>
    if g.menu = none then
      if row < g.table.length then
        match g.controllers[row]? with
        | none => (g, [.raised .index])
        | some c => ({ g with menu := some c }, [])
      else (g, [])
    else (g, [])
  | .choose a w =>
    match g.menu with
    | none => (g, [])
    | some c =>
      match a with
      | none => ({ g with menu := none }, [])
      | some a => if a ∈ menuOf c.state then sendAll { g with menu := none } w (requests c.name a) else (g, [])

/-- The state after some events. -/
def run (g : Gui) (evs : List Ev) : Gui := evs.foldl (fun g e => (step g e).1) g

/-- controller_manager.py 101-106, 388-390: the icon of a controller in the table. -/
def icon (state : String) : Except Exn String :=
  match [("running", "led_green.png"), ("stopped", "led_red.png"), ("uninitialized", "led_off.png"),
      ("initialized", "led_red.png")].lookup state with
  | some i => .ok i
  | none => .error .key

/-! ### Effect of the requests -/

open Clients in
/-- controller_manager.py 328-346: a request as a call of the manager. -/
def Req.call (env : String → LoadEnv) (now : Int) (prepOk : Bool) : Req → Call
  | .load n => .load n (env n)
  | .unload n => .unload n
  | .start n => .switch ⟨[n], [], strictnessStrict, false, 0⟩ now prepOk
  | .stop n => .switch ⟨[], [n], strictnessStrict, false, 0⟩ now prepOk

open Clients in
/-- The requests are served one after the other; the answers are ignored. -/
inductive Performs (conf : List ControllerInfo → Bool) (errors : Bool) (env : String → LoadEnv) (prepOk : Bool) :
    List Req → Mgr → Mgr → Prop
  | nil (m) : Performs conf errors env prepOk [] m m
  | cons {r rs m now ok m1 m2} : Served conf errors m (r.call env now prepOk) ok m1 →
      Performs conf errors env prepOk rs m1 m2 → Performs conf errors env prepOk (r :: rs) m m2

end Verif.Gui
