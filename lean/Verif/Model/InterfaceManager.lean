import Verif.Model.Resources

/-!
Interface manager: hardware_interface/include/hardware_interface/internal/interface_manager.h.

Simplifications. C++ types are represented by their demangled names. Interface objects live in
a heap and are named by identifiers; registered pointers are never null. Sub-managers are held
by value, so managers form finite trees: one sub-manager is not shared by two parents and there
are no cycles (a cycle makes the C++ recursion of `get` diverge).
-/

namespace Verif

/-- Identity of an interface object (its address). -/
abbrev ObjId := Nat

/-- What `CheckIsResourceManager<T>` (interface_manager.h 50-107) and the class definition
decide per type: whether the type is a `ResourceManager`, and its claim policy
(hardware_resource_manager.h 117-125). -/
structure TypeEnv where
  isRM : String → Bool
  claiming : String → Bool

/-- Interface objects in memory. Identifiers from `next` upwards are unallocated. -/
structure Heap where
  objs : ObjId → Iface
  next : ObjId

/-- Store to one object (plumbing). -/
def Heap.set (h : Heap) (o : ObjId) (v : Iface) : Heap :=
  { h with objs := fun i => if i = o then v else h.objs i }

/-- `new T` (plumbing). -/
def Heap.alloc (h : Heap) (v : Iface) : ObjId × Heap :=
  (h.next, { objs := fun i => if i = h.next then v else h.objs i, next := h.next + 1 })

/-- interface_manager.h 301-314: the members of `InterfaceManager`.
`ifaces` is `interfaces_`, `combo` is `interfaces_combo_`, `num` is
`num_ifaces_registered_`, `resources` is `resources_`, `subs` is `interface_managers_`. -/
inductive IMan
  | node (ifaces combo : List (String × ObjId)) (num : List (String × Nat))
      (resources : List (String × List String)) (subs : List IMan)

namespace IMan

/-- A freshly constructed manager. -/
def empty : IMan := node [] [] [] [] []

/-- interface_manager.h 138-147: `registerInterface<T>(iface)`. The snapshot of the resource
names taken by `callGetResources` (63-80) is only taken for resource managers; otherwise
`resources_[T]` is merely created if absent. -/
def registerInterface (env : TypeEnv) (T : String) (o : ObjId) (h : Heap) : IMan → IMan
  | node i c n r s =>
    node (smapInsert T o i) c n
      (smapInsert T (if env.isRM T then (h.objs o).getNames else (smapFind T r).getD []) r) s

/-- interface_manager.h 157-160: `registerInterfaceManager`. -/
def registerInterfaceManager (m : IMan) : IMan → IMan
  | node i c n r s => node i c n r (s ++ [m])

mutual

/-- interface_manager.h 183-239: `get<T>()`. Returns the pointer (`none` = nullptr), the
manager with its caches updated, and the heap. -/
def get (env : TypeEnv) (T : String) : IMan → Heap → Option ObjId × IMan × Heap
  | node i c n r s, h =>
    let (l, s', h') := getSubs env T s h
    let ifaceList := (smapFind T i).toList ++ l
    match ifaceList with
    | [] => (none, node i c n r s', h')
    | [o] => (some o, node i c n r s', h')
    | _ :: _ :: _ =>
      match smapFind T c with
      | some o =>
        if (smapFind T n).getD 0 = ifaceList.length then
          (some o, node i c n r s', h')
        else if env.isRM T then
          let v := Iface.concatManagers (ifaceList.map h'.objs) { claiming := env.claiming T }
          let (o', h'') := h'.alloc v
          (some o', node i (smapInsert T o' c) (smapInsert T ifaceList.length n) r s', h'')
        else (none, node i c n r s', h')
      | none =>
        if env.isRM T then
          let v := Iface.concatManagers (ifaceList.map h'.objs) { claiming := env.claiming T }
          let (o', h'') := h'.alloc v
          (some o', node i (smapInsert T o' c) (smapInsert T ifaceList.length n) r s', h'')
        else (none, node i c n r s', h')

/-- interface_manager.h 201-205: the loop over the sub-managers; null results are dropped. -/
def getSubs (env : TypeEnv) (T : String) : List IMan → Heap → List ObjId × List IMan × Heap
  | [], h => ([], [], h)
  | m :: ms, h =>
    let (r, m', h') := get env T m h
    let (l, ms', h'') := getSubs env T ms h'
    (r.toList ++ l, m' :: ms', h'')

end

mutual

/-- interface_manager.h 250-272: `getNames`. -/
def getNames : IMan → List String
  | node i _ _ _ s => getNamesSubs s (smapKeys i)

/-- interface_manager.h 259-269: the loop over the sub-managers. -/
def getNamesSubs : List IMan → List String → List String
  | [], out => out
  | m :: ms, out =>
    getNamesSubs ms
      ((getNames m).foldl (fun out x => if x ∈ out then out else out ++ [x]) out)

end

mutual

/-- interface_manager.h 283-299: `getInterfaceResources`. -/
def getInterfaceResources (T : String) : IMan → List String
  | node _ _ _ r s => (smapFind T r).getD [] ++ getInterfaceResourcesSubs T s

/-- interface_manager.h 292-296: the loop over the sub-managers. -/
def getInterfaceResourcesSubs (T : String) : List IMan → List String
  | [] => []
  | m :: ms => getInterfaceResources T m ++ getInterfaceResourcesSubs T ms

end

mutual

/-- A call made on the manager at position `path` of the tree (plumbing: path `k :: p` is
position `p` of the `k`-th sub-manager). -/
def modifyAt (f : IMan → IMan) : List Nat → IMan → IMan
  | [], m => f m
  | k :: p, node i c n r s => node i c n r (modifySubs f k p s)

/-- Plumbing of `modifyAt`. -/
def modifySubs (f : IMan → IMan) : Nat → List Nat → List IMan → List IMan
  | _, _, [] => []
  | 0, p, m :: ms => modifyAt f p m :: ms
  | k + 1, p, m :: ms => m :: modifySubs f k p ms

end

end IMan

/-- A manager tree together with the memory its interfaces live in. -/
structure IWorld where
  root : IMan
  heap : Heap

/-- Client calls on a manager tree and on the interface objects. -/
inductive IOp
  /-- `registerInterface<T>(o)` on the manager at `path`. -/
  | registerInterface (path : List Nat) (T : String) (o : ObjId)
  /-- `registerInterfaceManager(m)` on the manager at `path`, `m` fresh. -/
  | registerManager (path : List Nat)
  /-- construction of a new interface object of type `T` by the client. -/
  | newIface (T : String)
  /-- `registerHandle` on an existing interface object. -/
  | registerHandle (o : ObjId) (hd : Handle)
  /-- `get<T>()` on the root manager. -/
  | get (T : String)

/-- Effect of one client call (dispatch to the functions above). -/
def IWorld.step (env : TypeEnv) (w : IWorld) : IOp → IWorld
  | .registerInterface p T o =>
    if o < w.heap.next then
      { w with root := IMan.modifyAt (IMan.registerInterface env T o w.heap) p w.root }
    else w
  | .registerManager p =>
    { w with root := IMan.modifyAt (IMan.registerInterfaceManager .empty) p w.root }
  | .newIface T => { w with heap := (w.heap.alloc { claiming := env.claiming T }).2 }
  | .registerHandle o hd =>
    if o < w.heap.next then
      { w with heap := w.heap.set o ((w.heap.objs o).registerHandle hd) }
    else w
  | .get T =>
    let (_, m, h) := w.root.get env T w.heap
    ⟨m, h⟩

/-- Initial world: one empty manager, no interface objects. -/
def IWorld.init : IWorld := ⟨.empty, ⟨fun _ => {}, 0⟩⟩

/-- A history of client calls. -/
def IWorld.run (env : TypeEnv) (w : IWorld) (ops : List IOp) : IWorld := ops.foldl (IWorld.step env) w

end Verif
