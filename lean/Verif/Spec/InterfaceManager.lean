import Verif.Model.InterfaceManager

/-!
Specification of interface lookup: all registrations of a type in the tree, in the order
"own first, then sub-managers in registration order".
-/

namespace Verif.Spec

mutual

/-- Every object registered under type `T` in a manager tree. -/
def registered (T : String) : IMan → List ObjId
  | .node i _ _ _ s => (smapFind T i).toList ++ registeredSubs T s

/-- Same, for a list of trees. -/
def registeredSubs (T : String) : List IMan → List ObjId
  | [] => []
  | m :: ms => registered T m ++ registeredSubs T ms

end

/-- The handle called `name` that a group of interface objects offers: that of the last object
of the group that has one. -/
def offered (objs : ObjId → Iface) (group : List ObjId) (name : String) : Option Handle :=
  group.reverse.findSome? fun o => smapFind name (objs o).handles

mutual

/-- No `get` was ever answered with a combination of several interfaces. -/
def NoCache : IMan → Prop
  | .node _ c _ _ s => c = [] ∧ NoCacheSubs s

/-- Same, for a list of trees. -/
def NoCacheSubs : List IMan → Prop
  | [] => True
  | m :: ms => NoCache m ∧ NoCacheSubs ms

end

end Verif.Spec

namespace Verif.Spec

/-- Names of the resources a group of interface objects offers, object by object. -/
def namesOf (objs : ObjId → Iface) (group : List ObjId) : List String :=
  group.flatMap fun o => (objs o).getNames

mutual

/-- Every object registered in a manager tree under whatever type. -/
def allRegistered : IMan → List ObjId
  | .node i _ _ _ s => i.map (·.2) ++ allRegisteredSubs s

/-- Same, for a list of trees. -/
def allRegisteredSubs : List IMan → List ObjId
  | [] => []
  | m :: ms => allRegistered m ++ allRegisteredSubs ms

end

/-- The number of sub-managers that have something of type `T`. -/
def providersSubs (T : String) : List IMan → Nat
  | [] => 0
  | m :: ms => (if registered T m = [] then 0 else 1) + providersSubs T ms

/-- The number of direct providers of type `T`: the manager itself and its sub-managers that have something of this type. -/
def providers (T : String) : IMan → Nat
  | .node i _ _ _ s => (smapFind T i).toList.length + providersSubs T s

mutual

/-- The combinations that managers keep. -/
def combinations : IMan → List ObjId
  | .node _ c _ _ s => c.map (·.2) ++ combinationsSubs s

/-- Same, for a list of trees. -/
def combinationsSubs : List IMan → List ObjId
  | [] => []
  | m :: ms => combinations m ++ combinationsSubs ms

end

/-- An interface of type `T` that is registered at `path` is a further provider: the manager there has none of this type yet,
and on the way to it, each sub-manager has none yet, or is the only one that has any. -/
def addsProvider (T : String) : List Nat → IMan → Bool
  | [], .node i _ _ _ _ => (smapFind T i).isNone
  | k :: p, .node i c n r s =>
    match s[k]? with
    | none => true
    | some m => decide (registered T m = [] ∨ registered T m = registered T (.node i c n r s)) && addsProvider T p m

/-- In the history `ops` from `w` on, interfaces that can be combined are only added where they are further providers, and no
resource is added to an interface that is registered or to a combination. -/
def growing (env : TypeEnv) (w : IWorld) : List IOp → Bool
  | [] => true
  | op :: ops =>
    (match op with
      | .registerInterface p T _ => !env.isRM T || addsProvider T p w.root
      | .registerHandle o _ => decide (o ∉ allRegistered w.root ∧ o ∉ combinations w.root)
      | _ => true) && growing env (w.step env op) ops

/-- In the history `ops` from `w` on, no resource is added to an interface object that is
registered in the tree at that moment: interfaces are registered when they are complete. -/
def completeFirst (env : TypeEnv) (w : IWorld) : List IOp → Bool
  | [] => true
  | op :: ops =>
    (match op with
      | .registerHandle o _ => decide (o ∉ allRegistered w.root)
      | _ => true) && completeFirst env (w.step env op) ops

end Verif.Spec
