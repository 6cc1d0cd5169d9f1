/-!
The two controller lists shared by the service thread and the realtime thread, at the
granularity of single accesses to the shared variables
(controller_manager/src/controller_manager.cpp 66-90, 229-433;
controller_manager.h 207-218).

Simplifications: accesses are sequentially consistent (the code uses plain `int`s); the
elements of the lists are opaque; `controllers_lock_` admits one service call at a time;
`ros::ok()` is true. Going through a list in the realtime thread is a phase (`iterating`)
that lasts from the assignment of `used_by_realtime_` to the end of `update`; changing a list
in the service thread is a phase (`building`, `clearing`).
-/

namespace Verif.DoubleBuffer

/-- Position of the realtime thread. -/
inductive Rt
  /-- outside `update` -/
  | idle
  /-- controller_manager.cpp 68: has read `current_controllers_list_`, has not yet written
  `used_by_realtime_` -/
  | haveRead (r : Bool)
  /-- controller_manager.cpp 71-89: going through `controllers_lists_[used_by_realtime_]` -/
  | iterating
deriving DecidableEq, Repr

/-- Position of the service thread. The free list is always `!current`: only this thread writes
`current_controllers_list_`. -/
inductive Svc
  | idle
  /-- controller_manager.cpp 237-245 and 375-383: waiting for the free list -/
  | waitFree
  /-- controller_manager.cpp 246-347 and 384-413: clearing and filling the free list -/
  | building
  /-- controller_manager.cpp 351-359 and 418-426: published, waiting for the former list -/
  | waitFormer
  /-- controller_manager.cpp 360 and 428: clearing the former list -/
  | clearing
deriving DecidableEq, Repr

/-- The shared variables and the positions of the two threads. `used = none` is -1. The last two
fields are bookkeeping for the specification: what the realtime thread found in the list when
it started to go through it, and every list content ever published. -/
structure St (α : Type) where
  lists : Bool → List α
  current : Bool
  used : Option Bool
  rt : Rt
  svc : Svc
  seen : List α
  published : List (List α)

/-- One access or phase change of one of the threads. -/
inductive Op (α : Type)
  /-- controller_manager.cpp 68, right-hand side -/
  | rtRead
  /-- controller_manager.cpp 68, assignment -/
  | rtUse
  /-- end of `update` -/
  | rtDone
  /-- a service call gets the lock -/
  | svcBegin
  /-- one evaluation of the loop condition in 238, 353, 376 or 420 -/
  | svcPoll
  /-- any change of the free list -/
  | svcWrite (l : List α)
  /-- a return before the new list is published (257-339, 393-413) -/
  | svcAbort
  /-- controller_manager.cpp 352 and 419 -/
  | svcPublish
  /-- controller_manager.cpp 360 and 428, and the return -/
  | svcClear

/-- Write to one of the lists (plumbing). -/
def St.write {α : Type} (s : St α) (i : Bool) (l : List α) : St α :=
  { s with lists := fun j => if j = i then l else s.lists j }

/-- One step; `none` if the thread is at another place. -/
def step {α : Type} (s : St α) : Op α → Option (St α)
  -- 68
  | .rtRead => if s.rt = .idle then some { s with rt := .haveRead s.current } else none
  -- 68, and the first read of the list in 72 or 82
  | .rtUse =>
    match s.rt with
    | .haveRead r => some { s with used := some r, rt := .iterating, seen := s.lists r }
    | _ => none
  -- 90
  | .rtDone => if s.rt = .iterating then some { s with rt := .idle } else none
  -- 234, 372
  | .svcBegin => if s.svc = .idle then some { s with svc := .waitFree } else none
  | .svcPoll =>
    match s.svc with
    -- 238, 376
    | .waitFree =>
      if s.used = some (!s.current) then some s else some { s with svc := .building }
    -- 353, 420
    | .waitFormer =>
      if s.used = some (!s.current) then some s else some { s with svc := .clearing }
    | _ => none
  -- 249-253, 262, 342-347, 387-404
  | .svcWrite l => if s.svc = .building then some (s.write (!s.current) l) else none
  -- 257-339, 393-413
  | .svcAbort => if s.svc = .building then some { s with svc := .idle } else none
  -- 351-352, 418-419
  | .svcPublish =>
    if s.svc = .building then
      some { s with current := !s.current, svc := .waitFormer,
                    published := s.lists (!s.current) :: s.published }
    else none
  -- 360-363, 428-432
  | .svcClear =>
    if s.svc = .clearing then some { (s.write (!s.current) []) with svc := .idle } else none

/-- An execution; `none` if it contains a step that is not possible. -/
def run {α : Type} (s : St α) : List (Op α) → Option (St α)
  | [] => some s
  | op :: ops =>
    match step s op with
    | none => none
    | some s' => run s' ops

/-- The state after construction (controller_manager.h 211-215, controller_manager.cpp 45-62). -/
def init (α : Type) : St α where
  lists := fun _ => []
  current := false
  used := none
  rt := .idle
  svc := .idle
  seen := []
  published := [[]]

end Verif.DoubleBuffer
