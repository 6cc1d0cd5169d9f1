import Verif.Model.Threads
import Verif.Spec.Clients

/-!
Vocabulary for calls by several threads.
-/

namespace Verif.Thr

open Mgr

/-- ROS is not shutting down during the step. -/
def ThrOp.rosUp : ThrOp → Prop
  | .go _ ok _ => ok.cond = true ∧ ok.body = true
  | _ => True

/-- The state after a history of calls, steps of threads and updates. -/
def after (conf : List ControllerInfo → Bool) (ops : List ThrOp) : St := ({} : St).run conf ops

/-- All calls are made through the services. -/
def ThrOp.service : ThrOp → Prop
  | .call _ srv _ => srv = true
  | _ => True

/-- Nobody reloads the libraries, and controllers are switched only through the service; loading, unloading and
looking up controllers may also be called directly. -/
def ThrOp.mild : ThrOp → Prop
  | .call _ srv c =>
    match c with
    | .reload _ _ _ => False
    | .switch _ _ _ => srv = true
    | _ => True
  | _ => True

/-- The operation sets no limit to the waiting. -/
def _root_.Verif.Op.noTimeout : Op → Prop
  | .switch r _ _ => r.timeout = 0
  | _ => True

/-- The operation sets no limit to the waiting. -/
def ThrOp.noTimeout : ThrOp → Prop
  | .call _ _ (.switch r _ _) => r.timeout = 0
  | _ => True

/-- States of a manager used by one thread. The only difference to `Verif.Reachable` is that parameters left over
by an earlier switch can be forgotten at any time while no switch is waiting (controller_manager.cpp 440, which
every switch begins with, happens before the lock is taken). With `pt` no switch has a timeout. -/
inductive Serial (conf : List ControllerInfo → Bool) (pt : Bool) : Mgr → Prop
  | init : Serial conf pt .init
  | step {m : Mgr} {o : Op} : Serial conf pt m → o.rosUp → (pt = true → o.noTimeout) → Serial conf pt (m.step conf o)
  | forget {m : Mgr} : Serial conf pt m → ¬ m.Switching → Serial conf pt { m with params := {} }

/-- The thread is busy with a call. -/
def Busy (s : St) (t : Tid) : Prop := s.pos t ≠ .idle

/-- The thread holds `services_lock_`. -/
def InService : Pos → Bool
  | .entered srv _ => srv
  | .beforeSwitch srv _ _ _ _ => srv
  | .atSwitch srv _ _ _ _ => srv
  | .atUnload _ _ => true
  | .atEnd => true
  | .atLoaders _ => true
  | .inside srv _ => srv
  | _ => false

/-- The thread holds `controllers_lock_` between two steps. -/
def Inside : Pos → Bool
  | .inside _ _ => true
  | _ => false

/-- The manager looks as if one thread had made all calls, one after the other: same events, same controllers in the
same order, same states. -/
def LikeOneThread (conf : List ControllerInfo → Bool) (s : St) : Prop :=
  ∃ m, Verif.Reachable conf m ∧ m.trace = s.mgr.trace ∧ m.cur = s.mgr.cur ∧ m.state = s.mgr.state

/-- The same with `Serial`. -/
def LikeSerial (conf : List ControllerInfo → Bool) (s : St) : Prop :=
  ∃ m, Serial conf false m ∧ m.trace = s.mgr.trace ∧ m.cur = s.mgr.cur ∧ m.state = s.mgr.state

/-- C94 in full: several threads can use the manager as if it was their own. -/
def ThreadSafe (conf : List ControllerInfo → Bool) : Prop :=
  ∀ ops : List ThrOp, (∀ op ∈ ops, op.rosUp) → (∀ op ∈ ops, op.noTimeout) → LikeOneThread conf (after conf ops)

/-- The results that threads have got, in the order in which they got them. -/
def results (s : St) : List Event :=
  s.answers.filterMap fun a => match a.2 with | .ret e => some e | .names _ => none

/-- The answer is one to this call. -/
def Fits : Call → Answer → Bool
  | .load n _, .ret (.loadRet n' _) => n' == n
  | .unload n, .ret (.unloadRet n' _) => n' == n
  | .switch _ _ _, .ret (.switchRet _) => true
  | .reload _ _ _, .ret (.reloadRet _) => true
  | .names, .names _ => true
  | _, _ => false

/-- The answers that a thread has got, oldest first. -/
def answersOf (s : St) (t : Tid) : List Answer := (s.answers.filter (·.1 == t)).map (·.2)

/-- The call that a thread makes by an operation: a busy thread makes none, and libraries are reloaded only through
the service. -/
def begins (s : St) (t : Tid) : ThrOp → Option Call
  | .call t' srv c =>
    if t' ≠ t then none
    else match s.pos t, srv, c with
      | .idle, false, .reload _ _ _ => none
      | .idle, _, c => some c
      | _, _, _ => none
  | _ => none

/-- The calls that a thread makes in a history, oldest first. -/
def calls (conf : List ControllerInfo → Bool) (t : Tid) : St → List ThrOp → List Call
  | _, [] => []
  | s, op :: ops => (begins s t op).toList ++ calls conf t (s.step conf op) ops

/-- The state of an infinite execution before its step `n`. -/
def stateAt (conf : List ControllerInfo → Bool) (σ : Nat → ThrOp) (n : Nat) : St := after conf ((List.range n).map σ)

/-- An infinite execution in which ROS is running, every thread that is busy makes a step some time (which may be
that it still does not get its lock: the scheduler need not be kind), and the realtime thread updates again and again with
hardware that has come to a result. In between there may be updates with other hardware. -/
structure Fair (conf : List ControllerInfo → Bool) (σ : Nat → ThrOp) : Prop where
  up : ∀ n, (σ n).rosUp
  threads : ∀ n t, Busy (stateAt conf σ n) t → ∃ m, n ≤ m ∧ ∃ ok el, σ m = .go t ok el
  updates : ∀ n, ∃ m, n ≤ m ∧ ∃ time reset hw, σ m = .update time reset hw ∧ Spec.Settled hw

/-- In step `n` of the execution a call returns. -/
def Returns (conf : List ControllerInfo → Bool) (σ : Nat → ThrOp) (n : Nat) : Prop :=
  ∃ t a, Busy (stateAt conf σ n) t ∧ ¬ Busy (stateAt conf σ (n + 1)) t ∧
    (stateAt conf σ (n + 1)).answers = (stateAt conf σ n).answers ++ [(t, a)]

end Verif.Thr
