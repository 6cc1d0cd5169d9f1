import Verif.Model.SwitchRace

/-!
Vocabulary for the interleavings of `switchController` and `update`.
-/

namespace Verif.Race

/-- The controllers running at this moment. -/
def St.running (s : St) : List CtrlSpec := s.m.cur.filter fun c => s.m.isRunning c.c

/-- A restart is between its stop and its start. -/
def Rt.midRestart : Rt → Bool
  | .restarting _ _ => true
  | _ => false

/-- A request is being validated. -/
def SvcAt.validating : SvcAt → Bool
  | .scanning _ _ _ _ _ => true
  | _ => false

/-- The step avoids the three dangerous overlaps: the validation of a request does not look at a
controller while a restart is between its stop and its start, the wall-clock limit is not
reached, and there is no second concurrent call. -/
def careful (s : St) : Op → Bool
  | .svc => !(s.at_.validating && s.rt.midRestart)
  | .giveUp => false
  | .intrude => false
  | _ => true

/-- Every step of the execution is careful. -/
def carefulRun (conf : List ControllerInfo → Bool) (s : St) : List Op → Bool
  | [] => true
  | op :: ops => careful s op && carefulRun conf (step conf s op) ops

/-- Updates without restart, no wall-clock limit reached, one caller at a time. -/
def Op.plain : Op → Prop
  | .rt reset _ _ => reset = false
  | .giveUp => False
  | .intrude => False
  | _ => True

end Verif.Race
