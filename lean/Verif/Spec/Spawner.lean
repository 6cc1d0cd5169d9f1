import Verif.Model.Spawner

/-!
Vocabulary for C102: the spawner waits until it may load controllers.
-/

namespace Verif.Spawner

/-- The program with the given options after a history of events; it was started at the time `now`. -/
def after (a : Args) (controllers : List String) (now : Int) (is : List In) : St := (init now).steps a controllers is

/-- The service could be contacted at some moment of the history. -/
def Contacted (is : List In) (name : String) : Prop := ∃ w, In.run w ∈ is ∧ w.available name = true

/-- The last message on the topic. -/
def lastMessage (is : List In) : Option Bool :=
  is.foldl (fun b i => match i with | .message b' => some b' | _ => b) none

/-- ROS was not shut down during the history. -/
def NoShutdown (is : List In) : Prop := ∀ i ∈ is, i ≠ In.shutdown

/-- The number of steps of the main thread. -/
def runs (is : List In) : Nat := is.countP fun i => match i with | .run _ => true | _ => false

/-- The requests to load these controllers, with the answers. -/
def loadRequests (a : Args) (l : List (String × Bool)) : List Request :=
  l.map fun p => .load (a.serviceName .load) p.1 p.2

/-- The controllers whose request was answered with success. -/
def accepted (l : List (String × Bool)) : List String := (l.filter (·.2)).map (·.1)

/-- The time of the last step of the main thread; `now` if there was none. -/
def clock (now : Int) (is : List In) : Int := is.foldl (fun t i => match i with | .run w => w.now | _ => t) now

/-- One of the services could not be contacted, from some moment (`p`) on, for the whole time given by the limit. -/
def GaveUp (a : Args) (now : Int) (is : List In) : Prop :=
  ∃ v t p q w r, a.limit = some t ∧ is = p ++ q ++ In.run w :: r ∧ t ≤ w.now - clock now p ∧
    ∀ w', In.run w' ∈ q → w'.available (a.serviceName v) = false

/-- A step at which all services are there, and which comes within the time given by the limit. -/
def Good (a : Args) (now : Int) (w : World) : Prop :=
  (∀ v, w.available (a.serviceName v) = true) ∧ now ≤ w.now ∧ ∀ t, a.limit = some t → w.now < now + t

/-- All steps of the main thread are such steps. -/
def Prompt (a : Args) (now : Int) (is : List In) : Prop := ∀ w, In.run w ∈ is → Good a now w

/-- All three services have been contacted; with `--wait-for` moreover the last message was "True". -/
def Ready (a : Args) (is : List In) : Prop :=
  (∀ s, Contacted is (a.serviceName s)) ∧ (a.waits = true → lastMessage is = some true)

/-- "<=0 waits indefinitely" and "wait for controller_manager services indefinitely" (scripts/spawner 83-85): without a
limit the program does not end before ROS is shut down. -/
def WaitsForever : Prop :=
  ∀ (a : Args) (controllers : List String) (now : Int) (is : List In), a.noTimeout = true ∨ a.timeout ≤ 0 → NoShutdown is →
    (after a controllers now is).phase ≠ .gone ∧ (after a controllers now is).phase ≠ .crashed

/-- When ROS is shut down, the program ends after a number of steps that depends on the number of controllers only. -/
def EndsWhenAsked : Prop :=
  ∀ (a : Args) (controllers : List String) (now : Int) (is ws : List In), (∀ i ∈ ws, ∃ w, i = In.run w) →
    controllers.length + 5 ≤ ws.length →
    (after a controllers now (is ++ In.shutdown :: ws)).phase = .gone ∨
    (after a controllers now (is ++ In.shutdown :: ws)).phase = .crashed

end Verif.Spawner
