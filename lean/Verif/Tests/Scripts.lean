import Verif.Props.ReportsOutput

/-!
controller_manager_tests/test/controller_manager_scripts.py and controller_manager_interface_test.py against the model.

Every call of a script is a relation between the manager before and after it, so the tests are shown to pass in every
execution: whatever the realtime loop does while the scripts run (the hardware refuses nothing and reports no error, as
`MyRobotHW` does).
-/

namespace Verif.Tests.Scripts

open Mgr Spec Clients

/-- The interface of the controllers. -/
def ej : String := "hardware_interface::EffortJointInterface"

/-- The type of the controllers. -/
def ty : String := "controller_manager_tests/EffortTestController"

/-- controller_manager_scripts.test 2-10, effort_test_controller.cpp 38-50: what the controllers claim. -/
def claims (n : String) : Option (List InterfaceResources) :=
  if n = "my_controller1" ∨ n = "my_controller2" then some [⟨ej, ["hiDOF_joint1", "hiDOF_joint2"]⟩]
  else if n = "my_controller3" then some [⟨ej, ["hiDOF_joint3"]⟩]
  else none

/-- What the manager meets when it loads a controller. -/
def env (n : String) : LoadEnv := ⟨true, (claims n).map fun _ => ty, [⟨[ty], fun _ => .object⟩], claims n⟩

/-- The controllers that can be loaded. -/
def loads (n : String) : Option (String × List InterfaceResources) := (claims n).map fun c => (ty, c)

theorem tells : Tells env loads := by
  intro n t c
  unfold ListedLoadable
  have h0 : ¬ Listed [] n := by rintro ⟨e, he, _⟩; cases he
  simp only [loads, env, Option.map_eq_some_iff, Prod.mk.injEq]
  constructor
  · rintro ⟨c', hc, rfl, rfl⟩
    exact ⟨h0, trivial, ⟨_, hc, rfl⟩, ⟨0, ⟨_, rfl, by simp [Gives]⟩, fun j hj => (by omega)⟩, hc⟩
  · rintro ⟨_, _, ⟨c', _, rfl⟩, _, hc⟩
    exact ⟨c, hc, rfl, rfl⟩

/-- The parameter `controller_groups` (controller_manager_scripts.test 11-20). -/
def groups : List (String × List String) :=
  [("group1", ["my_controller1", "my_controller3"]), ("group2", ["my_controller2", "my_controller3"]),
    ("group3", ["my_controller1", "my_controller2"])]

/-- An entry of the listing. -/
def e (n : String) (s : String) : Entry := ⟨n, ty, s, (claims n).getD []⟩

/-- `run_cm`: the program prints `out`. -/
def Cm (args : List String) (m : Mgr) (out : String) (m' : Mgr) : Prop :=
  ∃ lines, ToolPrints checkForConflict false env [ty] (fun _ => true) true true ("controller_manager" :: args) m 0 lines m' ∧
    out = output lines

/-- `run_cg`. -/
def Cg (args : List String) (m : Mgr) (out : String) (m' : Mgr) : Prop :=
  ∃ lines, GroupTool checkForConflict false env groups (fun _ => true) true args m lines m' ∧ out = output lines

/-- The manager waits for requests and has this listing. -/
def At (m : Mgr) (l : List Entry) : Prop := Reachable checkForConflict m ∧ m.svc = .idle ∧ m.listControllers = l

theorem performs_idle {conf errors env prep as ls} {m m' : Mgr} (hp : Performs conf errors env prep as m ls m')
    (hi : m.svc = .idle) : m'.svc = .idle := by
  induction hp with
  | nil m => exact hi
  | cons hd _ ih => exact ih (Does.idle hd).2

theorem at_cmd {cmd names m out m' l} (h : At m l) (hc : cmd ∈ ["load", "unload", "start", "stop", "sp", "spawn", "kl", "kill"])
    (ht : Cm (cmd :: names) m out m') :
    At m' (outcomes checkForConflict loads (fun _ => true) (requestsOf cmd names) l).2 ∧
    out = output (outcomes checkForConflict loads (fun _ => true) (requestsOf cmd names) l).1 := by
  obtain ⟨hr, hi, rfl⟩ := h
  obtain ⟨lines, ht, rfl⟩ := ht
  obtain ⟨_, e⟩ := c104_output_partial tells hr hc ht
  have key : Performs checkForConflict false env (fun _ => true) (requestsOf cmd names) m lines m' := by
    simp only [List.mem_cons, List.not_mem_nil, or_false] at hc
    rcases hc with rfl | rfl | rfl | rfl | rfl | rfl | rfl | rfl <;> exact ht.2
  rw [← e]
  exact ⟨⟨performs_reachable key hr, performs_idle key hi, rfl⟩, rfl⟩

theorem singleton_of {is : List String} {a : String} (hn : is.Nodup) (h : ∀ i, i ∈ is ↔ a = i) : is = [a] := by
  cases is with
  | nil => have := (h a).2 rfl; cases this
  | cons x xs =>
    have hx := (h x).1 List.mem_cons_self
    subst hx
    cases xs with
    | nil => rfl
    | cons y ys =>
      have hy := (h y).1 (by simp)
      subst hy
      simp at hn

/-- Every controller claims resources of the one interface. -/
def plain (l : List Entry) : Bool := l.all fun x => x.claimed.map (·.hardwareInterface) == [ej]

theorem plain_iff {l : List Entry} : plain l = true ↔ ∀ x ∈ l, ∃ rs, x.claimed = [⟨ej, rs⟩] := by
  unfold plain
  simp only [List.all_eq_true, beq_iff_eq]
  refine forall_congr' fun x => forall_congr' fun _ => ?_
  constructor
  · intro h
    match hx : x.claimed, h with
    | [⟨i, rs⟩], h => exact ⟨rs, by simpa using h⟩
  · rintro ⟨rs, h⟩
    rw [h]; rfl

theorem entries_of {l : List Entry} {lines : List Line} (hl : ∀ x ∈ l, ∃ rs, x.claimed = [⟨ej, rs⟩])
    (h : List.Forall₂ (fun (e : Entry) (li : Line) => ∃ is, li = .entry e.name is e.state ∧ is.Nodup ∧
      ∀ i, i ∈ is ↔ ∃ r ∈ e.claimed, r.hardwareInterface = i) l lines) :
    lines = l.map fun x => .entry x.name [ej] x.state := by
  induction h with
  | nil => rfl
  | @cons a b as bs hab _ ih =>
    obtain ⟨is, rfl, h1, h2⟩ := hab
    obtain ⟨rs, hc⟩ := hl a List.mem_cons_self
    rw [hc] at h2
    rw [singleton_of (a := ej) h1 (fun i => by rw [h2 i]; simp), ih (fun x hx => hl x (List.mem_cons_of_mem _ hx))]
    rfl

theorem at_list {m out m' l} (h : At m l) (hl : plain l = true) (ht : Cm ["list"] m out m') :
    At m' l ∧ out = output (if l = [] then [.noControllers] else l.map fun x => .entry x.name [ej] x.state) := by
  obtain ⟨hr, hi, rfl⟩ := h
  obtain ⟨lines, ht, rfl⟩ := ht
  obtain ⟨e1, e2, e3⟩ := c104_list hr hi (by simp) ht
  obtain ⟨_, ⟨before, hb, rfl⟩, _⟩ : (0 : Nat) = 0 ∧ (∃ before : List Op, (∀ op ∈ before, op.background false) ∧
      m' = m.run checkForConflict before) ∧ ListLines m'.listControllers lines := ht
  obtain ⟨r, i, e0⟩ := background_listing hr hi hb
  refine ⟨⟨r, i, e0⟩, ?_⟩
  congr 1
  by_cases hn : m.listControllers = []
  · rw [if_pos hn, e2 hn]
  · rw [if_neg hn]
    exact entries_of (plain_iff.1 hl) (e3 hn)

/-- `rosrun controller_manager spawner n`, until it waits for its end. -/
theorem at_spawner {n m loaded m' l} (h : At m l)
    (hs : Spawns checkForConflict false env false true [n] m loaded m') :
    let a := afterLoad loads l n
    a.1 = true → loaded = [n] ∧ At m' (afterSwitch checkForConflict true a.2 [n] []).2 := by
  intro a ha
  obtain ⟨hr, hi, rfl⟩ := h
  obtain ⟨m1, hl, hs⟩ := hs
  rw [if_neg (by simp)] at hs
  obtain ⟨now, ok, hs⟩ := hs
  cases hl with
  | ok hl hl' =>
    cases hl'
    have e := served_afterLoad tells hr hl
    have r1 := hl.reachable hr
    have es := startStop_afterSwitch r1 ⟨now, hs⟩
    refine ⟨rfl, hs.reachable r1, ?_, ?_⟩
    · obtain ⟨_, _, _, _, _, _, hh, _⟩ := hs; exact hh
    · show m'.listControllers = (afterSwitch checkForConflict true (afterLoad loads m.listControllers n).2 [n] []).2
      rw [← e, ← es]
  | failed hl hl' =>
    have e := served_afterLoad tells hr hl
    change (afterLoad loads m.listControllers n).1 = true at ha
    rw [← e] at ha
    cases ha

/-- The spawner of `n` is killed. -/
theorem at_spawner_killed {n m m' l} (h : At m l) (hs : Shutdown checkForConflict false [n] true m m') :
    At m' (afterUnload (afterSwitch checkForConflict true l [] [n]).2 n).2 := by
  obtain ⟨hr, hi, rfl⟩ := h
  obtain ⟨now, ok, m1, hs, hu⟩ := hs
  have r1 := hs.reachable hr
  have es := startStop_afterSwitch hr ⟨now, hs⟩
  cases hu with
  | cons hu hu' =>
    cases hu'
    have eu := served_afterUnload r1 hu
    refine ⟨hu.reachable r1, ?_, ?_⟩
    · obtain ⟨_, _, _, _, _, _, hh, _⟩ := hu; exact hh
    · rw [← es, ← eu]

theorem loadMissing_idle {conf errors env known ns ok ls} {m m' : Mgr}
    (hm : LoadMissingPrints conf errors env known ns m ok ls m') (hi : m.svc = .idle) : m'.svc = .idle := by
  induction hm with
  | nil m => exact hi
  | known _ _ ih => exact ih hi
  | loaded _ hs _ ih => exact ih (by obtain ⟨_, _, _, _, _, _, hh, _⟩ := hs; exact hh)
  | cancel _ hs => obtain ⟨_, _, _, _, _, _, hh, _⟩ := hs; exact hh

theorem at_group {args m out m' l} (h : At m l) (hg : Cg args m out m') : Reachable checkForConflict m' ∧ m'.svc = .idle := by
  obtain ⟨hr, hi, rfl⟩ := h
  obtain ⟨lines, hg, _⟩ := hg
  unfold GroupTool at hg
  split at hg
  · obtain ⟨rfl, _⟩ := hg; exact ⟨hr, hi⟩
  · obtain ⟨d, o, _, hg⟩ := hg
    split at hg
    · obtain ⟨rfl, _⟩ := hg; exact ⟨hr, hi⟩
    · exact ⟨performs_reachable hg hr, performs_idle hg hi⟩
  · obtain ⟨d, o, _, hg⟩ := hg
    split at hg
    · obtain ⟨rfl, _⟩ := hg; exact ⟨hr, hi⟩
    · obtain ⟨ok, before, hb, listing, rfl, loadsOk, ls, m1, hm, hs⟩ := hg
      obtain ⟨h0, hi0, e0⟩ := background_listing hr hi hb
      have r1 := (loadMissing_lines hm h0).1
      have i1 := loadMissing_idle hm hi0
      cases loadsOk with
      | true =>
        obtain ⟨⟨now, hs⟩, _⟩ := hs
        refine ⟨hs.reachable r1, ?_⟩
        obtain ⟨_, _, _, _, _, _, hh, _⟩ := hs; exact hh
      | false =>
        obtain ⟨_, rfl, _⟩ := hs
        exact ⟨r1, i1⟩
  · exact hg.elim

theorem step_cmd {cmd names m out m' l} (h : At m l) (ht : Cm (cmd :: names) m out m')
    (hc : cmd ∈ ["load", "unload", "start", "stop", "sp", "spawn", "kl", "kill"]) (ls : List Line) (l' : List Entry)
    (he : outcomes checkForConflict loads (fun _ => true) (requestsOf cmd names) l = (ls, l')) :
    At m' l' ∧ out = output ls := by
  have := at_cmd h hc ht
  rwa [he] at this

/-- Requests may be made later. -/
theorem served_later {conf errors c ok} {m m' : Mgr} {before : List Op} (hi : m.svc = .idle)
    (hb : ∀ op ∈ before, op.background errors) (hs : Served conf errors (m.run conf before) c ok m') :
    Served conf errors m c ok m' := by
  obtain ⟨_, b, d, h1, h2, rfl, h3, h4⟩ := hs
  refine ⟨hi, before ++ b, d, ?_, h2, ?_, h3, h4⟩
  · intro op ho
    rcases List.mem_append.1 ho with ho | ho
    · exact hb op ho
    · exact h1 op ho
  · rw [run_append]

/-- The lines of a listing. -/
def listed (l : List Entry) : String :=
  output (if l = [] then [.noControllers] else l.map fun x => .entry x.name [ej] x.state)

/-- `rosrun controller_manager unspawner n`, the listing while it waits, and its end. -/
theorem at_unspawner {n m inhibited m1 out m2 m3 l} (h : At m l) (hl : plain l = true)
    (hs : StopRound checkForConflict false ["unspawner", n] true [] m inhibited m1) (hc : Cm ["list"] m1 out m2)
    (hr : Restart checkForConflict false inhibited true m2 m3) :
    out = listed (l.map fun e => if e.name ∈ ["unspawner", n] ∧ e.state = "running" then { e with state := "stopped" }
      else e) ∧ At m3 l := by
  obtain ⟨r0, i0, rfl⟩ := h
  obtain ⟨_, e1, _⟩ := c74_stops hereditary_checkForConflict r0 i0 hs
  have h1 : Reachable checkForConflict m1 ∧ m1.svc = .idle := by
    obtain ⟨before, hb, toStop, _, _, hs⟩ := hs
    obtain ⟨hr0, hi0, _⟩ := background_listing r0 i0 hb
    split at hs
    · rw [hs.2]; exact ⟨hr0, hi0⟩
    · obtain ⟨_, _, _, _, hs⟩ := hs
      refine ⟨hs.reachable hr0, ?_⟩
      obtain ⟨_, _, _, _, _, _, hh, _⟩ := hs; exact hh
  have a1 := at_list (l := m1.listControllers) ⟨h1.1, h1.2, rfl⟩ (by
    rw [e1, plain_iff]
    intro x hx
    obtain ⟨y, hy, rfl⟩ := List.mem_map.1 hx
    obtain ⟨rs, hh⟩ := plain_iff.1 hl y hy
    refine ⟨rs, ?_⟩
    split
    · exact hh
    · exact hh) hc
  refine ⟨by rw [a1.2, listed, e1], ?_⟩
  obtain ⟨now, ok, hr⟩ := hr
  obtain ⟨lines, hc, _⟩ := hc
  obtain ⟨_, ⟨before, hb, rfl⟩, _⟩ : (0 : Nat) = 0 ∧ (∃ before : List Op, (∀ op ∈ before, op.background false) ∧
      m2 = m1.run checkForConflict before) ∧ ListLines m2.listControllers lines := hc
  have r2 := hr.reachable (background_listing h1.1 h1.2 hb).1
  have i2 : m3.svc = .idle := by obtain ⟨_, _, _, _, _, _, hh, _⟩ := hr; exact hh
  exact ⟨r2, i2, c74_restores hereditary_checkForConflict r0 i0 hs ⟨now, ok, served_later h1.2 hb hr⟩⟩

/-- controller_manager_scripts.py 63-64: the type of the test controller is listed. -/
theorem test_list_types {m lines m'} (ht : ToolPrints checkForConflict false env [ty] (fun _ => true) true true
    ["controller_manager", "list-types"] m 0 lines m') : (Line.type ty).text ∈ lines.map Line.text := by
  obtain ⟨_, _, rfl⟩ : (0 : Nat) = 0 ∧ (∃ before : List Op, (∀ op ∈ before, op.background false) ∧
      m' = m.run checkForConflict before) ∧ lines = [ty].map Line.type := ht
  simp

/-- controller_manager_scripts.py 66-122: from the first listing to the last unload. -/
theorem test_scripts {m0 m1 m2 m3 m4 m5 m6 m7 m8 m9 m10 m11 m12 m13 m14 m15 m16 m17 m18 m19 m20 m21 m22 m23 m24 m25}
    {loaded inhibited : List String} {o0 o2 o3 o4 o5 o6 o7 o8 o9 o10 o11 o12 o14 o16 o18 o19 o20 o21 o22 o23 o24}
    (h : At m0 [])
    (h0 : Cm ["list"] m0 o0 m1)
    (h1 : Spawns checkForConflict false env false true ["my_controller1"] m1 loaded m2)
    (h2 : Cm ["list"] m2 o2 m3)
    (h3 : Cm ["load", "my_controller2"] m3 o3 m4)
    (h4 : Cm ["list"] m4 o4 m5)
    (h5 : Cm ["stop", "my_controller1"] m5 o5 m6)
    (h6 : Cm ["list"] m6 o6 m7)
    (h7 : Cm ["start", "my_controller2"] m7 o7 m8)
    (h8 : Cm ["list"] m8 o8 m9)
    (h9 : Cm ["stop", "my_controller2"] m9 o9 m10)
    (h10 : Cm ["list"] m10 o10 m11)
    (h11 : Cm ["start", "my_controller1"] m11 o11 m12)
    (h12 : Cm ["list"] m12 o12 m13)
    (h13 : StopRound checkForConflict false ["unspawner", "my_controller1"] true [] m13 inhibited m14)
    (h14 : Cm ["list"] m14 o14 m15)
    (h15 : Restart checkForConflict false inhibited true m15 m16)
    (h16 : Cm ["list"] m16 o16 m17)
    (h17 : Shutdown checkForConflict false loaded true m17 m18)
    (h18 : Cm ["list"] m18 o18 m19)
    (h19 : Cm ["spawn", "my_controller1"] m19 o19 m20)
    (h20 : Cm ["list"] m20 o20 m21)
    (h21 : Cm ["kill", "my_controller1"] m21 o21 m22)
    (h22 : Cm ["list"] m22 o22 m23)
    (h23 : Cm ["unload", "my_controller2"] m23 o23 m24)
    (h24 : Cm ["list"] m24 o24 m25) :
    o0 = "No controllers are loaded in mechanism control\n" ∧
    o2 = "'my_controller1' - 'hardware_interface::EffortJointInterface' ( running )\n" ∧
    o3 = "Loaded 'my_controller2'\n" ∧
    o4 = "'my_controller1' - 'hardware_interface::EffortJointInterface' ( running )\n" ++
      "'my_controller2' - 'hardware_interface::EffortJointInterface' ( initialized )\n" ∧
    o5 = "Stopped ['my_controller1'] successfully\n" ∧
    o6 = "'my_controller1' - 'hardware_interface::EffortJointInterface' ( stopped )\n" ++
      "'my_controller2' - 'hardware_interface::EffortJointInterface' ( initialized )\n" ∧
    o7 = "Started ['my_controller2'] successfully\n" ∧
    o8 = "'my_controller1' - 'hardware_interface::EffortJointInterface' ( stopped )\n" ++
      "'my_controller2' - 'hardware_interface::EffortJointInterface' ( running )\n" ∧
    o9 = "Stopped ['my_controller2'] successfully\n" ∧
    o10 = "'my_controller1' - 'hardware_interface::EffortJointInterface' ( stopped )\n" ++
      "'my_controller2' - 'hardware_interface::EffortJointInterface' ( stopped )\n" ∧
    o11 = "Started ['my_controller1'] successfully\n" ∧
    o12 = "'my_controller1' - 'hardware_interface::EffortJointInterface' ( running )\n" ++
      "'my_controller2' - 'hardware_interface::EffortJointInterface' ( stopped )\n" ∧
    o14 = "'my_controller1' - 'hardware_interface::EffortJointInterface' ( stopped )\n" ++
      "'my_controller2' - 'hardware_interface::EffortJointInterface' ( stopped )\n" ∧
    o16 = "'my_controller1' - 'hardware_interface::EffortJointInterface' ( running )\n" ++
      "'my_controller2' - 'hardware_interface::EffortJointInterface' ( stopped )\n" ∧
    o18 = "'my_controller2' - 'hardware_interface::EffortJointInterface' ( stopped )\n" ∧
    o19 = "Loaded 'my_controller1'\n" ++ "Started ['my_controller1'] successfully\n" ∧
    o20 = "'my_controller2' - 'hardware_interface::EffortJointInterface' ( stopped )\n" ++
      "'my_controller1' - 'hardware_interface::EffortJointInterface' ( running )\n" ∧
    o21 = "Stopped ['my_controller1'] successfully\n" ++ "Unloaded 'my_controller1' successfully\n" ∧
    o22 = "'my_controller2' - 'hardware_interface::EffortJointInterface' ( stopped )\n" ∧
    o23 = "Unloaded 'my_controller2' successfully\n" ∧
    o24 = "No controllers are loaded in mechanism control\n" ∧ At m25 [] := by
  obtain ⟨a, q0⟩ := at_list h (by decide) h0
  obtain ⟨rfl, a⟩ := at_spawner a h1 (by decide +kernel)
  rw [show (afterSwitch checkForConflict true (afterLoad loads [] "my_controller1").2 ["my_controller1"] []).2 =
      [e "my_controller1" "running"] by decide +kernel] at a
  obtain ⟨a, q2⟩ := at_list a (by decide +kernel) h2
  obtain ⟨a, q3⟩ := step_cmd a h3 (by simp) [.loaded "my_controller2"] [e "my_controller1" "running", e "my_controller2" "initialized"] (by decide +kernel)
  obtain ⟨a, q4⟩ := at_list a (by decide +kernel) h4
  obtain ⟨a, q5⟩ := step_cmd a h5 (by simp) [.stopped ["my_controller1"]] [e "my_controller1" "stopped", e "my_controller2" "initialized"] (by decide +kernel)
  obtain ⟨a, q6⟩ := at_list a (by decide +kernel) h6
  obtain ⟨a, q7⟩ := step_cmd a h7 (by simp) [.started ["my_controller2"]] [e "my_controller1" "stopped", e "my_controller2" "running"] (by decide +kernel)
  obtain ⟨a, q8⟩ := at_list a (by decide +kernel) h8
  obtain ⟨a, q9⟩ := step_cmd a h9 (by simp) [.stopped ["my_controller2"]] [e "my_controller1" "stopped", e "my_controller2" "stopped"] (by decide +kernel)
  obtain ⟨a, q10⟩ := at_list a (by decide +kernel) h10
  obtain ⟨a, q11⟩ := step_cmd a h11 (by simp) [.started ["my_controller1"]] [e "my_controller1" "running", e "my_controller2" "stopped"] (by decide +kernel)
  obtain ⟨a, q12⟩ := at_list a (by decide +kernel) h12
  obtain ⟨q14, a⟩ := at_unspawner a (by decide +kernel) h13 h14 h15
  obtain ⟨a, q16⟩ := at_list a (by decide +kernel) h16
  have a := at_spawner_killed a h17
  rw [show (afterUnload (afterSwitch checkForConflict true [e "my_controller1" "running", e "my_controller2" "stopped"] [] ["my_controller1"]).2
      "my_controller1").2 = [e "my_controller2" "stopped"] by decide +kernel] at a
  obtain ⟨a, q18⟩ := at_list a (by decide +kernel) h18
  obtain ⟨a, q19⟩ := step_cmd a h19 (by simp) [.loaded "my_controller1", .started ["my_controller1"]] [e "my_controller2" "stopped", e "my_controller1" "running"] (by decide +kernel)
  obtain ⟨a, q20⟩ := at_list a (by decide +kernel) h20
  obtain ⟨a, q21⟩ := step_cmd a h21 (by simp) [.stopped ["my_controller1"], .unloaded "my_controller1"] [e "my_controller2" "stopped"] (by decide +kernel)
  obtain ⟨a, q22⟩ := at_list a (by decide +kernel) h22
  obtain ⟨a, q23⟩ := step_cmd a h23 (by simp) [.unloaded "my_controller2"] [] (by decide +kernel)
  obtain ⟨a, q24⟩ := at_list a (by decide +kernel) h24
  rw [q0, q2, q3, q4, q5, q6, q7, q8, q9, q10, q11, q12, q14, q16, q18, q19, q20, q21, q22, q23, q24]
  refine ⟨by decide +kernel, by decide +kernel, by decide +kernel, by decide +kernel, by decide +kernel, by decide +kernel, by decide +kernel, by decide +kernel, by decide +kernel, by decide +kernel, by decide +kernel, by decide +kernel, by decide +kernel, by decide +kernel, by decide +kernel, by decide +kernel, by decide +kernel, by decide +kernel, by decide +kernel, by decide +kernel, by decide +kernel, a⟩

/-- controller_manager_scripts.py 124. -/
theorem test_reload {m out m'} (h : At m []) (ht : Cm ["reload-libraries"] m out m') :
    out = "Restore: False\nSuccessfully reloaded libraries\n" ∧ At m' [] := by
  obtain ⟨hr, hi, e0⟩ := h
  obtain ⟨lines, ht, rfl⟩ := ht
  obtain ⟨_, r, hl, rfl⟩ : (0 : Nat) = 0 ∧ ∃ result, ReloadLibraries checkForConflict false env true false true true m
      result m' ∧ lines = [Line.restore false, if result then Line.reloaded else Line.notReloaded] ++ [] := ht
  obtain ⟨rfl, e1⟩ := c75_forced hereditary_checkForConflict hr hi hl
  obtain ⟨before, hb, _, _, now, m1, hs, hl⟩ := hl
  rw [if_neg (by simp)] at hl
  subst hl
  refine ⟨by decide +kernel, hs.reachable (background_listing hr hi hb).1, ?_, e1⟩
  obtain ⟨_, _, _, _, _, _, hh, _⟩ := hs; exact hh

/-- controller_manager_scripts.py 126-133: `controller_group list`. -/
theorem test_group_list {m out m' l} (h : At m l) (ht : Cg ["list"] m out m') :
    out = "Number of groups: 3\n" ++
      "  group1\n      my_controller1\n      my_controller3\n" ++
      "  group2\n      my_controller2\n      my_controller3\n" ++
      "  group3\n      my_controller1\n      my_controller2\n" ∧ At m' l := by
  obtain ⟨lines, ht, rfl⟩ := ht
  obtain ⟨rfl, rfl⟩ := ht
  refine ⟨?_, h⟩
  have : groups.mergeSort (fun a b => a.1 ≤ b.1) = groups := List.mergeSort_of_pairwise (by decide +kernel)
  rw [groupLines, this]
  decide +kernel

/-- The two orders of a set with two elements. -/
theorem two_orders {l : List String} {a b : String} (hn : l.Nodup) (hab : a ≠ b) (h : ∀ n, n ∈ l ↔ n ∈ [a, b]) :
    l = [a, b] ∨ l = [b, a] := by
  have hp : l.Perm [a, b] := (List.perm_ext_iff_of_nodup hn (by simp [hab])).2 h
  match l, hp.length_eq with
  | [x, y], _ =>
    have hx := (h x).1 (by simp)
    have hy := (h y).1 (by simp)
    have hxy : x ≠ y := by simpa using hn
    simp only [List.mem_cons, List.not_mem_nil, or_false] at hx hy
    rcases hx with rfl | rfl <;> rcases hy with rfl | rfl <;> simp_all

/-- The one order of a set with one element. -/
theorem one_order {l : List String} {a : String} (hn : l.Nodup) (h : ∀ n, n ∈ l ↔ n ∈ [a]) : l = [a] :=
  singleton_of hn fun i => by rw [h i]; simp [eq_comm]

/-- The controllers of the other groups. -/
theorem others_of {g : String} {names : List String}
    (hd : (∀ k ∈ groups, ∀ n ∈ k.2, n ∈ names ∨ n ∈ (groups.lookup g).getD []) ∧
      ∀ n ∈ names, (∃ k ∈ groups, n ∈ k.2) ∧ n ∉ (groups.lookup g).getD []) (n : String) :
    (∃ k ∈ groups, n ∈ k.2) ∧ n ∉ (groups.lookup g).getD [] ↔ n ∈ names := by
  constructor
  · rintro ⟨⟨k, hk, hn⟩, hx⟩
    rcases hd.1 k hk n hn with hh | hh
    · exact hh
    · exact absurd hh hx
  · exact hd.2 n

/-- controller_manager_scripts.py 135-161: groups are spawned and switched. -/
theorem test_groups {m0 m1 m2 m3 o1 o2 o3} (h : At m0 [])
    (h1 : Cg ["spawn", "group1"] m0 o1 m1) (h2 : Cg ["switch", "group2"] m1 o2 m2)
    (h3 : Cg ["switch", "group3"] m2 o3 m3) :
    (o1 = "Loaded 'my_controller1'\n" ++ "Loaded 'my_controller3'\n" ++ "Started ['my_controller1'] successfully\n" ++
        "Started ['my_controller3'] successfully\n" ∨
      o1 = "Loaded 'my_controller3'\n" ++ "Loaded 'my_controller1'\n" ++ "Started ['my_controller3'] successfully\n" ++
        "Started ['my_controller1'] successfully\n") ∧
    o2 = "Loaded 'my_controller2'\n" ++ "Started ['my_controller2'] successfully\n" ++
      "Stopped ['my_controller1'] successfully\n" ∧
    o3 = "Error when starting ['my_controller1'] and stopping ['my_controller3']\n" := by
  obtain ⟨r1, i1⟩ := at_group h h1
  obtain ⟨r2, i2⟩ := at_group ⟨r1, i1, rfl⟩ h2
  obtain ⟨l1, g1, rfl⟩ := h1
  obtain ⟨l2, g2, rfl⟩ := h2
  obtain ⟨l3, g3, rfl⟩ := h3
  obtain ⟨d1, n1, k1, e1⟩ := c104_group_spawn_partial tells h.1 g1
  obtain ⟨d2, s2, n2, n2', k2, k2', e2⟩ := c104_group_switch_partial tells r1 i1 g2
  obtain ⟨d3, s3, n3, n3', k3, k3', e3⟩ := c104_group_switch_partial tells r2 i2 g3
  have hd1 := two_orders n1 (by decide) (a := "my_controller1") (b := "my_controller3") k1
  have hd2 := two_orders n2 (by decide) (a := "my_controller2") (b := "my_controller3") k2
  have hd3 := two_orders n3 (by decide) (a := "my_controller1") (b := "my_controller2") k3
  have hs2 := one_order n2' (a := "my_controller1") (fun n => by rw [k2' n]; exact others_of (g := "group2") (by decide +kernel) n)
  have hs3 := one_order n3' (a := "my_controller3") (fun n => by rw [k3' n]; exact others_of (g := "group3") (by decide +kernel) n)
  subst hs2 hs3
  rw [h.2.2] at e1
  have f1 := congrArg Prod.fst e1
  have f2 := congrArg Prod.snd e1
  dsimp only at f1 f2
  rw [f2] at e2
  have f3 := congrArg Prod.fst e2
  have f4 := congrArg Prod.snd e2
  dsimp only at f3 f4
  rw [f4] at e3
  have f5 := congrArg Prod.fst e3
  dsimp only at f5
  rw [f1, f3, f5]
  clear * - hd1 hd2 hd3
  rcases hd1 with rfl | rfl <;> rcases hd2 with rfl | rfl <;> rcases hd3 with rfl | rfl <;> decide +kernel

/-! ### controller_manager_interface_test.py -/

theorem step_load {n m ok m' l} (h : At m l) (hs : Served checkForConflict false m (.load n (env n)) ok m')
    (r : Bool) (l' : List Entry) (he : afterLoad loads l n = (r, l')) : ok = r ∧ At m' l' := by
  obtain ⟨hr, hi, rfl⟩ := h
  have e := served_afterLoad tells hr hs
  rw [he] at e
  obtain ⟨rfl, e'⟩ := Prod.mk.inj e
  refine ⟨rfl, hs.reachable hr, ?_, e'⟩
  obtain ⟨_, _, _, _, _, _, hh, _⟩ := hs; exact hh

theorem step_unload {n m ok m' l} (h : At m l) (hs : Served checkForConflict false m (.unload n) ok m')
    (r : Bool) (l' : List Entry) (he : afterUnload l n = (r, l')) : ok = r ∧ At m' l' := by
  obtain ⟨hr, hi, rfl⟩ := h
  have e := served_afterUnload hr hs
  rw [he] at e
  obtain ⟨rfl, e'⟩ := Prod.mk.inj e
  refine ⟨rfl, hs.reachable hr, ?_, e'⟩
  obtain ⟨_, _, _, _, _, _, hh, _⟩ := hs; exact hh

theorem step_switch {start stop m ok m' l} (h : At m l) (hs : StartStop checkForConflict false start stop true m ok m')
    (r : Bool) (l' : List Entry) (he : afterSwitch checkForConflict true l start stop = (r, l')) :
    ok = r ∧ At m' l' := by
  obtain ⟨hr, hi, rfl⟩ := h
  have e := startStop_afterSwitch hr hs
  rw [he] at e
  obtain ⟨rfl, e'⟩ := Prod.mk.inj e
  obtain ⟨now, hs⟩ := hs
  refine ⟨rfl, hs.reachable hr, ?_, e'⟩
  obtain ⟨_, _, _, _, _, _, hh, _⟩ := hs; exact hh

theorem loadAll_reachable {conf errors env ns} {m m' : Mgr} (hl : LoadAll conf errors env ns m m')
    (h : Reachable conf m) : Reachable conf m' := by
  induction hl with
  | nil m => exact h
  | cons hs _ ih => exact ih (hs.reachable h)

theorem reload_at {force restore m result m'} (hr : Reachable checkForConflict m) (hi : m.svc = .idle)
    (hl : ReloadLibraries checkForConflict false env force restore true true m result m') :
    Reachable checkForConflict m' ∧ m'.svc = .idle := by
  obtain ⟨before, hb, orig, _, now, m1, hs, hl⟩ := hl
  have r1 := hs.reachable (background_listing hr hi hb).1
  have i1 : m1.svc = .idle := by obtain ⟨_, _, _, _, _, _, hh, _⟩ := hs; exact hh
  split at hl
  · obtain ⟨m2, hl, now', ok', hs⟩ := hl
    have r2 := loadAll_reachable hl r1
    refine ⟨hs.reachable r2, ?_⟩
    obtain ⟨_, _, _, _, _, _, hh, _⟩ := hs; exact hh
  · subst hl; exact ⟨r1, i1⟩

/-- controller_manager_interface_test.py 6-54: all the answers. -/
theorem test_interface {m0 m1 m2 m3 m4 m5 m6 m7 m8 m9 m10 m11 m12 m13 m14 m15}
    {r0 r1 r2 r3 r4 r5 r6 r7 r8 r9 r10 r11 r12 r13 r14 : Bool} (h : At m0 [])
    (h0 : Served checkForConflict false m0 (.load "my_controller1" (env "my_controller1")) r0 m1)
    (h1 : Served checkForConflict false m1 (.load "non_existent_controller" (env "non_existent_controller")) r1 m2)
    (h2 : StartStop checkForConflict false ["my_controller1"] [] true m2 r2 m3)
    (h3 : StartStop checkForConflict false ["my_controller3"] [] true m3 r3 m4)
    (h4 : StartStop checkForConflict false [] ["my_controller1"] true m4 r4 m5)
    (h5 : Served checkForConflict false m5 (.load "my_controller3" (env "my_controller3")) r5 m6)
    (h6 : StartStop checkForConflict false ["my_controller1", "my_controller3"] [] true m6 r6 m7)
    (h7 : StartStop checkForConflict false [] ["my_controller1", "my_controller3"] true m7 r7 m8)
    (h8 : ReloadLibraries checkForConflict false env true true true true m8 r8 m9)
    (h9 : Served checkForConflict false m9 (.unload "my_controller1") r9 m10)
    (h10 : Served checkForConflict false m10 (.unload "my_controller3") r10 m11)
    (h11 : Served checkForConflict false m11 (.load "my_controller1" (env "my_controller1")) r11 m12)
    (h12 : ReloadLibraries checkForConflict false env false true true true m12 r12 m13)
    (h13 : ReloadLibraries checkForConflict false env true false true true m13 r13 m14)
    (h14 : ReloadLibraries checkForConflict false env false false true true m14 r14 m15) :
    [r0, r1, r2, r3, r4, r5, r6, r7, r8, r9, r10, r11, r12, r13, r14] =
      [true, false, true, false, true, true, true, true, true, true, true, true, false, true, true] := by
  obtain ⟨rfl, a⟩ := step_load h h0 true [e "my_controller1" "initialized"] (by decide +kernel)
  obtain ⟨rfl, a⟩ := step_load a h1 false [e "my_controller1" "initialized"] (by decide +kernel)
  obtain ⟨rfl, a⟩ := step_switch a h2 true [e "my_controller1" "running"] (by decide +kernel)
  obtain ⟨rfl, a⟩ := step_switch a h3 false [e "my_controller1" "running"] (by decide +kernel)
  obtain ⟨rfl, a⟩ := step_switch a h4 true [e "my_controller1" "stopped"] (by decide +kernel)
  obtain ⟨rfl, a⟩ := step_load a h5 true [e "my_controller1" "stopped", e "my_controller3" "initialized"]
    (by decide +kernel)
  obtain ⟨rfl, a⟩ := step_switch a h6 true [e "my_controller1" "running", e "my_controller3" "running"]
    (by decide +kernel)
  obtain ⟨rfl, a⟩ := step_switch a h7 true [e "my_controller1" "stopped", e "my_controller3" "stopped"]
    (by decide +kernel)
  obtain ⟨a1, a2⟩ := reload_at a.1 a.2.1 h8
  obtain ⟨rfl, a3⟩ := c75_restore hereditary_checkForConflict a.1 a.2.1 (by
    rw [a.2.2]
    intro x hx
    have hc : claims x.name = some x.claimed ∧ x.type = ty := by
      revert x; decide +kernel
    simp only [env, hc.1, hc.2]
    exact ⟨trivial, rfl, ⟨0, ⟨_, rfl, by simp [Gives]⟩, fun j hj => (by omega)⟩, trivial⟩) h8
  replace a : At _ [e "my_controller1" "initialized", e "my_controller3" "initialized"] :=
    ⟨a1, a2, by rw [a3, a.2.2]; decide +kernel⟩
  obtain ⟨rfl, a⟩ := step_unload a h9 true [e "my_controller3" "initialized"] (by decide +kernel)
  obtain ⟨rfl, a⟩ := step_unload a h10 true [] (by decide +kernel)
  obtain ⟨rfl, a⟩ := step_load a h11 true [e "my_controller1" "initialized"] (by decide +kernel)
  obtain ⟨a1, a2⟩ := reload_at a.1 a.2.1 h12
  obtain ⟨rfl, _⟩ := c75_not_forced a.1 a.2.1 (by rw [a.2.2]; simp) h12
  obtain ⟨rfl, a3⟩ := c75_forced hereditary_checkForConflict a1 a2 h13
  obtain ⟨a1, a2⟩ := reload_at a1 a2 h13
  have : r14 = true := by
    obtain ⟨before, hb, _, _, now, m, hs, _⟩ := h14
    obtain ⟨b1, _, b3⟩ := background_listing a1 a2 hb
    have hsv := hs.serves b1
    rw [b3, a3] at hsv
    cases r14 with
    | true => rfl
    | false =>
      generalize m.listControllers = l at *
      cases hsv
      contradiction
  rw [this]

/-- The tests begin with a manager without controllers. -/
example : At {} [] := ⟨⟨[], by simp, rfl⟩, rfl, rfl⟩

end Verif.Tests.Scripts
