import Verif.Lemmas.SystemTypes

/-!
C82: a variable of the hardware has one writer at a time.
-/

namespace Verif

open Spec Mgr

section

variable {env : TypeEnv} {robot : IMan} {h0 : Heap} {s : Sys} {cells : Nat → List Nat}

/-- **C82, partial.** Two running controllers never can write the same variable of the hardware
through handles of interfaces that claim resources.

Missing for the full statement: handles with setters of interfaces that do not claim resources
(`c82_shared_writers_negation`). -/
theorem c82_single_writer_partial (ht : TypedRobot env h0 robot) (hn : h0.Named) (ha : h0.CellsApart cells)
    (h : Sys.Reached env robot h0 s) (c c' : CId) (hc : s.mgr.state c = .running) (hc' : s.mgr.state c' = .running)
    (hne : c ≠ c') (a : Nat) : ¬(s.CanWrite cells c a ∧ s.CanWrite cells c' a) := by
  rintro ⟨h1, h2⟩
  have hv := sysInv_reached ht hn h
  have hi := inv_reachable checkOk_checkForConflict hv.reach
  obtain ⟨x, hx, rfl⟩ := List.mem_map.1 (hi.running c hc)
  obtain ⟨y, hy, rfl⟩ := List.mem_map.1 (hi.running c' hc')
  refine hv.apart ha hi.free hx hy ?_ ?_ hne h1 h2
  · exact List.mem_map_of_mem (List.mem_filter.2 ⟨hx, isRunning_iff.2 hc⟩)
  · exact List.mem_map_of_mem (List.mem_filter.2 ⟨hy, isRunning_iff.2 hc'⟩)

/-- **C82, at every call.** Whenever the manager calls a controller (`starting`, `update`, `stopping`,
`waiting` or `aborting`), no other controller that can write one of its variables is running: in a switch
the old writer is stopped before the new one is started. -/
theorem c82_handover (ht : TypedRobot env h0 robot) (hn : h0.Named) (ha : h0.CellsApart cells)
    (h : Sys.Reached env robot h0 s) {pre post : List Event} {c : CId} {k : Callback}
    (he : s.mgr.trace = pre ++ .cb c k :: post) {c' : CId} (hne : c' ≠ c) {a : Nat}
    (h1 : s.CanWrite cells c a) (h2 : s.CanWrite cells c' a) : observed c' pre ≠ .running :=
  handover ht hn ha h pre c k post he c' ⟨hne, a, h1, h2⟩

/-- **C82, over time.** As long as a controller is running, only its own calls change a variable it can
write, whatever the controllers do: `act c k` is the effect of call `k` of controller `c` on the
hardware's memory, and the only assumption is that a controller changes the variable `a` through handles
of interfaces that claim resources. -/
theorem c82_only_its_calls (ht : TypedRobot env h0 robot) (hn : h0.Named) (ha : h0.CellsApart cells)
    (h : Sys.Reached env robot h0 s) {V : Type} (act : CId → Callback → (Nat → V) → Nat → V) (a : Nat)
    (hw : ∀ c k mem, ¬s.CanWrite cells c a → act c k mem a = mem a) {c : CId} (hc : s.CanWrite cells c a)
    {pre post : List Event} {e : Event} (he : s.mgr.trace = pre ++ e :: post) (hr : observed c pre = .running)
    (mem : Nat → V) : replay act (pre ++ [e]) mem a = replay act pre mem a ∨ ∃ k, e = .cb c k := by
  by_cases hk : ∃ k, e = .cb c k
  · exact Or.inr hk
  · left
    have hrep : replay act (pre ++ [e]) mem = replay act [e] (replay act pre mem) := by
      simp [replay, List.foldl_append]
    rw [hrep]
    cases e with
    | cb c' k =>
      have hne : c ≠ c' := fun hh => hk ⟨k, by rw [hh]⟩
      exact hw c' k _ fun h2 => c82_handover ht hn ha h he hne h2 hc hr
    | _ => rfl

/-- Calls of controllers that cannot write `a` leave it alone. -/
theorem replay_untouched {V : Type} (act : CId → Callback → (Nat → V) → Nat → V) (a : Nat) (W : CId → Prop)
    (hw : ∀ c k mem, ¬W c → act c k mem a = mem a) (es : List Event) (hes : ∀ c k, .cb c k ∈ es → ¬W c)
    (mem : Nat → V) : replay act es mem a = mem a := by
  induction es generalizing mem with
  | nil => rfl
  | cons e es ih =>
    have h1 := ih (fun c k hck => hes c k (by simp [hck]))
    cases e with
    | cb c k =>
      show replay act es (act c k mem) a = mem a
      rw [h1, hw c k mem (hes c k (by simp))]
    | _ => exact h1 mem

/-- **C82, one update.** In an update without a pending switch, what controller `c` leaves in its
variables is what it would leave if it were the only controller, provided each controller writes its own
variables only and reads no variable that another running controller can write. A variable that no running
controller can write is unchanged. -/
theorem c82_update_independent (ht : TypedRobot env h0 robot) (hn : h0.Named) (ha : h0.CellsApart cells)
    (h : Sys.Reached env robot h0 s) (hd : s.mgr.params.doSwitch = false) (time : Int) (reset : Bool) (hw : HwReply)
    {es : List Event} (he : (s.step env checkForConflict (.update time reset hw)).mgr.trace = s.mgr.trace ++ es)
    {V : Type} (act : CId → Callback → (Nat → V) → Nat → V)
    (hwr : ∀ c k mem a, ¬s.CanWrite cells c a → act c k mem a = mem a)
    (hrd : ∀ c k mem mem', s.mgr.state c = .running →
      (∀ a, (∀ c', c' ≠ c → s.mgr.state c' = .running → ¬s.CanWrite cells c' a) → mem a = mem' a) →
      ∀ a, s.CanWrite cells c a → act c k mem a = act c k mem' a) (mem : Nat → V) :
    (∀ c a, s.mgr.state c = .running → s.CanWrite cells c a →
      replay act es mem a = replay act (es.filter (Event.isCbOf c)) mem a) ∧
    ∀ a, (∀ c, s.mgr.state c = .running → ¬s.CanWrite cells c a) → replay act es mem a = mem a := by
  have hcb : ∀ c k, .cb c k ∈ es → s.mgr.state c = .running := by
    intro c k hck
    change (s.mgr.update time reset hw).trace = _ at he
    rw [update_idle s.mgr hd] at he
    have he : s.mgr.trace ++ s.mgr.drivenEvents reset = s.mgr.trace ++ es := he
    rw [← List.append_cancel_left he] at hck
    obtain ⟨x, _, hx, hh⟩ := mem_drivenEvents hck
    have : c = x.c := by rcases hh with e | ⟨_, e | e⟩ <;> cases e <;> rfl
    rw [this]; exact hx
  refine ⟨fun c a hc hca => ?_, fun a hna => replay_untouched act a (fun c => s.CanWrite cells c a)
    (fun c k mem => hwr c k mem a) es (fun c k hck => hna c (hcb c k hck)) mem⟩
  -- the two memories agree on everything no other running controller can write
  have key : ∀ (l : List Event), (∀ c k, .cb c k ∈ l → s.mgr.state c = .running) → ∀ mem mem' : Nat → V,
      (∀ b, (∀ c', c' ≠ c → s.mgr.state c' = .running → ¬s.CanWrite cells c' b) → mem b = mem' b) →
      ∀ b, (∀ c', c' ≠ c → s.mgr.state c' = .running → ¬s.CanWrite cells c' b) →
        replay act l mem b = replay act (l.filter (Event.isCbOf c)) mem' b := by
    intro l
    induction l with
    | nil => intro _ mem mem' hm; exact hm
    | cons e l ih =>
      intro hl mem mem' hm
      have ih := ih fun c k hck => hl c k (by simp [hck])
      cases e with
      | cb c1 k =>
        by_cases hc1 : c1 = c
        · subst hc1
          have : (Event.cb c1 k :: l).filter (Event.isCbOf c1) = .cb c1 k :: l.filter (Event.isCbOf c1) := by
            simp [Event.isCbOf]
          rw [this]
          refine ih (act c1 k mem) (act c1 k mem') fun b hb => ?_
          by_cases hw1 : s.CanWrite cells c1 b
          · exact hrd c1 k mem mem' hc hm b hw1
          · rw [hwr c1 k mem b hw1, hwr c1 k mem' b hw1]
            exact hm b hb
        · have : (Event.cb c1 k :: l).filter (Event.isCbOf c) = l.filter (Event.isCbOf c) := by
            simp [Event.isCbOf, hc1]
          rw [this]
          refine ih (act c1 k mem) mem' fun b hb => ?_
          rw [hwr c1 k mem b (hb c1 hc1 (hl c1 k (by simp)))]
          exact hm b hb
      | _ => exact ih mem mem' hm
  refine key es hcb mem mem (fun _ _ => rfl) a fun c' hne hc' h2 => ?_
  exact c82_single_writer_partial ht hn ha h c c' hc hc' (Ne.symm hne) a ⟨hca, h2⟩

end

/-! ### An example -/

/-- A class of controllers that command the joint `j` through interface `T`. -/
def sysClass (T j : String) : CtrlClass :=
  .single T (fun o => .getHandle o j fun r => .done r.isSome) fun _ => .done true

theorem sysClass_proper (T j : String) : (sysClass T j).Proper := by
  intro hw
  exact ⟨⟨rfl, fun _ => trivial⟩, trivial⟩

/-- A complete load of such a controller. -/
def sysLoad (name T j : String) : List SysOp :=
  [.load name ⟨true, some "T", [⟨["T"], fun _ => .object⟩], sysClass T j⟩,
   .update 0 false ⟨.done, .done, fun _ _ => (.done, .done)⟩, .poll {} 0]

/-- A complete switch. -/
def sysSwitch (start stop : List String) : List SysOp :=
  [.switch ⟨start, stop, 2, false, 0⟩ 0 true, .update 0 false ⟨.done, .done, fun _ _ => (.done, .done)⟩, .poll {} 0]

theorem sysLoad_good (name T j : String) : ∀ op ∈ sysLoad name T j, op.Good := by
  simp [sysLoad, SysOp.Good, sysClass_proper]

theorem sysSwitch_good (a b : List String) : ∀ op ∈ sysSwitch a b, op.Good := by
  simp [sysSwitch, SysOp.Good]

/-- Two parts of a robot (a combined robot hardware) with the interface `T`: the joint "j1" with data 1,
and the joints "j2" and "j3" with data 2 and 3. -/
def sysHeap (claiming : Bool) : Heap where
  objs o :=
    if o = 0 then ⟨[("j1", ⟨"j1", 1⟩)], [], claiming⟩
    else if o = 1 then ⟨[("j2", ⟨"j2", 2⟩), ("j3", ⟨"j3", 3⟩)], [], claiming⟩
    else {}
  next := 2

/-- Same. -/
def sysRobot (T : String) : IMan :=
  .node [] [] [] [] [.node [(T, 0)] [] [] [] [], .node [(T, 1)] [] [] [] []]

theorem sysRobot_typed (env : TypeEnv) (T : String) : TypedRobot env (sysHeap (env.claiming T)) (sysRobot T) := by
  have e : ∀ T' (o o' : ObjId), smapFind T' [(T, o)] = some o' → T' = T ∧ o' = o := by
    intro T' o o' h
    have := mem_of_smapFind h
    simpa using this
  simp only [sysRobot, TypedRobot, TypedRobots]
  refine ⟨by simp [smapFind], by simp [smapFind], ⟨fun T' o ho => ?_, by simp [smapFind], trivial⟩,
    ⟨fun T' o ho => ?_, by simp [smapFind], trivial⟩, trivial⟩
  · obtain ⟨rfl, rfl⟩ := e _ _ _ ho
    exact ⟨Nat.zero_lt_two, rfl⟩
  · obtain ⟨rfl, rfl⟩ := e _ _ _ ho
    exact ⟨Nat.one_lt_two, rfl⟩

theorem sysHeap_mem {b : Bool} {o : ObjId} {k : String} {hd : Handle} (h : (k, hd) ∈ ((sysHeap b).objs o).handles) :
    (k = "j1" ∧ hd = ⟨"j1", 1⟩) ∨ (k = "j2" ∧ hd = ⟨"j2", 2⟩) ∨ (k = "j3" ∧ hd = ⟨"j3", 3⟩) := by
  simp only [sysHeap] at h
  split at h
  · left; simpa using h
  · split at h
    · right; simpa using h
    · simp at h

theorem sysHeap_named (b : Bool) : (sysHeap b).Named := by
  intro o k hd h
  rcases sysHeap_mem h with ⟨rfl, rfl⟩ | ⟨rfl, rfl⟩ | ⟨rfl, rfl⟩ <;> rfl

/-- Every handle has one variable. -/
theorem sysHeap_apart (b : Bool) : (sysHeap b).CellsApart fun d => [d] := by
  rintro hd hd' ⟨o, _, h1⟩ ⟨o', _, h2⟩ hne a ha hb
  rw [List.mem_singleton] at ha hb
  rcases sysHeap_mem h1 with ⟨_, rfl⟩ | ⟨_, rfl⟩ | ⟨_, rfl⟩ <;>
    rcases sysHeap_mem h2 with ⟨_, rfl⟩ | ⟨_, rfl⟩ | ⟨_, rfl⟩ <;>
    first
      | exact hne rfl
      | (rw [ha] at hb; revert hb; decide)

/-- Three controllers of effort: "a" and "b" of "j1", "c" of "j3"; first "a" and "c" run, then "b" takes
over from "a". -/
def sysHistory (T : String) : List SysOp :=
  sysLoad "a" T "j1" ++ sysLoad "b" T "j1" ++ sysLoad "c" T "j3" ++ sysSwitch ["a", "c"] [] ++ sysSwitch ["b"] ["a"]

/-- The state after that history. -/
def sysAfter (T : String) (ops : List SysOp) : Sys :=
  (Sys.start (sysRobot T) (sysHeap (stdEnv.claiming T))).run stdEnv checkForConflict ops

theorem sysHistory_good (T : String) : ∀ op ∈ sysHistory T, op.Good := by
  intro op hop
  simp only [sysHistory, List.mem_append] at hop
  rcases hop with (((h | h) | h) | h) | h
  · exact sysLoad_good _ _ _ op h
  · exact sysLoad_good _ _ _ op h
  · exact sysLoad_good _ _ _ op h
  · exact sysSwitch_good _ _ op h
  · exact sysSwitch_good _ _ op h

/-- "b" and "c" are running, and can write the variables 1 and 3; "a" can write 1 too and is stopped
before "b" starts. -/
example : let s := sysAfter "hardware_interface::EffortJointInterface" (sysHistory "hardware_interface::EffortJointInterface")
    s.mgr.cur.map (fun x => s.mgr.state x.c) = [.stopped, .running, .running] ∧
    s.held 0 = [⟨true, ⟨"j1", 1⟩⟩] ∧ s.held 1 = [⟨true, ⟨"j1", 1⟩⟩] ∧ s.held 2 = [⟨true, ⟨"j3", 3⟩⟩] ∧
    s.mgr.trace.filter (fun e => Event.isCbOf 0 e || Event.isCbOf 1 e) =
      [.cb 0 .starting, .cb 0 .update, .cb 0 .stopping, .cb 1 .starting] := by decide

/-- Hypotheses of the theorems above hold for it. -/
example : ¬((sysAfter "hardware_interface::EffortJointInterface"
      (sysHistory "hardware_interface::EffortJointInterface")).CanWrite (fun d => [d]) 1 3 ∧
    (sysAfter "hardware_interface::EffortJointInterface"
      (sysHistory "hardware_interface::EffortJointInterface")).CanWrite (fun d => [d]) 2 3) :=
  c82_single_writer_partial (sysRobot_typed stdEnv _) (sysHeap_named _) (sysHeap_apart _)
    ⟨_, sysHistory_good _, rfl⟩ 1 2 (by decide) (by decide) (by decide) 3

/-- **C82, for the joint command interfaces.** On a robot with the interfaces of hardware_interface, two
running controllers that command joints (through interfaces of the seven types for that, also several at a
time) never have a joint in common, whatever the parts of the robot and the ways the joints are commanded. -/
theorem c82_joint_commands {robot : IMan} {h0 : Heap} (ht : TypedRobot stdEnv h0 robot) (hn : h0.Named)
    (ops : List SysOp) (hops : ∀ op ∈ ops, op.Good ∧ op.UsesOnly jointCommandTypes) :
    let s := (Sys.start robot h0).run stdEnv checkForConflict ops
    ∀ c c' : CId, c ≠ c' → s.mgr.state c = .running → s.mgr.state c' = .running →
      ∀ g ∈ s.held c, ∀ g' ∈ s.held c', g.handle.name ≠ g'.handle.name := by
  intro s c c' hne hc hc' g hg g' hg' hh
  have hx := held_exclusive ht hn jointCommand_claiming ops hops
  have hv : SysInv stdEnv h0 s := sysInv_reached ht hn ⟨ops, fun o ho => (hops o ho).1, rfl⟩
  have hi := inv_reachable checkOk_checkForConflict hv.reach
  obtain ⟨x, hxc, rfl⟩ := List.mem_map.1 (hi.running c hc)
  obtain ⟨y, hyc, rfl⟩ := List.mem_map.1 (hi.running c' hc')
  have hinfo : x.info ≠ y.info := by
    intro h
    have : x = y := List.inj_on_of_nodup_map hi.names hxc hyc (by rw [h])
    exact hne (by rw [this])
  have hd := nodup_flatMap_disjoint (f := claimsOf) hi.free
    (List.mem_map_of_mem (List.mem_filter.2 ⟨hxc, isRunning_iff.2 hc⟩))
    (List.mem_map_of_mem (List.mem_filter.2 ⟨hyc, isRunning_iff.2 hc'⟩)) hinfo
    (hv.claims x hxc g hg (hx _ g hg))
  exact hd (by rw [hh]; exact hv.claims y hyc g' hg' (hx _ g' hg'))

/-- The history above is of this kind: "b" and "c" are running and hold "j1" and "j3". -/
example : ∀ op ∈ sysHistory "hardware_interface::EffortJointInterface",
    op.Good ∧ op.UsesOnly jointCommandTypes := by
  intro op hop
  refine ⟨sysHistory_good _ op hop, ?_⟩
  simp only [sysHistory, sysLoad, sysSwitch, List.mem_append, List.mem_cons, List.not_mem_nil, or_false] at hop
  rcases hop with (((h | h) | h) | h) | h <;> rcases h with rfl | rfl | rfl <;>
    simp [SysOp.UsesOnly, sysClass, CtrlClass.types, jointCommandTypes]

/-- **C82, negation of the full statement.** For each interface of hardware_interface whose handles have
setters and that does not claim resources, two controllers that hold a handle to the same data can run at
the same time: the joint mode, and actuator commands. -/
theorem c82_shared_writers_negation (T : String) (hT : (T, false, true) ∈ stdInterfaces) :
    ∃ s, Sys.Reached stdEnv (sysRobot T) (sysHeap (stdEnv.claiming T)) s ∧ ∃ c c' : CId, c ≠ c' ∧
      s.mgr.state c = .running ∧ s.mgr.state c' = .running ∧
      ∃ g ∈ s.held c, ∃ g' ∈ s.held c', g.handle = g'.handle := by
  refine ⟨sysAfter T (sysLoad "a" T "j1" ++ sysLoad "b" T "j1" ++ sysSwitch ["a", "b"] []), ⟨_, ?_, rfl⟩, 0, 1,
    by decide, ?_⟩
  · intro op hop
    simp only [List.mem_append] at hop
    rcases hop with (h | h) | h
    · exact sysLoad_good _ _ _ op h
    · exact sysLoad_good _ _ _ op h
    · exact sysSwitch_good _ _ op h
  · have hT' : T ∈ (stdInterfaces.filter fun e => e.2 = (false, true)).map (·.1) :=
      List.mem_map.2 ⟨_, List.mem_filter.2 ⟨hT, by simp⟩, rfl⟩
    have key : ∀ T ∈ (stdInterfaces.filter fun e => e.2 = (false, true)).map (·.1),
        (sysAfter T (sysLoad "a" T "j1" ++ sysLoad "b" T "j1" ++ sysSwitch ["a", "b"] [])).mgr.state 0 = .running ∧
        (sysAfter T (sysLoad "a" T "j1" ++ sysLoad "b" T "j1" ++ sysSwitch ["a", "b"] [])).mgr.state 1 = .running ∧
        ∃ g ∈ (sysAfter T (sysLoad "a" T "j1" ++ sysLoad "b" T "j1" ++ sysSwitch ["a", "b"] [])).held 0,
        ∃ g' ∈ (sysAfter T (sysLoad "a" T "j1" ++ sysLoad "b" T "j1" ++ sysSwitch ["a", "b"] [])).held 1,
          g.handle = g'.handle := by decide
    exact key T hT'

/-- There are five such interfaces. -/
example : (stdInterfaces.filter fun e => e.2 = (false, true)).map (·.1) =
    ["hardware_interface::JointModeInterface", "hardware_interface::ActuatorCommandInterface",
     "hardware_interface::EffortActuatorInterface", "hardware_interface::VelocityActuatorInterface",
     "hardware_interface::PositionActuatorInterface"] := by decide

end Verif
