import Verif.Lemmas.LoadedRobotAsked

/-!
Property C109: what controllers read and write on a robot whose transmissions come from its description.
-/

namespace Verif.Transmission

namespace Loader

section

variable {K : Type} [Add K] [Sub K] [Mul K] [Div K] [OfNat K 0] [OfNat K 1] [OfNat K 2] [DecidableEq K]
  {stod : String → Option K} {L0 L : Loader K} {d : Doc} {infos : List TransInfo}

theorem loadDoc_loadAll (h : L0.loadDoc stod d = .ok (L, true)) (hp : parse d = .ok infos) :
    loadAll stod infos L0 = .ok (L, true) := by
  unfold loadDoc at h
  rw [hp] at h
  dsimp only at h
  split at h
  · cases h
  · exact h

/-- **C109, reading.** A robot without joint interfaces of its own has loaded its transmissions from a
description in which no transmission name and no joint appears twice. Then propagating the actuator states
succeeds from any memory, and afterwards every joint of the description has, under its name, the position, velocity and
effort that its transmission computes from those of its actuators; absolute positions and torque sensors too, if
all actuators of the transmission have them, and otherwise these are as before. Nothing of the robot's own data
and no command of a joint changes. -/
theorem c109_reading (hf : L0.Fresh) (h0 : L0.NoOwn) (hm : L0.ActuatorsBelow)
    (h : L0.loadDoc stod d = .ok (L, true)) (hp : parse d = .ok infos) (ha : JointsApart infos) (nd : Bool) (m : Mem K) :
    ∃ m', propagateAll nd .actuatorToJointState ((L.handles .actuatorToJointState).map (·.2)) m = .ok m' ∧
      (∀ i ∈ infos, ∃ t, loadTransmission stod i = .ok (some t) ∧
        (∀ q, ∃ v, L0.actuatorValues q i.actuatorNames m = some v ∧
          L.jointValues q i.jointNames m' = some (t.jointsFrom q v)) ∧
        ((∀ v, L0.actuatorAbsolute i.actuatorNames m = some v →
            L.jointAbsolute i.jointNames m' = some (t.absoluteFrom v)) ∧
          (L0.actuatorAbsolute i.actuatorNames m = none →
            L.jointAbsolute i.jointNames m' = L.jointAbsolute i.jointNames m)) ∧
        ((∀ v, L0.actuatorTorque i.actuatorNames m = some v →
            L.jointTorque i.jointNames m' = some (t.jointsFrom .effort v)) ∧
          (L0.actuatorTorque i.actuatorNames m = none →
            L.jointTorque i.jointNames m' = L.jointTorque i.jointNames m))) ∧
      (∀ a, a < L0.next → m' a = m a) ∧
      ∀ c names, L.jointCommands c names m' = L.jointCommands c names m := by
  have h := loadDoc_loadAll h hp
  have hi := loaded_inv hf h
  obtain ⟨m', e, hv, hfr⟩ := c63_each_handle nd .actuatorToJointState _ (loaded_separate_state hf ha hm h) m
    (loaded_ok hf h nd _ m)
  have ea : L.actuators = L0.actuators := hi.grows.acts
  refine ⟨m', e, ?_, ?_, ?_⟩
  · intro i hii
    obtain ⟨t, ht, ⟨g, hg, rfl, -, -⟩, -⟩ := loaded_connected hf h0 (c50_well_formed d infos hp) ha.names h hii
    obtain ⟨hmem, hw⟩ := loaded_wired hf ha.names h hii hg
    obtain ⟨m1, e1, hval⟩ := wired_state_values hi hm hw ((flat_apart ha.joints).1 i hii) nd m
    have := hval m' fun c hc => hv g (List.mem_map.2 ⟨_, hmem, rfl⟩) m1 e1 c hc
    have e1 : ∀ q, L0.actuatorValues q i.actuatorNames m = L.actuatorValues q i.actuatorNames m := fun q => by
      unfold actuatorValues; rw [ea]
    have e2 : L0.actuatorAbsolute i.actuatorNames m = L.actuatorAbsolute i.actuatorNames m := by
      unfold actuatorAbsolute; rw [ea]
    have e3 : L0.actuatorTorque i.actuatorNames m = L.actuatorTorque i.actuatorNames m := by
      unfold actuatorTorque; rw [ea]
    rw [e2, e3]
    exact ⟨g.trans, ht, fun q => by rw [e1]; exact this.1 q, this.2⟩
  · intro a hal
    refine hfr a fun g hg hgt => ?_
    obtain ⟨⟨n, g'⟩, hg', rfl⟩ := List.mem_map.1 hg
    obtain ⟨an, jn, hw⟩ := hi.handles _ n g' hg'
    obtain ⟨x, -, b, hb, hle, -⟩ := hw.jntHas (a := a) hgt
    have := (hi.rawBounds x b hb).1
    omega
  · intro c names
    unfold jointCommands
    congr 1
    funext n
    cases hc : L.commandCell c n with
    | none => rfl
    | some a =>
      obtain ⟨b, hb, rfl⟩ := commandCell_raw hi hf h0 hc
      refine congrArg some (hfr _ fun g hg hgt => ?_)
      obtain ⟨⟨n', g'⟩, hg', rfl⟩ := List.mem_map.1 hg
      obtain ⟨an, jn, hw⟩ := hi.handles _ n' g' hg'
      exact state_target_command hi hw hgt hb c rfl

/-- **C109, writing.** If moreover no actuator appears twice in the description and different actuators of the
robot have different commands, propagating the commands of one kind succeeds from any memory, and afterwards
the actuators of every transmission whose joints have that command have the commands the transmission computes
from those of its joints. Only commands of this kind of actuators of these transmissions change. -/
theorem c109_writing (hf : L0.Fresh) (h0 : L0.NoOwn) (hm : L0.ActuatorsBelow) (hca : L0.CommandsApart)
    (h : L0.loadDoc stod d = .ok (L, true)) (hp : parse d = .ok infos) (ha : JointsApart infos)
    (haa : (infos.flatMap TransInfo.actuatorNames).Nodup) (c : Cmd) (nd : Bool) (m : Mem K) :
    ∃ m', propagateAll nd c.toActuator ((L.handles c.toActuator).map (·.2)) m = .ok m' ∧
      (∀ i ∈ infos, i.Commanded c → L0.HasCommands c i → ∃ t v, loadTransmission stod i = .ok (some t) ∧
        L.jointCommands c i.jointNames m = some v ∧ v.length = t.numJoints ∧
        L0.actuatorCommands c i.actuatorNames m' = some (t.actuatorsFrom c.quantity v)) ∧
      ∀ a, (∀ i ∈ infos, i.Commanded c → ∀ n ∈ i.actuatorNames, L0.actuatorCell c n ≠ some a) → m' a = m a := by
  have h := loadDoc_loadAll h hp
  have hi := loaded_inv hf h
  have hcell0 : ∀ c, L.actuatorCell c = L0.actuatorCell c := fun c => by
    funext n; unfold actuatorCell; rw [hi.grows.acts]
  obtain ⟨m', e, hv, hfr⟩ := c63_each_handle nd c.toActuator _ (loaded_separate_command hf haa hm hca h c) m
    (loaded_ok hf h nd _ m)
  refine ⟨m', e, ?_, ?_⟩
  · intro i hii hcd hcm
    obtain ⟨t, ht, -, hcon⟩ := loaded_connected hf h0 (c50_well_formed d infos hp) ha.names h hii
    obtain ⟨g, hg, rfl, -, hcp⟩ := hcon c hcd hcm
    obtain ⟨hmem, hw⟩ := loaded_wired hf ha.names h hii hg
    have hcell : ∀ n ∈ i.jointNames, ∀ b, smapFind n L.raw = some b → L.commandCell c n = some (rawCommand b c) := by
      intro n hn b hb
      obtain ⟨x, hx⟩ := List.mem_iff_getElem?.1 hn
      obtain ⟨a, hca, -⟩ := hcp x n hx
      obtain ⟨b', hb', rfl⟩ := commandCell_raw hi hf h0 hca
      rw [hb] at hb'
      cases hb'
      exact hca
    obtain ⟨m1, e1, hval⟩ := wired_command_values hi hm hca hw ((flat_apart ha.joints).1 i hii)
      ((flat_apart haa).1 i hii) hcell nd m
    obtain ⟨v, h1, h2, h3⟩ := hval m' fun c' hc => hv g (List.mem_map.2 ⟨_, hmem, rfl⟩) m1 e1 c' (toActuator_target.2 hc)
    refine ⟨g.trans, v, ht, h1, h2, ?_⟩
    unfold actuatorCommands at h3 ⊢
    rw [← hcell0]
    exact h3
  · intro a hal
    refine hfr a fun g hg hgt => ?_
    obtain ⟨⟨n, g'⟩, hg', rfl⟩ := List.mem_map.1 hg
    obtain ⟨i, hii, -, hw, has⟩ := loaded_asked hf ha.names h hg'
    have hcd := has.commanded
    obtain ⟨as, bs, has, -, -, -, eact, -⟩ := hw.command (toActuator_cmd c)
    have hgt := toActuator_target.1 hgt
    rw [eact, cmdData_has] at hgt
    obtain ⟨x, hx, ex⟩ := List.mem_map.1 hgt
    cases ex
    obtain ⟨y, hy, ey⟩ := (mapM_mem has).2 a hx
    rw [hcell0] at ey
    exact hal i hii hcd y hy ey

end

section

variable {K : Type} [Field K] [DecidableEq K] {stod : String → Option K} {L0 L : Loader K} {d : Doc} {infos : List TransInfo}

/-- **C109, actuators that follow.** If the actuators of a transmission then take on what they have been
commanded, the next propagation of the states gives its joints what the controllers commanded them. -/
theorem c109_following [NeZero (2 : K)] (hf : L0.Fresh) (h0 : L0.NoOwn) (hm : L0.ActuatorsBelow) (hca : L0.CommandsApart)
    (h : L0.loadDoc stod d = .ok (L, true)) (hp : parse d = .ok infos) (ha : JointsApart infos)
    (haa : (infos.flatMap TransInfo.actuatorNames).Nodup) (c : Cmd) (nd : Bool) {m m1 m2 m3 : Mem K}
    (hwr : propagateAll nd c.toActuator ((L.handles c.toActuator).map (·.2)) m = .ok m1)
    (hrd : propagateAll nd .actuatorToJointState ((L.handles .actuatorToJointState).map (·.2)) m2 = .ok m3)
    {i : TransInfo} (hii : i ∈ infos) (hcd : i.Commanded c) (hcm : L0.HasCommands c i)
    (hfollow : L0.actuatorValues c.quantity i.actuatorNames m2 = L0.actuatorCommands c i.actuatorNames m1) :
    ∃ v, L.jointCommands c i.jointNames m = some v ∧ L.jointValues c.quantity i.jointNames m3 = some v := by
  obtain ⟨m1', e1, w, -⟩ := c109_writing hf h0 hm hca h hp ha haa c nd m
  rw [hwr] at e1; cases e1
  obtain ⟨m3', e3, r, -⟩ := c109_reading hf h0 hm h hp ha nd m2
  rw [hrd] at e3; cases e3
  obtain ⟨t, v, ht, hv, hl, hact⟩ := w i hii hcd hcm
  obtain ⟨t', ht', hr, -⟩ := r i hii
  rw [ht] at ht'; cases ht'
  obtain ⟨u, hu, hj⟩ := hr c.quantity
  rw [hfollow, hact] at hu
  cases hu
  refine ⟨v, hv, ?_⟩
  rw [hj]
  obtain ⟨-, -, hc⟩ := loadTransmission_some ht
  have ln : t.numActuators = t.numJoints := by
    rcases t.one_num with ⟨-, h1, h2⟩ | ⟨-, h1, h2⟩ <;> rw [h1, h2]
  rw [← run_actuatorsFrom _ _ _ (by rw [hl, ln]), ← run_jointsFrom _ _ _ (by rw [run_length, hl, ln]),
    (run_inv c.quantity (regular hc) v (by rw [hl, ln])).2]

end

/-! ### Concrete cases -/

/-- What a computation leaves in some cells. -/
def exCells (r : Except Fault (Mem ℚ)) (l : List Nat) : Option (List ℚ) :=
  match r with
  | .error _ => none
  | .ok m => some (l.map m)

/-- Two joints with effort commands, each moved by an actuator of its own. -/
def exTwoJoints : Doc := exDoc [exElem "t1" "j1" "a1", exElem "t2" "j2" "a2"]

/-- The transmissions of a document. -/
def exInfos (d : Doc) : List TransInfo :=
  match parse d with
  | .ok infos => infos
  | _ => []

/-- The robot with the transmissions of a document; its handles propagated from a memory. -/
def exPropagate (d : Doc) (k : Kind) (m : Mem ℚ) (l : List Nat) : Option (List ℚ) :=
  match exRobot.loadDoc exStod d with
  | .ok (L, true) => exCells (propagateAll false k ((L.handles k).map (·.2)) m) l
  | _ => none

/-- The case of C109: the hypotheses hold. -/
theorem exTwoJoints_case : ∃ L, exRobot.loadDoc exStod exTwoJoints = .ok (L, true) ∧
    parse exTwoJoints = .ok (exInfos exTwoJoints) ∧ JointsApart (exInfos exTwoJoints) ∧
    ((exInfos exTwoJoints).flatMap TransInfo.actuatorNames).Nodup ∧ exRobot.CommandsApart ∧
    ∀ i ∈ exInfos exTwoJoints, i.Commanded .effort ∧ exRobot.HasCommands .effort i := by
  have hok : exResult (exRobot.loadDoc exStod exTwoJoints) = some (true, ["t1", "t2"], ["t1", "t2"]) := by decide
  cases hl : exRobot.loadDoc exStod exTwoJoints with
  | error e => rw [hl] at hok; cases hok
  | ok r =>
    obtain ⟨L, b⟩ := r
    rw [hl] at hok
    simp only [exResult, Option.some.injEq, Prod.mk.injEq] at hok
    obtain ⟨rfl, -, -⟩ := hok
    refine ⟨L, rfl, rfl, ⟨by decide, by decide⟩, by decide, ?_, ?_⟩
    · intro c n n' a h h'
      cases c
      · cases h
      · cases h
      · simp only [actuatorCell, exRobot, smapFind] at h h'
        split at h <;> split at h' <;> simp_all
        all_goals omega
    · intro i hi
      have hi : i ∈ [(exInfos exTwoJoints)[0]'(by decide), (exInfos exTwoJoints)[1]'(by decide)] := hi
      simp only [List.mem_cons, List.not_mem_nil, or_false] at hi
      rcases hi with rfl | rfl
      · exact ⟨⟨_, List.mem_of_mem_head? rfl, false, List.mem_of_mem_head? rfl⟩, _, rfl, by decide⟩
      · exact ⟨⟨_, List.mem_of_mem_head? rfl, false, List.mem_of_mem_head? rfl⟩, _, rfl, by decide⟩

/-- Actuator efforts 5 and 7 give joint efforts 10 and 14; effort commands 6 and 8 of the joints give 3 and 4
for the actuators. -/
example : exPropagate exTwoJoints .actuatorToJointState (fun a => if a = 2 then 5 else if a = 6 then 7 else 0) [102, 110] =
      some [10, 14] ∧
    exPropagate exTwoJoints .jointToActuatorEffort (fun a => if a = 105 then 6 else if a = 113 then 8 else 0) [3, 7] =
      some [3, 4] := by decide +kernel

/-- An actuator that appears in two transmissions gets the command of one of them only, though `load`
returns true. -/
theorem c109_shared_actuator_negation : ∃ d L m m', exRobot.loadDoc exStod d = .ok (L, true) ∧
    JointsApart (exInfos d) ∧
    propagateAll false .jointToActuatorEffort ((L.handles .jointToActuatorEffort).map (·.2)) m = .ok m' ∧
    ∃ i ∈ exInfos d, ∃ t v, loadTransmission exStod i = .ok (some t) ∧ L.jointCommands .effort i.jointNames m = some v ∧
      exRobot.actuatorCommands .effort i.actuatorNames m' ≠ some (t.actuatorsFrom .effort v) := by
  let d := exDoc [exElem "t1" "j1" "a1", exElem "t2" "j2" "a1"]
  let m : Mem ℚ := fun a => if a = 105 then 6 else 8
  have hok : exPropagate d .jointToActuatorEffort m [3] = some [4] := by decide +kernel
  have hcmd : (match exRobot.loadDoc exStod d with
    | .ok (L, _) => L.jointCommands .effort ["j1"] m
    | _ => none) = some [6] := by decide +kernel
  unfold exPropagate at hok
  split at hok
  · rename_i L hl
    rw [hl] at hcmd
    cases hp : propagateAll false .jointToActuatorEffort ((L.handles .jointToActuatorEffort).map (·.2)) m with
    | error e => rw [hp] at hok; cases hok
    | ok m' =>
      rw [hp] at hok
      have h3 : m' 3 = 4 := by
        have := Option.some.inj hok
        simpa using this
      refine ⟨d, L, m, m', hl, ⟨by decide, by decide⟩, hp, (exInfos d)[0]'(by decide), List.getElem_mem _,
        .simple ⟨2, 0⟩, [6], rfl, hcmd, ?_⟩
      have : exRobot.actuatorCommands .effort ((exInfos d)[0]'(by decide)).actuatorNames m' = some [m' 3] := rfl
      rw [this, h3]
      decide +kernel
  · cases hok

end Loader

end Verif.Transmission
