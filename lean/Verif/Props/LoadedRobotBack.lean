import Verif.Lemmas.LoadedRobotBack
import Verif.Props.LoadedRobot

/-!
Property C110: robots whose description asks for bidirectional interfaces.
-/

namespace Verif.Transmission

namespace Loader

section

variable {K : Type} [Add K] [Sub K] [Mul K] [Div K] [OfNat K 0] [OfNat K 1] [OfNat K 2] [DecidableEq K]
  {stod : String → Option K} {L0 L : Loader K} {d : Doc} {infos : List TransInfo}

/-- **C110, states.** A robot without joint interfaces of its own, whose actuator data are all different
variables, has loaded its transmissions from a description in which no transmission name, no joint and no actuator
appears twice. Then propagating the states from the joints to the actuators succeeds from any memory, and afterwards
the actuators of every transmission with a bidirectional interface have the positions, velocities and efforts that
the transmission computes from those of its joints. Nothing but these values changes. -/
theorem c110_states (hf : L0.Fresh) (h0 : L0.NoOwn) (hm : L0.ActuatorsBelow) (hap : L0.StatesApart)
    (h : L0.loadDoc stod d = .ok (L, true)) (hp : parse d = .ok infos) (ha : JointsApart infos)
    (haa : (infos.flatMap TransInfo.actuatorNames).Nodup) (nd : Bool) (m : Mem K) :
    ∃ m', propagateAll nd .jointToActuatorState ((L.handles .jointToActuatorState).map (·.2)) m = .ok m' ∧
      (∀ i ∈ infos, ∀ c, i.BothWays c → L0.HasCommands c i → ∃ t, loadTransmission stod i = .ok (some t) ∧
        ∀ q, ∃ v, L.jointValues q i.jointNames m = some v ∧ v.length = t.numJoints ∧
          L0.actuatorValues q i.actuatorNames m' = some (t.actuatorsFrom q v)) ∧
      ∀ a, (∀ i ∈ infos, ∀ c, i.BothWays c → ∀ n ∈ i.actuatorNames, ∀ q, L0.actuatorStateCell q n ≠ some a) → m' a = m a := by
  have h := loadDoc_loadAll h hp
  have hi := loaded_inv hf h
  have ea : L.actuators = L0.actuators := hi.grows.acts
  obtain ⟨m', e, hv, hfr⟩ := c63_each_handle nd .jointToActuatorState _ (loaded_separate_back hf haa hm hap h) m
    (loaded_ok hf h nd _ m)
  refine ⟨m', e, ?_, ?_⟩
  · intro i hii c ⟨j, hj, hb⟩ hcm
    obtain ⟨t, ht, -, hcon⟩ := loaded_connected_all hf h0 (c50_well_formed d infos hp) ha.names h hii
    obtain ⟨g, hg, rfl, -, -⟩ := ((hcon j hj c true hb hcm).2 rfl).2
    obtain ⟨hmem, hw⟩ := loaded_wired hf ha.names h hii hg
    obtain ⟨m1, e1, -, hval⟩ := wired_back_values hi hm hap hw ((flat_apart ha.joints).1 i hii)
      ((flat_apart haa).1 i hii) nd m
    have := hval m' fun c hc => hv g (List.mem_map.2 ⟨_, hmem, rfl⟩) m1 e1 c hc
    refine ⟨g.trans, ht, fun q => ?_⟩
    obtain ⟨v, h1, h2, h3⟩ := this q
    refine ⟨v, h1, h2, ?_⟩
    unfold actuatorValues at h3 ⊢
    rw [← ea]
    exact h3
  · intro a hal
    by_cases hx : ∃ g ∈ (L.handles .jointToActuatorState).map (·.2), g.Target .jointToActuatorState a
    · obtain ⟨g, hg, hgt⟩ := hx
      obtain ⟨⟨n, g'⟩, hg', rfl⟩ := List.mem_map.1 hg
      obtain ⟨i, hii, -, hw, has⟩ := loaded_asked hf ha.names h hg'
      obtain ⟨c, hbw⟩ := has.back
      obtain ⟨m1, e1, f1, -⟩ := wired_back_values hi hm hap hw ((flat_apart ha.joints).1 i hii)
        ((flat_apart haa).1 i hii) nd m
      rw [hv g' hg m1 e1 a hgt]
      refine f1 a fun n hn q => ?_
      unfold actuatorStateCell
      rw [ea]
      exact hal i hii c hbw n hn q
    · exact hfr a fun g hg hgt => hx ⟨g, hg, hgt⟩

/-- **C110, commands.** Propagating the commands of one kind from the actuators to the joints succeeds from any
memory, and afterwards the joints of every transmission with the bidirectional interface for that command have the
commands the transmission computes from those of its actuators. Only commands of this kind of joints of these
transmissions change: nothing of the robot's own data, no value of a joint, no command of another transmission's
joints, and no command of another kind. -/
theorem c110_commands (hf : L0.Fresh) (h0 : L0.NoOwn) (hm : L0.ActuatorsBelow)
    (h : L0.loadDoc stod d = .ok (L, true)) (hp : parse d = .ok infos) (ha : JointsApart infos) (c : Cmd) (nd : Bool)
    (m : Mem K) :
    ∃ m', propagateAll nd c.toJoint ((L.handles c.toJoint).map (·.2)) m = .ok m' ∧
      (∀ i ∈ infos, i.BothWays c → L0.HasCommands c i → ∃ t v, loadTransmission stod i = .ok (some t) ∧
        L0.actuatorCommands c i.actuatorNames m = some v ∧ v.length = t.numActuators ∧
        L.jointCommands c i.jointNames m' = some (t.jointsFrom c.quantity v)) ∧
      (∀ a, a < L0.next → m' a = m a) ∧
      (∀ i ∈ infos, (∀ q, L.jointValues q i.jointNames m' = L.jointValues q i.jointNames m) ∧
        L.jointAbsolute i.jointNames m' = L.jointAbsolute i.jointNames m ∧
        L.jointTorque i.jointNames m' = L.jointTorque i.jointNames m) ∧
      (∀ i ∈ infos, ¬i.BothWays c → L.jointCommands c i.jointNames m' = L.jointCommands c i.jointNames m) ∧
      ∀ c' names, c' ≠ c → L.jointCommands c' names m' = L.jointCommands c' names m := by
  have h := loadDoc_loadAll h hp
  have hi := loaded_inv hf h
  have hcell0 : ∀ c, L.actuatorCell c = L0.actuatorCell c := fun c => by
    funext n; unfold actuatorCell; rw [hi.grows.acts]
  obtain ⟨m', e, hv, hfr⟩ := c63_each_handle nd c.toJoint _ (loaded_separate_inverse hf ha hm h c) m
    (loaded_ok hf h nd _ m)
  have frame : ∀ a, (∀ n b, smapFind n L.raw = some b → a ≠ rawCommand b c) → m' a = m a := by
    intro a hna
    refine hfr a fun g hg hgt => ?_
    obtain ⟨⟨n, g'⟩, hg', rfl⟩ := List.mem_map.1 hg
    obtain ⟨an, jn, hw⟩ := hi.handles _ n g' hg'
    obtain ⟨n, -, b, hb, e⟩ := inverse_target hw (toJoint_target.1 hgt)
    exact hna n b hb e
  have raw : ∀ n b n' b' k, smapFind n L.raw = some b → smapFind n' L.raw = some b' → k ∈ [0, 1, 2, 6, 7] →
      b + k ≠ rawCommand b' c := by
    intro n b n' b' k hb hb' hk
    have hb8 : b' = b ∨ b + 8 ≤ b' ∨ b' + 8 ≤ b := by
      by_cases he : n = n'
      · subst he; rw [hb] at hb'; exact .inl (Option.some.inj hb').symm
      · exact .inr (hi.rawApart n n' b b' he hb hb')
    simp only [List.mem_cons, List.not_mem_nil, or_false] at hk
    cases c <;> simp only [rawCommand] <;> omega
  refine ⟨m', e, ?_, ?_, ?_, ?_, ?_⟩
  · intro i hii ⟨j, hj, hb⟩ hcm
    obtain ⟨t, ht, -, hcon⟩ := loaded_connected_all hf h0 (c50_well_formed d infos hp) ha.names h hii
    obtain ⟨g, hg, rfl, -, hcp⟩ := ((hcon j hj c true hb hcm).2 rfl).1
    obtain ⟨hmem, hw⟩ := loaded_wired hf ha.names h hii hg
    have hcell : ∀ n ∈ i.jointNames, ∀ b, smapFind n L.raw = some b → L.commandCell c n = some (rawCommand b c) := by
      intro n hn b hb
      obtain ⟨x, hx⟩ := List.mem_iff_getElem?.1 hn
      obtain ⟨a, hca, -⟩ := hcp x n hx
      obtain ⟨b', hb', rfl⟩ := commandCell_raw hi hf h0 hca
      rw [hb] at hb'
      cases hb'
      exact hca
    obtain ⟨m1, e1, hval⟩ := wired_inverse_values hi hm hw ((flat_apart ha.joints).1 i hii) hcell nd m
    obtain ⟨v, h1, h2, h3⟩ := hval m' fun c' hc => hv g (List.mem_map.2 ⟨_, hmem, rfl⟩) m1 e1 c' (toJoint_target.2 hc)
    refine ⟨g.trans, v, ht, ?_, h2, h3⟩
    unfold actuatorCommands at h1 ⊢
    rw [← hcell0]
    exact h1
  · intro a hal
    refine frame a fun n b hb => ?_
    have := (hi.rawBounds n b hb).1
    cases c <;> simp only [rawCommand] <;> omega
  · intro i hii
    obtain ⟨t, ht, ⟨g, hg, rfl, -, -⟩, -⟩ := loaded_connected hf h0 (c50_well_formed d infos hp) ha.names h hii
    obtain ⟨-, hw⟩ := loaded_wired hf ha.names h hii hg
    obtain ⟨r, hs, bs, hr, hms, hbs, -⟩ := hw.state rfl
    have key : ∀ k ∈ [0, 1, 2, 6, 7], (col bs k).map m' = (col bs k).map m := by
      intro k hk
      refine List.map_congr_left fun a hac => ?_
      obtain ⟨b, hb, rfl⟩ := List.mem_map.1 hac
      obtain ⟨n, -, hn⟩ := (mapM_mem hbs).2 b hb
      exact frame _ fun n' b' hb' => raw n b n' b' k hn hb' hk
    refine ⟨fun q => ?_, ?_, ?_⟩
    · rw [jointValues_eq hi hbs, jointValues_eq hi hbs]
      cases q
      · exact congrArg some (key 0 (by simp))
      · exact congrArg some (key 1 (by simp))
      · exact congrArg some (key 2 (by simp))
    · rw [jointAbsolute_eq hi hbs, jointAbsolute_eq hi hbs, key 6 (by simp)]
    · rw [jointTorque_eq hi hbs, jointTorque_eq hi hbs, key 7 (by simp)]
  · intro i hii hno
    unfold jointCommands
    refine mapM_congr_mem fun n hn => ?_
    cases hc : L.commandCell c n with
    | none => rfl
    | some a =>
      obtain ⟨b, hb, rfl⟩ := commandCell_raw hi hf h0 hc
      refine congrArg some (hfr _ fun g hg hgt => ?_)
      obtain ⟨⟨n1, g'⟩, hg', rfl⟩ := List.mem_map.1 hg
      obtain ⟨i', hii', -, hw, has⟩ := loaded_asked hf ha.names h hg'
      obtain ⟨n', hn', b', hb', e⟩ := inverse_target hw (toJoint_target.1 hgt)
      have hnn : n = n' := by
        by_contra hne
        have := hi.rawApart n n' b b' hne hb hb'
        revert e
        cases c <;> simp only [rawCommand] <;> omega
      subst hnn
      refine (flat_apart ha.joints).2 i hii i' hii' (fun e => hno ?_) n hn hn'
      rw [e]
      exact has.bothWays
  · intro c' names hne
    unfold jointCommands
    congr 1
    funext n
    cases hc : L.commandCell c' n with
    | none => rfl
    | some a =>
      obtain ⟨b, hb, rfl⟩ := commandCell_raw hi hf h0 hc
      refine congrArg some (frame _ fun n' b' hb' => ?_)
      have hb8 : b' = b ∨ b + 8 ≤ b' ∨ b' + 8 ≤ b := by
        by_cases he : n = n'
        · subst he; rw [hb] at hb'; exact .inl (Option.some.inj hb').symm
        · exact .inr (hi.rawApart n n' b b' he hb hb')
      cases c <;> cases c' <;> simp only [rawCommand] <;> first | (exact absurd rfl hne) | omega

end

section

variable {K : Type} [Field K] [DecidableEq K] {stod : String → Option K} {L0 L : Loader K} {d : Doc} {infos : List TransInfo}

/-- **C110, there and back.** The two directions undo each other. The joints' values survive being propagated to the
actuators and back, whatever happens to joint data in between; the actuators' commands survive being propagated to
the joints and back, whatever happens to the actuators' commands in between. -/
theorem c110_there_and_back [NeZero (2 : K)] (hf : L0.Fresh) (h0 : L0.NoOwn) (hm : L0.ActuatorsBelow)
    (hap : L0.StatesApart) (hca : L0.CommandsApart)
    (h : L0.loadDoc stod d = .ok (L, true)) (hp : parse d = .ok infos) (ha : JointsApart infos)
    (haa : (infos.flatMap TransInfo.actuatorNames).Nodup) {i : TransInfo} (hii : i ∈ infos) {c : Cmd}
    (hb : i.BothWays c) (hcm : L0.HasCommands c i) (nd : Bool) {m m1 m2 m3 : Mem K} :
    (propagateAll nd .jointToActuatorState ((L.handles .jointToActuatorState).map (·.2)) m = .ok m1 →
      (∀ q, L0.actuatorValues q i.actuatorNames m2 = L0.actuatorValues q i.actuatorNames m1) →
      propagateAll nd .actuatorToJointState ((L.handles .actuatorToJointState).map (·.2)) m2 = .ok m3 →
      ∀ q, L.jointValues q i.jointNames m3 = L.jointValues q i.jointNames m) ∧
    (propagateAll nd c.toJoint ((L.handles c.toJoint).map (·.2)) m = .ok m1 →
      L.jointCommands c i.jointNames m2 = L.jointCommands c i.jointNames m1 →
      propagateAll nd c.toActuator ((L.handles c.toActuator).map (·.2)) m2 = .ok m3 →
      L0.actuatorCommands c i.actuatorNames m3 = L0.actuatorCommands c i.actuatorNames m) := by
  have ln : ∀ t : Trans K, t.numActuators = t.numJoints := fun t => by
    rcases t.one_num with ⟨-, h1, h2⟩ | ⟨-, h1, h2⟩ <;> rw [h1, h2]
  constructor
  · intro hb1 hsame hb2 q
    obtain ⟨m1', e1, w, -⟩ := c110_states hf h0 hm hap h hp ha haa nd m
    rw [hb1] at e1; cases e1
    obtain ⟨m3', e3, r, -⟩ := c109_reading hf h0 hm h hp ha nd m2
    rw [hb2] at e3; cases e3
    obtain ⟨t, ht, hv⟩ := w i hii c hb hcm
    obtain ⟨t', ht', hr, -⟩ := r i hii
    rw [ht] at ht'; cases ht'
    obtain ⟨v, h1, hl, h2⟩ := hv q
    obtain ⟨u, hu, hj⟩ := hr q
    rw [hsame, h2] at hu
    cases hu
    obtain ⟨-, -, hc⟩ := loadTransmission_some ht
    rw [hj, h1, ← run_actuatorsFrom _ _ _ (by rw [hl, ln]), ← run_jointsFrom _ _ _ (by rw [run_length, hl, ln]),
      (run_inv q (regular hc) v (by rw [hl, ln])).2]
  · intro hb1 hsame hb2
    obtain ⟨m1', e1, w, -⟩ := c110_commands hf h0 hm h hp ha c nd m
    rw [hb1] at e1; cases e1
    obtain ⟨m3', e3, r, -⟩ := c109_writing hf h0 hm hca h hp ha haa c nd m2
    rw [hb2] at e3; cases e3
    obtain ⟨t, v, ht, h1, hl, h2⟩ := w i hii hb hcm
    obtain ⟨j, hj, hx⟩ := hb
    obtain ⟨t', u, ht', hu, -, hact⟩ := r i hii ⟨j, hj, true, hx⟩ hcm
    rw [ht] at ht'; cases ht'
    rw [hsame, h2] at hu
    cases hu
    obtain ⟨-, -, hc⟩ := loadTransmission_some ht
    rw [hact, h1, ← run_jointsFrom _ _ _ (by rw [hl]), ← run_actuatorsFrom _ _ _ (by rw [run_length, hl]),
      (run_inv c.quantity (regular hc) v (by rw [hl])).1]

end

/-! ### Concrete cases -/

/-- The element for a simple transmission with reduction 2 and a bidirectional interface. -/
def exBack (name joint actuator : String) : Elem :=
  exTransmission name "transmission_interface/SimpleTransmission"
    [.node "joint" [("name", joint)] none
      [.node "hardwareInterface" [] (some "hardware_interface/BiDirectionalEffortJointInterface") []]]
    [.node "actuator" [("name", actuator)] none [exNumber "mechanicalReduction" "2"]]

/-- Two joints, the first with a bidirectional interface. -/
def exTwoWays : Doc := exDoc [exBack "t1" "j1" "a1", exElem "t2" "j2" "a2"]

theorem exRobot_statesApart : exRobot.StatesApart := by
  constructor
  · intro r n s hr hs
    cases hr
    simp only [smapFind] at hs
    split at hs
    · cases hs; decide
    · split at hs
      · cases hs; decide
      · cases hs
  · intro r n n' s s' hr hs hs' hne
    cases hr
    simp only [smapFind] at hs hs'
    split at hs <;> split at hs'
    · simp_all
    · split at hs'
      · cases hs; cases hs'; decide
      · cases hs'
    · split at hs
      · cases hs; cases hs'; decide
      · cases hs
    · split at hs <;> split at hs' <;> simp_all

/-- The case of C110: the hypotheses hold (with `exRobot_fresh`, `exRobot_noOwn`, `exRobot_statesApart`). -/
example : ∃ L, exRobot.loadDoc exStod exTwoWays = .ok (L, true) ∧
    parse exTwoWays = .ok (exInfos exTwoWays) ∧ JointsApart (exInfos exTwoWays) ∧
    ((exInfos exTwoWays).flatMap TransInfo.actuatorNames).Nodup ∧
    ∃ i ∈ exInfos exTwoWays, i.BothWays .effort ∧ exRobot.HasCommands .effort i := by
  have hok : exResult (exRobot.loadDoc exStod exTwoWays) = some (true, ["t1", "t2"], ["t1", "t2"]) := by decide
  cases hl : exRobot.loadDoc exStod exTwoWays with
  | error e => rw [hl] at hok; cases hok
  | ok r =>
    obtain ⟨L, b⟩ := r
    rw [hl] at hok
    simp only [exResult, Option.some.injEq, Prod.mk.injEq] at hok
    obtain ⟨rfl, -, -⟩ := hok
    refine ⟨L, rfl, rfl, ⟨by decide, by decide⟩, by decide, (exInfos exTwoWays)[0]'(by decide), List.getElem_mem _, ?_⟩
    exact ⟨⟨_, List.mem_of_mem_head? rfl, List.mem_of_mem_head? rfl⟩, _, rfl, by decide⟩

/-- Position 3, velocity 5 and effort 8 of the joint "j1" give 6, 10 and 4 for the actuator "a1"; nothing happens to
"a2". An effort command 9 of "a1" gives 18 for "j1"; nothing happens to "j2". -/
example : exPropagate exTwoWays .jointToActuatorState
      (fun a => if a = 100 then 3 else if a = 101 then 5 else if a = 102 then 8 else if a = 108 then 7 else 1) [0, 1, 2, 4, 5, 6] =
      some [6, 10, 4, 1, 1, 1] ∧
    exPropagate exTwoWays .actuatorToJointEffort (fun a => if a = 3 then 9 else 1) [105, 113] = some [18, 1] := by
  decide +kernel

end Loader

end Verif.Transmission
