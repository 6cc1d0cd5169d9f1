import Verif.Lemmas.TransmissionLoad
import Verif.Lemmas.TransmissionLocal
import Verif.Props.Transmission
import Verif.Props.TransmissionParser
import Mathlib.Tactic.NormNum
import Mathlib.Algebra.Field.Rat

/-!
Properties C64 to C68: loading transmissions.
-/

namespace Verif.Transmission

namespace Loader

variable {K : Type} [Add K] [Sub K] [Mul K] [Div K] [OfNat K 0] [OfNat K 1] [OfNat K 2] [DecidableEq K] {stod : String → Option K} {L0 L L' : Loader K} {i : TransInfo}

/-! ### C64: `load` returns -/

theorem ownState_none (hr : Reached stod L0 L) (ho : L0.ownState = none) : L.ownState = none := by
  have := hr.inv.grows.ownState
  rw [ho] at this
  cases hs : L.ownState with
  | none => rfl
  | some _ => rw [hs] at this; cases this

theorem wf_joint (hw : i.WellFormed) : ∃ j js, i.joints = j :: js ∧ j.hwIfaces ≠ [] := by
  cases hj : i.joints with
  | nil => exact absurd hj hw.joints
  | cons j js => exact ⟨j, js, rfl, (hw.joint j (by simp [hj])).2⟩

/-- **C64** (missing: robots with a joint state interface of their own, and number elements without text;
`c64_own_state_negation` and `c64_null_text_negation`). Loading a well-formed transmission returns true or
false, whatever has been loaded before. -/
theorem c64_returns_partial (hr : Reached stod L0 L) (ho : L0.ownState = none) (hw : i.WellFormed)
    (ht : i.TextsPresent) : ∃ L' b, L.load stod i = .ok (L', b) := by
  obtain ⟨j, js, hj, hn⟩ := wf_joint hw
  rw [load_eq L i hj hn]
  cases hl : loadTransmission stod i with
  | error e => exact absurd ht (loadTransmission_error hl).2
  | ok r =>
    simp only [bind, Except.bind]
    cases r with
    | none => exact ⟨_, _, rfl⟩
    | some t =>
      obtain ⟨hA, hJ, -⟩ := loadTransmission_some hl
      dsimp only
      split
      · obtain ⟨L', h, -⟩ := loadIfaces_noOwn hA hJ j.hwIfaces hr.inv (ownState_none hr ho) false
        exact ⟨_, _, h⟩
      · exact ⟨_, _, rfl⟩

/-- **C64.** Loading a well-formed transmission into any robot ends in a return, in the missing text of a
number, or in the exception that the joint state interface of the loader lacks a joint, and the last only if
the robot has a joint state interface of its own. No transmission handle is ever rejected. -/
theorem c64_ways_to_fail (hr : Reached stod L0 L) (hw : i.WellFormed) (e : Crash) (h : L.load stod i = .error e) :
    (e = .nullText ∧ ¬i.TextsPresent) ∨ (e = .jointStateMissing ∧ L0.ownState ≠ none) := by
  obtain ⟨j, js, hj, hn⟩ := wf_joint hw
  rw [load_eq L i hj hn] at h
  cases hl : loadTransmission stod i with
  | error e' => rw [hl] at h; cases h; exact .inl (loadTransmission_error hl)
  | ok r =>
    rw [hl] at h
    simp only [bind, Except.bind] at h
    cases r with
    | none => cases h
    | some t =>
      obtain ⟨hA, hJ, -⟩ := loadTransmission_some hl
      dsimp only at h
      split at h
      · rcases loadIfaces_general hA hJ j.hwIfaces hr.inv false with ⟨h', ho⟩ | ⟨L', b, h', -⟩
        · rw [h'] at h
          cases h
          refine .inr ⟨rfl, fun h0 => ?_⟩
          rw [ownState_none hr h0] at ho
          cases ho
        · rw [h'] at h; cases h
      · cases h

theorem loadAll_returns (l : List TransInfo) (hi : Inv L0 L) (ho : L.ownState = none)
    (hw : ∀ i ∈ l, i.WellFormed) (ht : ∀ i ∈ l, i.TextsPresent) : ∃ r, loadAll stod l L = .ok r := by
  induction l generalizing L with
  | nil => exact ⟨_, rfl⟩
  | cons i rest ih =>
    have h1 : ∃ L' b, L.load stod i = .ok (L', b) := by
      obtain ⟨j, js, hj, hn⟩ := wf_joint (hw i (by simp))
      rw [load_eq L i hj hn]
      cases hl : loadTransmission stod i with
      | error e => exact absurd (ht i (by simp)) (loadTransmission_error hl).2
      | ok r =>
        simp only [bind, Except.bind]
        cases r with
        | none => exact ⟨_, _, rfl⟩
        | some t =>
          obtain ⟨hA, hJ, -⟩ := loadTransmission_some hl
          dsimp only
          split
          · obtain ⟨L', h, -⟩ := loadIfaces_noOwn hA hJ j.hwIfaces hi ho false
            exact ⟨_, _, h⟩
          · exact ⟨_, _, rfl⟩
    obtain ⟨L', b, hl⟩ := h1
    rw [loadAll, hl]
    simp only [bind, Except.bind, pure, Except.pure]
    split
    · obtain ⟨i1, g1, -⟩ := load_inv hi hl
      refine ih i1 ?_ (fun i hi => hw i (by simp [hi])) fun i hi => ht i (by simp [hi])
      have := g1.ownState
      rw [ho] at this
      cases hs : L'.ownState with
      | none => rfl
      | some _ => rw [hs] at this; cases this
    · exact ⟨_, rfl⟩

/-- **C64** (missing as before, and documents without a root element, `c50_no_root_negation`). Loading a
document returns true or false, whatever is in it. -/
theorem c64_document_partial (hr : Reached stod L0 L) (ho : L0.ownState = none) (d : Doc) (hroot : d.root ≠ none)
    (ht : ∀ infos, parse d = .ok infos → ∀ i ∈ infos, i.TextsPresent) : ∃ L' b, L.loadDoc stod d = .ok (L', b) := by
  unfold loadDoc
  cases hp : parse d with
  | failed => exact ⟨_, _, rfl⟩
  | nullDereference =>
    exfalso
    unfold parse at hp
    split at hp
    · cases hp
    · split at hp
      · rename_i h; exact hroot h
      · cases hp
  | ok infos =>
    dsimp only
    split
    · exact ⟨_, _, rfl⟩
    · obtain ⟨r, h⟩ := loadAll_returns infos hr.inv (ownState_none hr ho) (c50_well_formed d infos hp) (ht infos hp)
      exact ⟨r.1, r.2, h⟩

/-! ### C65: loaded handles can be propagated -/

/-- **C65.** Whatever has been loaded, propagating all handles of an interface never touches missing data
nor stops at an assertion. -/
theorem c65_propagates (hr : Reached stod L0 L) (nd : Bool) (k : Kind) (m : Mem K) :
    ∃ m', propagateAll nd k ((L.handles k).map (·.2)) m = .ok m' := by
  have hall : ∀ h ∈ (L.handles k).map (·.2), ∀ m, ∃ m', h.propagate nd k m = .ok m' := by
    intro h hh m
    obtain ⟨⟨n, g⟩, hg, rfl⟩ := List.mem_map.1 hh
    obtain ⟨an, jn, hw⟩ := hr.inv.handles k n g hg
    exact (c49_propagate_partial nd hw.mkHandle k m).2 (hw.complete nd)
  generalize (L.handles k).map (·.2) = hs at hall
  induction hs generalizing m with
  | nil => exact ⟨m, rfl⟩
  | cons h hs ih =>
    obtain ⟨m1, h1⟩ := hall h (by simp) m
    obtain ⟨m2, h2⟩ := ih (m := m1) fun g hg => hall g (by simp [hg])
    exact ⟨m2, by rw [propagateAll, h1]; exact h2⟩

/-- **C65.** Every handle comes from one of the transmissions given to `load`, the one of its name: its
transmission was constructed from that description, by a constructor that checks it, and the loader keeps
it. -/
theorem c65_transmissions_kept (hf : L0.Fresh) (calls : List (List TransInfo)) (h : loads stod calls L0 = .ok L)
    (k : Kind) (n : String) (g : Handle K) (hg : (n, g) ∈ L.handles k) : g.trans ∈ L.transmissions ∧
      Constructed g.trans ∧ ∃ i ∈ calls.flatten, i.name = n ∧ loadTransmission stod i = .ok (some g.trans) := by
  have ho : L.Origin stod ([] ++ calls.flatten) :=
    loads_origin calls hf.inv (fun k n g hg => by rw [hf.handles] at hg; cases hg) h
  obtain ⟨i, hi, hn, -, ht⟩ := ho k n g hg
  exact ⟨(loads_inv calls hf.inv h).1.alive k n g hg, (loadTransmission_some ht).2.2, i, hi, hn, ht⟩

/-! ### C66: joints are connected with actuators -/

theorem robotCommand_nil (hf : L0.Fresh) (h0 : L0.NoOwn) (c : Cmd) : L0.robotCommand c = [] := by
  simp [robotCommand, h0.2 c, hf.jointCommand c]

theorem IsFor.state (hi : Inv L0 L) {k : Kind} (hk : k.cmd = none) {t : Trans K} {g : Handle K}
    (hg : smapFind i.name (L.handles k) = some g) (hf : L.IsFor k i t g) : L.StateConnected k i t := by
  obtain ⟨ht, -, -, hd⟩ := hf
  rw [hk] at hd
  exact ⟨g, hg, ht, actuatorStateData_ptrs hd.1, jointStateData_ptrs hi hd.2⟩

theorem IsFor.command (hi : Inv L0 L) (hf0 : L0.Fresh) (h0 : L0.NoOwn) {k : Kind} {c : Cmd} (hk : k.cmd = some c)
    {t : Trans K} {g : Handle K} (hg : smapFind i.name (L.handles k) = some g) (hf : L.IsFor k i t g)
    (hn : ∀ n ∈ i.jnts, n ∈ smapKeys (L.robotCommand c)) : L.CommandConnected k c i t := by
  obtain ⟨ht, -, -, hd⟩ := hf
  rw [hk] at hd
  exact ⟨g, hg, ht, actuatorCommandData_ptrs hd.1, jointCommandData_ptrs hi (robotCommand_nil hf0 h0 c) hd.2 hn⟩

/-- What `load` does if the robot has no joint interfaces of its own. -/
theorem load_noOwn (hr : Reached stod L0 L) (h0 : L0.ownState = none) {b : Bool} (h : L.load stod i = .ok (L', b))
    {j : JointInfo} {js : List JointInfo} (hj : i.joints = j :: js) (hn : j.hwIfaces ≠ []) :
    (b = false ∧ L' = L) ∨ ∃ t, loadTransmission stod i = .ok (some t) ∧ ifacesOk i j = true ∧
      b = ((provs j.hwIfaces).any fun p => L.offers p i.acts) ∧
      Processed L0 L L' i t (provs j.hwIfaces) ∧
      (((provs j.hwIfaces).any fun p => L.offers p i.acts) = false → L' = L) ∧
      (∀ p ∈ provs j.hwIfaces, L.offers p i.acts = true →
        (∀ n ∈ i.jnts, n ∈ smapKeys L'.robotState) ∧
        (∀ c x, p = .command c x → ∀ n ∈ i.jnts, n ∈ smapKeys (L'.robotCommand c)) ∧
        (∀ k, replaces p k = true → ∃ h, smapFind i.name (L'.handles k) = some h ∧ L'.IsFor k i t h) ∧
        (∀ k, ensures p k = true → ∃ h, smapFind i.name (L'.handles k) = some h)) ∧
      (∀ k, (∀ p ∈ provs j.hwIfaces, L.offers p i.acts = true → replaces p k = false ∧ ensures p k = false) →
        smapFind i.name (L'.handles k) = smapFind i.name (L.handles k)) := by
  rw [load_eq L i hj hn] at h
  cases hl : loadTransmission stod i with
  | error e => rw [hl] at h; cases h
  | ok r =>
    rw [hl] at h
    simp only [bind, Except.bind] at h
    cases r with
    | none => cases h; exact .inl ⟨rfl, rfl⟩
    | some t =>
      obtain ⟨hA, hJ, -⟩ := loadTransmission_some hl
      dsimp only at h
      split at h
      · rename_i hok
        obtain ⟨L1, h1, h2, h3, h4, h5⟩ := loadIfaces_noOwn hA hJ j.hwIfaces hr.inv (ownState_none hr h0) false
        rw [h1] at h
        cases h
        exact .inr ⟨t, rfl, hok, by simp, h2, h3, h4, h5⟩
      · cases h; exact .inl ⟨rfl, rfl⟩

/-- **C66** (missing: robots with joint interfaces of their own and names used twice;
`c66_own_command_negation`, `c66_same_name_negation`). After a transmission with a new name has been loaded,
its state handle connects the state data of the robot's actuators of these names with the data of the
joints of these names that controllers get from the robot; and so do the command handles for each hardware
interface of the joints for which the robot has the actuator commands. -/
theorem c66_connected_partial (hr : Reached stod L0 L) (h0 : L0.NoOwn) (hw : i.WellFormed)
    (hnew : ∀ k, i.name ∉ smapKeys (L.handles k)) (h : L.load stod i = .ok (L', true)) :
    ∃ t, loadTransmission stod i = .ok (some t) ∧ L'.StateConnected .actuatorToJointState i t ∧
      ∀ j ∈ i.joints, ∀ c x, Cmd.iface c x ∈ j.hwIfaces → L.HasCommands c i →
        L'.CommandConnected c.toActuator c i t ∧
        (x = true → L'.CommandConnected c.toJoint c i t ∧ L'.StateConnected .jointToActuatorState i t) := by
  obtain ⟨j, js, hj, hn⟩ := wf_joint hw
  rcases load_noOwn hr h0.1 h hj hn with ⟨h, -⟩ | ⟨t, ht, hok, hb, hp, -, hdone, -⟩
  · cases h
  · refine ⟨t, ht, ?_, ?_⟩
    · have hex := hb.symm
      rw [List.any_eq_true] at hex
      obtain ⟨p, hpm, hpo⟩ := hex
      obtain ⟨-, -, d3, d4⟩ := hdone p hpm hpo
      rcases hp.this .actuatorToJointState with e | ⟨g, hg, hf⟩
      · exfalso
        have hnone : smapFind i.name (L'.handles .actuatorToJointState) = none := by
          rw [e]; exact not_mem_keys.1 (hnew _)
        cases p with
        | state =>
          obtain ⟨g, hg, -⟩ := d3 .actuatorToJointState (by simp [replaces])
          rw [hnone] at hg; cases hg
        | command c x =>
          obtain ⟨g, hg⟩ := d4 .actuatorToJointState (by simp [ensures])
          rw [hnone] at hg; cases hg
      · exact hf.state hp.inv rfl hg
    · intro j' hj' c x hf hc
      have hmem : Cmd.iface c x ∈ j.hwIfaces := by
        have := List.all_eq_true.1 hok j' hj'
        exact (List.isPerm_iff.1 this).mem_iff.1 hf
      have hpm : Provider.command c x ∈ provs j.hwIfaces :=
        List.mem_filterMap.2 ⟨_, hmem, providerOf_iface c x⟩
      have hst : L.HasStates i := by
        have hex := hb.symm
        rw [List.any_eq_true] at hex
        obtain ⟨p, -, hpo⟩ := hex
        simp only [offers, Bool.and_eq_true] at hpo
        exact actuatorStateData_isSome.1 hpo.1
      have hpo : L.offers (.command c x) i.acts = true := by
        simp only [offers, Bool.and_eq_true]
        exact ⟨actuatorStateData_isSome.2 hst, actuatorCommandData_isSome.2 hc⟩
      obtain ⟨-, d2, d3, d4⟩ := hdone _ hpm hpo
      refine ⟨?_, ?_⟩
      · obtain ⟨g, hg, hgf⟩ := d3 c.toActuator (by simp [replaces])
        exact hgf.command hp.inv hr.1 h0 (by cases c <;> rfl) hg (d2 c x rfl)
      · rintro rfl
        constructor
        · obtain ⟨g, hg, hgf⟩ := d3 c.toJoint (by simp [replaces])
          exact hgf.command hp.inv hr.1 h0 (by cases c <;> rfl) hg (d2 c _ rfl)
        · rcases hp.this .jointToActuatorState with e | ⟨g, hg, hgf⟩
          · exfalso
            obtain ⟨g, hg⟩ := d4 .jointToActuatorState (by simp [ensures])
            rw [e, not_mem_keys.1 (hnew _)] at hg
            cases hg
          · exact hgf.state hp.inv rfl hg

theorem ptrs_mono {m m' : List (String × StateCells)} {names : List String} {d : Data}
    (h : ∀ n s, smapFind n m = some s → smapFind n m' = some s) (hp : StatePtrs m names d) : StatePtrs m' names d := by
  have key : ∀ n ∈ names, ∀ s, smapFind n m' = some s → smapFind n m = some s := by
    intro n hn s hs
    obtain ⟨x, hx⟩ := List.getElem?_of_mem hn
    obtain ⟨s', hs', -⟩ := hp.values x n hx
    rw [h n s' hs'] at hs
    cases hs
    exact hs'
  constructor
  · intro x n hx
    obtain ⟨s, hs, hh⟩ := hp.values x n hx
    exact ⟨s, h n s hs, hh⟩
  · intro ha x n hx
    obtain ⟨s, hs, hh⟩ := hp.absolute (fun n hn s hs => ha n hn s (h n s hs)) x n hx
    exact ⟨s, h n s hs, hh⟩
  · intro ha x n hx
    obtain ⟨s, hs, hh⟩ := hp.torque (fun n hn s hs => ha n hn s (h n s hs)) x n hx
    exact ⟨s, h n s hs, hh⟩
  · rintro ⟨n, hn, s, hs, ha⟩
    exact hp.noAbsolute ⟨n, hn, s, key n hn s hs, ha⟩
  · rintro ⟨n, hn, s, hs, ha⟩
    exact hp.noTorque ⟨n, hn, s, key n hn s hs, ha⟩

/-- **C66.** Connections stay: later calls of `load` with transmissions of other names keep the handles,
the actuators and the joint data they connect. -/
theorem c66_stay_connected (hr : Reached stod L0 L) (calls : List (List TransInfo)) (h : loads stod calls L = .ok L')
    (hn : ∀ l ∈ calls, ∀ i' ∈ l, i'.name ≠ i.name) (t : Trans K) (k : Kind) :
    (L.StateConnected k i t → L'.StateConnected k i t) ∧
      ∀ c, L.CommandConnected k c i t → L'.CommandConnected k c i t := by
  obtain ⟨-, g, o⟩ := loads_inv calls hr.inv h
  refine ⟨?_, ?_⟩
  · rintro ⟨x, hx, ht, ⟨m, hm, hp⟩, hj⟩
    exact ⟨x, by rw [o k i.name hn]; exact hx, ht, ⟨m, by rw [g.acts]; exact hm, hp⟩, ptrs_mono g.state hj⟩
  · rintro c ⟨x, hx, ht, ha, hj⟩
    refine ⟨x, by rw [o k i.name hn]; exact hx, ht, ?_, ?_⟩
    · unfold actuatorCell at ha ⊢; rw [g.acts]; exact ha
    · intro y n hy
      obtain ⟨a, ha, hd⟩ := hj y n hy
      refine ⟨a, ?_, hd⟩
      unfold commandCell at ha ⊢
      rw [Option.map_eq_some_iff] at ha ⊢
      obtain ⟨s, hs, e⟩ := ha
      exact ⟨s, g.command c n s hs, e⟩

/-- **C66.** The robot's joint handles stay: whatever is loaded, a joint that was on one of the robot's
joint interfaces keeps its data. -/
theorem c66_handles_stay (hr : Reached stod L0 L) (calls : List (List TransInfo)) (h : loads stod calls L = .ok L')
    (n : String) : (∀ s, smapFind n L.robotState = some s → smapFind n L'.robotState = some s) ∧
      ∀ c s, smapFind n (L.robotCommand c) = some s → smapFind n (L'.robotCommand c) = some s := by
  obtain ⟨-, g, -⟩ := loads_inv calls hr.inv h
  exact ⟨fun s => g.state n s, fun c s => g.command c n s⟩

/-! ### C67: no two joints share data -/

theorem rawState_has {b a : Nat} (h : (rawState b).Has a) : b ≤ a ∧ a < b + 8 := by
  unfold StateCells.Has rawState at h
  simp only [Option.some.injEq] at h
  omega

/-- **C67.** Joints of different names that the loader has added to the robot share no data: neither states
nor commands. -/
theorem c67_joints_apart (hr : Reached stod L0 L) {n n' : String} (hne : n ≠ n')
    (h1 : smapFind n L0.robotState = none) (h2 : smapFind n' L0.robotState = none) {s s' : StateCells}
    (hs : smapFind n L.robotState = some s) (hs' : smapFind n' L.robotState = some s') :
    (∀ a, s.Has a → ¬s'.Has a) ∧
    ∀ c c' x x', smapFind n (L0.robotCommand c) = none → smapFind n' (L0.robotCommand c') = none →
      smapFind n (L.robotCommand c) = some x → smapFind n' (L.robotCommand c') = some x' →
      x.2 ≠ x'.2 ∧ ¬s.Has x'.2 ∧ ¬s.Has x.2 := by
  have hi := hr.inv
  rcases hi.state n s hs with h | ⟨-, b, hb, rfl⟩
  · rw [h1] at h; cases h
  rcases hi.state n' s' hs' with h | ⟨-, b', hb', rfl⟩
  · rw [h2] at h; cases h
  have hap := hi.rawApart n n' b b' hne hb hb'
  refine ⟨?_, ?_⟩
  · intro a ha ha'
    have := rawState_has ha
    have := rawState_has ha'
    omega
  · intro c c' x x' k1 k2 hx hx'
    rcases hi.command c n x hx with h | ⟨-, d, hd, rfl⟩
    · rw [k1] at h; cases h
    rcases hi.command c' n' x' hx' with h | ⟨-, d', hd', rfl⟩
    · rw [k2] at h; cases h
    rw [hb] at hd; cases hd
    rw [hb'] at hd'; cases hd'
    have e : ∀ (b : Nat) (c : Cmd), b + 3 ≤ rawCommand b c ∧ rawCommand b c ≤ b + 5 := by
      intro b c; cases c <;> simp [rawCommand]
    have e1 := e b c
    have e2 := e b' c'
    refine ⟨by dsimp only; omega, fun hh => ?_, fun hh => ?_⟩
    · have := rawState_has hh; dsimp only at this; omega
    · unfold StateCells.Has rawState at hh
      simp only [Option.some.injEq] at hh
      omega

/-- **C67, the data of one joint.** The position, velocity, effort, absolute position and torque of a joint
that the loader has added are five different variables, and its commands are others, one for each command
interface: a command never overwrites a state or the command of another interface. -/
theorem c67_within_joint (hr : Reached stod L0 L) {n : String} (h1 : smapFind n L0.robotState = none)
    {s : StateCells} (hs : smapFind n L.robotState = some s) :
    (some s.position :: some s.velocity :: some s.effort :: [s.absolutePosition, s.torqueSensor]).Nodup ∧
    s.absolutePosition ≠ none ∧ s.torqueSensor ≠ none ∧
    ∀ c x, smapFind n (L0.robotCommand c) = none → smapFind n (L.robotCommand c) = some x →
      ¬s.Has x.2 ∧
      ∀ c' x', c ≠ c' → smapFind n (L0.robotCommand c') = none → smapFind n (L.robotCommand c') = some x' →
        x.2 ≠ x'.2 := by
  have hi := hr.inv
  rcases hi.state n s hs with h | ⟨-, b, hb, rfl⟩
  · rw [h1] at h; cases h
  refine ⟨by simp [rawState], by simp [rawState], by simp [rawState], fun c x k hx => ?_⟩
  rcases hi.command c n x hx with h | ⟨-, d, hd, rfl⟩
  · rw [k] at h; cases h
  rw [hb] at hd; cases hd
  refine ⟨fun hh => ?_, fun c' x' hne k' hx' => ?_⟩
  · unfold StateCells.Has rawState at hh
    simp only [Option.some.injEq] at hh
    cases c <;> simp only [rawCommand] at hh <;> omega
  · rcases hi.command c' n x' hx' with h | ⟨-, d', hd', rfl⟩
    · rw [k'] at h; cases h
    rw [hb] at hd'; cases hd'
    cases c <;> cases c' <;> simp [rawCommand] at hne ⊢

/-- The kinds of handles that write joint data. -/
def _root_.Verif.Transmission.Kind.writesJoints : Kind → Bool
  | .actuatorToJointState | .actuatorToJointPosition | .actuatorToJointVelocity | .actuatorToJointEffort => true
  | _ => false

/-- **C67** (missing: transmissions that share a joint, `c67_shared_joint_negation`). If no two transmissions
of different names share a joint, and the robot's actuator data lie outside the loader's memory, then no
handle that writes joint data writes data another handle of the interface uses. -/
theorem c67_separate_partial (hf : L0.Fresh) (calls : List (List TransInfo)) (h : loads stod calls L0 = .ok L)
    (hj : ∀ i ∈ calls.flatten, ∀ i' ∈ calls.flatten, i.name ≠ i'.name →
      ∀ n ∈ i.joints.map (·.name), n ∉ i'.joints.map (·.name))
    (hm : ∀ a, L0.ActuatorCell a → a < L0.next) (k : Kind) (hk : k.writesJoints = true) :
    Separate k ((L.handles k).map (·.2)) := by
  have hi : Inv L0 L := (loads_inv calls hf.inv h).1
  have ho : L.Origin stod ([] ++ calls.flatten) :=
    loads_origin calls hf.inv (fun k n g hg => by rw [hf.handles] at hg; cases hg) h
  rw [List.nil_append] at ho
  have key : ∀ n g n' g', (n, g) ∈ L.handles k → (n', g') ∈ L.handles k → n ≠ n' → ∀ c, g.Target k c → ¬g'.Has c := by
    intro n g n' g' hg hg' hne c hc hc'
    obtain ⟨i, hi1, rfl, hw, -⟩ := ho k n g hg
    obtain ⟨i', hi1', rfl, hw', -⟩ := ho k n' g' hg'
    have hc : g.jnt.Has c := by
      cases k <;> first | exact hc | (simp [Kind.writesJoints] at hk)
    obtain ⟨x, hx, b, hb, hle, hlt⟩ := hw.jntHas hc
    rcases hc' with hc' | hc'
    · have hcell := hw'.actHas hc'
      have : L0.ActuatorCell c := by unfold ActuatorCell at hcell ⊢; rw [hi.grows.acts] at hcell; exact hcell
      have := hm c this
      have := (hi.rawBounds x b hb).1
      omega
    · obtain ⟨x', hx', b', hb', hle', hlt'⟩ := hw'.jntHas hc'
      have : x ≠ x' := by
        rintro rfl
        exact hj i hi1 i' hi1' hne x hx hx'
      have := hi.rawApart x x' b b' this hb hb'
      omega
  unfold Separate
  rw [List.pairwise_map]
  have hs := hi.sorted k
  unfold KeysSorted smapKeys at hs
  rw [List.pairwise_map] at hs
  have := List.Pairwise.and_mem.1 hs
  refine this.imp ?_
  rintro ⟨n, g⟩ ⟨n', g'⟩ ⟨h1, h2, hlt⟩
  have hne : n ≠ n' := ne_of_lt hlt
  exact ⟨key n g n' g' h1 h2 hne, key n' g' n g h2 h1 hne.symm⟩

/-! ### C68: what `load` returns, and failures -/

/-- **C68.** For a robot without a joint state interface of its own, `load` returns true exactly if the transmission
could be constructed, the joints list the same hardware interfaces, and the robot offers the actuator data
for at least one of them. -/
theorem c68_returns_true (hr : Reached stod L0 L) (h0 : L0.ownState = none) (hw : i.WellFormed) {b : Bool}
    (h : L.load stod i = .ok (L', b)) :
    b = true ↔ (∃ t, loadTransmission stod i = .ok (some t)) ∧
      (∀ j ∈ i.joints, ∀ j' ∈ i.joints, j.hwIfaces.Perm j'.hwIfaces) ∧
      ∃ j ∈ i.joints, ∃ f ∈ j.hwIfaces, L.Offered i f := by
  obtain ⟨j, js, hj, hn⟩ := wf_joint hw
  rw [load_eq L i hj hn] at h
  cases hl : loadTransmission stod i with
  | error e => rw [hl] at h; cases h
  | ok r =>
    rw [hl] at h
    simp only [bind, Except.bind] at h
    cases r with
    | none => cases h; simp
    | some t =>
      obtain ⟨hA, hJ, -⟩ := loadTransmission_some hl
      dsimp only at h
      have hperm : ifacesOk i j = true ↔ ∀ a ∈ i.joints, ∀ a' ∈ i.joints, a.hwIfaces.Perm a'.hwIfaces := by
        unfold ifacesOk
        rw [List.all_eq_true]
        constructor
        · intro hh a ha a' ha'
          exact (List.isPerm_iff.1 (hh a ha)).trans (List.isPerm_iff.1 (hh a' ha')).symm
        · intro hh a ha
          exact List.isPerm_iff.2 (hh a ha j (by simp [hj]))
      split at h
      · rename_i hok
        obtain ⟨L1, h1, -⟩ := loadIfaces_noOwn hA hJ j.hwIfaces hr.inv (ownState_none hr h0) false
        rw [h1] at h
        cases h
        rw [Bool.false_or, List.any_eq_true]
        constructor
        · rintro ⟨p, hp, ho⟩
          obtain ⟨f, hf, hpf⟩ := List.mem_filterMap.1 hp
          exact ⟨⟨t, rfl⟩, hperm.1 hok, j, by simp [hj], f, hf, offered_iff.2 ⟨p, hpf, ho⟩⟩
        · rintro ⟨-, -, j', hj', f, hf, ho⟩
          obtain ⟨p, hpf, ho⟩ := offered_iff.1 ho
          have := List.all_eq_true.1 hok j' hj'
          exact ⟨p, List.mem_filterMap.2 ⟨f, (List.isPerm_iff.1 this).mem_iff.1 hf, hpf⟩, ho⟩
      · rename_i hok
        cases h
        simp only [Bool.false_eq_true, false_iff, not_and]
        intro _ hp
        exact absurd (hperm.2 hp) hok

/-- **C68** (missing: robots with a joint state interface of their own, `c68_own_state_negation`). A transmission that fails to load leaves
everything as it was. -/
theorem c68_failure_no_effect_partial (hr : Reached stod L0 L) (h0 : L0.ownState = none) (hw : i.WellFormed)
    (h : L.load stod i = .ok (L', false)) : L' = L := by
  obtain ⟨j, js, hj, hn⟩ := wf_joint hw
  rcases load_noOwn hr h0 h hj hn with ⟨-, h⟩ | ⟨t, ht, hok, hb, -, hnone, -⟩
  · exact h
  · exact hnone hb.symm

/-- **C68.** If loading a list of transmissions fails, the result is that of loading those before the first
that fails: earlier ones stay loaded, later ones are not looked at. -/
theorem c68_first_failure (hr : Reached stod L0 L) (h0 : L0.ownState = none) (l : List TransInfo) (hw : ∀ i ∈ l, i.WellFormed)
    (h : loadAll stod l L = .ok (L', false)) :
    ∃ pre i post, l = pre ++ i :: post ∧ loadAll stod pre L = .ok (L', true) ∧ L'.load stod i = .ok (L', false) := by
  obtain ⟨hf, calls, hc⟩ := hr
  have gen : ∀ (l : List TransInfo) (L : Loader K), (∀ i ∈ l, i.WellFormed) → Reached stod L0 L →
      loadAll stod l L = .ok (L', false) →
      ∃ pre i post, l = pre ++ i :: post ∧ loadAll stod pre L = .ok (L', true) ∧ L'.load stod i = .ok (L', false) := by
    intro l
    induction l with
    | nil => intro L _ _ h; cases h
    | cons i rest ih =>
      intro L hw hr h
      rw [loadAll] at h
      cases hl : L.load stod i with
      | error e => rw [hl] at h; cases h
      | ok r =>
        obtain ⟨L1, ok⟩ := r
        rw [hl] at h
        simp only [bind, Except.bind, pure, Except.pure] at h
        split at h
        · rename_i hok
          subst hok
          have hr1 : Reached stod L0 L1 := by
            obtain ⟨hf, calls, hc⟩ := hr
            refine ⟨hf, calls ++ [[i]], ?_⟩
            have app : ∀ (calls : List (List TransInfo)) (A B : Loader K), loads stod calls A = .ok B →
                loads stod (calls ++ [[i]]) A = loads stod [[i]] B := by
              intro calls
              induction calls with
              | nil => intro A B h; cases h; rfl
              | cons l rest ih =>
                intro A B h
                rw [List.cons_append, loads]
                rw [loads] at h
                cases hl : loadAll stod l A with
                | error e => rw [hl] at h; cases h
                | ok r =>
                  rw [hl] at h
                  simp only [bind, Except.bind] at h ⊢
                  exact ih _ _ h
            rw [app calls L0 L hc]
            simp [loads, loadAll, hl, bind, Except.bind]
          obtain ⟨pre, i', post, e, h1, h2⟩ := ih L1 (fun a ha => hw a (by simp [ha])) hr1 h
          refine ⟨i :: pre, i', post, by rw [e]; rfl, ?_, h2⟩
          rw [loadAll, hl]
          simp only [bind, Except.bind, if_true]
          exact h1
        · rename_i hok
          have hok : ok = false := by simpa using hok
          subst hok
          have e := c68_failure_no_effect_partial hr h0 (hw i (by simp)) hl
          cases h
          refine ⟨[], i, rest, rfl, by rw [e]; rfl, ?_⟩
          rw [e] at hl ⊢
          exact hl
  exact gen l L hw ⟨hf, calls, hc⟩ h

/-- **C68, documents.** Loading a robot description returns true exactly if it can be parsed, contains a
transmission and all transmissions in it are loaded. If it returns false, either no transmission was found and
nothing has changed, or the result is that of loading those before the first that fails. -/
theorem c68_document (hr : Reached stod L0 L) (h0 : L0.ownState = none) {d : Doc} {b : Bool}
    (h : L.loadDoc stod d = .ok (L', b)) :
    (b = true ↔ ∃ infos, parse d = .ok infos ∧ infos ≠ [] ∧ loadAll stod infos L = .ok (L', true)) ∧
    (b = false → (L' = L ∧ ∀ infos, parse d = .ok infos → infos = []) ∨
      ∃ pre i post, parse d = .ok (pre ++ i :: post) ∧ loadAll stod pre L = .ok (L', true) ∧
        L'.load stod i = .ok (L', false)) := by
  unfold loadDoc at h
  cases hp : parse d with
  | failed =>
    rw [hp] at h
    cases h
    exact ⟨⟨by simp, by rintro ⟨_, hh, _⟩; cases hh⟩, fun _ => Or.inl ⟨rfl, fun _ hh => by cases hh⟩⟩
  | nullDereference => rw [hp] at h; cases h
  | ok infos =>
    rw [hp] at h
    dsimp only at h
    split at h
    · rename_i he
      rw [List.isEmpty_iff] at he
      subst he
      cases h
      refine ⟨⟨by simp, ?_⟩, fun _ => Or.inl ⟨rfl, fun _ hh => by cases hh; rfl⟩⟩
      rintro ⟨_, hh, hn, _⟩
      cases hh
      exact absurd rfl hn
    · rename_i he
      rw [List.isEmpty_iff] at he
      refine ⟨⟨?_, ?_⟩, ?_⟩
      · rintro rfl; exact ⟨infos, rfl, he, h⟩
      · rintro ⟨_, hh, _, hl⟩
        cases hh
        rw [h] at hl
        cases hl; rfl
      · rintro rfl
        obtain ⟨pre, i, post, e, h1, h2⟩ := c68_first_failure hr h0 infos (c50_well_formed d infos hp) h
        exact Or.inr ⟨pre, i, post, by rw [e], h1, h2⟩

/-! ### Concrete cases and disagreements -/

/-- Some numbers. -/
def exStod (s : String) : Option ℚ :=
  if s = "1" then some 1 else if s = "2" then some 2 else if s = "3" then some 3 else if s = "0" then some 0 else none

/-- An element with a number. -/
def exNumber (tag s : String) : Elem := .node tag [] (some s) []

/-- A simple transmission. -/
def exSimple (name joint actuator reduction : String)
    (ifaces : List String := ["hardware_interface/EffortJointInterface"]) : TransInfo :=
  ⟨name, "transmission_interface/SimpleTransmission",
    [⟨joint, ifaces, "", .node "joint" [("name", joint)] none []⟩],
    [⟨actuator, [], .node "actuator" [("name", actuator)] none [exNumber "mechanicalReduction" reduction]⟩]⟩

/-- A robot with two actuators that take effort commands; the second has an absolute encoder. -/
def exRobot : Loader ℚ where
  actuators :=
    { state := some [("a1", ⟨0, 1, 2, none, none⟩), ("a2", ⟨4, 5, 6, some 8, none⟩)]
      command := fun c => match c with
        | .effort => some [("a1", 3), ("a2", 7)]
        | _ => none }
  ownState := none
  ownCommand := fun _ => none
  next := 100

theorem exRobot_fresh : exRobot.Fresh := ⟨rfl, fun _ => rfl, rfl, fun _ => rfl, rfl⟩

theorem exRobot_noOwn : exRobot.NoOwn := ⟨rfl, fun _ => rfl⟩

theorem exSimple_wellFormed {n j a r : String} (hn : n ≠ "") (hj : j ≠ "") (ha : a ≠ "") :
    (exSimple n j a r).WellFormed :=
  ⟨hn, by simp [exSimple], by simp [exSimple], by simp [exSimple, hj], by simp [exSimple, ha]⟩

/-- The result of loading, and the names of the handles. -/
def exResult (r : Except Crash (Loader ℚ × Bool)) : Option (Bool × List String × List String) :=
  match r with
  | .error _ => none
  | .ok (L, b) => some (b, smapKeys (L.handles .actuatorToJointState), smapKeys (L.handles .jointToActuatorEffort))

/-- The case of C64 to C66: two transmissions are loaded. -/
example : exResult (loadAll exStod [exSimple "t1" "j1" "a1" "2", exSimple "t2" "j2" "a2" "3"] exRobot) =
    some (true, ["t1", "t2"], ["t1", "t2"]) := by decide

/-- The case of C68: the second cannot be constructed, the third is not looked at. -/
example : exResult (loadAll exStod
    [exSimple "t1" "j1" "a1" "2", exSimple "t2" "j2" "a2" "0", exSimple "t3" "j3" "a2" "2"] exRobot) =
    some (false, ["t1"], ["t1"]) := by decide

/-- A robot description. -/
def exDoc (elems : List Elem) : Doc := { root := some (.node "robot" [] none elems) }

/-- The element for a simple transmission with reduction 2. -/
def exElem (name joint actuator : String) : Elem :=
  exTransmission name "transmission_interface/SimpleTransmission"
    [.node "joint" [("name", joint)] none [.node "hardwareInterface" [] (some "hardware_interface/EffortJointInterface") []]]
    [.node "actuator" [("name", actuator)] none [exNumber "mechanicalReduction" "2"]]

/-- The case of C68, documents: without transmissions; with two; the first of the two cannot be loaded. -/
example : exResult (exRobot.loadDoc exStod (exDoc [.node "link" [] none []])) = some (false, [], []) ∧
    exResult (exRobot.loadDoc exStod (exDoc [exElem "t1" "j1" "a1", exElem "t2" "j2" "a2"])) =
      some (true, ["t1", "t2"], ["t1", "t2"]) ∧
    exResult (exRobot.loadDoc exStod (exDoc [exElem "t1" "j1" "a9", exElem "t2" "j2" "a2"])) = some (false, [], []) := by
  decide

/-- The case of C68: no actuator of that name; no position commands; no such interface. -/
example : exResult (exRobot.load exStod (exSimple "t1" "j1" "a9" "2")) = some (false, [], []) ∧
    exResult (exRobot.load exStod (exSimple "t1" "j1" "a1" "2" ["hardware_interface/PositionJointInterface"])) =
      some (false, [], []) ∧
    exResult (exRobot.load exStod (exSimple "t1" "j1" "a1" "2" ["EffortJointInterface"])) = some (false, [], []) ∧
    exResult (exRobot.load exStod (exSimple "t1" "j1" "a1" "2"
      ["hardware_interface/PositionJointInterface", "hardware_interface/JointStateInterface"])) =
      some (true, ["t1"], []) := by decide

example : (exSimple "t1" "j1" "a1" "2").TextsPresent := by
  intro e he tag ht r hr hn
  simp only [exSimple, List.map_cons, List.map_nil, List.singleton_append, List.mem_cons, List.not_mem_nil,
    or_false] at he
  rcases he with rfl | rfl <;> rcases ht with rfl | rfl <;>
    simp [Elem.child, Elem.children, exNumber, Elem.tag] at hr
  subst hr
  simp [Elem.text] at hn

example : Reached exStod exRobot exRobot := ⟨exRobot_fresh, [], rfl⟩

/-- The hypotheses of `c66_connected_partial` and its conclusion in a case. -/
example : ∃ L' t, exRobot.load exStod (exSimple "t1" "j1" "a1" "2") = .ok (L', true) ∧
    L'.CommandConnected .jointToActuatorEffort .effort (exSimple "t1" "j1" "a1" "2") t := by
  have hok : exResult (exRobot.load exStod (exSimple "t1" "j1" "a1" "2")) = some (true, ["t1"], ["t1"]) := by decide
  cases hl : exRobot.load exStod (exSimple "t1" "j1" "a1" "2") with
  | error e => rw [hl] at hok; cases hok
  | ok r =>
    obtain ⟨L', b⟩ := r
    rw [hl] at hok
    simp only [exResult, Option.some.injEq, Prod.mk.injEq] at hok
    obtain ⟨rfl, -, -⟩ := hok
    obtain ⟨t, -, -, hc⟩ := c66_connected_partial ⟨exRobot_fresh, [], rfl⟩ exRobot_noOwn
      (exSimple_wellFormed (by decide) (by decide) (by decide)) (fun k => by simp [exRobot, smapKeys]) hl
    refine ⟨L', t, rfl, (hc _ (List.mem_singleton.2 rfl) .effort false ?_ ?_).1⟩
    · simp [Cmd.iface]
    · refine ⟨_, rfl, ?_⟩
      intro a ha
      simp only [exSimple, List.mem_singleton] at ha
      subst ha
      decide

/-- The case of `c67_separate_partial`. -/
example : ∀ a, exRobot.ActuatorCell a → a < exRobot.next := by
  have h100 : exRobot.next = 100 := rfl
  rintro a (⟨l, n, s, hl, hm, hs⟩ | ⟨c, l, n, hl, hm⟩)
  · simp only [exRobot, Option.some.injEq] at hl
    subst hl
    simp only [List.mem_cons, Prod.mk.injEq, List.not_mem_nil, or_false] at hm
    rw [h100]
    rcases hm with ⟨-, rfl⟩ | ⟨-, rfl⟩ <;> simp [StateCells.Has] at hs <;> omega
  · rw [h100]
    cases c <;> simp only [exRobot] at hl <;> cases hl
    simp only [List.mem_cons, Prod.mk.injEq, List.not_mem_nil, or_false] at hm
    omega

/-- A number element without text, `<mechanicalReduction/>`, makes the loader construct a string from a null
pointer. -/
theorem c64_null_text_negation : ∃ i : TransInfo, i.WellFormed ∧ exRobot.load exStod i = .error .nullText := by
  refine ⟨⟨"t1", "transmission_interface/SimpleTransmission",
    [⟨"j1", ["hardware_interface/EffortJointInterface"], "", .node "joint" [("name", "j1")] none []⟩],
    [⟨"a1", [], .node "actuator" [("name", "a1")] none [.node "mechanicalReduction" [] none []]⟩]⟩, ?_, rfl⟩
  exact ⟨by simp, by simp, by simp, by simp, by simp⟩

theorem updateState_own (names : List String) {L : Loader K} {m : List (String × StateCells)} (h : L.ownState = some m) :
    (updateState names L).jointState = L.jointState ∧ (updateState names L).jointCommand = L.jointCommand ∧
      (updateState names L).ownCommand = L.ownCommand := by
  induction names generalizing L m with
  | nil => exact ⟨rfl, rfl, rfl⟩
  | cons n rest ih =>
    unfold updateState
    split
    · exact ih h
    · unfold rawData
      cases hr : smapFind n L.raw with
      | some b =>
        simp only [h]
        exact ih rfl
      | none =>
        simp only [h]
        exact ih rfl

/-- **C64**, the negation for robots with a joint state interface of their own: no command transmission can
be loaded. If the robot registers a `JointStateInterface` itself, but no joint command interface, loading any
transmission for commands the robot offers ends in an exception that nothing catches. -/
theorem c64_own_state_negation (hf : L0.Fresh) {m : List (String × StateCells)} (hs : L0.ownState = some m) {c : Cmd}
    (hc : L0.ownCommand c = none) {x : Bool} (hw : i.WellFormed) (hi : ∀ j ∈ i.joints, j.hwIfaces = [Cmd.iface c x])
    {t : Trans K} (ht : loadTransmission stod i = .ok (some t)) (ha : L0.HasStates i) (hb : L0.HasCommands c i) :
    L0.load stod i = .error .jointStateMissing := by
  obtain ⟨j, js, hj, hn⟩ := wf_joint hw
  have hij : j.hwIfaces = [Cmd.iface c x] := hi j (by simp [hj])
  rw [load_eq L0 i hj hn, ht]
  simp only [bind, Except.bind]
  have hok : ifacesOk i j = true := by
    unfold ifacesOk
    rw [List.all_eq_true]
    intro a hm
    rw [hi a hm, hij]
    exact List.isPerm_iff.2 (.refl _)
  rw [if_pos hok, hij]
  rw [loadIfaces, providerOf_iface]
  dsimp only
  have h1 := actuatorStateData_isSome.2 ha
  have h2 := actuatorCommandData_isSome.2 hb
  obtain ⟨d1, h1⟩ := Option.isSome_iff_exists.1 h1
  obtain ⟨d2, h2⟩ := Option.isSome_iff_exists.1 h2
  have hupd : L0.provUpdate (.command c x) i.jnts = .error .jointStateMissing := by
    unfold provUpdate TransInfo.jnts
    obtain ⟨e1, e2, e3⟩ := updateState_own (i.joints.map (·.name)) hs
    dsimp only
    generalize updateState (i.joints.map (·.name)) L0 = L at e1 e2 e3
    rw [hj, List.map_cons, updateCommandLoop]
    rw [if_neg (by rw [e3, hc, e2, hf.jointCommand]; simp [smapKeys])]
    unfold rawData
    cases hr : smapFind j.name L.raw with
    | some b => simp only [e1, hf.jointState, smapFind]
    | none => simp only [e1, hf.jointState, smapFind]
  unfold loadMaps
  simp only [TransInfo.acts, TransInfo.jnts] at h1 h2 hupd
  simp only [h1, provActuatorCommand, h2, hupd, bind, Except.bind]

/-- A robot as above. -/
example : ({ exRobot with ownState := some [] } : Loader ℚ).load exStod (exSimple "t1" "j1" "a1" "2") =
    .error .jointStateMissing := rfl

/-- **C66**, the negation for joint command interfaces of the robot's own: here the robot already has the
command of the joint, in cell 50. The transmission is loaded, but its handle takes the command from elsewhere,
so the commands of controllers never reach the actuator. -/
theorem c66_own_command_negation : ∃ (L0 L' : Loader ℚ) (i : TransInfo) (t : Trans ℚ) (g : Handle ℚ), L0.Fresh ∧
    L0.ownState = none ∧ i.WellFormed ∧ loadTransmission exStod i = .ok (some t) ∧
    L0.load exStod i = .ok (L', true) ∧ L'.commandCell .effort "j1" = some 50 ∧
    smapFind i.name (L'.handles .jointToActuatorEffort) = some g ∧ g.jnt.effort = [some 105] ∧
    ¬L'.CommandConnected .jointToActuatorEffort .effort i t := by
  refine ⟨{ exRobot with ownCommand := fun _ => some [("j1", ⟨0, 1, 2, none, none⟩, 50)] }, _,
    exSimple "t1" "j1" "a1" "2", _, _, ⟨rfl, fun _ => rfl, rfl, fun _ => rfl, rfl⟩, rfl,
    exSimple_wellFormed (by decide) (by decide) (by decide), rfl, rfl, rfl, rfl, rfl, ?_⟩
  rintro ⟨g, hg, -, -, hj⟩
  obtain ⟨a, h1, h2⟩ := hj 0 "j1" rfl
  have e : g.jnt.effort = [some 105] := by cases hg; rfl
  have h1 : some 50 = some a := h1
  simp only [Data.cmd, e] at h2
  simp at h1 h2
  omega

/-- **C66**, the negation for names used twice: the second transmission is loaded, and its commands are
connected, but the state handle stays that of the first, so the states of the second joint are never
written. -/
theorem c66_same_name_negation : ∃ (L L' : Loader ℚ) (i : TransInfo) (t : Trans ℚ) (g : Handle ℚ),
    Reached exStod exRobot L ∧ i.WellFormed ∧ loadTransmission exStod i = .ok (some t) ∧
    L.load exStod i = .ok (L', true) ∧ L'.handles .actuatorToJointState = [(i.name, g)] ∧
    g.trans ≠ t ∧ g.jnt.position = [some 100] ∧
    (smapFind "j2" L'.robotState).map (·.position) = some 108 ∧ ¬L'.StateConnected .actuatorToJointState i t := by
  refine ⟨_, _, exSimple "t1" "j2" "a2" "3", .simple ⟨3, 0⟩, _,
    ⟨exRobot_fresh, [[exSimple "t1" "j1" "a1" "2"]], rfl⟩,
    exSimple_wellFormed (by decide) (by decide) (by decide), rfl, rfl, rfl, ?_, rfl, rfl, ?_⟩
  · intro h
    simp only [Trans.simple.injEq, Simple.mk.injEq] at h
    norm_num at h
  · rintro ⟨g, hg, ht, -⟩
    cases hg
    simp only [Trans.simple.injEq, Simple.mk.injEq] at ht
    norm_num at ht

/-- A differential transmission for joint states. -/
def exDifferential : TransInfo :=
  ⟨"t1", "transmission_interface/DifferentialTransmission",
    [⟨"j1", ["hardware_interface/JointStateInterface"], "", .node "joint" [("name", "j1")] none [exNumber "role" "joint1"]⟩,
     ⟨"j2", ["hardware_interface/JointStateInterface"], "", .node "joint" [("name", "j2")] none [exNumber "role" "joint2"]⟩],
    [⟨"a1", [], .node "actuator" [("name", "a1")] none [exNumber "role" "actuator1", exNumber "mechanicalReduction" "2"]⟩,
     ⟨"a2", [], .node "actuator" [("name", "a2")] none [exNumber "role" "actuator2", exNumber "mechanicalReduction" "2"]⟩]⟩

/-- **C68**, the negation for robots with a joint state interface of their own: the robot already has the state
of one of the two joints, in the cells 50 to 52. The transmission can be constructed and the robot offers
the actuator data, but loading it fails; and the other joint has been added to the interface of the robot, where
controllers see a state that no transmission ever writes. -/
theorem c68_own_state_negation : ∃ (L0 L' : Loader ℚ) (i : TransInfo) (t : Trans ℚ), L0.Fresh ∧ i.WellFormed ∧
    loadTransmission exStod i = .ok (some t) ∧ (∀ j ∈ i.joints, ∀ f ∈ j.hwIfaces, L0.Offered i f) ∧
    L0.load exStod i = .ok (L', false) ∧ L' ≠ L0 ∧
    smapFind "j2" L0.robotState = none ∧ (smapFind "j2" L'.robotState).map (·.position) = some 100 ∧
    ∀ k, L'.handles k = [] := by
  refine ⟨{ exRobot with ownState := some [("j1", ⟨50, 51, 52, none, none⟩)] }, _, exDifferential, _,
    ⟨rfl, fun _ => rfl, rfl, fun _ => rfl, rfl⟩, ⟨by decide, by decide, by decide, by decide, by decide⟩, rfl, ?_, rfl, ?_,
    rfl, rfl, fun _ => rfl⟩
  · intro j hj f hf
    have : f = "hardware_interface/JointStateInterface" := by
      simp only [exDifferential, List.mem_cons, List.not_mem_nil, or_false] at hj
      rcases hj with rfl | rfl <;> simpa using hf
    subst this
    refine offered_iff.2 ⟨.state, rfl, ?_⟩
    decide
  · intro h
    have := congrArg (fun L : Loader ℚ => L.next) h
    revert this
    decide

/-- **C67**, the negation for transmissions that share a joint: both are loaded, and both write the position
of the joint, so it is always that of the second actuator. -/
theorem c67_shared_joint_negation : ∃ (L : Loader ℚ) (g g' : Handle ℚ),
    loadAll exStod [exSimple "t1" "j1" "a1" "2", exSimple "t2" "j1" "a2" "3"] exRobot = .ok (L, true) ∧
    L.handles .actuatorToJointState = [("t1", g), ("t2", g')] ∧
    (∃ a, g.Target .actuatorToJointState a ∧ g'.Target .actuatorToJointState a) ∧
    ¬Separate .actuatorToJointState [g, g'] ∧
    ∀ nd m, ∃ m', propagateAll nd .actuatorToJointState [g, g'] m = .ok m' ∧ m' 100 = m 4 / 3 := by
  refine ⟨_, ⟨.simple ⟨2, 0⟩, { position := [some 0], velocity := [some 1], effort := [some 2] },
      { position := [some 100], velocity := [some 101], effort := [some 102], absolutePosition := [some 106],
        torqueSensor := [some 107] }⟩,
    ⟨.simple ⟨3, 0⟩, { position := [some 4], velocity := [some 5], effort := [some 6], absolutePosition := [some 8] },
      { position := [some 100], velocity := [some 101], effort := [some 102], absolutePosition := [some 106],
        torqueSensor := [some 107] }⟩, rfl, rfl, ⟨100, ?_, ?_⟩, ?_, ?_⟩
  · simp [Handle.Target, Data.Has]
  · simp [Handle.Target, Data.Has]
  · intro h
    unfold Separate at h
    rw [List.pairwise_pair] at h
    refine h.1 100 ?_ (.inr ?_)
    · simp [Handle.Target, Data.Has]
    · simp [Data.Has]
  · intro nd m
    cases nd <;>
    · refine ⟨_, rfl, ?_⟩
      exact (show (m 4 / 3 + 0 : ℚ) = m 4 / 3 from add_zero _)

end Loader

end Verif.Transmission
