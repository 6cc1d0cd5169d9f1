import Verif.Lemmas.Handles

/-!
Properties C80 and C81: handles to joints and actuators.
-/

namespace Verif.Handles

variable {V : Type}

/-! ### C80 -/

/-- **C80, constructors.** A handle is made exactly if none of the pointers given is null; it then has
these pointers and no others. -/
theorem c80_constructors (n : String) (p v e a t : Ptr) (s : StateHandle) (c1 c2 c3 c4 c5 : Ptr) :
    (∀ h, mkState n p v e = some h ↔ none ∉ [p, v, e] ∧ h = ⟨n, p, v, e, none, none⟩) ∧
    (∀ h, mkStateBoth n p v e a t = some h ↔ none ∉ [p, v, e, a, t] ∧ h = ⟨n, p, v, e, a, t⟩) ∧
    (∀ h, mkStateAbs n p v e a = some h ↔ none ∉ [p, v, e, a] ∧ h = ⟨n, p, v, e, a, none⟩) ∧
    (∀ h, mkStateTorque n p v e t = some h ↔ none ∉ [p, v, e, t] ∧ h = ⟨n, p, v, e, none, t⟩) ∧
    (∀ h, mkCommand s c1 = some h ↔ none ∉ [c1] ∧ h = ⟨s, c1⟩) ∧
    (∀ h, mkPosVel s c1 c2 = some h ↔ none ∉ [c1, c2] ∧ h = ⟨s, c1, c2⟩) ∧
    (∀ h, mkPosVelAcc s c1 c2 c3 = some h ↔ none ∉ [c1, c2, c3] ∧ h = ⟨⟨s, c1, c2⟩, c3⟩) ∧
    (∀ h, mkGains s c1 c2 c3 c4 c5 = some h ↔ none ∉ [c1, c2, c3, c4, c5] ∧ h = ⟨⟨s, c1, c2⟩, c3, c4, c5⟩) ∧
    (∀ h, mkMode n c1 = some h ↔ none ∉ [c1] ∧ h = ⟨n, c1⟩) := by
  refine ⟨?_, ?_, ?_, ?_, ?_, ?_, ?_, ?_, ?_⟩ <;> intro h
  · cases p <;> cases v <;> cases e <;> simp [mkState, eq_comm]
  · cases p <;> cases v <;> cases e <;> cases a <;> cases t <;> simp [mkStateBoth, eq_comm]
  · cases p <;> cases v <;> cases e <;> cases a <;> simp [mkStateAbs, eq_comm]
  · cases p <;> cases v <;> cases e <;> cases t <;> simp [mkStateTorque, eq_comm]
  · cases c1 <;> simp [mkCommand, eq_comm]
  · cases c1 <;> cases c2 <;> simp [mkPosVel, eq_comm]
  · cases c1 <;> cases c2 <;> cases c3 <;> simp [mkPosVelAcc, mkPosVel, eq_comm]
  · cases c1 <;> cases c2 <;> cases c3 <;> cases c4 <;> cases c5 <;> simp [mkGains, mkPosVel, eq_comm]
  · cases c1 <;> simp [mkMode, eq_comm]

/-- **C80, state.** A state handle made by a constructor with arguments gives position, velocity and
effort in every memory. The absolute position and the torque are given if and only if the handle was
made with them; otherwise asking for them throws, and `hasAbsolutePosition` and `hasTorqueSensor` tell
which. -/
theorem c80_state (n : String) (p v e a t : Ptr) (h : StateHandle)
    (hm : mkState n p v e = some h ∨ mkStateBoth n p v e a t = some h ∨ mkStateAbs n p v e a = some h ∨
      mkStateTorque n p v e t = some h) (m : Mem V) :
    (∃ i j k, p = some i ∧ v = some j ∧ e = some k ∧
      h.getPosition m = .ok (m i) ∧ h.getVelocity m = .ok (m j) ∧ h.getEffort m = .ok (m k)) ∧
    (h.getAbsolutePosition m =
      if mkStateBoth n p v e a t = some h ∨ mkStateAbs n p v e a = some h then
        match a with | some i => .ok (m i) | none => .assertion
      else .exception) ∧
    (h.getTorqueSensor m =
      if mkStateBoth n p v e a t = some h ∨ mkStateTorque n p v e t = some h then
        match t with | some i => .ok (m i) | none => .assertion
      else .exception) ∧
    (h.hasAbsolutePosition = true ↔ h.getAbsolutePosition m ≠ .exception) ∧
    (h.hasTorqueSensor = true ↔ h.getTorqueSensor m ≠ .exception) ∧
    h.getAbsolutePosition m ≠ .assertion ∧ h.getTorqueSensor m ≠ .assertion := by
  obtain ⟨e1, e2, e3, e4, _⟩ := c80_constructors n p v e a t {} none none none none none
  simp only [e1, e2, e3, e4] at hm ⊢
  obtain hm | hm | hm | hm := hm <;> obtain ⟨hn, rfl⟩ := hm <;>
    cases p <;> cases v <;> cases e <;> cases a <;> cases t <;>
    simp_all [StateHandle.getPosition, StateHandle.getVelocity, StateHandle.getEffort,
      StateHandle.getAbsolutePosition, StateHandle.getTorqueSensor, StateHandle.hasAbsolutePosition,
      StateHandle.hasTorqueSensor, read]

/-- **C80, commands.** No setter and no getter of a command handle, a position-velocity handle (with
acceleration, or with effort and gains) or a mode handle made by a constructor with arguments fails an
assertion, throws, or touches a null pointer. -/
theorem c80_commands_partial (s : StateHandle) (n : String) (c1 c2 c3 c4 c5 : Ptr) (m : Mem V) (x y z g d : V) :
    (∀ h, mkCommand s c1 = some h → (∃ m', h.setCommand x m = .ok m') ∧ ∃ r, h.getCommand m = .ok r) ∧
    (∀ h, mkPosVel s c1 c2 = some h → (∃ m', h.setCommand x y m = .ok m') ∧
      (∃ m', h.setCommandPosition x m = .ok m') ∧ (∃ m', h.setCommandVelocity x m = .ok m') ∧
      (∃ r, h.getCommandPosition m = .ok r) ∧ ∃ r, h.getCommandVelocity m = .ok r) ∧
    (∀ h, mkPosVelAcc s c1 c2 c3 = some h → (∃ m', h.setCommand3 x y z m = .ok m') ∧
      (∃ m', h.setCommandPosition x m = .ok m') ∧ (∃ m', h.setCommandVelocity x m = .ok m') ∧
      (∃ m', h.setCommandAcceleration x m = .ok m') ∧
      (∃ r, h.getCommandPosition m = .ok r) ∧ (∃ r, h.getCommandVelocity m = .ok r) ∧
      ∃ r, h.getCommandAcceleration m = .ok r) ∧
    (∀ h, mkGains s c1 c2 c3 c4 c5 = some h → (∃ m', h.setCommand5 x y z g d m = .ok m') ∧
      (∃ m', h.setCommandPosition x m = .ok m') ∧ (∃ m', h.setCommandVelocity x m = .ok m') ∧
      (∃ m', h.setCommandEffort x m = .ok m') ∧ (∃ m', h.setCommandKp x m = .ok m') ∧
      (∃ m', h.setCommandKd x m = .ok m') ∧
      (∃ r, h.getCommandPosition m = .ok r) ∧ (∃ r, h.getCommandVelocity m = .ok r) ∧
      (∃ r, h.getCommandEffort m = .ok r) ∧ (∃ r, h.getCommandKp m = .ok r) ∧ ∃ r, h.getCommandKd m = .ok r) ∧
    (∀ h, mkMode n c1 = some h → (∃ m', h.setMode x m = .ok m') ∧ ∃ r, h.getMode m = .ok r) := by
  obtain ⟨_, _, _, _, e1, e2, e3, e4, e5⟩ := c80_constructors n none none none none none s c1 c2 c3 c4 c5
  refine ⟨?_, ?_, ?_, ?_, ?_⟩ <;> intro h hm
  · obtain ⟨hn, rfl⟩ := (e1 h).1 hm
    cases c1 <;> simp_all [CommandHandle.setCommand, CommandHandle.getCommand, write, read]
  · obtain ⟨hn, rfl⟩ := (e2 h).1 hm
    cases c1 <;> cases c2 <;> simp_all [PosVelHandle.setCommand, PosVelHandle.setCommandPosition,
      PosVelHandle.setCommandVelocity, PosVelHandle.getCommandPosition, PosVelHandle.getCommandVelocity,
      Access.andThen, write, read]
  · obtain ⟨hn, rfl⟩ := (e3 h).1 hm
    cases c1 <;> cases c2 <;> cases c3 <;> simp_all [PosVelAccHandle.setCommand3, PosVelHandle.setCommandPosition,
      PosVelHandle.setCommandVelocity, PosVelHandle.getCommandPosition, PosVelHandle.getCommandVelocity,
      PosVelAccHandle.setCommandAcceleration, PosVelAccHandle.getCommandAcceleration, Access.andThen, write, read]
  · obtain ⟨hn, rfl⟩ := (e4 h).1 hm
    cases c1 <;> cases c2 <;> cases c3 <;> cases c4 <;> cases c5 <;>
      simp_all [GainsHandle.setCommand5, PosVelHandle.setCommandPosition,
      PosVelHandle.setCommandVelocity, PosVelHandle.getCommandPosition, PosVelHandle.getCommandVelocity,
      GainsHandle.setCommandEffort, GainsHandle.getCommandEffort, GainsHandle.setCommandKp, GainsHandle.getCommandKp,
      GainsHandle.setCommandKd, GainsHandle.getCommandKd, Access.andThen, write, read]
  · obtain ⟨hn, rfl⟩ := (e5 h).1 hm
    cases c1 <;> simp_all [ModeHandle.setMode, ModeHandle.getMode, write, read]

/-- **C80, state of command handles.** The position, velocity and effort of a command handle can be read
exactly if the state handle it was made of has them. -/
theorem c80_command_state (s : StateHandle) (c1 c2 c3 c4 c5 : Ptr) (m : Mem V) :
    let Readable (h : StateHandle) : Prop := (∃ x, h.getPosition m = .ok x) ∧ (∃ x, h.getVelocity m = .ok x) ∧
      ∃ x, h.getEffort m = .ok x
    (∀ h, mkCommand s c1 = some h → (Readable h.toStateHandle ↔ s.Complete)) ∧
    (∀ h, mkPosVel s c1 c2 = some h → (Readable h.toStateHandle ↔ s.Complete)) ∧
    (∀ h, mkPosVelAcc s c1 c2 c3 = some h → (Readable h.toStateHandle ↔ s.Complete)) ∧
    (∀ h, mkGains s c1 c2 c3 c4 c5 = some h → (Readable h.toStateHandle ↔ s.Complete)) := by
  obtain ⟨_, _, _, _, e1, e2, e3, e4, _⟩ := c80_constructors "" none none none none none s c1 c2 c3 c4 c5
  obtain ⟨n, p, v, e, a, t⟩ := s
  refine ⟨?_, ?_, ?_, ?_⟩ <;> intro h hm
  · obtain ⟨-, rfl⟩ := (e1 h).1 hm
    cases p <;> cases v <;> cases e <;> simp [StateHandle.Complete, StateHandle.getPosition,
      StateHandle.getVelocity, StateHandle.getEffort, read]
  · obtain ⟨-, rfl⟩ := (e2 h).1 hm
    cases p <;> cases v <;> cases e <;> simp [StateHandle.Complete, StateHandle.getPosition,
      StateHandle.getVelocity, StateHandle.getEffort, read]
  · obtain ⟨-, rfl⟩ := (e3 h).1 hm
    cases p <;> cases v <;> cases e <;> simp [StateHandle.Complete, StateHandle.getPosition,
      StateHandle.getVelocity, StateHandle.getEffort, read]
  · obtain ⟨-, rfl⟩ := (e4 h).1 hm
    cases p <;> cases v <;> cases e <;> simp [StateHandle.Complete, StateHandle.getPosition,
      StateHandle.getVelocity, StateHandle.getEffort, read]

/-- **C80 does not hold for the state of a command handle.** The constructors of the command handles do
not look at the state handle they are given: with a default constructed one they make a handle whose
position cannot be read. -/
theorem c80_empty_state_negation (m : Mem V) :
    (∃ h, mkCommand {} (some 0) = some h ∧ h.getPosition m = .assertion) ∧
    (∃ h, mkPosVel {} (some 0) (some 1) = some h ∧ h.getPosition m = .assertion) ∧
    (∃ h, mkPosVelAcc {} (some 0) (some 1) (some 2) = some h ∧ h.getPosition m = .assertion) ∧
    (∃ h, mkGains {} (some 0) (some 1) (some 2) (some 3) (some 4) = some h ∧ h.getPosition m = .assertion) :=
  ⟨⟨_, rfl, rfl⟩, ⟨_, rfl, rfl⟩, ⟨_, rfl, rfl⟩, ⟨_, rfl, rfl⟩⟩

/-- A joint with a torque sensor and no absolute encoder, and a command handle for it. -/
example :
    mkStateTorque "j" (some 0) (some 1) (some 2) (some 3) =
      some ⟨"j", some 0, some 1, some 2, none, some 3⟩ ∧
    mkStateTorque "j" (some 0) none (some 2) (some 3) = none ∧
    mkCommand ⟨"j", some 0, some 1, some 2, none, some 3⟩ (some 4) =
      some ⟨⟨"j", some 0, some 1, some 2, none, some 3⟩, some 4⟩ := by decide

/-! ### C81 -/

/-- **C81, variables are registers.** However many handles there are, whatever variables they share,
and in whatever order their setters are called: if no pointer used is null the calls succeed, and each
variable contains the last value stored in it through any handle, or what it contained before. If one
is null the program fails an assertion; nothing is ever thrown. -/
theorem c81_registers (cs : List (SetCall V)) (m : Mem V) :
    (none ∉ (cs.flatMap (·.stores)).map Prod.fst →
      ∃ m', runCalls cs m = .ok m' ∧ ∀ a, m' a = lastStore (cs.flatMap (·.stores)) a (m a)) ∧
    (none ∈ (cs.flatMap (·.stores)).map Prod.fst → runCalls cs m = .assertion) := by
  rw [runCalls_eq_stores]
  rcases runStores_ok (cs.flatMap (·.stores)) m with ⟨h1, h2⟩ | ⟨h1, h2⟩
  · exact ⟨fun _ => h2, fun h => absurd h h1⟩
  · exact ⟨fun h => absurd h1 h, fun _ => h2⟩

/-- **C81, what is set is read.** After the setter with all arguments, each getter of the handle, and of
every other handle to the same variables, gives the argument, if the variables of the handle are
different ones. Other variables are unchanged. -/
theorem c81_read_back (s s' : StateHandle) (c1 c2 c3 c4 c5 : Nat) (hd : [c1, c2, c3, c4, c5].Nodup) (m : Mem V)
    (x y z g d : V) :
    (∃ m', (CommandHandle.mk s (some c1)).setCommand x m = .ok m' ∧
      (CommandHandle.mk s' (some c1)).getCommand m' = .ok x ∧ ∀ a, a ≠ c1 → m' a = m a) ∧
    (∃ m', (PosVelHandle.mk s (some c1) (some c2)).setCommand x y m = .ok m' ∧
      (PosVelHandle.mk s' (some c1) (some c2)).getCommandPosition m' = .ok x ∧
      (PosVelHandle.mk s' (some c1) (some c2)).getCommandVelocity m' = .ok y ∧
      ∀ a, a ∉ [c1, c2] → m' a = m a) ∧
    (∃ m', (PosVelAccHandle.mk ⟨s, some c1, some c2⟩ (some c3)).setCommand3 x y z m = .ok m' ∧
      (PosVelHandle.mk s' (some c1) (some c2)).getCommandPosition m' = .ok x ∧
      (PosVelHandle.mk s' (some c1) (some c2)).getCommandVelocity m' = .ok y ∧
      (PosVelAccHandle.mk ⟨s', some c1, some c2⟩ (some c3)).getCommandAcceleration m' = .ok z ∧
      ∀ a, a ∉ [c1, c2, c3] → m' a = m a) ∧
    (∃ m', (GainsHandle.mk ⟨s, some c1, some c2⟩ (some c3) (some c4) (some c5)).setCommand5 x y z g d m = .ok m' ∧
      let h' := GainsHandle.mk ⟨s', some c1, some c2⟩ (some c3) (some c4) (some c5)
      h'.getCommandPosition m' = .ok x ∧ h'.getCommandVelocity m' = .ok y ∧ h'.getCommandEffort m' = .ok z ∧
      h'.getCommandKp m' = .ok g ∧ h'.getCommandKd m' = .ok d ∧
      ∀ a, a ∉ [c1, c2, c3, c4, c5] → m' a = m a) := by
  simp only [List.nodup_cons, List.mem_cons, List.not_mem_nil, or_false, not_or, List.nodup_nil, and_true,
    not_false_eq_true] at hd
  obtain ⟨⟨h12, h13, h14, h15⟩, ⟨h23, h24, h25⟩, ⟨h34, h35⟩, h45⟩ := hd
  refine ⟨⟨_, rfl, ?_, ?_⟩, ⟨_, rfl, ?_, ?_, ?_⟩, ⟨_, rfl, ?_, ?_, ?_, ?_⟩, ⟨_, rfl, ?_, ?_, ?_, ?_, ?_, ?_⟩⟩ <;>
    simp +contextual [CommandHandle.getCommand, PosVelHandle.getCommandPosition, PosVelHandle.getCommandVelocity,
      PosVelAccHandle.getCommandAcceleration, GainsHandle.getCommandEffort, GainsHandle.getCommandKp,
      GainsHandle.getCommandKd, read, h12, h13, h14, h15, h23, h24, h25, h34, h35, h45]

/-- Two handles share the variable 0; the last store wins. -/
example :
    (runCalls [.command ⟨{}, some 0⟩ (5 : Int), .posVel ⟨{}, some 0, some 1⟩ 6 7, .mode ⟨"j", some 2⟩ 3]
        fun _ => 0) = .ok (fun a => if a = 2 then 3 else if a = 1 then 7 else if a = 0 then 6 else
          if a = 0 then 5 else 0) ∧
    lastStore ([SetCall.command ⟨{}, some 0⟩ (5 : Int), .posVel ⟨{}, some 0, some 1⟩ 6 7].flatMap (·.stores)) 0 0
      = 6 := ⟨rfl, by decide⟩

end Verif.Handles
