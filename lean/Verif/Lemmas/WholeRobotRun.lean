import Verif.Lemmas.WholeRobot

/-!
Runs of whole robots, for any kind of numbers.
-/

namespace Verif.Whole

open Verif.Spec (observed)
open Verif.Transmission (Mem Loader Cmd Doc TransInfo loadTransmission)
open Verif.Limits (Arith Dbl UrdfJoint)
open Verif.Cycle (Record)
open Verif.Described (Robot Setting Lawful Assembled)

section

variable {T K : Type} [Add T] [Sub T] [Mul T] [Div T] [OfNat T 0] [OfNat T 1] [OfNat T 2] [DecidableEq T] [LinearOrder K]
  {stod : String → Option T} {L0 : Loader T} {d : Doc} {infos : List TransInfo}
  {joints : List (Cmd × String × UrdfJoint (Dbl K))} {r : Robot T K} {S : Setting T K}

variable (hS : Lawful S) (nd : Bool) (ha : Assembled stod S.toArith L0 d infos joints r) (m : Mem T) (ops : List (Op T))
  (hg : ∀ op ∈ ops, op.Good) (hh : Honest (World.start r m).sys ops)
  (hp : ∀ i, .cycle i ∈ ops → Limits.dlt (some S.zero) (S.see i.period) = true)

include hS ha hg hh hp

theorem start_refines :
    ((World.start r m).run S nd ops).2 = none ∧
    ((World.start r m).run S nd ops).1.map (·.input) = cycles ops ∧
    r.run S nd (((World.start r m).run S nd ops).1.map Seen.hardware) m =
      (((World.start r m).run S nd ops).1.map (·.record), none) ∧
    (∀ x ∈ ((World.start r m).run S nd ops).1, Facts r.loader x) ∧
    (∀ x, ((World.start r m).run S nd ops).1[0]? = some x → x.start = m) ∧
    (∀ k x y, ((World.start r m).run S nd ops).1[k]? = some x →
      ((World.start r m).run S nd ops).1[k + 1]? = some y → y.start = x.record.sent) ∧
    ∀ (k : Nat) x, ((World.start r m).run S nd ops).1[k]? = some x →
      ∃ pre post, ops = pre ++ .cycle x.input :: post ∧ (cycles pre).length = k ∧
        x.before = (World.start r m).sys.run stdEnv checkForConflict (pre.map Op.sys) := by
  exact run_refines hS ha.toBase ops (World.start r m) rfl ha.handles.1 ⟨[], by simp, rfl⟩ hg hh hp

/-- No cycle is lost. Whatever services are called and whatever the controllers do, every cycle is completed,
in order; and the manager acts in it as it would without the hardware: its state before a cycle is the one after the
service calls and the updates so far. -/
theorem run_completes :
    let out := (World.start r m).run S nd ops
    out.2 = none ∧ out.1.map (·.input) = cycles ops ∧ ∀ (k : Nat) x, out.1[k]? = some x →
      ∃ pre post, ops = pre ++ .cycle x.input :: post ∧ (cycles pre).length = k ∧
        x.before = (Sys.start (registered r.loader) (interfaces r.loader)).run stdEnv checkForConflict (pre.map Op.sys) ∧
        x.after = x.before.step stdEnv checkForConflict x.input.update := by
  obtain ⟨h1, h2, -, h4, -, -, h7⟩ := start_refines hS nd ha m ops hg hh hp
  refine ⟨h1, h2, fun k x hx => ?_⟩
  obtain ⟨pre, post, e1, e2, e3⟩ := h7 k x hx
  exact ⟨pre, post, e1, e2, e3, (h4 x (List.mem_of_getElem? hx)).after⟩

/-- One commander. Before and after every cycle, no two running controllers hold handles for commands of the
same joint, whatever the kinds of the commands. -/
theorem run_one_commander (x : Seen T) (hx : x ∈ ((World.start r m).run S nd ops).1) (s : Sys)
    (hs : s = x.before ∨ s = x.after) (n : String) (q q' : Cmd) (c c' : CId) (h : Holds r.loader s c q n)
    (h' : Holds r.loader s c' q' n) (hc : s.mgr.state c = .running) (hc' : s.mgr.state c' = .running) : c = c' := by
  obtain ⟨-, -, -, h4, -⟩ := start_refines hS nd ha m ops hg hh hp
  have hf := h4 x hx
  have hr : Sys.Reached stdEnv (registered r.loader) (interfaces r.loader) s := by
    rcases hs with rfl | rfl
    · exact hf.reached
    · rw [hf.after]
      exact reached_step hf.reached trivial
  by_contra hne
  obtain ⟨a, hcell⟩ := h.cell
  obtain ⟨b, hb⟩ := jointOf_cell ha.toBase hcell
  exact c82_single_writer_partial (registered_typed _) (interfaces_named _) (interfaces_apart ha.toBase) hr c c' hc hc' hne b
    ⟨h.canWrite ha.toBase hcell hb, h'.canWrite ha.toBase hcell hb⟩

/-- Who changes a command. What the controllers leave behind in a cycle is what their calls make of the
measured values one after the other. A call changes a command of a joint only if it is one of a controller that holds a handle
for it, and at that moment no other controller with a handle for a command of that joint is running. -/
theorem run_commands (x : Seen T) (hx : x ∈ ((World.start r m).run S nd ops).1) :
    x.record.wished = replay x.input.act x.events x.record.measured ∧
    ∀ pre e post, x.events = pre ++ e :: post → ∀ q n,
      r.jointCommand q n (replay x.input.act (pre ++ [e]) x.record.measured) ≠
        r.jointCommand q n (replay x.input.act pre x.record.measured) →
      ∃ c k, e = .cb c k ∧ Holds r.loader x.before c q n ∧ ∀ c' q', c' ≠ c → Holds r.loader x.before c' q' n →
        observed c' (x.before.mgr.trace ++ pre) ≠ .running := by
  obtain ⟨-, -, -, h4, -⟩ := start_refines hS nd ha m ops hg hh hp
  have hf := h4 x hx
  refine ⟨hf.wished, fun pre e post he q n hch => ?_⟩
  have hrep : replay x.input.act (pre ++ [e]) x.record.measured =
      replay x.input.act [e] (replay x.input.act pre x.record.measured) := by
    simp [replay, List.foldl_append]
  rw [hrep] at hch
  cases e with
  | cb c k =>
    have hv := sysInv_reached (registered_typed _) (interfaces_named _) hf.reached
    obtain ⟨a, hcell⟩ : ∃ a, r.loader.commandCell q n = some a := by
      cases h : r.loader.commandCell q n with
      | none => exact absurd (by simp [Robot.jointCommand, h]) hch
      | some a => exact ⟨a, rfl⟩
    have hw : x.before.CanWrite (fun d => [d]) c a := by
      by_contra hn
      refine hch ?_
      unfold Robot.jointCommand
      rw [hcell]
      exact congrArg some (hf.honest c k _ a hn)
    obtain ⟨b, hb⟩ := jointOf_cell ha.toBase hcell
    have hold : Holds r.loader x.before c q n := by
      obtain ⟨q', n', hcell', hold⟩ := canWrite_holds hv hw
      have hn : n' = n := joint_apart ha.toBase hcell' hcell hb hb
      subst hn
      obtain ⟨b1, r1, e1, -⟩ := ha.toBase.command_above hcell
      obtain ⟨b2, r2, e2, -⟩ := ha.toBase.command_above hcell'
      rw [r1] at r2
      cases r2
      rw [e1] at e2
      rw [Described.rawCommand_inj e2]
      exact hold
    refine ⟨c, k, rfl, hold, fun c' q' hne hold' => ?_⟩
    have hheld : x.after.held = x.before.held := by rw [hf.after]; rfl
    have up : ∀ c b, x.before.CanWrite (Whole.jointOf r.loader) c b → x.after.CanWrite (Whole.jointOf r.loader) c b := by
      rintro c b ⟨g, hg, h⟩
      exact ⟨g, by rw [hheld]; exact hg, h⟩
    have hr : Sys.Reached stdEnv (registered r.loader) (interfaces r.loader) x.after := by
      rw [hf.after]
      exact reached_step hf.reached trivial
    refine c82_handover (pre := x.before.mgr.trace ++ pre) (post := post) (k := k) (registered_typed _) (interfaces_named _)
      (interfaces_apart ha.toBase) hr ?_ hne (up c b (hold.canWrite ha.toBase hcell hb))
      (up c' b (hold'.canWrite ha.toBase hcell hb))
    rw [hf.trace, he, List.append_assoc]
  | _ => exact absurd rfl hch

/-- Commands that are not changed. A joint keeps its command unless a controller that holds it is called: reading
the sensors changes no command, a cycle begins with the commands the cycle before left after enforcing the limits, and a
command of which no called controller holds a handle is still there when the limits are enforced. -/
theorem run_kept (q : Cmd) (n : String) :
    let out := ((World.start r m).run S nd ops).1
    (∀ x ∈ out, (∀ c k, .cb c k ∈ x.events → ¬Holds r.loader x.before c q n) →
      r.jointCommand q n x.record.wished = r.jointCommand q n x.start) ∧
    (∀ x, out[0]? = some x → x.start = m) ∧
    ∀ k x y, out[k]? = some x → out[k + 1]? = some y → r.jointCommand q n y.start = r.jointCommand q n x.record.limited := by
  obtain ⟨-, -, -, h4, h5, h6, -⟩ := start_refines hS nd ha m ops hg hh hp
  refine ⟨fun x hx hno => ?_, h5, fun k x y hx hy => ?_⟩
  · have hf := h4 x hx
    obtain ⟨hw, hch⟩ := run_commands hS nd ha m ops hg hh hp x hx
    have key : ∀ pre post, x.events = pre ++ post →
        r.jointCommand q n (replay x.input.act pre x.record.measured) = r.jointCommand q n x.record.measured := by
      intro pre
      induction pre using List.reverseRecOn with
      | nil => exact fun _ _ => rfl
      | append_singleton pre e ih =>
        intro post he
        rw [List.append_assoc] at he
        rw [← ih _ he]
        by_contra hne
        obtain ⟨c, k, rfl, hold, -⟩ := hch pre e post he q n hne
        exact hno c k (by rw [he]; simp) hold
    rw [hw, key x.events [] (List.append_nil _).symm]
    unfold Robot.jointCommand
    cases hcell : r.loader.commandCell q n with
    | none => rfl
    | some a => exact congrArg some (hf.commands q n a hcell).1
  · rw [h6 k x y hx hy]
    unfold Robot.jointCommand
    cases hcell : r.loader.commandCell q n with
    | none => rfl
    | some a => exact congrArg some ((h4 x (List.mem_of_getElem? hx)).commands q n a hcell).2

/-- The run as one of the hardware. -/
theorem hardware_run :
    (∀ i ∈ ((World.start r m).run S nd ops).1.map Seen.hardware, ∃ j, .cycle j ∈ ops ∧ i.period = j.period) ∧
    (∀ i ∈ ((World.start r m).run S nd ops).1.map Seen.hardware, Limits.dlt (some S.zero) (S.see i.period) = true) ∧
    (∀ (k : Nat) x, ((World.start r m).run S nd ops).1[k]? = some x →
      (((World.start r m).run S nd ops).1.map Seen.hardware)[k]? = some x.hardware ∧
      (r.run S nd (((World.start r m).run S nd ops).1.map Seen.hardware) m).1[k]? = some x.record) ∧
    ∀ (k : Nat) i rec, (((World.start r m).run S nd ops).1.map Seen.hardware)[k]? = some i →
      (r.run S nd (((World.start r m).run S nd ops).1.map Seen.hardware) m).1[k]? = some rec →
      ∃ x, ((World.start r m).run S nd ops).1[k]? = some x ∧ i = x.hardware ∧ rec = x.record := by
  obtain ⟨-, h2, h3, -⟩ := start_refines hS nd ha m ops hg hh hp
  have hin : ∀ i ∈ ((World.start r m).run S nd ops).1.map Seen.hardware, ∃ j, .cycle j ∈ ops ∧ i.period = j.period := by
    intro i hi
    obtain ⟨x, hx, rfl⟩ := List.mem_map.1 hi
    refine ⟨x.input, ?_, rfl⟩
    have : x.input ∈ cycles ops := by rw [← h2]; exact List.mem_map.2 ⟨x, hx, rfl⟩
    obtain ⟨op, hop, e⟩ := List.mem_filterMap.1 this
    cases op with
    | service o => cases e
    | cycle j => cases e; exact hop
  refine ⟨hin, fun i hi => ?_, fun k x hx => ⟨?_, ?_⟩, fun k i rec hi hrec => ?_⟩
  · obtain ⟨j, hj, e⟩ := hin i hi
    rw [e]
    exact hp j hj
  · rw [List.getElem?_map, hx]; rfl
  · rw [h3, List.getElem?_map, hx]; rfl
  · rw [List.getElem?_map] at hi
    obtain ⟨x, hx, rfl⟩ := Option.map_eq_some_iff.1 hi
    rw [h3, List.getElem?_map, hx] at hrec
    exact ⟨x, hx, rfl, (Option.some.inj hrec).symm⟩

end

end Verif.Whole
