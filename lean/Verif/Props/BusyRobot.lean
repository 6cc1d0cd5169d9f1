import Verif.Lemmas.BusyRobotRun
import Verif.Props.WholeRobot
import Verif.Props.WholeRobotDouble

/-!
Property C115: what C112 and C114 say of a whole robot holds also if its services are called in the middle of its cycles.
-/

namespace Verif.Whole

open Verif.Transmission (Mem Loader Cmd Doc TransInfo loadTransmission)
open Verif.Limits (Machine Flt Fl Arith Dbl binary64 UrdfJoint UrdfLimits UrdfSafety Within)
open Verif.Cycle (Record GoodPeriod limitsArith)
open Verif.Described (Robot Setting Assembled Lawful exact_lawful double_lawful Sends SendsWithin64 InUrdfRange Driven HasLimits
  HasSoftLimits Ranged Allowed Sane Reaches)

section

variable {T K : Type} [Add T] [Sub T] [Mul T] [Div T] [OfNat T 0] [OfNat T 1] [OfNat T 2] [DecidableEq T] [LinearOrder K]
  {stod : String → Option T} {L0 : Loader T} {d : Doc} {infos : List TransInfo} {S : Setting T K}
  {joints : List (Cmd × String × UrdfJoint (Dbl K))} {r : Robot T K}

variable (hS : Lawful S) (nd : Bool) (ha : Assembled stod S.toArith L0 d infos joints r) (m : Mem T) (ms : List (Move T))
  (hms : Orderly S nd r m ms)

include hS ha hms

/-- **C115, no cycle is lost.** Whatever services are called in the middle of cycles, nothing halts the robot, every cycle
that begins is completed before the next one begins, in order, and each one begins with what the one before has left. -/
theorem c115_completes :
    let out := (Busy.start r m).run S nd ms
    out.2.2 = none ∧ begun S nd (Busy.start r m) ms = out.1.map (·.input) ++ out.2.1.stage.now ∧
    (∀ x, out.1[0]? = some x → x.start = m) ∧
    ∀ k x y, out.1[k]? = some x → out.1[k + 1]? = some y → y.start = x.record.sent := by
  obtain ⟨h1, -, h3, h4, h5⟩ := busy_refines hS ha m ms hms.fine hms.positive
  exact ⟨h1, h3, h4, h5⟩

/-- **C115, the hardware does not notice.** The completed cycles are those of the hardware alone, with what the controllers have
left in them: so all that C111 and C113 say is true of them. -/
theorem c115_hardware :
    let out := (Busy.start r m).run S nd ms
    r.run S nd (out.1.map fun x => ⟨x.input.sense, x.record.wished, x.input.period, x.input.reset⟩) m =
      (out.1.map (·.record), none) :=
  (busy_refines hS ha m ms hms.fine hms.positive).2.1

/-- **C115, one commander.** At every moment, also in the middle of an update and while a service is handled, no two running
controllers hold handles for commands of the same joint, whatever the kinds of the commands. -/
theorem c115_one_commander (n : String) (q q' : Cmd) (c c' : CId) :
    let s := ((Busy.start r m).run S nd ms).2.1.sys
    Holds r.loader s c q n → Holds r.loader s c' q' n → s.mgr.state c = .running → s.mgr.state c' = .running → c = c' :=
  fun h h' hc hc' => inv_one_commander ha.toBase (busy_inv hS ha m ms hms.fine hms.positive) h h' hc hc'

/-- The next step of a run. -/
theorem next_step (pre : List (Move T)) (mv : Move T) (post : List (Move T)) (he : ms = pre ++ mv :: post) :
    BusyInv S nd r.loader ((Busy.start r m).run S nd pre).2.1 ∧
    ∃ b' p, Stepped S nd r.loader ((Busy.start r m).run S nd pre).2.1 mv b' p := by
  subst he
  have hpre : ∀ i, .begin i ∈ pre → Limits.dlt (some S.zero) (S.see i.period) = true := fun i hi =>
    hms.positive i (List.mem_append_left _ hi)
  have fine : AllMoves S nd Fine (Busy.start r m) pre ∧
      AllMoves S nd Fine ((Busy.start r m).run S nd pre).2.1 (mv :: post) := by
    have key : ∀ (l : List (Move T)) (b : Busy T K), AllMoves S nd Fine b (l ++ mv :: post) → AllMoves S nd Fine b l := by
      intro l
      induction l with
      | nil => exact fun _ _ => trivial
      | cons x l ih => exact fun b h => ⟨h.1, fun b' p e => ih b' (h.2 b' p e)⟩
    have h1 := key pre _ hms.fine
    exact ⟨h1, ((allMoves_append pre _ _ (busy_refines hS ha m pre h1 hpre).1).1 hms.fine).2⟩
  have hi := busy_inv hS ha m pre fine.1 hpre
  exact ⟨hi, step_ok hS ha.toBase hi mv fine.2.1 fun i hi => Or.inl (hms.positive i (by simp [hi]))⟩

/-- **C115, who changes a command.** At every moment the next step changes a command of a joint only if it calls exactly one
controller, which holds a handle for it, and no other controller with a handle for a command of that joint is running; or
if it completes a cycle: then what the controllers have left is what the limits get, and the command of every joint is the
limited one. So no service changes a command, and neither does the beginning of a cycle. -/
theorem c115_commands (pre : List (Move T)) (mv : Move T) (post : List (Move T)) (he : ms = pre ++ mv :: post) :
    let b := ((Busy.start r m).run S nd pre).2.1
    ∃ b' p, b.step S nd mv = .ok (b', p) ∧
      (p = none → ∀ q n, r.jointCommand q n b'.mem ≠ r.jointCommand q n b.mem → mv = .go ∧
        ∃ c k es, b'.sys.mgr.trace = b.sys.mgr.trace ++ es ∧ .cb c k ∈ es ∧ (∀ c' k', .cb c' k' ∈ es → c' = c) ∧
          Holds r.loader b.sys c q n ∧
          ∀ c' q', c' ≠ c → Holds r.loader b.sys c' q' n → b.sys.mgr.state c' ≠ .running) ∧
      ∀ x, p = some x → mv = .go ∧ b'.sys = b.sys ∧ x.record.wished = b.mem ∧ b'.mem = x.record.sent ∧
        ∀ q n, r.jointCommand q n b'.mem = r.jointCommand q n x.record.limited := by
  obtain ⟨hi, b', p, hs⟩ := next_step hS nd ha m ms hms pre mv post he
  refine ⟨b', p, hs.eq, fun hp q n hne => ?_, fun x hx => ?_⟩
  · unfold Robot.jointCommand at hne
    cases hcell : r.loader.commandCell q n with
    | none => rw [hcell] at hne; exact absurd rfl hne
    | some a =>
      rw [hcell] at hne
      obtain ⟨h1, -, h3⟩ := hs.calls hp q n a hcell fun e => hne (congrArg some e)
      exact ⟨h1, h3⟩
  · obtain ⟨h1, -, -, -, h5, h6, h7, h8⟩ := hs.past x hx
    refine ⟨h1, h5, h7, h6, fun q n => ?_⟩
    rw [h6]
    unfold Robot.jointCommand
    cases hcell : r.loader.commandCell q n with
    | none => rfl
    | some a => exact congrArg some (cycle_commands ha.toBase hi.loader h8 hcell).2

/-- **C115, what a step does.** A cycle begins with a reading of the sensors and a call of `update`; each further step is the
next one of this update (as in C90), in which the called controllers act on the variables, as long as there is one. An
operation of the service thread does what it does between cycles and leaves the variables alone. -/
theorem c115_steps (pre : List (Move T)) (mv : Move T) (post : List (Move T)) (he : ms = pre ++ mv :: post) :
    let b := ((Busy.start r m).run S nd pre).2.1
    ∃ b' p, b.step S nd mv = .ok (b', p) ∧
      (∀ i, mv = .begin i → b.stage = .outside → p = none ∧ b'.sys.held = b.sys.held ∧ b.robot.read nd i.sense b.mem = .ok b'.mem ∧
        b'.stage = .inside i b.mem b'.mem ∧
        (⟨b'.sys.mgr, b'.rt⟩ : Inter.St) = Inter.rtStep ⟨b.sys.mgr, .idle⟩ ⟨i.time, i.restart, i.hw⟩) ∧
      (∀ i start measured, mv = .go → b.stage = .inside i start measured → b.rt ≠ .idle → p = none ∧ b'.stage = b.stage ∧
        b'.sys.held = b.sys.held ∧ (⟨b'.sys.mgr, b'.rt⟩ : Inter.St) = Inter.rtStep ⟨b.sys.mgr, b.rt⟩ ⟨i.time, i.restart, i.hw⟩ ∧
        ∃ es, b'.sys.mgr.trace = b.sys.mgr.trace ++ es ∧ b'.mem = replay i.act es b.mem) ∧
      (∀ i start measured, mv = .go → b.stage = .inside i start measured → b.rt = .idle →
        ∃ x, p = some x ∧ x.input = i ∧ x.start = start ∧ x.record.measured = measured) ∧
      ∀ op, mv = .service op → (∀ t r hw, op ≠ .update t r hw) → p = none ∧ b'.sys = b.sys.step stdEnv checkForConflict op ∧
        b'.rt = b.rt ∧ b'.mem = b.mem ∧ b'.stage = b.stage := by
  obtain ⟨hi, b', p, hs⟩ := next_step hS nd ha m ms hms pre mv post he
  generalize ((Busy.start r m).run S nd pre).2.1 = b at hi hs
  refine ⟨b', p, hs.eq, ?_, ?_, ?_, ?_⟩
  · rintro i rfl hst
    have heq := hs.eq
    simp only [Busy.step, hst, Busy.enter] at heq
    split at heq
    · cases heq
    · rename_i m' hr
      cases heq
      refine ⟨rfl, rfl, hr, rfl, ?_⟩
      rw [hi.outside hst]
      rfl
  · rintro i start measured rfl hst hidle
    have es : b.step S nd .go = .ok (b.advance i, none) := by
      unfold Busy.step
      simp only [hst]
    have heq := hs.eq
    rw [es] at heq
    cases heq
    obtain ⟨-, -, es, he, -⟩ := Inter.rt_calls ⟨b.sys.mgr, b.rt⟩ i.args
    refine ⟨rfl, rfl, rfl, rfl, es, he, ?_⟩
    show replay i.act (List.drop _ _) _ = _
    rw [he, List.drop_left]
  · rintro i start measured rfl hst hidle
    obtain ⟨b'', x, e, -, h1, h2, -, -, -, h3, -⟩ := leave_ok hS ha.toBase hi hst hidle
    have es : b.step S nd .go = .ok (b'', some x) := by simp [Busy.step, hst, hidle, e, Except.map]
    have heq := hs.eq
    rw [es] at heq
    cases heq
    exact ⟨x, rfl, h2, h1, h3⟩
  · rintro op rfl hu
    have heq := hs.eq
    cases op with
    | update t r hw => exact absurd rfl (hu t r hw)
    | _ => cases heq; exact ⟨rfl, rfl, rfl, rfl, rfl⟩

/-- **C115, services in the middle.** Whenever no cycle is in progress, the manager agrees with one that has handled
every service between two updates: the same lists of controllers with the same states, the same requests and answers, and
the same starts and stops of controllers in the same order. -/
theorem c115_uninterrupted (h : ((Busy.start r m).run S nd ms).2.1.stage = .outside) :
    ∃ a, Reachable checkForConflict a ∧ ((Busy.start r m).run S nd ms).2.1.sys.mgr.Agrees a := by
  have hi := busy_inv hS ha m ms hms.fine hms.positive
  obtain ⟨a, ha', hr⟩ := hi.sim
  unfold Inter.Rel at hr
  rw [hi.outside h] at hr
  exact ⟨a, ha', hr.agrees⟩

/-- **C115, a cycle comes to its end.** At every moment in the middle of a cycle, whatever services have been called, the
loop completes this cycle and no other one in finitely many steps of its own, without waiting for any service, if the controllers go on
writing through their handles only. -/
theorem c115_progress (i : Input T) (start measured : Mem T)
    (h : ((Busy.start r m).run S nd ms).2.1.stage = .inside i start measured)
    (hw : ∀ c k m' a, ¬((Busy.start r m).run S nd ms).2.1.sys.CanWrite (fun d => [d]) c a → i.act c k m' a = m' a) :
    ∃ N x, Orderly S nd r m (ms ++ List.replicate N .go) ∧ x.input = i ∧
      ((Busy.start r m).run S nd (ms ++ List.replicate N .go)).1 = ((Busy.start r m).run S nd ms).1 ++ [x] ∧
      ((Busy.start r m).run S nd (ms ++ List.replicate N .go)).2.1.stage = .outside := by
  have hn := (busy_refines hS ha m ms hms.fine hms.positive).1
  obtain ⟨N, x, h1, h2, h3, -, h5⟩ := inv_finish hS ha.toBase (busy_inv hS ha m ms hms.fine hms.positive) h hw
  refine ⟨N, x, ⟨(allMoves_append _ _ _ hn).2 ⟨hms.fine, h5⟩, fun i hi => ?_⟩, h2, ?_, ?_⟩
  · rcases List.mem_append.1 hi with hi | hi
    · exact hms.positive i hi
    · exact absurd (List.eq_of_mem_replicate hi) (by simp)
  · rw [busy_append _ _ _ hn, h1]
  · rw [busy_append _ _ _ hn, h3]

/-- **C115, periods that are not positive.** If a joint is listed for soft position limits, a cycle with a period that is not
positive begins like any other one, but it is the last one: whatever services are called in the middle of it, nothing is sent
in it, and when its update has come to its end, which it does in finitely many steps of the loop, the assertion of a limit handle
fails. The cycles before it are as if they had been all. -/
theorem c115_periods (ho : ((Busy.start r m).run S nd ms).2.1.stage = .outside) (i : Input T)
    (hi : Limits.dlt (some S.zero) (S.see i.period) = false) (hk : ∃ c n u, (c, n, u) ∈ joints ∧ r.kind c = .posSoft)
    (rest : List (Move T)) :
    let out := (Busy.start r m).run S nd (ms ++ .begin i :: rest)
    out.1 = ((Busy.start r m).run S nd ms).1 ∧ out.2.1.stage.now = [i] ∧
    (out.2.2 = none ∨ out.2.2 = some .limits ∧ out.2.1.rt = .idle) ∧
    ∃ N, ((Busy.start r m).run S nd (ms ++ .begin i :: (rest ++ List.replicate N .go))).2.2 = some .limits := by
  obtain ⟨hn, hinv, -, -, -, -, hacc⟩ := busy_run hS ha.toBase ms (busyInv_start rfl ha.handles.1 m) hms.fine
    fun i hi => Or.inl (hms.positive i hi)
  obtain ⟨b', e, h1, m', h2⟩ := refused_begin (S := S) (nd := nd) ha.toBase hinv.loader ho i
  have hno : ¬Described.Accepts S.toArith b'.robot (S.see i.period) := by
    rw [h1, hacc]
    intro h
    rcases (ha.accepts _).1 h with h | h
    · exact absurd (hi.symm.trans h) (by decide)
    · obtain ⟨c, n, u, hj, hk⟩ := hk
      exact h c n u hj hk
  have key : ∀ l, (Busy.start r m).run S nd (ms ++ .begin i :: l) =
      (((Busy.start r m).run S nd ms).1 ++ (b'.run S nd l).1, (b'.run S nd l).2.1, (b'.run S nd l).2.2) := by
    intro l
    rw [busy_append _ _ _ hn, run_cons_ok e]
    rfl
  obtain ⟨g1, g2, g3, g4⟩ := refused_run (nd := nd) rest h2 hno
  dsimp only
  rw [key]
  refine ⟨by simp [g1], by simp [g3, h2, Stage.now], g4, ?_⟩
  rcases g4 with g4 | ⟨g4, -⟩
  · obtain ⟨N, hN⟩ := refused_ends (nd := nd) (g3.trans h2) (by rw [g2]; exact hno)
    exact ⟨N, by rw [key, busy_append _ _ _ g4]; exact hN⟩
  · exact ⟨0, by rw [key, List.replicate_zero, List.append_nil]; exact g4⟩

omit hms in
/-- **C115, without soft position limits.** If no joint is listed for soft position limits, no cycle is lost whatever the periods
are. -/
theorem c115_any_period (hf : AllMoves S nd Fine (Busy.start r m) ms)
    (hk : ∀ c n u, (c, n, u) ∈ joints → r.kind c ≠ .posSoft) :
    let out := (Busy.start r m).run S nd ms
    out.2.2 = none ∧ begun S nd (Busy.start r m) ms = out.1.map (·.input) ++ out.2.1.stage.now := by
  obtain ⟨h1, -, -, h4, -⟩ := busy_run hS ha.toBase ms (busyInv_start rfl ha.handles.1 m) hf
    fun i _ => (ha.accepts _).2 (Or.inr hk)
  exact ⟨h1, h4⟩

omit hms in
/-- **C115, what is asked of services.** Runs in which time limits are generous and controllers are not restarted are
orderly: services may be called at any moment after the very first update. -/
theorem c115_unhurried (hu : AllMoves S nd Unhurried (Busy.start r m) ms)
    (hp : ∀ i, .begin i ∈ ms → Limits.dlt (some S.zero) (S.see i.period) = true) : Orderly S nd r m ms :=
  ⟨unhurried_fine hS ha.toBase ms (busyInv_start rfl ha.handles.1 m)
    ⟨fun u l h => (by cases h), fun u l h => (by cases h), fun u c l h => (by cases h), fun h => (by cases h)⟩ (fun i s m h => by cases h) hp hu, hp⟩

end

/-! ### Exact numbers -/

section

variable {K : Type} [Field K] [LinearOrder K] [IsStrictOrderedRing K] {stod : String → Option K} {L0 : Loader K} {d : Doc}
  {infos : List TransInfo} {joints : List (Cmd × String × UrdfJoint (Dbl K))} {r : Robot K K} {huge : K}

omit [IsStrictOrderedRing K] in
/-- What the limits see of a period. -/
theorem period_exact (x : K) : Limits.dlt (some (Setting.exact huge).zero) ((Setting.exact huge).see x) = true ↔ 0 < x :=
  decide_eq_true_iff

variable (nd : Bool) (ha : Assembled stod (.exact huge) L0 d infos joints r) (m : Mem K) (ms : List (Move K))
  (hms : Orderly (.exact huge) nd r m ms)

include ha hms

omit [IsStrictOrderedRing K] in
theorem busy_runs :
    (∀ i ∈ ((Busy.start r m).run (.exact huge) nd ms).1.map Past.hardware, ∃ j, .begin j ∈ ms ∧ i.period = j.period) ∧
    (∀ i ∈ ((Busy.start r m).run (.exact huge) nd ms).1.map Past.hardware, 0 < i.period) ∧
    (∀ (k : Nat) x, ((Busy.start r m).run (.exact huge) nd ms).1[k]? = some x →
      (((Busy.start r m).run (.exact huge) nd ms).1.map Past.hardware)[k]? = some x.hardware ∧
      (r.run (.exact huge) nd (((Busy.start r m).run (.exact huge) nd ms).1.map Past.hardware) m).1[k]? = some x.record) ∧
    ∀ (k : Nat) i rec, (((Busy.start r m).run (.exact huge) nd ms).1.map Past.hardware)[k]? = some i →
      (r.run (.exact huge) nd (((Busy.start r m).run (.exact huge) nd ms).1.map Past.hardware) m).1[k]? = some rec →
      ∃ x, ((Busy.start r m).run (.exact huge) nd ms).1[k]? = some x ∧ i = x.hardware ∧ rec = x.record := by
  obtain ⟨h1, h3, h4⟩ := busy_hardware (exact_lawful huge) ha m ms hms.fine hms.positive
  refine ⟨h1, fun i hi => ?_, h3, h4⟩
  obtain ⟨j, hj, e⟩ := h1 i hi
  rw [e]
  exact (period_exact _).1 (hms.positive j hj)

/-- **C115, what is measured.** As C112. -/
theorem c115_measured (x : Past K) (hx : x ∈ ((Busy.start r m).run (.exact huge) nd ms).1) (j : TransInfo) (hj : j ∈ infos) :
    ∃ t, loadTransmission stod j = .ok (some t) ∧ ∀ q, ∃ v, L0.actuatorValues q j.actuatorNames x.input.sense = some v ∧
      ∀ (z : Nat) n, j.jointNames[z]? = some n → r.jointValue q n x.record.measured = (t.jointsFrom q v)[z]? := by
  obtain ⟨-, hpos, hto, -⟩ := busy_runs nd ha m ms hms
  obtain ⟨k, hk⟩ := List.getElem?_of_mem hx
  obtain ⟨h1, h2⟩ := hto k x hk
  exact Described.c111_measured nd huge ha _ hpos m k x.hardware x.record h1 h2 j hj

/-- **C115, joints without limits.** The actuator commands of every cycle amount to exactly one value for each
joint that is moved with commands of the kind. If the joint is not listed for the kind, this is what the calls of the
controllers left as its command. -/
theorem c115_free (x : Past K) (hx : x ∈ ((Busy.start r m).run (.exact huge) nd ms).1) (q : Cmd) (n : String)
    (hd : Driven L0 infos q n) :
    (∃! v, Sends stod L0 infos q x.record n v) ∧
      ((∀ u, (q, n, u) ∉ joints) → ∃ v, r.jointCommand q n x.record.wished = some v ∧ Sends stod L0 infos q x.record n v) := by
  obtain ⟨-, hpos, hto, -⟩ := busy_runs nd ha m ms hms
  obtain ⟨k, hk⟩ := List.getElem?_of_mem hx
  obtain ⟨h1, h2⟩ := hto k x hk
  exact Described.c111_free nd huge ha _ hpos m k x.hardware x.record h1 h2 q n hd

/-- **C115, position limits.** As C112: whatever the controllers do and whatever services are called at whatever moments, the
actuator commands of every cycle amount to a position of a limited joint that is within the range of the URDF, at most
`velocity * period` away from what was sent in the cycle before (in the first cycle and after a reset: from the measured
position); and position saturation passes on what the controllers command if it satisfies both. -/
theorem c115_position (n : String) (u : UrdfJoint (Dbl K)) (l : UrdfLimits K) (hd : Driven L0 infos .position n)
    (hj : (.position, n, u) ∈ joints) (hl : HasLimits u l) (hs : ∀ i, .begin i ∈ ms → Sane (r.kind .position) u l i.period)
    (hstart : ∀ k x y, ((Busy.start r m).run (.exact huge) nd ms).1[k]? = some x → k = 0 ∨ x.input.reset = true →
      r.jointValue .position n x.record.measured = some y → Allowed huge u l y) :
    ∀ (k : Nat) x, ((Busy.start r m).run (.exact huge) nd ms).1[k]? = some x →
      ∃ v p, Sends stod L0 infos .position x.record n v ∧ Allowed huge u l v ∧ |v - p| ≤ l.velocity * x.input.period ∧
        (k = 0 ∨ x.input.reset = true → r.jointValue .position n x.record.measured = some p) ∧
        (x.input.reset = false → ∀ k' x', k = k' + 1 → ((Busy.start r m).run (.exact huge) nd ms).1[k']? = some x' →
          Sends stod L0 infos .position x'.record n p) ∧
        (r.kind .position = .posSat → ∀ c, r.jointCommand .position n x.record.wished = some c → Allowed huge u l c →
          |c - p| ≤ l.velocity * x.input.period → v = c) := by
  obtain ⟨hin, hpos, hto, hof⟩ := busy_runs nd ha m ms hms
  intro k x hx
  obtain ⟨h1, h2⟩ := hto k x hx
  obtain ⟨v, p, g1, g2, g3, g4, g5, g6⟩ := Described.c111_position nd huge ha _ hpos m n u l hd hj hl
    (fun i hi => by obtain ⟨j, hj, e⟩ := hin i hi; rw [e]; exact hs j hj)
    (fun k i rec y hi hrec hk hy => by
      obtain ⟨x, hx, rfl, rfl⟩ := hof k i rec hi hrec
      exact hstart k x y hx hk hy) k x.hardware x.record h1 h2
  exact ⟨v, p, g1, g2, g3, g4, fun hr k' x' e hx' => g5 hr k' x'.record e (hto k' x' hx').2, g6⟩

/-- **C115, velocity limits.** As C112. -/
theorem c115_velocity (n : String) (u : UrdfJoint (Dbl K)) (l : UrdfLimits K) (s : UrdfSafety K)
    (hd : Driven L0 infos .velocity n) (hj : (.velocity, n, u) ∈ joints) (hl : HasLimits u l) (hV : 0 ≤ l.velocity)
    (hk : r.kind .velocity = .velSat ∨ (r.kind .velocity = .velSoft ∧ HasSoftLimits u s)) :
    ∀ x ∈ ((Busy.start r m).run (.exact huge) nd ms).1,
      ∃ v p c, Sends stod L0 infos .velocity x.record n v ∧ r.jointValue .position n x.record.measured = some p ∧
        r.jointCommand .velocity n x.record.wished = some c ∧ |v| ≤ l.velocity ∧
        (r.kind .velocity = .velSat → |c| ≤ l.velocity → v = c) ∧
        (r.kind .velocity = .velSoft → Ranged u → 0 ≤ s.kPosition → s.softLower ≤ s.softUpper →
          (s.softUpper ≤ p → v ≤ 0) ∧ (p ≤ s.softLower → 0 ≤ v)) := by
  obtain ⟨-, hpos, hto, -⟩ := busy_runs nd ha m ms hms
  intro x hx
  obtain ⟨k, hx⟩ := List.getElem?_of_mem hx
  obtain ⟨h1, h2⟩ := hto k x hx
  exact Described.c111_velocity nd huge ha _ hpos m n u l s hd hj hl hV hk k x.hardware x.record h1 h2

/-- **C115, effort limits.** As C112. -/
theorem c115_effort (n : String) (u : UrdfJoint (Dbl K)) (l : UrdfLimits K) (s : UrdfSafety K)
    (hd : Driven L0 infos .effort n) (hj : (.effort, n, u) ∈ joints)
    (hl : HasLimits u l) (hE : 0 ≤ l.effort) (hV : 0 ≤ l.velocity) (hP : Ranged u → l.lower ≤ l.upper)
    (hk : r.kind .effort = .effSat ∨ (r.kind .effort = .effSoft ∧ HasSoftLimits u s)) :
    ∀ x ∈ ((Busy.start r m).run (.exact huge) nd ms).1,
      ∃ e p v c, Sends stod L0 infos .effort x.record n e ∧ r.jointValue .position n x.record.measured = some p ∧
        r.jointValue .velocity n x.record.measured = some v ∧ r.jointCommand .effort n x.record.wished = some c ∧
        |e| ≤ l.effort ∧
        (r.kind .effort = .effSat →
          (Ranged u → (p < l.lower → 0 ≤ e) ∧ (l.upper < p → e ≤ 0)) ∧
          (v < -l.velocity → 0 ≤ e) ∧ (l.velocity < v → e ≤ 0) ∧
          (|c| ≤ l.effort → (Ranged u → l.lower ≤ p ∧ p ≤ l.upper) → |v| ≤ l.velocity → e = c)) ∧
        (r.kind .effort = .effSoft → 0 ≤ s.kVelocity →
          (l.velocity ≤ v → e ≤ 0) ∧ (v ≤ -l.velocity → 0 ≤ e) ∧
          (0 ≤ s.kPosition → s.softLower ≤ s.softUpper → Ranged u →
            (s.softUpper ≤ p → 0 ≤ v → e ≤ 0) ∧ (p ≤ s.softLower → v ≤ 0 → 0 ≤ e))) := by
  obtain ⟨-, hpos, hto, -⟩ := busy_runs nd ha m ms hms
  intro x hx
  obtain ⟨k, hx⟩ := List.getElem?_of_mem hx
  obtain ⟨h1, h2⟩ := hto k x hx
  exact Described.c111_effort nd huge ha _ hpos m n u l s hd hj hl hE hV hP hk k x.hardware x.record h1 h2

/-- **C115, closed loop.** As C112: with actuators that reach the commanded positions by the next cycle, a joint that
starts within the range of the URDF is measured within it for ever and moves by at most `velocity * period` per cycle. -/
theorem c115_closed_loop (n : String) (u : UrdfJoint (Dbl K)) (l : UrdfLimits K) (hd : Driven L0 infos .position n)
    (hj : (.position, n, u) ∈ joints) (hl : HasLimits u l) (hs : ∀ i, .begin i ∈ ms → Sane (r.kind .position) u l i.period)
    (hf : ∀ k x y, ((Busy.start r m).run (.exact huge) nd ms).1[k]? = some x →
      ((Busy.start r m).run (.exact huge) nd ms).1[k + 1]? = some y → Reaches L0 infos n x.record.sent y.input.sense)
    (hstart : ∀ x y, ((Busy.start r m).run (.exact huge) nd ms).1[0]? = some x →
      r.jointValue .position n x.record.measured = some y → Allowed huge u l y) :
    ∀ (k : Nat) x, ((Busy.start r m).run (.exact huge) nd ms).1[k]? = some x →
      ∃ v, r.jointValue .position n x.record.measured = some v ∧ Allowed huge u l v ∧
        ∀ y, ((Busy.start r m).run (.exact huge) nd ms).1[k + 1]? = some y →
          ∃ v', r.jointValue .position n y.record.measured = some v' ∧ Sends stod L0 infos .position x.record n v' ∧
            |v' - v| ≤ l.velocity * x.input.period := by
  obtain ⟨hin, hpos, hto, hof⟩ := busy_runs nd ha m ms hms
  intro k x hx
  obtain ⟨h1, h2⟩ := hto k x hx
  obtain ⟨v, g1, g2, g3⟩ := Described.c111_closed_loop nd huge ha _ hpos m n u l hd hj hl
    (fun i hi => by obtain ⟨j, hj, e⟩ := hin i hi; rw [e]; exact hs j hj)
    (fun k i' rec hi hrec => by
      have hlen := (Described.c111_completes nd huge ha _ hpos m).2
      have hk : k + 1 < (((Busy.start r m).run (.exact huge) nd ms).1.map Past.hardware).length :=
        (List.getElem?_eq_some_iff.1 hi).1
      obtain ⟨y, hy, rfl, -⟩ := hof (k + 1) i' _ hi (List.getElem?_eq_getElem (by omega))
      obtain ⟨x, hx, -, rfl⟩ := hof k _ rec (List.getElem?_eq_getElem (by omega)) hrec
      exact hf k x y hx hy)
    (fun rec y hrec hy => by
      have hlen := (Described.c111_completes nd huge ha _ hpos m).2
      have hk := (List.getElem?_eq_some_iff.1 hrec).1
      obtain ⟨x, hx, -, rfl⟩ := hof 0 _ rec (List.getElem?_eq_getElem (by omega)) hrec
      exact hstart x y hx hy) k x.hardware x.record h1 h2
  exact ⟨v, g1, g2, fun y hy => g3 y.record (hto (k + 1) y hy).2⟩

end

/-! ### Doubles -/

section

open Verif.Transmission (Trans Is IsNaN MeansAll SameTrans jointScale DependsOn)
open Verif.Described (Sends64 Terms)

variable {A : Machine binary64} {stod : String → Option (Flt A)} {L0 : Loader (Flt A)} {d : Doc} {infos : List TransInfo}
  {joints : List (Cmd × String × UrdfJoint (Dbl (Fl binary64)))} {r : Robot (Flt A) (Fl binary64)}

variable (nd : Bool) (ha : Assembled stod (limitsArith A) L0 d infos joints r) (m : Mem (Flt A)) (ms : List (Move (Flt A)))
  (hms : Orderly (.double A) nd r m ms) (hgood : ∀ i, .begin i ∈ ms → GoodPeriod i.period)

/-- Finite positive periods are seen as positive by the limits. -/
theorem period_double {i : Input (Flt A)} (h : GoodPeriod i.period) :
    Limits.dlt (some (Setting.double A).zero) ((Setting.double A).see i.period) = true :=
  Cycle.positive64 (is := [⟨i.sense, fun _ => i.period, i.period, i.reset⟩]) (fun j hj => by
    rw [List.mem_singleton.1 hj]; exact h) _ (List.mem_singleton.2 rfl)

include ha hms hgood

theorem busy_runs64 :
    (∀ i ∈ ((Busy.start r m).run (.double A) nd ms).1.map Past.hardware, GoodPeriod i.period) ∧
    ∀ (k : Nat) x, ((Busy.start r m).run (.double A) nd ms).1[k]? = some x →
      (((Busy.start r m).run (.double A) nd ms).1.map Past.hardware)[k]? = some x.hardware ∧
      (r.run (.double A) nd (((Busy.start r m).run (.double A) nd ms).1.map Past.hardware) m).1[k]? = some x.record := by
  obtain ⟨h1, h3, -⟩ := busy_hardware (double_lawful A) ha m ms hms.fine hms.positive
  refine ⟨fun i hi => ?_, h3⟩
  obtain ⟨j, hj, e⟩ := h1 i hi
  rw [e]
  exact hgood j hj

/-- **C115, NaN comes from controllers only, in doubles.** As C114: the limits turn no number into NaN and no NaN into a
number. -/
theorem c115_double_nan (x : Past (Flt A)) (hx : x ∈ ((Busy.start r m).run (.double A) nd ms).1) (q : Cmd) (n : String) :
    Number r q n x.record.limited ↔ Number r q n x.record.wished := by
  obtain ⟨hpos, hto⟩ := busy_runs64 nd ha m ms hms hgood
  obtain ⟨k, hk⟩ := List.getElem?_of_mem hx
  obtain ⟨h1, h2⟩ := hto k x hk
  rw [← not_iff_not, not_number, not_number]
  exact Described.c113_nan_iff nd ha _ hpos m k x.hardware x.record h1 h2 q n

/-- **C115, position limits in doubles.** As C114: if the measured position is a number in the range whenever the limits
start from it (in the first cycle, after a reset, and after a command that is not a number), a command that is a number is
limited to a finite number exactly within the range of the URDF, and what is sent amounts to a position in the range, up to
the rounding of the transmissions. -/
theorem c115_double_position (n : String) (u : UrdfJoint (Dbl (Fl binary64)))
    (l : UrdfLimits (Fl binary64)) (hd : Driven L0 infos .position n) (hj : (.position, n, u) ∈ joints) (hl : HasLimits u l)
    (hk : r.kind .position = .posSat) (hfin : Ranged u → l.lower.Fin ∧ l.upper.Fin ∧ l.lower.1 ≤ l.upper.1)
    (hv : l.velocity.Fin ∧ 0 ≤ l.velocity.1)
    (hstart : ∀ k x, ((Busy.start r m).run (.double A) nd ms).1[k]? = some x →
      (k = 0 ∨ x.input.reset = true ∨ ∃ k' y, k = k' + 1 ∧ ((Busy.start r m).run (.double A) nd ms).1[k']? = some y ∧
        ¬Number r .position n y.record.wished) →
      ∃ p : Fl binary64, r.jointValue .position n x.record.measured = some (Flt.fl p) ∧ p.Fin ∧ InUrdfRange u l p)
    (x : Past (Flt A)) (hx : x ∈ ((Busy.start r m).run (.double A) nd ms).1) (c : Fl binary64)
    (hc : r.jointCommand .position n x.record.wished = some (Flt.fl c)) :
    ∃ o : Fl binary64, r.jointCommand .position n x.record.limited = some (Flt.fl o) ∧ o.Fin ∧ InUrdfRange u l o ∧
      (Ranged u → SendsWithin64 stod L0 infos r .position x.record n l.lower.1 l.upper.1) := by
  obtain ⟨hpos, hto⟩ := busy_runs64 nd ha m ms hms hgood
  obtain ⟨k, hk'⟩ := List.getElem?_of_mem hx
  obtain ⟨h1, h2⟩ := hto k x hk'
  obtain ⟨o, -, -, -, g1, g2, g3, g4, -⟩ := Described.c113_position nd ha _ hpos m n u l hd hj hl hk hfin hv
    (fun k rec hrec hs => by
      obtain ⟨-, -, hof⟩ := busy_hardware (double_lawful A) ha m ms hms.fine hms.positive
      have hlen := (Described.c113_completes nd ha _ hpos m).2
      have hlt := (List.getElem?_eq_some_iff.1 hrec).1
      obtain ⟨x, hx, -, rfl⟩ := hof k _ rec (List.getElem?_eq_getElem (by omega)) hrec
      refine hstart k x hx ?_
      rcases hs with h | ⟨i, hi, h⟩ | ⟨k', i, v, e, hi, h, hv⟩
      · exact Or.inl h
      · rw [(hto k x hx).1] at hi
        cases hi
        exact Or.inr (Or.inl h)
      · rw [List.getElem?_map] at hi
        obtain ⟨y, hy, rfl⟩ := Option.map_eq_some_iff.1 hi
        exact Or.inr (Or.inr ⟨k', y, e, hy, not_number.2 ⟨v, h, hv⟩⟩)) k x.hardware x.record h1 h2 c hc
  exact ⟨o, g1, g2, g3, g4⟩

/-- **C115, soft position limits in doubles.** As C114. -/
theorem c115_double_soft_position (n : String) (u : UrdfJoint (Dbl (Fl binary64)))
    (l : UrdfLimits (Fl binary64)) (s : UrdfSafety (Fl binary64)) (hd : Driven L0 infos .position n)
    (hj : (.position, n, u) ∈ joints) (hl : HasLimits u l) (hsl : HasSoftLimits u s) (hk : r.kind .position = .posSoft)
    (hv : l.velocity.Fin ∧ 0 ≤ l.velocity.1)
    (hS : Ranged u → s.softLower.Fin ∧ s.softUpper.Fin ∧ s.kPosition.Fin ∧ 0 < s.kPosition.1)
    (k : Nat) (x : Past (Flt A)) (hx : ((Busy.start r m).run (.double A) nd ms).1[k]? = some x) (p c t : Fl binary64)
    (hp : Described.Before r (((Busy.start r m).run (.double A) nd ms).1.map Past.hardware)
      (((Busy.start r m).run (.double A) nd ms).1.map (·.record)) n k p)
    (hfp : p.Fin) (hmax : Ranged u → p.1 ≤ l.upper.1)
    (hc : r.jointCommand .position n x.record.wished = some (Flt.fl c)) (het : x.input.period = Flt.fl t) :
    ∃ o v w low high, r.jointCommand .position n x.record.limited = some (Flt.fl o) ∧
      (limitsArith A).mul ((limitsArith A).neg l.velocity) t = some v ∧ (limitsArith A).mul l.velocity t = some w ∧
      (limitsArith A).add p v = some low ∧ (limitsArith A).add p w = some high ∧ low.1 ≤ o.1 ∧ o.1 ≤ high.1 ∧
      SendsWithin64 stod L0 infos r .position x.record n low.1 high.1 ∧
      (Ranged u → o.1 ≤ l.upper.1 ∧ SendsWithin64 stod L0 infos r .position x.record n low.1 l.upper.1 ∧
        (s.softUpper.1 ≤ p.1 → o.1 ≤ p.1) ∧ (p.1 ≤ s.softLower.1 → s.softLower.1 ≤ s.softUpper.1 → p.1 ≤ o.1)) := by
  obtain ⟨hpos, hto⟩ := busy_runs64 nd ha m ms hms hgood
  obtain ⟨h1, h2⟩ := hto k x hx
  have hh : (r.run (.double A) nd (((Busy.start r m).run (.double A) nd ms).1.map Past.hardware) m).1 =
      ((Busy.start r m).run (.double A) nd ms).1.map (·.record) := congrArg (·.1) (c115_hardware (double_lawful A) nd ha m ms hms)
  exact Described.c113_soft_position nd ha _ hpos m n u l s hd hj hl hsl hk hv hS k x.hardware x.record h1 h2 p c t
    (by rw [hh]; exact hp) hfp hmax hc het

/-- **C115, velocity limits in doubles.** As C114. -/
theorem c115_double_velocity (n : String) (u : UrdfJoint (Dbl (Fl binary64)))
    (l : UrdfLimits (Fl binary64)) (hd : Driven L0 infos .velocity n) (hj : (.velocity, n, u) ∈ joints) (hl : HasLimits u l)
    (hk : r.kind .velocity = .velSat) (hV : 0 ≤ l.velocity.1)
    (x : Past (Flt A)) (hx : x ∈ ((Busy.start r m).run (.double A) nd ms).1) (c : Fl binary64)
    (hc : r.jointCommand .velocity n x.record.wished = some (Flt.fl c)) :
    ∃ o : Fl binary64, r.jointCommand .velocity n x.record.limited = some (Flt.fl o) ∧ |o.1| ≤ l.velocity.1 ∧
      SendsWithin64 stod L0 infos r .velocity x.record n (-l.velocity.1) l.velocity.1 ∧ (|c.1| ≤ l.velocity.1 → o = c) := by
  obtain ⟨hpos, hto⟩ := busy_runs64 nd ha m ms hms hgood
  obtain ⟨k, hk'⟩ := List.getElem?_of_mem hx
  obtain ⟨h1, h2⟩ := hto k x hk'
  exact Described.c113_velocity nd ha _ hpos m n u l hd hj hl hk hV k x.hardware x.record h1 h2 c hc

/-- **C115, what is measured in doubles.** As C114. -/
theorem c115_double_measured (x : Past (Flt A)) (hx : x ∈ ((Busy.start r m).run (.double A) nd ms).1) (j : TransInfo) (hj : j ∈ infos) :
    ∃ t, loadTransmission stod j = .ok (some t) ∧ ∀ q, ∃ v, L0.actuatorValues q j.actuatorNames x.input.sense = some v ∧
      ∀ (z : Nat) n, j.jointNames[z]? = some n → r.jointValue q n x.record.measured = (t.jointsFrom q v)[z]? ∧
        ∀ t' xs, SameTrans t t' → MeansAll v xs → ∃ a y w s, r.jointValue q n x.record.measured = some a ∧ Is a y ∧
          (t'.jointsFrom q xs)[z]? = some w ∧ (jointScale q t' (xs.map abs))[z]? = some s ∧ |y - w| ≤ (2 ^ 49)⁻¹ * s := by
  obtain ⟨hpos, hto⟩ := busy_runs64 nd ha m ms hms hgood
  obtain ⟨k, hk⟩ := List.getElem?_of_mem hx
  obtain ⟨h1, h2⟩ := hto k x hk
  exact Described.c113_measured nd ha _ hpos m k x.hardware x.record h1 h2 j hj

/-- **C115, what the transmissions add in doubles.** As C114. -/
theorem c115_double_sent (x : Past (Flt A)) (hx : x ∈ ((Busy.start r m).run (.double A) nd ms).1) (q : Cmd) (n : String)
    (hd : Driven L0 infos q n) (s : ℚ) (hs : Terms stod infos r q x.record n s) :
    ∃ v y, (∃ a, r.jointCommand q n x.record.limited = some a ∧ Is a v) ∧ |y - v| ≤ (2 ^ 49)⁻¹ * s ∧
      ∀ z, Sends64 stod L0 infos q x.record n z ↔ z = y := by
  obtain ⟨hpos, hto⟩ := busy_runs64 nd ha m ms hms hgood
  obtain ⟨k, hk⟩ := List.getElem?_of_mem hx
  obtain ⟨h1, h2⟩ := hto k x hk
  exact Described.c113_sent nd ha _ hpos m k x.hardware x.record h1 h2 q n hd s hs

/-- **C115, joints without limits in doubles.** As C114. -/
theorem c115_double_free (x : Past (Flt A)) (hx : x ∈ ((Busy.start r m).run (.double A) nd ms).1) (q : Cmd) (n : String)
    (hfree : ∀ u, (q, n, u) ∉ joints) : r.jointCommand q n x.record.limited = r.jointCommand q n x.record.wished := by
  obtain ⟨hpos, hto⟩ := busy_runs64 nd ha m ms hms hgood
  obtain ⟨k, hk⟩ := List.getElem?_of_mem hx
  obtain ⟨h1, h2⟩ := hto k x hk
  exact Described.c113_free nd ha _ hpos m k x.hardware x.record h1 h2 q n hfree

/-- **C115, NaN reaches the hardware in doubles.** As C114. -/
theorem c115_double_nan_sent (x : Past (Flt A)) (hx : x ∈ ((Busy.start r m).run (.double A) nd ms).1) (q : Cmd) (j : TransInfo)
    (hj : j ∈ infos) (hc : j.Commanded q) (hcm : L0.HasCommands q j) (t : Trans (Flt A))
    (hlt : loadTransmission stod j = .ok (some t)) (z y : Nat) (n a : String) (hn : j.jointNames[y]? = some n)
    (hact : j.actuatorNames[z]? = some a) (hdep : DependsOn t z y) (hnan : ¬Number r q n x.record.wished) :
    ∃ e, (L0.actuatorCell q a).map x.record.sent = some e ∧ IsNaN e := by
  obtain ⟨hpos, hto⟩ := busy_runs64 nd ha m ms hms hgood
  obtain ⟨k, hk⟩ := List.getElem?_of_mem hx
  obtain ⟨h1, h2⟩ := hto k x hk
  exact Described.c113_nan_sent nd ha _ hpos m k x.hardware x.record h1 h2 q j hj hc hcm t hlt z y n a hn hact hdep
    (not_number.1 hnan)

/-- **C115, soft velocity limits in doubles.** As C114. -/
theorem c115_double_soft_velocity (n : String) (u : UrdfJoint (Dbl (Fl binary64)))
    (l : UrdfLimits (Fl binary64)) (s : UrdfSafety (Fl binary64)) (hd : Driven L0 infos .velocity n)
    (hj : (.velocity, n, u) ∈ joints) (hl : HasLimits u l) (hsl : HasSoftLimits u s) (hk : r.kind .velocity = .velSoft)
    (hV : 0 ≤ l.velocity.1) (hS : Ranged u → s.softLower.Fin ∧ s.softUpper.Fin ∧ s.kPosition.Fin ∧ 0 < s.kPosition.1)
    (x : Past (Flt A)) (hx : x ∈ ((Busy.start r m).run (.double A) nd ms).1) (p v c : Fl binary64)
    (hp : r.jointValue .position n x.record.measured = some (Flt.fl p)) (hfp : Ranged u → p.Fin)
    (hv : r.jointValue .velocity n x.record.measured = some (Flt.fl v))
    (hc : r.jointCommand .velocity n x.record.wished = some (Flt.fl c)) :
    ∃ o : Fl binary64, r.jointCommand .velocity n x.record.limited = some (Flt.fl o) ∧ |o.1| ≤ l.velocity.1 ∧
      SendsWithin64 stod L0 infos r .velocity x.record n (-l.velocity.1) l.velocity.1 ∧
      (Ranged u → (s.softUpper.1 ≤ p.1 → o.1 ≤ 0 ∧ SendsWithin64 stod L0 infos r .velocity x.record n (-l.velocity.1) 0) ∧
        (p.1 ≤ s.softLower.1 → s.softLower.1 ≤ s.softUpper.1 →
          0 ≤ o.1 ∧ SendsWithin64 stod L0 infos r .velocity x.record n 0 l.velocity.1)) := by
  obtain ⟨hpos, hto⟩ := busy_runs64 nd ha m ms hms hgood
  obtain ⟨k, hk'⟩ := List.getElem?_of_mem hx
  obtain ⟨h1, h2⟩ := hto k x hk'
  exact Described.c113_soft_velocity nd ha _ hpos m n u l s hd hj hl hsl hk hV hS k x.hardware x.record h1 h2 p v c hp hfp hv hc

/-- **C115, effort limits in doubles.** As C114. -/
theorem c115_double_effort (n : String) (u : UrdfJoint (Dbl (Fl binary64)))
    (l : UrdfLimits (Fl binary64)) (hd : Driven L0 infos .effort n) (hj : (.effort, n, u) ∈ joints) (hl : HasLimits u l)
    (hk : r.kind .effort = .effSat) (hE : 0 ≤ l.effort.1) (hV : 0 ≤ l.velocity.1) (hP : Ranged u → l.lower.1 ≤ l.upper.1)
    (x : Past (Flt A)) (hx : x ∈ ((Busy.start r m).run (.double A) nd ms).1) (c : Fl binary64)
    (hc : r.jointCommand .effort n x.record.wished = some (Flt.fl c)) :
    ∃ o : Fl binary64, r.jointCommand .effort n x.record.limited = some (Flt.fl o) ∧ |o.1| ≤ l.effort.1 ∧
      SendsWithin64 stod L0 infos r .effort x.record n (-l.effort.1) l.effort.1 ∧
      (Ranged u → ∀ p : Fl binary64, r.jointValue .position n x.record.measured = some (Flt.fl p) →
        (p.1 < l.lower.1 → 0 ≤ o.1 ∧ SendsWithin64 stod L0 infos r .effort x.record n 0 l.effort.1) ∧
        (l.upper.1 < p.1 → o.1 ≤ 0 ∧ SendsWithin64 stod L0 infos r .effort x.record n (-l.effort.1) 0)) ∧
      (∀ v : Fl binary64, r.jointValue .velocity n x.record.measured = some (Flt.fl v) →
        (v.1 < -l.velocity.1 → 0 ≤ o.1 ∧ SendsWithin64 stod L0 infos r .effort x.record n 0 l.effort.1) ∧
        (l.velocity.1 < v.1 → o.1 ≤ 0 ∧ SendsWithin64 stod L0 infos r .effort x.record n (-l.effort.1) 0)) ∧
      (|c.1| ≤ l.effort.1 →
        (Ranged u → ∀ p : Fl binary64, r.jointValue .position n x.record.measured = some (Flt.fl p) → InUrdfRange u l p) →
        (∀ v : Fl binary64, r.jointValue .velocity n x.record.measured = some (Flt.fl v) → |v.1| ≤ l.velocity.1) → o = c) := by
  obtain ⟨hpos, hto⟩ := busy_runs64 nd ha m ms hms hgood
  obtain ⟨k, hk'⟩ := List.getElem?_of_mem hx
  obtain ⟨h1, h2⟩ := hto k x hk'
  exact Described.c113_effort nd ha _ hpos m n u l hd hj hl hk hE hV hP k x.hardware x.record h1 h2 c hc

/-- **C115, soft effort limits in doubles.** As C114. -/
theorem c115_double_soft_effort (n : String) (u : UrdfJoint (Dbl (Fl binary64)))
    (l : UrdfLimits (Fl binary64)) (s : UrdfSafety (Fl binary64)) (hd : Driven L0 infos .effort n)
    (hj : (.effort, n, u) ∈ joints) (hl : HasLimits u l) (hsl : HasSoftLimits u s) (hk : r.kind .effort = .effSoft)
    (hV : l.velocity.Fin ∧ 0 ≤ l.velocity.1) (hE : 0 ≤ l.effort.1)
    (hS : Ranged u → s.softLower.Fin ∧ s.softUpper.Fin ∧ s.kPosition.Fin ∧ 0 < s.kPosition.1)
    (hkv : s.kVelocity.Fin ∧ 0 < s.kVelocity.1)
    (x : Past (Flt A)) (hx : x ∈ ((Busy.start r m).run (.double A) nd ms).1) (p v c : Fl binary64)
    (hp : r.jointValue .position n x.record.measured = some (Flt.fl p)) (hfp : Ranged u → p.Fin)
    (hv : r.jointValue .velocity n x.record.measured = some (Flt.fl v)) (hfv : v.Fin)
    (hc : r.jointCommand .effort n x.record.wished = some (Flt.fl c)) :
    ∃ o : Fl binary64, r.jointCommand .effort n x.record.limited = some (Flt.fl o) ∧ |o.1| ≤ l.effort.1 ∧
      SendsWithin64 stod L0 infos r .effort x.record n (-l.effort.1) l.effort.1 ∧
      (l.velocity.1 ≤ v.1 ∨ (Ranged u ∧ s.softUpper.1 ≤ p.1 ∧ 0 ≤ v.1) →
        o.1 ≤ 0 ∧ SendsWithin64 stod L0 infos r .effort x.record n (-l.effort.1) 0) ∧
      (v.1 ≤ -l.velocity.1 ∨ (Ranged u ∧ p.1 ≤ s.softLower.1 ∧ s.softLower.1 ≤ s.softUpper.1 ∧ v.1 ≤ 0) →
        0 ≤ o.1 ∧ SendsWithin64 stod L0 infos r .effort x.record n 0 l.effort.1) := by
  obtain ⟨hpos, hto⟩ := busy_runs64 nd ha m ms hms hgood
  obtain ⟨k, hk'⟩ := List.getElem?_of_mem hx
  obtain ⟨h1, h2⟩ := hto k x hk'
  exact Described.c113_soft_effort nd ha _ hpos m n u l s hd hj hl hsl hk hV hE hS hkv k x.hardware x.record h1 h2 p v c hp hfp hv
    hfv hc

/-- **C115, closed loop in doubles.** As C114. -/
theorem c115_double_reached (n : String) (hd : Driven L0 infos .position n) (k : Nat) (x y : Past (Flt A))
    (hx : ((Busy.start r m).run (.double A) nd ms).1[k]? = some x)
    (hy : ((Busy.start r m).run (.double A) nd ms).1[k + 1]? = some y) (hf : Reaches L0 infos n x.record.sent y.input.sense)
    (s : ℚ) (hs : Terms stod infos r .position x.record n s) (o : Fl binary64)
    (ho : r.jointCommand .position n x.record.limited = some (Flt.fl o)) :
    ∃ p : Fl binary64, r.jointValue .position n y.record.measured = some (Flt.fl p) ∧ |p.1 - o.1| ≤ (2 ^ 49)⁻¹ * s := by
  obtain ⟨hpos, hto⟩ := busy_runs64 nd ha m ms hms hgood
  obtain ⟨h1, h2⟩ := hto k x hx
  obtain ⟨h3, h4⟩ := hto (k + 1) y hy
  exact Described.c113_reached nd ha _ hpos m n hd k x.hardware y.hardware x.record y.record h1 h2 h3 h4 hf s hs o ho

end

/-! ### A concrete case -/

open Verif.Described (exActuators exThree exListed exKind exUrdf)
open Verif.Transmission.Loader (exStod exInfos)

/-- What comes from outside in a cycle; `w` says which controllers write which value to which variable when they are
updated. -/
def exWrites (w : List (CId × Nat × ℚ)) : Input ℚ :=
  ⟨fun _ => 0, 0, false, ⟨.done, .done, fun _ _ => (.done, .done)⟩, fun c k m a =>
    match w.find? fun e => e.1 == c && e.2.1 == a && k == .update with
    | some e => e.2.2
    | none => m a, false, 1 / 2⟩

/-- The beginning of a cycle. -/
def exBegin (w : List (CId × Nat × ℚ)) : Move ℚ × List (CId × Nat × ℚ) := (.begin (exWrites w), w)

/-- Steps of the loop. -/
def exGo (n : Nat) : List (Move ℚ × List (CId × Nat × ℚ)) := List.replicate n (.go, [])

/-- An operation of the service thread. -/
def exServe (op : SysOp) : Move ℚ × List (CId × Nat × ℚ) := (.service op, [])

/-- A request for a controller of the position of "j1". -/
def exRequest (name : String) : SysOp :=
  .load name ⟨true, some "T", [⟨["T"], fun _ => .object⟩], sysClass (interfaceName .position) "j1"⟩

/-- After the first update, "p" is loaded in the middle of a cycle. In the middle of the next one this call returns and "q" is
loaded. The start of "p" is requested between the beginning of a cycle and its update. When "p" has been updated in a
cycle, the switch to "q" is requested; it comes in the same cycle, and the call that waits for it returns in the middle of
the next one. -/
def exMoves : List (Move ℚ × List (CId × Nat × ℚ)) :=
  [exBegin []] ++ exGo 9 ++ [exBegin []] ++ exGo 1 ++ [exServe (exRequest "p"), exServe (.poll {} 0)] ++ exGo 9 ++
    [exBegin []] ++ exGo 2 ++ [exServe (.poll {} 0), exServe (exRequest "q")] ++ exGo 9 ++
    [exBegin []] ++ exGo 2 ++ [exServe (.poll {} 0)] ++ exGo 9 ++
    [exBegin [], exServe (.switch ⟨["p"], [], 2, false, 0⟩ 0 true)] ++ exGo 4 ++ [exServe (.poll {} 0)] ++ exGo 9 ++
    [exServe (.poll {} 0), exBegin [(0, 103, 7)]] ++ exGo 12 ++ [exBegin [(0, 103, 7)]] ++ exGo 3 ++
    [exServe (.switch ⟨["q"], ["p"], 2, false, 0⟩ 0 true)] ++ exGo 12 ++ [exBegin [(0, 103, 7)]] ++ exGo 3 ++
    [exServe (.poll {} 0)] ++ exGo 12 ++ [exServe (.poll {} 0), exBegin [(1, 103, -7)]] ++ exGo 12 ++
    [exBegin [(1, 103, -7)]] ++ exGo 12

/-- What is sent to the actuator of "j1" in the cycles, and the callbacks in the whole run. -/
def exPast : Option (List ℚ × List Event × List String) :=
  match exActuators.loadDoc exStod exThree with
  | .ok (L, true) =>
    (Described.init (.exact 1000) L exKind exListed).map fun r =>
      let out := (Busy.start r fun _ => 0).run (.exact 1000) false (exMoves.map (·.1))
      (out.1.map fun x => x.record.sent 3, out.2.1.sys.mgr.trace.filter fun e => match e with | .cb _ _ => true | _ => false,
        out.2.1.sys.mgr.cur.map (·.info.name))
  | _ => none


/-- The callbacks: "q" is started after "p" has been stopped, in the cycle in which "p" has been updated. The limit of "j1" allows one
unit at the actuator per cycle. In the eighth cycle "q" does not write. -/
example : exPast = some ([0, 0, 0, 0, 0, 1, 2, 2, 1, 0], [.cb 0 .starting, .cb 0 .update, .cb 0 .update, .cb 0 .stopping,
    .cb 1 .starting, .cb 1 .update, .cb 1 .update, .cb 1 .update], ["p", "q"]) := by decide +kernel

/-- A check of the moves: the controllers write through their handles only, and in the very first update there are no
operations of the service thread. -/
def exCheck : Busy ℚ ℚ → List (CId × Nat × ℚ) → List (Move ℚ × List (CId × Nat × ℚ)) → Bool
  | _, _, [] => true
  | b, w, (mv, w') :: l =>
    let w' := match mv, b.stage with
      | .begin _, .outside => w'
      | _, _ => w
    (match mv with
      | .begin _ => true
      | .go => w.all fun e => (b.sys.held e.1).any fun g => g.exclusive && g.handle.data == e.2.1
      | .service _ => b.sys.mgr.used.isSome && match b.sys.mgr.svc with | .switching _ t => decide (t = 0) | _ => true) &&
    match b.step (.exact 1000) false mv with
    | .ok (b', _) => exCheck b' w' l
    | .error _ => true

/-- The moves of the case. -/
def ExMove (e : Move ℚ × List (CId × Nat × ℚ)) : Prop :=
  e = exBegin e.2 ∨ e.1 = .go ∨ ∃ op : SysOp, e.1 = .service op ∧ op.Good

theorem exCheck_sound (l : List (Move ℚ × List (CId × Nat × ℚ))) (hl : ∀ e ∈ l, ExMove e) (b : Busy ℚ ℚ)
    (w : List (CId × Nat × ℚ)) (hw : ∀ i s m, b.stage = .inside i s m → i = exWrites w) (h : exCheck b w l = true) :
    AllMoves (.exact 1000) false Unhurried b (l.map (·.1)) := by
  induction l generalizing b w with
  | nil => trivial
  | cons e l ih =>
    obtain ⟨mv, w'⟩ := e
    have ih := ih fun e he => hl e (by simp [he])
    have hmv := hl (mv, w') (by simp)
    unfold exCheck at h
    rw [Bool.and_eq_true] at h
    obtain ⟨h1, h2⟩ := h
    rcases hmv with hmv | rfl | ⟨op, rfl, hg⟩
    · have hm := congrArg Prod.fst hmv
      dsimp only [exBegin] at hm
      subst hm
      refine ⟨rfl, fun b' p e => ?_⟩
      rw [e] at h2
      cases hst : b.stage with
      | outside =>
        refine ih b' w' ?_ (by simpa only [hst] using h2)
        simp only [Busy.step, hst, Busy.enter] at e
        split at e
        · cases e
        · cases e
          rintro i s m ⟨⟩
          rfl
      | inside i s m =>
        simp only [Busy.step, hst] at e
        cases e
        exact ih b w hw (by simpa only [hst] using h2)
    · refine ⟨fun i s m hst c k m' a hno => ?_, fun b' p e => ?_⟩
      · rw [hw i s m hst]
        simp only [List.all_eq_true] at h1
        dsimp only [exWrites]
        split
        · rename_i e hf
          have he := List.find?_some hf
          simp only [Bool.and_eq_true, beq_iff_eq] at he
          obtain ⟨g, hg, h2⟩ := List.any_eq_true.1 (h1 e (List.mem_of_find?_eq_some hf))
          simp only [Bool.and_eq_true, beq_iff_eq] at h2
          refine absurd ⟨g, ?_, h2.1, ?_⟩ hno
          · rw [← he.1.1]; exact hg
          · rw [List.mem_singleton, h2.2, he.1.2]
        · rfl
      · rw [e] at h2
        refine ih b' w ?_ h2
        unfold Busy.step at e
        simp only at e
        cases hst : b.stage with
        | outside => rw [hst] at e; cases e; exact hw
        | inside i s m =>
          rw [hst] at e
          dsimp only at e
          split at e
          · cases hlv : b.leave (.exact 1000) false i s m with
            | error x => rw [hlv] at e; cases e
            | ok y =>
              rw [hlv] at e
              cases e
              unfold Busy.leave at hlv
              dsimp only at hlv
              split at hlv
              · cases hlv
              · cases hlv
                rintro _ _ _ ⟨⟩
          · cases e
            exact hw
    · refine ⟨⟨hg, fun _ => ?_, fun ok el he k t hsw => ?_⟩, fun b' p e => ?_⟩
      · intro hn
        rw [hn] at h1
        cases h1
      · rw [hsw] at h1
        rw [Bool.and_eq_true] at h1
        exact Or.inr (of_decide_eq_true h1.2)
      · rw [e] at h2
        refine ih b' w ?_ h2
        cases op <;> (cases e; exact hw)

theorem exMoves_cases : ∀ e ∈ exMoves, ExMove e := by
  have go : ∀ n, ∀ e ∈ exGo n, ExMove e := fun n e he => by
    rw [List.eq_of_mem_replicate he]
    exact Or.inr (Or.inl rfl)
  have beg : ∀ w, ExMove (exBegin w) := fun _ => Or.inl rfl
  have poll : ExMove (exServe (.poll {} 0)) := Or.inr (Or.inr ⟨_, rfl, rfl, rfl⟩)
  have load : ∀ n, ExMove (exServe (exRequest n)) := fun n =>
    Or.inr (Or.inr ⟨_, rfl, sysClass_proper (interfaceName .position) "j1"⟩)
  have switch : ∀ r, ExMove (exServe (.switch r 0 true)) := fun r => Or.inr (Or.inr ⟨_, rfl, trivial⟩)
  have none : ∀ e ∈ ([] : List (Move ℚ × List (CId × Nat × ℚ))), ExMove e := fun e he => (List.not_mem_nil he).elim
  unfold exMoves
  simp only [List.forall_mem_append, List.forall_mem_cons]
  and_intros
  all_goals first | exact go _ | exact none | exact beg _ | exact poll | exact load _ | exact switch _

/-- The case of C115: the hypotheses hold. -/
theorem exMoves_case : ∃ r, Assembled exStod (.exact 1000) exActuators exThree (exInfos exThree) exListed r ∧
    AllMoves (.exact 1000) false Unhurried (Busy.start r fun _ => 0) (exMoves.map (·.1)) ∧
    Orderly (.exact 1000) false r (fun _ => 0) (exMoves.map (·.1)) ∧
    Driven (exActuators (T := ℚ)) (exInfos exThree) .position "j1" ∧
    ∀ i, .begin i ∈ exMoves.map (·.1) → Sane (r.kind .position) exUrdf ⟨-1, 2, 4, 1⟩ i.period := by
  obtain ⟨r, ha, hk, h1, -, h3⟩ := Described.exThree_case
  have hchk : (match exActuators.loadDoc exStod exThree with
    | .ok (L, true) => ((Described.init (.exact 1000) L exKind exListed).map fun r =>
        exCheck (Busy.start r fun _ => 0) [] exMoves) == some true
    | _ => false) = true := by decide +kernel
  have per : ∀ i, .begin i ∈ exMoves.map (·.1) → i.period = 1 / 2 := by
    intro i hi
    obtain ⟨e, he, hei⟩ := List.mem_map.1 hi
    rcases exMoves_cases e he with h | h | ⟨o, h, -⟩
    · rw [h] at hei; cases hei; rfl
    · rw [h] at hei; cases hei
    · rw [h] at hei; cases hei
  have hm := ha.made
  have hu : AllMoves (.exact 1000) false Unhurried (Busy.start r fun _ => 0) (exMoves.map (·.1)) := by
    refine exCheck_sound exMoves exMoves_cases _ [] (by rintro _ _ _ ⟨⟩) ?_
    rw [ha.loaded] at hchk
    rw [hk] at hm
    dsimp only at hchk
    rw [hm] at hchk
    simpa using hchk
  refine ⟨r, ha, hu, c115_unhurried (exact_lawful 1000) false ha _ _ hu fun i hi => ?_, h1, fun i hi => ?_⟩
  · rw [period_exact, per i hi]; norm_num
  · rw [per i hi, hk]
    exact ⟨by norm_num, fun _ => by norm_num, trivial⟩

/-- In the middle of the third cycle: "p" is in the list of the manager, its load has returned, and the loop is in `update`. This
is a state of `c115_progress`. -/
example : (match exActuators.loadDoc exStod exThree with
    | .ok (L, true) => (Described.init (.exact 1000) L exKind exListed).map fun r =>
      let b := ((Busy.start r fun _ => 0).run (.exact 1000) false ((exMoves.take 27).map (·.1))).2.1
      (b.sys.mgr.cur.map (·.info.name), decide (b.sys.mgr.svc = .idle),
        match b.stage, b.rt with | .inside .., .idle => false | .inside .., _ => true | _, _ => false)
    | _ => none) = some (["p"], true, true) := by decide +kernel

/-- With soft position limits the second cycle, whose period is not positive, is the last one, though "p" is loaded in the middle of
it: the assertion fails after the update. With position saturation all three cycles are completed. -/
example : (match exActuators.loadDoc exStod exThree with
    | .ok (L, true) => [Limits.Kind.posSoft, .posSat].map fun k =>
      (Described.init (.exact 1000) L (fun _ => k) [(.position, "j1", exUrdf)]).map fun r =>
        let ms := [(.begin (exWrites []) : Move ℚ)] ++ List.replicate 9 .go ++ [.begin { exWrites [] with period := 0 }, .go,
          .service (exRequest "p")] ++ List.replicate 9 .go ++ [.begin (exWrites [])] ++ List.replicate 9 .go
        let out := (Busy.start r fun _ => 0).run (.exact 1000) false ms
        (out.1.map fun x => x.input.period, decide (out.2.2 = some .limits), out.2.1.stage.now.map (·.period))
    | _ => []) = [some ([1 / 2], true, [0]), some ([1 / 2, 0, 1 / 2], false, [])] := by decide +kernel

section

variable {A : Machine binary64}

open Verif.Described (exStod64 exListed64 exOne exZero exThree64_case exOne_val)

/-- A cycle in doubles. -/
def exInput64 : Input (Flt A) :=
  ⟨fun _ => Flt.fl exZero, 0, false, ⟨.done, .done, fun _ _ => (.done, .done)⟩, fun _ _ m => m, false, Flt.fl exOne⟩

/-- "v" is loaded in the middle of the update of the first cycle. -/
def exMoves64 : List (Move (Flt A)) :=
  [.begin exInput64, .go, .service (.load "v" exReq64), .go, .go]

/-- The case of C115 in doubles. -/
example (nd : Bool) : ∃ (r : Robot (Flt A) (Fl binary64)) (m : Mem (Flt A)),
    Assembled (exStod64 (A := A)) (limitsArith A) exActuators exThree (exInfos exThree) exListed64 r ∧
    Orderly (.double A) nd r m exMoves64 ∧ ∀ i, .begin i ∈ exMoves64 (A := A) → GoodPeriod i.period := by
  obtain ⟨r, ha, -⟩ := exThree64_case (A := A) exKind
  have hgood : ∀ i : Input (Flt A), .begin i ∈ exMoves64 (A := A) → GoodPeriod i.period := by
    intro i hi
    simp only [exMoves64, List.mem_cons, List.not_mem_nil, or_false, reduceCtorEq] at hi
    cases hi
    exact ⟨_, rfl, Limits.Fl.int_fin _ _, by rw [exOne_val]; norm_num⟩
  refine ⟨r, fun _ => Flt.fl exZero, ha, c115_unhurried (double_lawful A) nd ha _ _ ?_ fun i hi => period_double (hgood i hi), hgood⟩
  refine ⟨rfl, fun b2 p2 e => ?_⟩
  simp only [Busy.step, Busy.start, Busy.enter] at e
  split at e
  · cases e
  · cases e
    refine ⟨by rintro _ _ _ ⟨⟩ c k m a -; rfl, ?_⟩
    rintro b3 p3 ⟨⟩
    refine ⟨⟨sysClass_proper (interfaceName .velocity) "j3", fun _ => Option.some_ne_none false, by rintro _ _ ⟨⟩⟩, ?_⟩
    rintro b4 p4 ⟨⟩
    refine ⟨by rintro _ _ _ ⟨⟩ c k m a -; rfl, ?_⟩
    rintro b5 p5 ⟨⟩
    exact ⟨by rintro _ _ _ ⟨⟩ c k m a -; rfl, fun _ _ _ => trivial⟩

end

end Verif.Whole
