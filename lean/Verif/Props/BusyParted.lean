import Verif.Lemmas.BusyPartedRun
import Verif.Props.PartedRobotDouble
import Verif.Props.BusyRobot

/-!
Property C117: what C116 says of a whole robot with a combined hardware holds also if its services are called in the middle of its
cycles.
-/

namespace Verif.Parted

open Verif.Transmission (Mem Loader Cmd Doc TransInfo Trans loadTransmission Is IsNaN MeansAll SameTrans jointScale DependsOn)
open Verif.Limits (Machine Flt Fl Arith Dbl binary64 UrdfJoint UrdfLimits UrdfSafety Within)
open Verif.Cycle (Record GoodPeriod limitsArith)
open Verif.Described (Robot Setting Assembled Lawful exact_lawful double_lawful Sends Sends64 SendsWithin64 Terms InUrdfRange Driven
  HasLimits HasSoftLimits Ranged Reaches Allowed Sane)
open Verif.Whole (Input Stage Move Past)

section

variable {T K : Type} [Add T] [Sub T] [Mul T] [Div T] [OfNat T 0] [OfNat T 1] [OfNat T 2] [DecidableEq T] [LinearOrder K]
  {stod : String → Option T} {S : Setting T K} {rs : List (Robot T K)} {m : Mem T} {ms : List (Move T)}

/-- Parts that have been put together are fit. -/
theorem assembled_fit (h : ∀ r ∈ rs, ∃ L0 d infos joints, Assembled stod S.toArith L0 d infos joints r) : ∀ r ∈ rs, Fit stod r := by
  intro r hr
  obtain ⟨L0, d, infos, joints, ha⟩ := h r hr
  exact ⟨⟨L0, d, infos, ha.toBase⟩, ha.handles.1⟩

variable (hS : Lawful S) (nd : Bool) (hms : Orderly stod S nd rs m ms)

include hS hms

theorem team_facts :
    ((Team.start rs m).run S nd ms).2.2 = none ∧ TeamInv stod nd rs ((Team.start rs m).run S nd ms).2.1 ∧
    ((Team.start rs m).run S nd ms).2.1.Accepted S ∧
    (∀ (k : Nat) r, rs[k]? = some r →
      r.run S nd (((Team.start rs m).run S nd ms).1.map (ownPast rs.length k)) (own rs.length k m) =
        (((Team.start rs m).run S nd ms).1.map fun x => ownRecord rs.length k x.record, none)) ∧
    begun S nd (Team.start rs m) ms = ((Team.start rs m).run S nd ms).1.map (·.input) ++ ((Team.start rs m).run S nd ms).2.1.stage.now ∧
    (∀ x, ((Team.start rs m).run S nd ms).1[0]? = some x → x.start = m) ∧
    (∀ k x y, ((Team.start rs m).run S nd ms).1[k]? = some x → ((Team.start rs m).run S nd ms).1[k + 1]? = some y →
      y.start = x.record.sent) ∧
    ∀ dt, (∀ r ∈ ((Team.start rs m).run S nd ms).2.1.robots, Described.Accepts S.toArith r dt) ↔
      ∀ r ∈ rs, Described.Accepts S.toArith r dt :=
  team_run hS ms (teamInv_start (assembled_fit hms.assembled) m) (fun _ _ _ e => by cases e) hms.fine
    fun i hi r _ => Or.inl (hms.positive i hi)

/-- **C117, no cycle is lost.** Whatever services are called in the middle of cycles, nothing halts the robot, every cycle
that begins is completed before the next one begins, in order, and each one begins with what the one before has left. -/
theorem c117_completes :
    let out := (Team.start rs m).run S nd ms
    out.2.2 = none ∧ begun S nd (Team.start rs m) ms = out.1.map (·.input) ++ out.2.1.stage.now ∧
    (∀ x, out.1[0]? = some x → x.start = m) ∧
    ∀ k x y, out.1[k]? = some x → out.1[k + 1]? = some y → y.start = x.record.sent := by
  obtain ⟨h1, -, -, -, h3, h4, h5, -⟩ := team_facts hS nd hms
  exact ⟨h1, h3, h4, h5⟩

/-- **C117, the parts do not notice.** In the completed cycles each part does what it would do as the only hardware, with what its own
sensors report and what the controllers have left as the commands of its joints: so all that C111 and C113 say is true of it. -/
theorem c117_parts (k : Nat) (r : Robot T K) (hr : rs[k]? = some r) :
    let out := (Team.start rs m).run S nd ms
    r.run S nd (out.1.map fun x => ⟨own rs.length k x.input.sense, own rs.length k x.record.wished, x.input.period, x.input.reset⟩)
      (own rs.length k m) = (out.1.map fun x => ownRecord rs.length k x.record, none) :=
  (team_facts hS nd hms).2.2.2.1 k r hr

/-- **C117, one commander.** At every moment, also in the middle of an update and while a service is handled, no two running
controllers hold handles for commands of joints of the same name, whatever the parts and the kinds of the commands. -/
theorem c117_one_commander (n : String) (k k' : Nat) (q q' : Cmd) (c c' : CId) :
    let s := ((Team.start rs m).run S nd ms).2.1.sys
    Holds rs s c k q n → Holds rs s c' k' q' n → s.mgr.state c = .running → s.mgr.state c' = .running → c = c' :=
  fun h h' hc hc' => inv_one_commander (team_facts hS nd hms).2.1 h h' hc hc'

/-- The next step of a run. -/
theorem next_step (pre : List (Move T)) (mv : Move T) (post : List (Move T)) (he : ms = pre ++ mv :: post) :
    TeamInv stod nd rs ((Team.start rs m).run S nd pre).2.1 ∧ ((Team.start rs m).run S nd pre).2.1.Accepted S ∧
    ∃ b' p, Stepped stod S nd rs ((Team.start rs m).run S nd pre).2.1 mv b' p := by
  subst he
  have hpre : Orderly stod S nd rs m pre := ⟨hms.assembled, allMoves_prefix pre _ _ hms.fine, fun i hi =>
    hms.positive i (List.mem_append_left _ hi)⟩
  obtain ⟨h1, h2, h3, -⟩ := team_facts hS nd hpre
  have hf := ((allMoves_append pre _ _ h1).1 hms.fine).2
  exact ⟨h2, h3, step_ok hS h2 h3 mv hf.1 fun i hi r _ => Or.inl (hms.positive i (by simp [hi]))⟩

/-- **C117, who changes a command.** At every moment the next step changes a command of a joint of a part only if it calls exactly one
controller, which holds a handle for it, and no other controller with a handle for a command of a joint of that name, in whatever part,
is running; or if it completes a cycle: then what the controllers have left is what the limits get, and the command of every joint is
the limited one. So no service changes a command, and neither does the beginning of a cycle. -/
theorem c117_commands (pre : List (Move T)) (mv : Move T) (post : List (Move T)) (he : ms = pre ++ mv :: post) :
    let b := ((Team.start rs m).run S nd pre).2.1
    ∃ b' p, b.step S nd mv = .ok (b', p) ∧
      (p = none → ∀ (k : Nat) r q n, rs[k]? = some r →
        r.jointCommand q n (own rs.length k b'.mem) ≠ r.jointCommand q n (own rs.length k b.mem) → mv = .go ∧
        ∃ c cb es, b'.sys.mgr.trace = b.sys.mgr.trace ++ es ∧ .cb c cb ∈ es ∧ (∀ c' cb', .cb c' cb' ∈ es → c' = c) ∧
          Holds rs b.sys c k q n ∧
          ∀ c' k' q', c' ≠ c → Holds rs b.sys c' k' q' n → b.sys.mgr.state c' ≠ .running) ∧
      ∀ x, p = some x → mv = .go ∧ b'.sys = b.sys ∧ x.record.wished = b.mem ∧ b'.mem = x.record.sent ∧
        ∀ (k : Nat) r q n, rs[k]? = some r →
          r.jointCommand q n (own rs.length k b'.mem) = r.jointCommand q n (own rs.length k x.record.limited) := by
  obtain ⟨hi, -, b', p, hs⟩ := next_step hS nd hms pre mv post he
  refine ⟨b', p, hs.eq, fun hp k r q n hr hne => ?_, fun x hx => ?_⟩
  · unfold Robot.jointCommand at hne
    cases hcell : r.loader.commandCell q n with
    | none => rw [hcell] at hne; exact absurd rfl hne
    | some a =>
      rw [hcell] at hne
      exact hs.calls hp k r q n a hr hcell fun e => hne (congrArg some e)
  · obtain ⟨h1, -, -, -, h5, h6, h7, h8⟩ := hs.past x hx
    refine ⟨h1, h5, h7, h6, fun k r q n hr => ?_⟩
    rw [h6]
    unfold Robot.jointCommand
    cases hcell : r.loader.commandCell q n with
    | none => rfl
    | some a =>
      obtain ⟨r1, hr1, hl⟩ := hi.now hr
      obtain ⟨r2, -, hc⟩ := h8 k r1 hr1
      obtain ⟨⟨L0, d, infos, hb⟩, -⟩ := hi.fit r1 (List.mem_of_getElem? hr1)
      exact congrArg some (Whole.cycle_commands hb rfl hc (hl ▸ hcell)).2

/-- **C117, what a step does.** A cycle begins with a reading of the sensors of all parts and a call of `update`; each further step is
the next one of this update (as in C90), in which the called controllers act on the variables, as long as there is one. An
operation of the service thread does what it does between cycles and leaves the variables of all parts alone. -/
theorem c117_steps (pre : List (Move T)) (mv : Move T) (post : List (Move T)) (he : ms = pre ++ mv :: post) :
    let b := ((Team.start rs m).run S nd pre).2.1
    ∃ b' p, b.step S nd mv = .ok (b', p) ∧
      (∀ i, mv = .begin i → b.stage = .outside → p = none ∧ b'.sys.held = b.sys.held ∧
        (∀ (k : Nat) r, b.robots[k]? = some r →
          r.read nd (own rs.length k i.sense) (own rs.length k b.mem) = .ok (own rs.length k b'.mem)) ∧
        b'.stage = .inside i b.mem b'.mem ∧
        (⟨b'.sys.mgr, b'.rt⟩ : Inter.St) = Inter.rtStep ⟨b.sys.mgr, .idle⟩ ⟨i.time, i.restart, i.hw⟩) ∧
      (∀ i start measured, mv = .go → b.stage = .inside i start measured → b.rt ≠ .idle → p = none ∧ b'.stage = b.stage ∧
        b'.sys.held = b.sys.held ∧ (⟨b'.sys.mgr, b'.rt⟩ : Inter.St) = Inter.rtStep ⟨b.sys.mgr, b.rt⟩ ⟨i.time, i.restart, i.hw⟩ ∧
        ∃ es, b'.sys.mgr.trace = b.sys.mgr.trace ++ es ∧ b'.mem = replay i.act es b.mem) ∧
      (∀ i start measured, mv = .go → b.stage = .inside i start measured → b.rt = .idle →
        ∃ x, p = some x ∧ x.input = i ∧ x.start = start ∧ x.record.measured = measured) ∧
      ∀ op, mv = .service op → (∀ t r hw, op ≠ .update t r hw) → p = none ∧ b'.sys = b.sys.step stdEnv checkForConflict op ∧
        b'.rt = b.rt ∧ b'.mem = b.mem ∧ b'.stage = b.stage := by
  obtain ⟨hi, hrd, b', p, hs⟩ := next_step hS nd hms pre mv post he
  generalize ((Team.start rs m).run S nd pre).2.1 = b at hi hs hrd
  refine ⟨b', p, hs.eq, ?_, ?_, ?_, ?_⟩
  · rintro i rfl hst
    have heq := hs.eq
    obtain ⟨m', hr, hv⟩ := readAll_fit (nd := nd) hi.fit i.sense
    simp only [Team.step, hst, Team.enter, hr, Except.map] at heq
    cases heq
    rw [hi.length] at hv
    refine ⟨rfl, rfl, hv, rfl, ?_⟩
    rw [hi.outside hst]
    rfl
  · rintro i start measured rfl hst hidle
    have heq := hs.eq
    rw [step_advance hst hidle] at heq
    cases heq
    obtain ⟨-, -, es, he, -⟩ := Inter.rt_calls ⟨b.sys.mgr, b.rt⟩ i.args
    refine ⟨rfl, rfl, rfl, rfl, es, he, ?_⟩
    show replay i.act (List.drop _ _) _ = _
    rw [he, List.drop_left]
  · rintro i start measured rfl hst hidle
    obtain ⟨b'', x, e, -, h1, h2, -, -, -, h3, -⟩ := leave_ok hS hi hrd hst hidle
    have es : b.step S nd .go = .ok (b'', some x) := by simp [Team.step, hst, hidle, e, Except.map]
    have heq := hs.eq
    rw [es] at heq
    cases heq
    exact ⟨x, rfl, h2, h1, h3⟩
  · rintro op rfl hu
    have heq := hs.eq
    cases op with
    | update t r hw => exact absurd rfl (hu t r hw)
    | _ => cases heq; exact ⟨rfl, rfl, rfl, rfl, rfl⟩

/-- **C117, services in the middle.** Whenever no cycle is in progress, the manager agrees with one that has handled
every service between two updates: the same lists of controllers with the same states, the same requests and answers, and
the same starts and stops of controllers in the same order. -/
theorem c117_uninterrupted (h : ((Team.start rs m).run S nd ms).2.1.stage = .outside) :
    ∃ a, Reachable checkForConflict a ∧ ((Team.start rs m).run S nd ms).2.1.sys.mgr.Agrees a := by
  have hi := (team_facts hS nd hms).2.1
  obtain ⟨a, ha', hr⟩ := hi.sim
  unfold Inter.Rel at hr
  rw [hi.outside h] at hr
  exact ⟨a, ha', hr.agrees⟩

/-- **C117, a cycle comes to its end.** At every moment in the middle of a cycle, whatever services have been called, the
loop completes this cycle and no other one in finitely many steps of its own, without waiting for any service, if the controllers go on
writing through their handles only. -/
theorem c117_progress (i : Input T) (start measured : Mem T)
    (h : ((Team.start rs m).run S nd ms).2.1.stage = .inside i start measured)
    (hw : ∀ c k m' a, ¬((Team.start rs m).run S nd ms).2.1.sys.CanWrite (fun d => [d]) c a → i.act c k m' a = m' a) :
    ∃ N x, Orderly stod S nd rs m (ms ++ List.replicate N .go) ∧ x.input = i ∧
      ((Team.start rs m).run S nd (ms ++ List.replicate N .go)).1 = ((Team.start rs m).run S nd ms).1 ++ [x] ∧
      ((Team.start rs m).run S nd (ms ++ List.replicate N .go)).2.1.stage = .outside := by
  obtain ⟨hn, hi, hrd, -⟩ := team_facts hS nd hms
  obtain ⟨N, x, h1, h2, h3, h5⟩ := inv_finish hS hi hrd h hw
  refine ⟨N, x, ⟨hms.assembled, (allMoves_append _ _ _ hn).2 ⟨hms.fine, h5⟩, fun i hi => ?_⟩, h2, ?_, ?_⟩
  · rcases List.mem_append.1 hi with hi | hi
    · exact hms.positive i hi
    · exact absurd (List.eq_of_mem_replicate hi) (by simp)
  · rw [team_append _ _ _ hn, h1]
  · rw [team_append _ _ _ hn, h3]

/-- **C117, periods that are not positive.** If a joint of some part is listed for soft position limits, a cycle with a period that is
not positive begins like any other one, but it is the last one: whatever services are called in the middle of it, it is not completed,
and when its update has come to its end, which it does in finitely many steps of the loop, the assertion of a limit handle
fails. The cycles before it are as if they had been all. -/
theorem c117_periods (ho : ((Team.start rs m).run S nd ms).2.1.stage = .outside) (i : Input T)
    (hi : Limits.dlt (some S.zero) (S.see i.period) = false)
    (hk : ∃ r ∈ rs, ∃ L0 d infos joints, Assembled stod S.toArith L0 d infos joints r ∧ ∃ c n u, (c, n, u) ∈ joints ∧ r.kind c = .posSoft)
    (rest : List (Move T)) (hrest : AllMoves S nd Fine (Team.start rs m) (ms ++ .begin i :: rest)) :
    let out := (Team.start rs m).run S nd (ms ++ .begin i :: rest)
    out.1 = ((Team.start rs m).run S nd ms).1 ∧ out.2.1.stage.now = [i] ∧
    (out.2.2 = none ∨ out.2.2 = some .limits ∧ out.2.1.rt = .idle) ∧
    ((∀ c k m' a, ¬out.2.1.sys.CanWrite (fun d => [d]) c a → i.act c k m' a = m' a) →
      ∃ N, ((Team.start rs m).run S nd (ms ++ .begin i :: (rest ++ List.replicate N .go))).2.2 = some .limits) := by
  obtain ⟨hn, hinv, -, -, -, -, -, hacc⟩ := team_facts hS nd hms
  obtain ⟨b', e', hinv', h1, ⟨m', h2⟩, -⟩ := enter_ok hinv i
  have e : ((Team.start rs m).run S nd ms).2.1.step S nd (.begin i) = .ok (b', none) := by simp [Team.step, ho, e', Except.map]
  have hno : ∃ r ∈ b'.robots, ¬Described.Accepts S.toArith r (S.see i.period) := by
    rw [h1]
    by_contra hall
    push Not at hall
    obtain ⟨r, hr, L0, d, infos, joints, ha, c, n, u, hj, hkind⟩ := hk
    rcases (ha.accepts _).1 ((hacc _).1 hall r hr) with h | h
    · exact absurd (hi.symm.trans h) (by decide)
    · exact h c n u hj hkind
  have key : ∀ l, (Team.start rs m).run S nd (ms ++ .begin i :: l) =
      (((Team.start rs m).run S nd ms).1 ++ (b'.run S nd l).1, (b'.run S nd l).2.1, (b'.run S nd l).2.2) := by
    intro l
    rw [team_append _ _ _ hn, run_cons_ok e]
    rfl
  have hf := (((allMoves_append ms _ _ hn).1 hrest).2).2 b' none e
  obtain ⟨g1, g2, g3, g5, g4⟩ := refused_run (nd := nd) hS rest hinv' h2 hno hf
  dsimp only
  rw [key]
  refine ⟨by simp [g1], by simp [g3, h2, Stage.now], g4, fun hw => ?_⟩
  rcases g4 with g4 | ⟨g4, -⟩
  · obtain ⟨N, hN⟩ := refused_ends (nd := nd) hS g5 (g3.trans h2) (by rw [g2]; exact hno) hw
    exact ⟨N, by rw [key, team_append _ _ _ g4]; exact hN⟩
  · exact ⟨0, by rw [key, List.replicate_zero, List.append_nil]; exact g4⟩

omit hms in
/-- **C117, without soft position limits.** If no joint of any part is listed for soft position limits, no cycle is lost whatever the
periods are. -/
theorem c117_any_period (hf : AllMoves S nd Fine (Team.start rs m) ms)
    (hk : ∀ r ∈ rs, ∃ L0 d infos joints, Assembled stod S.toArith L0 d infos joints r ∧
      ∀ c n u, (c, n, u) ∈ joints → r.kind c ≠ .posSoft) :
    let out := (Team.start rs m).run S nd ms
    out.2.2 = none ∧ begun S nd (Team.start rs m) ms = out.1.map (·.input) ++ out.2.1.stage.now := by
  have ha : ∀ r ∈ rs, ∃ L0 d infos joints, Assembled stod S.toArith L0 d infos joints r := fun r hr => by
    obtain ⟨L0, d, infos, joints, ha, -⟩ := hk r hr
    exact ⟨L0, d, infos, joints, ha⟩
  obtain ⟨h1, -, -, -, h4, -⟩ := team_run hS ms (teamInv_start (assembled_fit ha) m) (fun _ _ _ e => by cases e) hf
    fun i _ r hr => by
      obtain ⟨L0, d, infos, joints, ha, hk⟩ := hk r hr
      exact (ha.accepts _).2 (Or.inr hk)
  exact ⟨h1, h4⟩

omit hms in
/-- **C117, what is asked of services.** Runs in which time limits are generous and controllers are not restarted are
orderly: services may be called at any moment after the very first update. -/
theorem c117_unhurried (ha : ∀ r ∈ rs, ∃ L0 d infos joints, Assembled stod S.toArith L0 d infos joints r)
    (hu : AllMoves S nd Unhurried (Team.start rs m) ms)
    (hp : ∀ i, .begin i ∈ ms → Limits.dlt (some S.zero) (S.see i.period) = true) : Orderly stod S nd rs m ms :=
  ⟨ha, unhurried_fine hS ms (teamInv_start (assembled_fit ha) m) (fun _ _ _ e => by cases e)
    ⟨fun u l h => (by cases h), fun u l h => (by cases h), fun u c l h => (by cases h), fun h => (by cases h)⟩
    (fun i s m h => by cases h) hp hu, hp⟩

/-- The run as one of a part. -/
theorem member_run (k : Nat) (r : Robot T K) (hr : rs[k]? = some r) :
    let out := ((Team.start rs m).run S nd ms).1
    (∀ i ∈ out.map (ownPast rs.length k), ∃ j, .begin j ∈ ms ∧ i.period = j.period) ∧
    (∀ (j : Nat) x, out[j]? = some x → (out.map (ownPast rs.length k))[j]? = some (ownPast rs.length k x) ∧
      (r.run S nd (out.map (ownPast rs.length k)) (own rs.length k m)).1[j]? = some (ownRecord rs.length k x.record)) ∧
    ∀ (j : Nat) rec, (r.run S nd (out.map (ownPast rs.length k)) (own rs.length k m)).1[j]? = some rec →
      ∃ x, out[j]? = some x ∧ rec = ownRecord rs.length k x.record := by
  obtain ⟨-, -, -, h3, h2, -⟩ := team_facts hS nd hms
  refine ⟨fun i hi => ?_, fun j x hx => ⟨?_, ?_⟩, fun j rec hrec => ?_⟩
  · obtain ⟨x, hx, rfl⟩ := List.mem_map.1 hi
    refine ⟨x.input, begun_mem (S := S) (nd := nd) ms (Team.start rs m) _ ?_, rfl⟩
    rw [h2]
    exact List.mem_append_left _ (List.mem_map_of_mem hx)
  · rw [List.getElem?_map, hx]; rfl
  · rw [h3 k r hr, List.getElem?_map, hx]; rfl
  · rw [h3 k r hr, List.getElem?_map] at hrec
    obtain ⟨x, hx, rfl⟩ := Option.map_eq_some_iff.1 hrec
    exact ⟨x, hx, rfl⟩

end

/-! ### The limits of the parts -/

section

variable {K : Type} [Field K] [LinearOrder K] [IsStrictOrderedRing K] {stod : String → Option K} {L0 : Loader K} {d : Doc}
  {infos : List TransInfo} {joints : List (Cmd × String × UrdfJoint (Dbl K))} {r : Robot K K} {huge : K} {rs : List (Robot K K)}
  {m : Mem K} {ms : List (Move K)}

variable (nd : Bool) (hms : Orderly stod (.exact huge) nd rs m ms) (k : Nat) (hr : rs[k]? = some r)
  (ha : Assembled stod (.exact huge) L0 d infos joints r)

include hms hr

theorem member_positive : ∀ i ∈ ((Team.start rs m).run (.exact huge) nd ms).1.map (ownPast rs.length k), 0 < i.period := by
  intro i hi
  obtain ⟨j, hj, e⟩ := (member_run (exact_lawful huge) nd hms k r hr).1 i hi
  rw [e]
  exact of_decide_eq_true (hms.positive j hj)

include ha

/-- **C117, what is measured.** In every cycle the values of a joint of a part are those its transmission computes from what
the part reports for its actuators. -/
theorem c117_measured (x : Past K) (hx : x ∈ ((Team.start rs m).run (.exact huge) nd ms).1) (j : TransInfo) (hj : j ∈ infos) :
    ∃ t, loadTransmission stod j = .ok (some t) ∧
      ∀ q, ∃ v, L0.actuatorValues q j.actuatorNames (own rs.length k x.input.sense) = some v ∧
      ∀ (z : Nat) n, j.jointNames[z]? = some n → r.jointValue q n (own rs.length k x.record.measured) = (t.jointsFrom q v)[z]? := by
  obtain ⟨i, hi⟩ := List.getElem?_of_mem hx
  obtain ⟨h1, h2⟩ := (member_run (exact_lawful huge) nd hms k r hr).2.1 i x hi
  exact Described.c111_measured nd huge ha _ (member_positive nd hms k hr) _ i _ _ h1 h2 j hj

/-- **C117, joints without limits.** The actuator commands of a part amount to exactly one value for each of its joints
that is moved with commands of the kind. If the joint is not listed for the kind, this is what the calls of the controllers
left as its command. -/
theorem c117_free (x : Past K) (hx : x ∈ ((Team.start rs m).run (.exact huge) nd ms).1) (q : Cmd) (n : String)
    (hd : Driven L0 infos q n) :
    (∃! v, Sends stod L0 infos q (ownRecord rs.length k x.record) n v) ∧
    ((∀ u, (q, n, u) ∉ joints) → ∃ v, r.jointCommand q n (own rs.length k x.record.wished) = some v ∧
      Sends stod L0 infos q (ownRecord rs.length k x.record) n v) := by
  obtain ⟨i, hi⟩ := List.getElem?_of_mem hx
  obtain ⟨h1, h2⟩ := (member_run (exact_lawful huge) nd hms k r hr).2.1 i x hi
  exact Described.c111_free nd huge ha _ (member_positive nd hms k hr) _ i _ _ h1 h2 q n hd

/-- **C117, position limits.** As C116, for every part: whatever the controllers do, the actuator commands of every cycle amount
to a position of a limited joint that is within the range of the URDF of its part, at most `velocity * period` away from
what was sent in the cycle before (in the first cycle and after a reset: from the measured position); and position
saturation passes on what the controllers command if it satisfies both. -/
theorem c117_position (n : String) (u : UrdfJoint (Dbl K)) (l : UrdfLimits K) (hd : Driven L0 infos .position n)
    (hj : (.position, n, u) ∈ joints) (hl : HasLimits u l) (hs : ∀ i, .begin i ∈ ms → Sane (r.kind .position) u l i.period)
    (hstart : ∀ i x y, ((Team.start rs m).run (.exact huge) nd ms).1[i]? = some x → i = 0 ∨ x.input.reset = true →
      r.jointValue .position n (own rs.length k x.record.measured) = some y → Allowed huge u l y) :
    ∀ (i : Nat) x, ((Team.start rs m).run (.exact huge) nd ms).1[i]? = some x →
      ∃ v p, Sends stod L0 infos .position (ownRecord rs.length k x.record) n v ∧ Allowed huge u l v ∧
        |v - p| ≤ l.velocity * x.input.period ∧
        (i = 0 ∨ x.input.reset = true → r.jointValue .position n (own rs.length k x.record.measured) = some p) ∧
        (x.input.reset = false → ∀ i' x', i = i' + 1 → ((Team.start rs m).run (.exact huge) nd ms).1[i']? = some x' →
          Sends stod L0 infos .position (ownRecord rs.length k x'.record) n p) ∧
        (r.kind .position = .posSat → ∀ c, r.jointCommand .position n (own rs.length k x.record.wished) = some c →
          Allowed huge u l c → |c - p| ≤ l.velocity * x.input.period → v = c) := by
  obtain ⟨hin, hto, hof⟩ := member_run (exact_lawful huge) nd hms k r hr
  intro i x hx
  obtain ⟨h1, h2⟩ := hto i x hx
  obtain ⟨v, p, g1, g2, g3, g4, g5, g6⟩ := Described.c111_position nd huge ha _ (member_positive nd hms k hr) _ n u l hd hj hl
    (fun i hi => by obtain ⟨j, hj, e⟩ := hin i hi; rw [e]; exact hs j hj)
    (fun i j rec y hj hrec hk hy => by
      obtain ⟨x, hx, rfl⟩ := hof i rec hrec
      rw [(hto i x hx).1] at hj
      cases hj
      exact hstart i x y hx hk hy) i _ _ h1 h2
  exact ⟨v, p, g1, g2, g3, g4, fun hr i' x' e hx' => g5 hr i' _ e (hto i' x' hx').2, g6⟩

/-- **C117, velocity limits.** As C116, for every part. -/
theorem c117_velocity (n : String) (u : UrdfJoint (Dbl K)) (l : UrdfLimits K) (s : UrdfSafety K)
    (hd : Driven L0 infos .velocity n) (hj : (.velocity, n, u) ∈ joints) (hl : HasLimits u l) (hV : 0 ≤ l.velocity)
    (hk : r.kind .velocity = .velSat ∨ (r.kind .velocity = .velSoft ∧ HasSoftLimits u s)) :
    ∀ x ∈ ((Team.start rs m).run (.exact huge) nd ms).1,
      ∃ v p c, Sends stod L0 infos .velocity (ownRecord rs.length k x.record) n v ∧
        r.jointValue .position n (own rs.length k x.record.measured) = some p ∧
        r.jointCommand .velocity n (own rs.length k x.record.wished) = some c ∧ |v| ≤ l.velocity ∧
        (r.kind .velocity = .velSat → |c| ≤ l.velocity → v = c) ∧
        (r.kind .velocity = .velSoft → Ranged u → 0 ≤ s.kPosition → s.softLower ≤ s.softUpper →
          (s.softUpper ≤ p → v ≤ 0) ∧ (p ≤ s.softLower → 0 ≤ v)) := by
  intro x hx
  obtain ⟨i, hi⟩ := List.getElem?_of_mem hx
  obtain ⟨h1, h2⟩ := (member_run (exact_lawful huge) nd hms k r hr).2.1 i x hi
  exact Described.c111_velocity nd huge ha _ (member_positive nd hms k hr) _ n u l s hd hj hl hV hk i _ _ h1 h2

/-- **C117, effort limits.** As C116, for every part. -/
theorem c117_effort (n : String) (u : UrdfJoint (Dbl K)) (l : UrdfLimits K) (s : UrdfSafety K)
    (hd : Driven L0 infos .effort n) (hj : (.effort, n, u) ∈ joints)
    (hl : HasLimits u l) (hE : 0 ≤ l.effort) (hV : 0 ≤ l.velocity) (hP : Ranged u → l.lower ≤ l.upper)
    (hk : r.kind .effort = .effSat ∨ (r.kind .effort = .effSoft ∧ HasSoftLimits u s)) :
    ∀ x ∈ ((Team.start rs m).run (.exact huge) nd ms).1,
      ∃ e p v c, Sends stod L0 infos .effort (ownRecord rs.length k x.record) n e ∧
        r.jointValue .position n (own rs.length k x.record.measured) = some p ∧
        r.jointValue .velocity n (own rs.length k x.record.measured) = some v ∧
        r.jointCommand .effort n (own rs.length k x.record.wished) = some c ∧
        |e| ≤ l.effort ∧
        (r.kind .effort = .effSat →
          (Ranged u → (p < l.lower → 0 ≤ e) ∧ (l.upper < p → e ≤ 0)) ∧
          (v < -l.velocity → 0 ≤ e) ∧ (l.velocity < v → e ≤ 0) ∧
          (|c| ≤ l.effort → (Ranged u → l.lower ≤ p ∧ p ≤ l.upper) → |v| ≤ l.velocity → e = c)) ∧
        (r.kind .effort = .effSoft → 0 ≤ s.kVelocity →
          (l.velocity ≤ v → e ≤ 0) ∧ (v ≤ -l.velocity → 0 ≤ e) ∧
          (0 ≤ s.kPosition → s.softLower ≤ s.softUpper → Ranged u →
            (s.softUpper ≤ p → 0 ≤ v → e ≤ 0) ∧ (p ≤ s.softLower → v ≤ 0 → 0 ≤ e))) := by
  intro x hx
  obtain ⟨i, hi⟩ := List.getElem?_of_mem hx
  obtain ⟨h1, h2⟩ := (member_run (exact_lawful huge) nd hms k r hr).2.1 i x hi
  exact Described.c111_effort nd huge ha _ (member_positive nd hms k hr) _ n u l s hd hj hl hE hV hP hk i _ _ h1 h2

end

section

variable {A : Machine binary64} {stod : String → Option (Flt A)} {L0 : Loader (Flt A)} {d : Doc} {infos : List TransInfo}
  {joints : List (Cmd × String × UrdfJoint (Dbl (Fl binary64)))} {r : Robot (Flt A) (Fl binary64)}
  {rs : List (Robot (Flt A) (Fl binary64))} {m : Mem (Flt A)} {ms : List (Move (Flt A))}

variable (nd : Bool) (hms : Orderly stod (.double A) nd rs m ms) (ht : ∀ i, .begin i ∈ ms → GoodPeriod i.period) (k : Nat)
  (hr : rs[k]? = some r) (ha : Assembled stod (limitsArith A) L0 d infos joints r)

include hms ht hr

theorem member_good : ∀ i ∈ ((Team.start rs m).run (.double A) nd ms).1.map (ownPast rs.length k), GoodPeriod i.period := by
  intro i hi
  obtain ⟨j, hj, e⟩ := (member_run (double_lawful A) nd hms k r hr).1 i hi
  rw [e]
  exact ht j hj

include ha

/-- **C117, NaN and doubles.** Whatever the limits of a part are and its sensors report, in every cycle the command of a joint
after the limits is NaN exactly if the controllers have left NaN. -/
theorem c117_nan_iff (x : Past (Flt A)) (hx : x ∈ ((Team.start rs m).run (.double A) nd ms).1) (q : Cmd) (n : String) :
    (∃ v, r.jointCommand q n (own rs.length k x.record.limited) = some v ∧ IsNaN v) ↔
      ∃ v, r.jointCommand q n (own rs.length k x.record.wished) = some v ∧ IsNaN v := by
  obtain ⟨i, hi⟩ := List.getElem?_of_mem hx
  obtain ⟨h1, h2⟩ := (member_run (double_lawful A) nd hms k r hr).2.1 i x hi
  exact Described.c113_nan_iff nd ha _ (member_good nd hms ht k hr) _ i _ _ h1 h2 q n

/-- **C117, velocity saturation with doubles.** As C116, for every part. -/
theorem c117_velocity_double (n : String) (u : UrdfJoint (Dbl (Fl binary64))) (l : UrdfLimits (Fl binary64))
    (hd : Driven L0 infos .velocity n) (hj : (.velocity, n, u) ∈ joints) (hl : HasLimits u l) (hk : r.kind .velocity = .velSat)
    (hV : 0 ≤ l.velocity.1) (x : Past (Flt A)) (hx : x ∈ ((Team.start rs m).run (.double A) nd ms).1) (c : Fl binary64)
    (hc : r.jointCommand .velocity n (own rs.length k x.record.wished) = some (Flt.fl c)) :
    ∃ o : Fl binary64, r.jointCommand .velocity n (own rs.length k x.record.limited) = some (Flt.fl o) ∧ |o.1| ≤ l.velocity.1 ∧
      SendsWithin64 stod L0 infos r .velocity (ownRecord rs.length k x.record) n (-l.velocity.1) l.velocity.1 ∧
      (|c.1| ≤ l.velocity.1 → o = c) := by
  obtain ⟨i, hi⟩ := List.getElem?_of_mem hx
  obtain ⟨h1, h2⟩ := (member_run (double_lawful A) nd hms k r hr).2.1 i x hi
  exact Described.c113_velocity nd ha _ (member_good nd hms ht k hr) _ n u l hd hj hl hk hV i _ _ h1 h2 c hc

/-- **C117, position saturation with doubles.** As C116, for every part: if a joint is measured at a number within the range of
the URDF whenever its limits start over (in the first cycle, when they are reset, and after a command that was NaN), then
whatever numbers the controllers command, the position the limits leave in every cycle is a finite number within that range,
and so is what the actuator commands amount to, up to rounding in the transmission. -/
theorem c117_position_double (n : String) (u : UrdfJoint (Dbl (Fl binary64)))
    (l : UrdfLimits (Fl binary64)) (hd : Driven L0 infos .position n) (hj : (.position, n, u) ∈ joints) (hl : HasLimits u l)
    (hk : r.kind .position = .posSat) (hfin : Ranged u → l.lower.Fin ∧ l.upper.Fin ∧ l.lower.1 ≤ l.upper.1)
    (hv : l.velocity.Fin ∧ 0 ≤ l.velocity.1)
    (hstart : ∀ i x, ((Team.start rs m).run (.double A) nd ms).1[i]? = some x →
      (i = 0 ∨ x.input.reset = true ∨ ∃ i' x' v, i = i' + 1 ∧ ((Team.start rs m).run (.double A) nd ms).1[i']? = some x' ∧
        r.jointCommand .position n (own rs.length k x'.record.wished) = some v ∧ IsNaN v) →
      ∃ y : Fl binary64, r.jointValue .position n (own rs.length k x.record.measured) = some (Flt.fl y) ∧ y.Fin ∧
        InUrdfRange u l y)
    (x : Past (Flt A)) (hx : x ∈ ((Team.start rs m).run (.double A) nd ms).1) (c : Fl binary64)
    (hc : r.jointCommand .position n (own rs.length k x.record.wished) = some (Flt.fl c)) :
    ∃ o : Fl binary64, r.jointCommand .position n (own rs.length k x.record.limited) = some (Flt.fl o) ∧ o.Fin ∧
      InUrdfRange u l o ∧
      (Ranged u → SendsWithin64 stod L0 infos r .position (ownRecord rs.length k x.record) n l.lower.1 l.upper.1) := by
  obtain ⟨hin, hto, hof⟩ := member_run (double_lawful A) nd hms k r hr
  obtain ⟨i, hi⟩ := List.getElem?_of_mem hx
  obtain ⟨h1, h2⟩ := hto i x hi
  obtain ⟨o, p, t, b, g1, g2, g3, g4, -⟩ := Described.c113_position nd ha _ (member_good nd hms ht k hr) (own rs.length k m) n u l
    hd hj hl hk hfin hv (fun i rec hrec hso => by
      obtain ⟨x, hx, rfl⟩ := hof i rec hrec
      refine hstart i x hx ?_
      rcases hso with h | ⟨j, hj, h⟩ | ⟨i', j, v, e, hj, h3, h4⟩
      · exact Or.inl h
      · rw [(hto i x hx).1] at hj
        cases hj
        exact Or.inr (Or.inl h)
      · rw [List.getElem?_map] at hj
        obtain ⟨x', hx', rfl⟩ := Option.map_eq_some_iff.1 hj
        exact Or.inr (Or.inr ⟨i', x', v, e, hx', h3, h4⟩)) i _ _ h1 h2 c hc
  exact ⟨o, g1, g2, g3, g4⟩

end

section

variable {K : Type} [Field K] [LinearOrder K] [IsStrictOrderedRing K] {stod : String → Option K} {L0 : Loader K} {d : Doc}
  {infos : List TransInfo} {joints : List (Cmd × String × UrdfJoint (Dbl K))} {r : Robot K K} {huge : K} {rs : List (Robot K K)}
  {m : Mem K} {ms : List (Move K)}

variable (nd : Bool) (hms : Orderly stod (.exact huge) nd rs m ms) (k : Nat) (hr : rs[k]? = some r)
  (ha : Assembled stod (.exact huge) L0 d infos joints r)

include hms hr ha

/-- **C117, closed loop.** If the actuators of a part reach the commanded positions by the next cycle, a joint of that part that
starts within the range of its description is measured within it for ever and moves by at most `velocity * period` per cycle,
whatever controllers are loaded, started, stopped and unloaded, whatever they command, and whatever the other parts do. -/
theorem c117_closed_loop (n : String) (u : UrdfJoint (Dbl K)) (l : UrdfLimits K) (hd : Driven L0 infos .position n)
    (hj : (.position, n, u) ∈ joints) (hl : HasLimits u l) (hs : ∀ i, .begin i ∈ ms → Sane (r.kind .position) u l i.period)
    (hf : ∀ j x y, ((Team.start rs m).run (.exact huge) nd ms).1[j]? = some x →
      ((Team.start rs m).run (.exact huge) nd ms).1[j + 1]? = some y →
      Reaches L0 infos n (own rs.length k x.record.sent) (own rs.length k y.input.sense))
    (hstart : ∀ x y, ((Team.start rs m).run (.exact huge) nd ms).1[0]? = some x →
      r.jointValue .position n (own rs.length k x.record.measured) = some y → Allowed huge u l y) :
    ∀ (j : Nat) x, ((Team.start rs m).run (.exact huge) nd ms).1[j]? = some x →
      ∃ v, r.jointValue .position n (own rs.length k x.record.measured) = some v ∧ Allowed huge u l v ∧
        ∀ y, ((Team.start rs m).run (.exact huge) nd ms).1[j + 1]? = some y →
          ∃ v', r.jointValue .position n (own rs.length k y.record.measured) = some v' ∧
            Sends stod L0 infos .position (ownRecord rs.length k x.record) n v' ∧ |v' - v| ≤ l.velocity * x.input.period := by
  obtain ⟨hin, hto, hof⟩ := member_run (exact_lawful huge) nd hms k r hr
  intro j x hx
  obtain ⟨h1, h2⟩ := hto j x hx
  obtain ⟨v, g1, g2, g3⟩ := Described.c111_closed_loop nd huge ha _ (member_positive nd hms k hr) (own rs.length k m) n u l hd hj hl
    (fun i hi => by obtain ⟨j, hj, e⟩ := hin i hi; rw [e]; exact hs j hj)
    (fun j i' rec hi hrec => by
      obtain ⟨x, hx, rfl⟩ := hof j rec hrec
      rw [List.getElem?_map] at hi
      obtain ⟨y, hy, rfl⟩ := Option.map_eq_some_iff.1 hi
      exact hf j x y hx hy)
    (fun rec y hrec hy => by
      obtain ⟨x, hx, rfl⟩ := hof 0 rec hrec
      exact hstart x y hx hy) j _ _ h1 h2
  exact ⟨v, g1, g2, fun y hy => g3 _ (hto (j + 1) y hy).2⟩

end

section

variable {A : Machine binary64} {stod : String → Option (Flt A)} {L0 : Loader (Flt A)} {d : Doc} {infos : List TransInfo}
  {joints : List (Cmd × String × UrdfJoint (Dbl (Fl binary64)))} {r : Robot (Flt A) (Fl binary64)}
  {rs : List (Robot (Flt A) (Fl binary64))} {m : Mem (Flt A)} {ms : List (Move (Flt A))}

variable (nd : Bool) (hms : Orderly stod (.double A) nd rs m ms) (ht : ∀ i, .begin i ∈ ms → GoodPeriod i.period) (k : Nat)
  (hr : rs[k]? = some r) (ha : Assembled stod (limitsArith A) L0 d infos joints r)

include hms ht hr ha

/-- **C117, what is measured, with doubles.** As C116, for every part. -/
theorem c117_measured_double (x : Past (Flt A)) (hx : x ∈ ((Team.start rs m).run (.double A) nd ms).1) (j : TransInfo)
    (hj : j ∈ infos) :
    ∃ t, loadTransmission stod j = .ok (some t) ∧ ∀ q, ∃ v, L0.actuatorValues q j.actuatorNames (own rs.length k x.input.sense) =
        some v ∧
      ∀ (z : Nat) n, j.jointNames[z]? = some n → r.jointValue q n (own rs.length k x.record.measured) = (t.jointsFrom q v)[z]? ∧
        ∀ t' xs, SameTrans t t' → MeansAll v xs → ∃ a y w s, r.jointValue q n (own rs.length k x.record.measured) = some a ∧
          Is a y ∧ (t'.jointsFrom q xs)[z]? = some w ∧ (jointScale q t' (xs.map abs))[z]? = some s ∧
          |y - w| ≤ (2 ^ 49)⁻¹ * s := by
  obtain ⟨i, hi⟩ := List.getElem?_of_mem hx
  obtain ⟨h1, h2⟩ := (member_run (double_lawful A) nd hms k r hr).2.1 i x hi
  exact Described.c113_measured nd ha _ (member_good nd hms ht k hr) _ i _ _ h1 h2 j hj

/-- **C117, what the transmissions add, with doubles.** As C116, for every part. -/
theorem c117_sent_double (x : Past (Flt A)) (hx : x ∈ ((Team.start rs m).run (.double A) nd ms).1) (q : Cmd) (n : String)
    (hd : Driven L0 infos q n) (s : ℚ) (hs : Terms stod infos r q (ownRecord rs.length k x.record) n s) :
    ∃ v y, (∃ a, r.jointCommand q n (own rs.length k x.record.limited) = some a ∧ Is a v) ∧ |y - v| ≤ (2 ^ 49)⁻¹ * s ∧
      ∀ z, Sends64 stod L0 infos q (ownRecord rs.length k x.record) n z ↔ z = y := by
  obtain ⟨i, hi⟩ := List.getElem?_of_mem hx
  obtain ⟨h1, h2⟩ := (member_run (double_lawful A) nd hms k r hr).2.1 i x hi
  exact Described.c113_sent nd ha _ (member_good nd hms ht k hr) _ i _ _ h1 h2 q n hd s hs

/-- **C117, joints without limits, with doubles.** What the limits leave as the command of a joint that is not listed is what the
controllers left, bit by bit. -/
theorem c117_free_double (x : Past (Flt A)) (hx : x ∈ ((Team.start rs m).run (.double A) nd ms).1) (q : Cmd) (n : String)
    (hfree : ∀ u, (q, n, u) ∉ joints) :
    r.jointCommand q n (own rs.length k x.record.limited) = r.jointCommand q n (own rs.length k x.record.wished) := by
  obtain ⟨i, hi⟩ := List.getElem?_of_mem hx
  obtain ⟨h1, h2⟩ := (member_run (double_lawful A) nd hms k r hr).2.1 i x hi
  exact Described.c113_free nd ha _ (member_good nd hms ht k hr) _ i _ _ h1 h2 q n hfree

/-- **C117, NaN reaches the hardware.** As C113: if the controllers leave NaN as the command of a joint of a part, every actuator
of that part that moves with the joint gets NaN. -/
theorem c117_nan_sent (x : Past (Flt A)) (hx : x ∈ ((Team.start rs m).run (.double A) nd ms).1) (q : Cmd) (j : TransInfo)
    (hj : j ∈ infos) (hc : j.Commanded q) (hcm : L0.HasCommands q j) (t : Trans (Flt A))
    (hlt : loadTransmission stod j = .ok (some t)) (y z : Nat) (n a : String) (hn : j.jointNames[z]? = some n)
    (hact : j.actuatorNames[y]? = some a) (hdep : DependsOn t y z)
    (hnan : ∃ w, r.jointCommand q n (own rs.length k x.record.wished) = some w ∧ IsNaN w) :
    ∃ e, (L0.actuatorCell q a).map (own rs.length k x.record.sent) = some e ∧ IsNaN e := by
  obtain ⟨i, hi⟩ := List.getElem?_of_mem hx
  obtain ⟨h1, h2⟩ := (member_run (double_lawful A) nd hms k r hr).2.1 i x hi
  exact Described.c113_nan_sent nd ha _ (member_good nd hms ht k hr) _ i _ _ h1 h2 q j hj hc hcm t hlt y z n a hn hact hdep hnan

/-- **C117, soft position limits with doubles.** As C116, for every part. -/
theorem c117_soft_position_double (n : String) (u : UrdfJoint (Dbl (Fl binary64)))
    (l : UrdfLimits (Fl binary64)) (s : UrdfSafety (Fl binary64)) (hd : Driven L0 infos .position n)
    (hj : (.position, n, u) ∈ joints) (hl : HasLimits u l) (hsl : HasSoftLimits u s) (hk : r.kind .position = .posSoft)
    (hv : l.velocity.Fin ∧ 0 ≤ l.velocity.1)
    (hS : Ranged u → s.softLower.Fin ∧ s.softUpper.Fin ∧ s.kPosition.Fin ∧ 0 < s.kPosition.1)
    (j : Nat) (x : Past (Flt A)) (hx : ((Team.start rs m).run (.double A) nd ms).1[j]? = some x) (p c t : Fl binary64)
    (hp : Described.Before r (((Team.start rs m).run (.double A) nd ms).1.map (ownPast rs.length k))
      (((Team.start rs m).run (.double A) nd ms).1.map fun x => (ownRecord rs.length k x.record)) n j p) (hfp : p.Fin)
    (hmax : Ranged u → p.1 ≤ l.upper.1)
    (hc : r.jointCommand .position n (own rs.length k x.record.wished) = some (Flt.fl c)) (het : x.input.period = Flt.fl t) :
    ∃ o v w low high, r.jointCommand .position n (own rs.length k x.record.limited) = some (Flt.fl o) ∧
      (limitsArith A).mul ((limitsArith A).neg l.velocity) t = some v ∧ (limitsArith A).mul l.velocity t = some w ∧
      (limitsArith A).add p v = some low ∧ (limitsArith A).add p w = some high ∧ low.1 ≤ o.1 ∧ o.1 ≤ high.1 ∧
      SendsWithin64 stod L0 infos r .position (ownRecord rs.length k x.record) n low.1 high.1 ∧
      (Ranged u → o.1 ≤ l.upper.1 ∧ SendsWithin64 stod L0 infos r .position (ownRecord rs.length k x.record) n low.1 l.upper.1 ∧
        (s.softUpper.1 ≤ p.1 → o.1 ≤ p.1) ∧ (p.1 ≤ s.softLower.1 → s.softLower.1 ≤ s.softUpper.1 → p.1 ≤ o.1)) := by
  obtain ⟨h1, h2⟩ := (member_run (double_lawful A) nd hms k r hr).2.1 j x hx
  have h3 := c117_parts (double_lawful A) nd hms
  refine Described.c113_soft_position nd ha _ (member_good nd hms ht k hr) _ n u l s hd hj hl hsl hk hv hS j _ _ h1 h2 p c t
    ?_ hfp hmax hc het
  have h3 : r.run (.double A) nd (((Team.start rs m).run (.double A) nd ms).1.map (ownPast rs.length k)) (own rs.length k m) = _ :=
    h3 k r hr
  rw [h3]
  exact hp

/-- **C117, soft velocity limits with doubles.** As C116, for every part. -/
theorem c117_soft_velocity_double (n : String) (u : UrdfJoint (Dbl (Fl binary64)))
    (l : UrdfLimits (Fl binary64)) (s : UrdfSafety (Fl binary64)) (hd : Driven L0 infos .velocity n)
    (hj : (.velocity, n, u) ∈ joints) (hl : HasLimits u l) (hsl : HasSoftLimits u s) (hk : r.kind .velocity = .velSoft)
    (hV : 0 ≤ l.velocity.1) (hS : Ranged u → s.softLower.Fin ∧ s.softUpper.Fin ∧ s.kPosition.Fin ∧ 0 < s.kPosition.1)
    (x : Past (Flt A)) (hx : x ∈ ((Team.start rs m).run (.double A) nd ms).1) (p v c : Fl binary64)
    (hp : r.jointValue .position n (own rs.length k x.record.measured) = some (Flt.fl p)) (hfp : Ranged u → p.Fin)
    (hv : r.jointValue .velocity n (own rs.length k x.record.measured) = some (Flt.fl v))
    (hc : r.jointCommand .velocity n (own rs.length k x.record.wished) = some (Flt.fl c)) :
    ∃ o : Fl binary64, r.jointCommand .velocity n (own rs.length k x.record.limited) = some (Flt.fl o) ∧ |o.1| ≤ l.velocity.1 ∧
      SendsWithin64 stod L0 infos r .velocity (ownRecord rs.length k x.record) n (-l.velocity.1) l.velocity.1 ∧
      (Ranged u → (s.softUpper.1 ≤ p.1 → o.1 ≤ 0 ∧
        SendsWithin64 stod L0 infos r .velocity (ownRecord rs.length k x.record) n (-l.velocity.1) 0) ∧
        (p.1 ≤ s.softLower.1 → s.softLower.1 ≤ s.softUpper.1 →
          0 ≤ o.1 ∧ SendsWithin64 stod L0 infos r .velocity (ownRecord rs.length k x.record) n 0 l.velocity.1)) := by
  obtain ⟨i, hi⟩ := List.getElem?_of_mem hx
  obtain ⟨h1, h2⟩ := (member_run (double_lawful A) nd hms k r hr).2.1 i x hi
  exact Described.c113_soft_velocity nd ha _ (member_good nd hms ht k hr) _ n u l s hd hj hl hsl hk hV hS i _ _ h1 h2 p v c hp hfp hv hc

/-- **C117, effort saturation with doubles.** As C116, for every part. -/
theorem c117_effort_double (n : String) (u : UrdfJoint (Dbl (Fl binary64)))
    (l : UrdfLimits (Fl binary64)) (hd : Driven L0 infos .effort n) (hj : (.effort, n, u) ∈ joints) (hl : HasLimits u l)
    (hk : r.kind .effort = .effSat) (hE : 0 ≤ l.effort.1) (hV : 0 ≤ l.velocity.1) (hP : Ranged u → l.lower.1 ≤ l.upper.1)
    (x : Past (Flt A)) (hx : x ∈ ((Team.start rs m).run (.double A) nd ms).1) (c : Fl binary64)
    (hc : r.jointCommand .effort n (own rs.length k x.record.wished) = some (Flt.fl c)) :
    ∃ o : Fl binary64, r.jointCommand .effort n (own rs.length k x.record.limited) = some (Flt.fl o) ∧ |o.1| ≤ l.effort.1 ∧
      SendsWithin64 stod L0 infos r .effort (ownRecord rs.length k x.record) n (-l.effort.1) l.effort.1 ∧
      (Ranged u → ∀ p : Fl binary64, r.jointValue .position n (own rs.length k x.record.measured) = some (Flt.fl p) →
        (p.1 < l.lower.1 → 0 ≤ o.1 ∧ SendsWithin64 stod L0 infos r .effort (ownRecord rs.length k x.record) n 0 l.effort.1) ∧
        (l.upper.1 < p.1 → o.1 ≤ 0 ∧ SendsWithin64 stod L0 infos r .effort (ownRecord rs.length k x.record) n (-l.effort.1) 0)) ∧
      (∀ v : Fl binary64, r.jointValue .velocity n (own rs.length k x.record.measured) = some (Flt.fl v) →
        (v.1 < -l.velocity.1 → 0 ≤ o.1 ∧ SendsWithin64 stod L0 infos r .effort (ownRecord rs.length k x.record) n 0 l.effort.1) ∧
        (l.velocity.1 < v.1 → o.1 ≤ 0 ∧ SendsWithin64 stod L0 infos r .effort (ownRecord rs.length k x.record) n (-l.effort.1) 0)) ∧
      (|c.1| ≤ l.effort.1 →
        (Ranged u → ∀ p : Fl binary64, r.jointValue .position n (own rs.length k x.record.measured) = some (Flt.fl p) →
          InUrdfRange u l p) →
        (∀ v : Fl binary64, r.jointValue .velocity n (own rs.length k x.record.measured) = some (Flt.fl v) →
          |v.1| ≤ l.velocity.1) → o = c) := by
  obtain ⟨i, hi⟩ := List.getElem?_of_mem hx
  obtain ⟨h1, h2⟩ := (member_run (double_lawful A) nd hms k r hr).2.1 i x hi
  exact Described.c113_effort nd ha _ (member_good nd hms ht k hr) _ n u l hd hj hl hk hE hV hP i _ _ h1 h2 c hc

/-- **C117, soft effort limits with doubles.** As C116, for every part. -/
theorem c117_soft_effort_double (n : String) (u : UrdfJoint (Dbl (Fl binary64)))
    (l : UrdfLimits (Fl binary64)) (s : UrdfSafety (Fl binary64)) (hd : Driven L0 infos .effort n)
    (hj : (.effort, n, u) ∈ joints) (hl : HasLimits u l) (hsl : HasSoftLimits u s) (hk : r.kind .effort = .effSoft)
    (hV : l.velocity.Fin ∧ 0 ≤ l.velocity.1) (hE : 0 ≤ l.effort.1)
    (hS : Ranged u → s.softLower.Fin ∧ s.softUpper.Fin ∧ s.kPosition.Fin ∧ 0 < s.kPosition.1)
    (hkv : s.kVelocity.Fin ∧ 0 < s.kVelocity.1)
    (x : Past (Flt A)) (hx : x ∈ ((Team.start rs m).run (.double A) nd ms).1) (p v c : Fl binary64)
    (hp : r.jointValue .position n (own rs.length k x.record.measured) = some (Flt.fl p)) (hfp : Ranged u → p.Fin)
    (hv : r.jointValue .velocity n (own rs.length k x.record.measured) = some (Flt.fl v)) (hfv : v.Fin)
    (hc : r.jointCommand .effort n (own rs.length k x.record.wished) = some (Flt.fl c)) :
    ∃ o : Fl binary64, r.jointCommand .effort n (own rs.length k x.record.limited) = some (Flt.fl o) ∧ |o.1| ≤ l.effort.1 ∧
      SendsWithin64 stod L0 infos r .effort (ownRecord rs.length k x.record) n (-l.effort.1) l.effort.1 ∧
      (l.velocity.1 ≤ v.1 ∨ (Ranged u ∧ s.softUpper.1 ≤ p.1 ∧ 0 ≤ v.1) →
        o.1 ≤ 0 ∧ SendsWithin64 stod L0 infos r .effort (ownRecord rs.length k x.record) n (-l.effort.1) 0) ∧
      (v.1 ≤ -l.velocity.1 ∨ (Ranged u ∧ p.1 ≤ s.softLower.1 ∧ s.softLower.1 ≤ s.softUpper.1 ∧ v.1 ≤ 0) →
        0 ≤ o.1 ∧ SendsWithin64 stod L0 infos r .effort (ownRecord rs.length k x.record) n 0 l.effort.1) := by
  obtain ⟨i, hi⟩ := List.getElem?_of_mem hx
  obtain ⟨h1, h2⟩ := (member_run (double_lawful A) nd hms k r hr).2.1 i x hi
  exact Described.c113_soft_effort nd ha _ (member_good nd hms ht k hr) _ n u l s hd hj hl hsl hk hV hE hS hkv i _ _ h1 h2 p v c hp
    hfp hv hfv hc

/-- **C117, closed loop with doubles.** As C116, for every part. -/
theorem c117_reached_double (n : String) (hd : Driven L0 infos .position n) (j : Nat) (x y : Past (Flt A))
    (hx : ((Team.start rs m).run (.double A) nd ms).1[j]? = some x) (hy : ((Team.start rs m).run (.double A) nd ms).1[j + 1]? = some y)
    (hf : Reaches L0 infos n (own rs.length k x.record.sent) (own rs.length k y.input.sense))
    (s : ℚ) (hs : Terms stod infos r .position (ownRecord rs.length k x.record) n s) (o : Fl binary64)
    (ho : r.jointCommand .position n (own rs.length k x.record.limited) = some (Flt.fl o)) :
    ∃ p : Fl binary64, r.jointValue .position n (own rs.length k y.record.measured) = some (Flt.fl p) ∧
      |p.1 - o.1| ≤ (2 ^ 49)⁻¹ * s := by
  obtain ⟨-, hto, -⟩ := member_run (double_lawful A) nd hms k r hr
  obtain ⟨h1, h2⟩ := hto j x hx
  obtain ⟨h3, h4⟩ := hto (j + 1) y hy
  exact Described.c113_reached nd ha _ (member_good nd hms ht k hr) _ n hd j _ _ _ _ h1 h2 h3 h4 hf s hs o ho

end

/-! ### A concrete case -/

open Verif.Described (exActuators exThree exListed exKind exUrdf)
open Verif.Transmission.Loader (exStod exInfos)
open Verif.Whole (exWrites exBegin exGo exServe ExMove exCycle exLoad exCall)

/-- A request for a controller of commands of the given kind for a joint. -/
def exAsk (name : String) (q : Cmd) (joint : String) : SysOp :=
  .load name ⟨true, some "T", [⟨["T"], fun _ => .object⟩], sysClass (Whole.interfaceName q) joint⟩

/-- After the first update, "p" for the position of "j1", "v" for the velocity of "j1" and "k" for the position of "k1" are loaded in the
middle of cycles. The start of "p" and "k" is requested between the beginning of a cycle and its update. When they are
running, a request for the start of "v" comes in the middle of an update, and after its refusal one for the switch from "p" to "v" in the
middle of the next one. -/
def exMoves : List (Move ℚ × List (CId × Nat × ℚ)) :=
  [exBegin []] ++ exGo 9 ++ [exBegin []] ++ exGo 1 ++ [exServe (exAsk "p" .position "j1"), exServe (.poll {} 0)] ++ exGo 9 ++
    [exBegin []] ++ exGo 2 ++ [exServe (.poll {} 0), exServe (exAsk "v" .velocity "j1")] ++ exGo 9 ++
    [exBegin []] ++ exGo 2 ++ [exServe (.poll {} 0), exServe (exAsk "k" .position "k1")] ++ exGo 9 ++
    [exBegin []] ++ exGo 2 ++ [exServe (.poll {} 0)] ++ exGo 9 ++
    [exBegin [], exServe (.switch ⟨["p", "k"], [], 2, false, 0⟩ 0 true)] ++ exGo 4 ++ [exServe (.poll {} 0)] ++ exGo 9 ++
    [exServe (.poll {} 0), exBegin [(0, 206, 7), (2, 223, -7)]] ++ exGo 14 ++ [exBegin [(0, 206, 7), (2, 223, -7)]] ++ exGo 3 ++
    [exServe (.switch ⟨["v"], [], 2, false, 0⟩ 0 true)] ++ exGo 14 ++ [exBegin [(0, 206, 7), (2, 223, -7)]] ++ exGo 3 ++
    [exServe (.switch ⟨["v"], ["p"], 2, false, 0⟩ 0 true)] ++ exGo 14 ++ [exBegin [(1, 209, 9)]] ++ exGo 3 ++
    [exServe (.poll {} 0)] ++ exGo 14 ++ [exServe (.poll {} 0), exBegin [(1, 209, 9), (2, 223, -7)]] ++ exGo 14

/-- What is sent to the actuators of "j1" in the first part, and of "j1" and "k1" in the second part, in the cycles, and the callbacks in
the whole run. -/
def exPast : Option (List (List ℚ) × List Event × List String) :=
  exParts.map fun rs =>
    let out := (Team.start rs fun _ => 0).run (.exact 1000) false (exMoves.map (·.1))
    (out.1.map fun x => [3 * 2, 4 * 2 + 1, 13 * 2 + 1].map x.record.sent,
      out.2.1.sys.mgr.trace.filter fun e => match e with | .cb _ _ => true | _ => false, out.2.1.sys.mgr.cur.map (·.info.name))

/-- "v" cannot be started while "p" runs although they are for joints of different parts, since these have the same name. The switch comes
in the cycle in which "p" has been updated, so "v" writes from the next one on. The limits are as in `exSeen`; "k1" cannot move
further than -1, so -2 at the actuator. -/
example : exPast = some ([[0, 0, 0], [0, 0, 0], [0, 0, 0], [0, 0, 0], [0, 0, 0], [0, 0, 0], [1, 0, -1], [2, 0, -2], [3, 0, -2],
    [3, 2, -2], [3, 2, -2]], [.cb 0 .starting, .cb 2 .starting, .cb 0 .update, .cb 2 .update, .cb 0 .update, .cb 2 .update,
    .cb 0 .update, .cb 2 .update, .cb 0 .stopping, .cb 1 .starting, .cb 1 .update, .cb 2 .update, .cb 1 .update, .cb 2 .update],
    ["p", "v", "k"]) := by decide +kernel

/-- A check of the moves: the controllers write through their handles only, and in the very first update there are no
operations of the service thread. -/
def exCheck : Team ℚ ℚ → List (CId × Nat × ℚ) → List (Move ℚ × List (CId × Nat × ℚ)) → Bool
  | _, _, [] => true
  | b, w, (mv, w') :: l =>
    let w' := match mv, b.stage with
      | .begin _, .outside => w'
      | _, _ => w
    (match mv with
      | .begin _ => true
      | .go => w.all fun e => (b.sys.held e.1).any fun g => g.exclusive && g.handle.data == e.2.1
      | .service _ => b.sys.mgr.used.isSome && match b.sys.mgr.svc with | .switching _ t => decide (t = 0) | _ => true) &&
    match b.step (.exact 1000) false mv with
    | .ok (b', _) => exCheck b' w' l
    | .error _ => true

theorem exCheck_sound (l : List (Move ℚ × List (CId × Nat × ℚ))) (hl : ∀ e ∈ l, ExMove e) (b : Team ℚ ℚ)
    (w : List (CId × Nat × ℚ)) (hw : ∀ i s m, b.stage = .inside i s m → i = exWrites w) (h : exCheck b w l = true) :
    AllMoves (.exact 1000) false Unhurried b (l.map (·.1)) := by
  induction l generalizing b w with
  | nil => trivial
  | cons e l ih =>
    obtain ⟨mv, w'⟩ := e
    have ih := ih fun e he => hl e (by simp [he])
    have hmv := hl (mv, w') (by simp)
    unfold exCheck at h
    rw [Bool.and_eq_true] at h
    obtain ⟨h1, h2⟩ := h
    rcases hmv with hmv | rfl | ⟨op, rfl, hg⟩
    · have hm := congrArg Prod.fst hmv
      dsimp only [exBegin] at hm
      subst hm
      refine ⟨rfl, fun b' p e => ?_⟩
      rw [e] at h2
      cases hst : b.stage with
      | outside =>
        refine ih b' w' ?_ (by simpa only [hst] using h2)
        simp only [Team.step, hst, Team.enter] at e
        split at e
        · cases e
        · cases e
          rintro i s m ⟨⟩
          rfl
      | inside i s m =>
        simp only [Team.step, hst] at e
        cases e
        exact ih b w hw (by simpa only [hst] using h2)
    · refine ⟨fun i s m hst c k m' a hno => ?_, fun b' p e => ?_⟩
      · rw [hw i s m hst]
        simp only [List.all_eq_true] at h1
        dsimp only [exWrites]
        split
        · rename_i e hf
          have he := List.find?_some hf
          simp only [Bool.and_eq_true, beq_iff_eq] at he
          obtain ⟨g, hg, h2⟩ := List.any_eq_true.1 (h1 e (List.mem_of_find?_eq_some hf))
          simp only [Bool.and_eq_true, beq_iff_eq] at h2
          refine absurd ⟨g, ?_, h2.1, ?_⟩ hno
          · rw [← he.1.1]; exact hg
          · rw [List.mem_singleton, h2.2, he.1.2]
        · rfl
      · rw [e] at h2
        refine ih b' w ?_ h2
        unfold Team.step at e
        simp only at e
        cases hst : b.stage with
        | outside => rw [hst] at e; cases e; exact hw
        | inside i s m =>
          rw [hst] at e
          dsimp only at e
          split at e
          · cases hlv : b.leave (.exact 1000) false i s m with
            | error x => rw [hlv] at e; cases e
            | ok y =>
              rw [hlv] at e
              cases e
              unfold Team.leave at hlv
              split at hlv
              · cases hlv
              · cases hlv
                rintro _ _ _ ⟨⟩
          · cases e
            exact hw
    · refine ⟨⟨hg, fun _ => ?_, fun ok el he k t hsw => ?_⟩, fun b' p e => ?_⟩
      · intro hn
        rw [hn] at h1
        cases h1
      · rw [hsw] at h1
        rw [Bool.and_eq_true] at h1
        exact Or.inr (of_decide_eq_true h1.2)
      · rw [e] at h2
        refine ih b' w ?_ h2
        cases op <;> (cases e; exact hw)

theorem exMoves_cases : ∀ e ∈ exMoves, ExMove e := by
  have go : ∀ n, ∀ e ∈ exGo n, ExMove e := fun n e he => by
    rw [List.eq_of_mem_replicate he]
    exact Or.inr (Or.inl rfl)
  have beg : ∀ w, ExMove (exBegin w) := fun _ => Or.inl rfl
  have poll : ExMove (exServe (.poll {} 0)) := Or.inr (Or.inr ⟨_, rfl, rfl, rfl⟩)
  have load : ∀ n q j, ExMove (exServe (exAsk n q j)) := fun n q j =>
    Or.inr (Or.inr ⟨_, rfl, sysClass_proper (Whole.interfaceName q) j⟩)
  have switch : ∀ r, ExMove (exServe (.switch r 0 true)) := fun r => Or.inr (Or.inr ⟨_, rfl, trivial⟩)
  have none : ∀ e ∈ ([] : List (Move ℚ × List (CId × Nat × ℚ))), ExMove e := fun e he => (List.not_mem_nil he).elim
  unfold exMoves
  simp only [List.forall_mem_append, List.forall_mem_cons]
  and_intros
  all_goals first | exact go _ | exact none | exact beg _ | exact poll | exact load _ _ _ | exact switch _

/-- The case of C117: the hypotheses hold. -/
theorem exMoves_case : ∃ r r', exParts = some [r, r'] ∧
    Assembled exStod (.exact 1000) exActuators exThree (exInfos exThree) exListed r ∧
    Assembled exStod (.exact 1000) exActuators exOther (exInfos exOther) exOtherListed r' ∧
    AllMoves (.exact 1000) false Unhurried (Team.start [r, r'] fun _ => 0) (exMoves.map (·.1)) ∧
    Orderly exStod (.exact 1000) false [r, r'] (fun _ => 0) (exMoves.map (·.1)) ∧
    Driven (exActuators (T := ℚ)) (exInfos exThree) .position "j1" ∧
    Driven (exActuators (T := ℚ)) (exInfos exOther) .velocity "j1" ∧
    Driven (exActuators (T := ℚ)) (exInfos exOther) .position "k1" ∧
    ∀ i, .begin i ∈ exMoves.map (·.1) → Sane (r'.kind .position) exUrdf ⟨-1, 2, 4, 1⟩ i.period := by
  obtain ⟨r, r', hrs, ha, ha', -, h1, h2, h3, h4⟩ := exOps_case
  have hchk : (exParts.map fun rs => exCheck (Team.start rs fun _ => 0) [] exMoves) = some true := by decide +kernel
  have per : ∀ i, .begin i ∈ exMoves.map (·.1) → i.period = 1 / 2 := by
    intro i hi
    obtain ⟨e, he, hei⟩ := List.mem_map.1 hi
    rcases exMoves_cases e he with h | h | ⟨o, h, -⟩
    · rw [h] at hei; cases hei; rfl
    · rw [h] at hei; cases hei
    · rw [h] at hei; cases hei
  rw [hrs] at hchk
  have hu : AllMoves (.exact 1000) false Unhurried (Team.start [r, r'] fun _ => 0) (exMoves.map (·.1)) :=
    exCheck_sound exMoves exMoves_cases _ [] (by rintro _ _ _ ⟨⟩) (Option.some.inj hchk)
  refine ⟨r, r', hrs, ha, ha', hu, c117_unhurried (exact_lawful 1000) false (fun x hx => ?_) hu fun i hi => ?_, h1, h2, h3,
    fun i hi => ?_⟩
  · simp only [List.mem_cons, List.not_mem_nil, or_false] at hx
    rcases hx with rfl | rfl
    · exact ⟨_, _, _, _, ha⟩
    · exact ⟨_, _, _, _, ha'⟩
  · rw [per i hi]; exact decide_eq_true (by show (0 : ℚ) < 1 / 2; norm_num)
  · rw [per i hi]
    have hc : .cycle (exWrites []) ∈ exOps.map (·.1) := List.mem_map.2 ⟨exCycle (fun _ => 0) [], by
      simp [exOps, exLoad, exCall], rfl⟩
    exact h4 _ hc

/-- In the middle of the fourth cycle: "p" and "v" are in the list of the manager, the load of "v" has returned, and the loop is
in `update`. This is a state of `c117_progress`. -/
example : (exParts.map fun rs =>
      let b := ((Team.start rs fun _ => 0).run (.exact 1000) false ((exMoves.take 41).map (·.1))).2.1
      (b.sys.mgr.cur.map (·.info.name), decide (b.sys.mgr.svc = .idle),
        match b.stage, b.rt with | .inside .., .idle => false | .inside .., _ => true | _, _ => false)) =
    some (["p", "v"], true, true) := by decide +kernel

/-- With soft position limits for the second of two equal parts the second cycle, whose period is not positive, is the last one, though
"p" is loaded in the middle of it: the assertion fails after the update. With position saturation all three cycles are completed. -/
example : [Limits.Kind.posSoft, .posSat].map (fun kind => (exTwins kind).map fun rs =>
      let ms := [(.begin (exWrites []) : Move ℚ)] ++ List.replicate 9 .go ++ [.begin { exWrites [] with period := 0 }, .go,
        .service (exAsk "p" .position "j1")] ++ List.replicate 9 .go ++ [.begin (exWrites [])] ++ List.replicate 9 .go
      let out := (Team.start rs fun _ => 0).run (.exact 1000) false ms
      (out.1.map fun x => x.input.period, decide (out.2.2 = some .limits), out.2.1.stage.now.map (·.period))) =
    [some ([1 / 2], true, [0]), some ([1 / 2, 0, 1 / 2], false, [])] := by decide +kernel

section

variable {A : Machine binary64}

open Verif.Described (exStod64 exListed64 exOne exZero exThree64_case exOne_val)
open Verif.Whole (exInput64 exMoves64 exReq64 interfaceName)

/-- The case of C117 in doubles: two equal parts, and "v" is loaded in the middle of the update of the first cycle. -/
example (nd : Bool) : ∃ (r : Robot (Flt A) (Fl binary64)) (m : Mem (Flt A)),
    Assembled (exStod64 (A := A)) (limitsArith A) exActuators exThree (exInfos exThree) exListed64 r ∧
    Orderly (exStod64 (A := A)) (.double A) nd [r, r] m exMoves64 ∧ ∀ i, .begin i ∈ exMoves64 (A := A) → GoodPeriod i.period := by
  obtain ⟨r, ha, -⟩ := exThree64_case (A := A) exKind
  have hgood : ∀ i : Input (Flt A), .begin i ∈ exMoves64 (A := A) → GoodPeriod i.period := by
    intro i hi
    simp only [exMoves64, List.mem_cons, List.not_mem_nil, or_false, reduceCtorEq] at hi
    cases hi
    exact ⟨_, rfl, Limits.Fl.int_fin _ _, by rw [exOne_val]; norm_num⟩
  refine ⟨r, fun _ => Flt.fl exZero, ha, c117_unhurried (double_lawful A) nd (fun x hx => ?_) ?_
    fun i hi => Whole.period_double (hgood i hi), hgood⟩
  · simp only [List.mem_cons, List.not_mem_nil, or_false, or_self] at hx
    subst hx
    exact ⟨_, _, _, _, ha⟩
  refine ⟨rfl, fun b2 p2 e => ?_⟩
  simp only [Team.step, Team.start, Team.enter] at e
  split at e
  · cases e
  · cases e
    refine ⟨by rintro _ _ _ ⟨⟩ c k m a -; rfl, ?_⟩
    rintro b3 p3 ⟨⟩
    refine ⟨⟨sysClass_proper (interfaceName .velocity) "j3", fun _ => Option.some_ne_none false, by rintro _ _ ⟨⟩⟩, ?_⟩
    rintro b4 p4 ⟨⟩
    refine ⟨by rintro _ _ _ ⟨⟩ c k m a -; rfl, ?_⟩
    rintro b5 p5 ⟨⟩
    exact ⟨by rintro _ _ _ ⟨⟩ c k m a -; rfl, fun _ _ _ => trivial⟩

end

end Verif.Parted
