import Verif.Lemmas.BusyRobot
import Verif.Lemmas.ThreadsInterleavedCalls

/-!
Runs of whole robots whose services are called in the middle of cycles, for any kind of numbers.
-/

namespace Verif.Whole

open Verif.Spec (ConflictFree)
open Verif.Mgr (inv_reachable inv_of_reachable isRunning_iff)
open Verif.Transmission (Mem Loader Cmd Doc TransInfo)
open Verif.Limits (Dbl UrdfJoint)
open Verif.Cycle (Record Halt)
open Verif.Described (Robot Setting Lawful Base Assembled)

variable {T K : Type} [Add T] [Sub T] [Mul T] [Div T] [OfNat T 0] [OfNat T 1] [OfNat T 2] [DecidableEq T] [LinearOrder K]
  {stod : String → Option T} {L0 L : Loader T} {d : Doc} {infos : List TransInfo} {S : Setting T K} {nd : Bool}

/-- At no moment do two controllers run that hold commands of the same joint. -/
theorem inv_one_commander (hb : Base stod L0 d infos L) {b : Busy T K} (h : BusyInv S nd L b) {n : String} {q q' : Cmd} {c c' : CId}
    (h1 : Holds L b.sys c q n) (h2 : Holds L b.sys c' q' n) (hc : b.sys.mgr.state c = .running)
    (hc' : b.sys.mgr.state c' = .running) : c = c' := by
  by_contra hne
  obtain ⟨a, hcell⟩ := h1.cell
  obtain ⟨j, hj⟩ := jointOf_cell hb hcell
  obtain ⟨a', ha, hr⟩ := h.sim
  obtain ⟨m, i, hcur, hrun⟩ := Inter.rel_running checkOk_checkForConflict.mono (inv_reachable checkOk_checkForConflict ha) hr
  obtain ⟨x, hx, rfl⟩ := List.mem_map.1 (i.running c (hrun c hc))
  obtain ⟨y, hy, rfl⟩ := List.mem_map.1 (i.running c' (hrun c' hc'))
  have hn : (b.sys.mgr.cur.map (·.info.name)).Nodup := by
    have := i.names
    rw [hcur] at this
    exact this
  exact h.mid.apart hn (interfaces_apart hb) i.free (hcur ▸ hx) (hcur ▸ hy)
    (List.mem_map_of_mem (List.mem_filter.2 ⟨hx, isRunning_iff.2 (hrun _ hc)⟩))
    (List.mem_map_of_mem (List.mem_filter.2 ⟨hy, isRunning_iff.2 (hrun _ hc')⟩)) hne
    (h1.canWrite hb hcell hj) (h2.canWrite hb hcell hj)

theorem run_cons_ok {mv : Move T} {ms : List (Move T)} {b b' : Busy T K} {p : Option (Past T)}
    (e : b.step S nd mv = .ok (b', p)) :
    b.run S nd (mv :: ms) = (p.toList ++ (b'.run S nd ms).1, (b'.run S nd ms).2.1, (b'.run S nd ms).2.2) := by
  simp [Busy.run, e]

theorem run_cons_error {mv : Move T} {ms : List (Move T)} {b : Busy T K} {x : Halt} (e : b.step S nd mv = .error x) :
    b.run S nd (mv :: ms) = ([], b, some x) := by
  simp [Busy.run, e]

theorem busy_append (ms ms' : List (Move T)) (b : Busy T K) (h : (b.run S nd ms).2.2 = none) :
    b.run S nd (ms ++ ms') = ((b.run S nd ms).1 ++ ((b.run S nd ms).2.1.run S nd ms').1, ((b.run S nd ms).2.1.run S nd ms').2.1,
      ((b.run S nd ms).2.1.run S nd ms').2.2) := by
  induction ms generalizing b with
  | nil => simp [Busy.run]
  | cons mv ms ih =>
    rw [List.cons_append]
    cases e : b.step S nd mv with
    | error x => rw [run_cons_error e] at h; cases h
    | ok y =>
      obtain ⟨b', p⟩ := y
      rw [run_cons_ok e] at h
      rw [run_cons_ok e, run_cons_ok e, ih b' h, List.append_assoc]

theorem allMoves_append {P : Busy T K → Move T → Prop} (ms ms' : List (Move T)) (b : Busy T K) (h : (b.run S nd ms).2.2 = none) :
    AllMoves S nd P b (ms ++ ms') ↔ AllMoves S nd P b ms ∧ AllMoves S nd P (b.run S nd ms).2.1 ms' := by
  induction ms generalizing b with
  | nil => simp [AllMoves, Busy.run]
  | cons mv ms ih =>
    rw [List.cons_append]
    cases e : b.step S nd mv with
    | error x => rw [run_cons_error e] at h; cases h
    | ok y =>
      obtain ⟨b1, p1⟩ := y
      rw [run_cons_ok e] at h
      rw [run_cons_ok e]
      have ih := ih b1 h
      constructor
      · rintro ⟨h1, h2⟩
        obtain ⟨g1, g2⟩ := ih.1 (h2 b1 p1 e)
        exact ⟨⟨h1, fun b' p hh => by rw [e] at hh; cases hh; exact g1⟩, g2⟩
      · rintro ⟨⟨h1, h2⟩, g2⟩
        exact ⟨h1, fun b' p hh => by rw [e] at hh; cases hh; exact ih.2 ⟨h2 b1 p1 e, g2⟩⟩

/-- Left alone, the loop completes its cycle. -/
theorem inv_finish (hS : Lawful S) (hb : Base stod L0 d infos L) {b : Busy T K} (h : BusyInv S nd L b) {i : Input T}
    {start measured : Mem T} (hst : b.stage = .inside i start measured)
    (hw : ∀ c k m a, ¬b.sys.CanWrite (fun d => [d]) c a → i.act c k m a = m a) :
    ∃ N x, (b.run S nd (List.replicate N .go)).1 = [x] ∧ x.input = i ∧ (b.run S nd (List.replicate N .go)).2.1.stage = .outside ∧
      (b.run S nd (List.replicate N .go)).2.1.sys.mgr = Inter.complete b.sys.mgr b.rt ∧
      AllMoves S nd Fine b (List.replicate N .go) := by
  obtain ⟨n, hn⟩ := ThrInt.completes i.args ⟨b.sys.mgr, b.rt⟩
  induction n generalizing b with
  | zero =>
    have hidle : b.rt = .idle := congrArg Inter.St.rt hn
    have hf : Fine b .go := fun i' s' m' e => by rw [hst] at e; cases e; exact hw
    obtain ⟨b', p, hs⟩ := step_ok hS hb h .go hf (by simp)
    have hp := hs.now
    obtain ⟨b'', p', e, -, -, e2, e3, e4, -⟩ := leave_ok hS hb h hst hidle
    have es : b.step S nd .go = .ok (b'', some p') := by simp [Busy.step, hst, hidle, e, Except.map]
    refine ⟨1, p', ?_, e2, ?_, ?_, ⟨hf, fun _ _ _ => trivial⟩⟩
    · simp [Busy.run, es]
    · simp [Busy.run, es, e3]
    · have : b.sys.mgr = Inter.complete b.sys.mgr b.rt := congrArg Inter.St.m hn
      simp only [List.replicate, Busy.run, es, e4]
      exact this
  | succ n ih =>
    by_cases hidle : b.rt = .idle
    · have hf : Fine b .go := fun i' s' m' e => by rw [hst] at e; cases e; exact hw
      obtain ⟨b'', p', e, -, -, e2, e3, e4, -⟩ := leave_ok hS hb h hst hidle
      have es : b.step S nd .go = .ok (b'', some p') := by simp [Busy.step, hst, hidle, e, Except.map]
      refine ⟨1, p', ?_, e2, ?_, ?_, ⟨hf, fun _ _ _ => trivial⟩⟩
      · simp [Busy.run, es]
      · simp [Busy.run, es, e3]
      · simp only [List.replicate, Busy.run, es, e4, hidle]
        rfl
    · have hf : Fine b .go := fun i' s' m' e => by rw [hst] at e; cases e; exact hw
      have es : b.step S nd .go = .ok (b.advance i, none) := by
        unfold Busy.step
        simp only [hst]
      obtain ⟨hi, -⟩ := advance_ok hb h hst hw
      have hcomp := Inter.complete_step ⟨b.sys.mgr, b.rt⟩ i.args hidle
      rw [Function.iterate_succ_apply] at hn
      obtain ⟨N, x, h1, h2, h3, h4, h5⟩ := ih hi (by show b.stage = _; exact hst) hw (by
        rw [← hcomp] at hn
        exact hn)
      refine ⟨N + 1, x, ?_, h2, ?_, ?_, hf, fun b' p e => ?_⟩
      · simp only [List.replicate, Busy.run, es, h1]
        rfl
      · simp only [List.replicate, Busy.run, es, h3]
      · simp only [List.replicate, Busy.run, es, h4]
        exact hcomp
      · rw [es] at e
        cases e
        exact h5

/-- A cycle whose period the limits do not accept is not completed. -/
theorem refused_run {i : Input T} {start measured : Mem T} (ms : List (Move T)) {b : Busy T K}
    (hst : b.stage = .inside i start measured) (hi : ¬Described.Accepts S.toArith b.robot (S.see i.period)) :
    (b.run S nd ms).1 = [] ∧ (b.run S nd ms).2.1.robot = b.robot ∧ (b.run S nd ms).2.1.stage = b.stage ∧
    ((b.run S nd ms).2.2 = none ∨ (b.run S nd ms).2.2 = some .limits ∧ (b.run S nd ms).2.1.rt = .idle) := by
  induction ms generalizing b with
  | nil => exact ⟨rfl, rfl, rfl, Or.inl rfl⟩
  | cons mv ms ih =>
    have same : ∀ b' : Busy T K, b'.robot = b.robot → b'.stage = b.stage → b.step S nd mv = .ok (b', none) →
        (b.run S nd (mv :: ms)).1 = [] ∧ (b.run S nd (mv :: ms)).2.1.robot = b.robot ∧
        (b.run S nd (mv :: ms)).2.1.stage = b.stage ∧
        ((b.run S nd (mv :: ms)).2.2 = none ∨ (b.run S nd (mv :: ms)).2.2 = some .limits ∧ (b.run S nd (mv :: ms)).2.1.rt = .idle) := by
      intro b' h1 h2 h3
      obtain ⟨g1, g2, g3, g4⟩ := ih (b := b') (h2.trans hst) (by rw [h1]; exact hi)
      rw [run_cons_ok h3]
      exact ⟨by simp [g1], g2.trans h1, g3.trans h2, g4⟩
    cases mv with
    | begin j => exact same b rfl rfl (by simp [Busy.step, hst])
    | go =>
      by_cases hidle : b.rt = .idle
      · have e : b.step S nd .go = .error .limits := by
          simp [Busy.step, hst, hidle, Busy.leave, Described.write_halts (nd := nd) hi, Except.map]
        rw [run_cons_error e]
        exact ⟨rfl, rfl, rfl, Or.inr ⟨rfl, hidle⟩⟩
      · exact same (b.advance i) rfl rfl (by unfold Busy.step; simp only [hst])
    | service op =>
      cases op with
      | update t r hw => exact same b rfl rfl rfl
      | load n q => exact same { b with sys := b.sys.step stdEnv checkForConflict (.load n q) } rfl rfl rfl
      | unload n => exact same { b with sys := b.sys.step stdEnv checkForConflict (.unload n) } rfl rfl rfl
      | switch q t ok => exact same { b with sys := b.sys.step stdEnv checkForConflict (.switch q t ok) } rfl rfl rfl
      | reload f t ok => exact same { b with sys := b.sys.step stdEnv checkForConflict (.reload f t ok) } rfl rfl rfl
      | poll ok t => exact same { b with sys := b.sys.step stdEnv checkForConflict (.poll ok t) } rfl rfl rfl

/-- Left alone, it ends with a failed assertion. -/
theorem refused_ends {i : Input T} {start measured : Mem T} {b : Busy T K} (hst : b.stage = .inside i start measured)
    (hi : ¬Described.Accepts S.toArith b.robot (S.see i.period)) :
    ∃ N, (b.run S nd (List.replicate N .go)).2.2 = some .limits := by
  obtain ⟨n, hn⟩ := ThrInt.completes i.args ⟨b.sys.mgr, b.rt⟩
  induction n generalizing b with
  | zero =>
    have hidle : b.rt = .idle := congrArg Inter.St.rt hn
    refine ⟨1, ?_⟩
    have e : b.step S nd .go = .error .limits := by
      simp [Busy.step, hst, hidle, Busy.leave, Described.write_halts (nd := nd) hi, Except.map]
    rw [List.replicate, run_cons_error e]
  | succ n ih =>
    by_cases hidle : b.rt = .idle
    · refine ⟨1, ?_⟩
      have e : b.step S nd .go = .error .limits := by
        simp [Busy.step, hst, hidle, Busy.leave, Described.write_halts (nd := nd) hi, Except.map]
      rw [List.replicate, run_cons_error e]
    · have es : b.step S nd .go = .ok (b.advance i, none) := by
        unfold Busy.step
        simp only [hst]
      rw [Function.iterate_succ_apply] at hn
      rw [← Inter.complete_step ⟨b.sys.mgr, b.rt⟩ i.args hidle] at hn
      obtain ⟨N, h⟩ := ih (b := b.advance i) hst hi hn
      exact ⟨N + 1, by rw [List.replicate, run_cons_ok es]; exact h⟩

/-- A cycle whose period the limits do not accept: it begins like any other one. -/
theorem refused_begin (hb : Base stod L0 d infos L) {b : Busy T K} (hr : b.robot.loader = L) (ho : b.stage = .outside) (i : Input T) :
    ∃ b', b.step S nd (.begin i) = .ok (b', none) ∧ b'.robot = b.robot ∧ ∃ m, b'.stage = .inside i b.mem m := by
  obtain ⟨m1, e1, -⟩ := Transmission.Loader.c109_reading hb.fresh hb.noOwn hb.below hb.loaded hb.parsed hb.apart nd
    (Cycle.overwrite b.robot.sensed i.sense b.mem)
  have hread : b.robot.read nd i.sense b.mem = .ok m1 := by rw [Robot.read, hr, e1]
  have : ∃ b', b.enter nd i = .ok b' ∧ b'.robot = b.robot ∧ ∃ m, b'.stage = .inside i b.mem m := by
    unfold Busy.enter
    rw [hread]
    exact ⟨_, rfl, rfl, _, rfl⟩
  obtain ⟨b', e, h1, h2⟩ := this
  exact ⟨b', by simp only [Busy.step, ho, e, Except.map], h1, h2⟩

/-- Unhurried runs are fine. -/
theorem unhurried_fine (hS : Lawful S) (hb : Base stod L0 d infos L) (ms : List (Move T)) {b : Busy T K} (h : BusyInv S nd L b)
    (hcalm : Inter.Calm ⟨b.sys.mgr, b.rt⟩) (hin : ∀ i s m, b.stage = .inside i s m → i.restart = false)
    (hp : ∀ i, .begin i ∈ ms → Limits.dlt (some S.zero) (S.see i.period) = true)
    (hu : AllMoves S nd Unhurried b ms) : AllMoves S nd Fine b ms := by
  induction ms generalizing b with
  | nil => trivial
  | cons mv ms ih =>
    obtain ⟨h1, h2⟩ := hu
    have patient : ∀ op, mv = .service op → (∀ t r hw, op ≠ .update t r hw) →
        Inter.Patient ⟨b.sys.mgr, b.rt⟩ (.svc (op.toOp stdEnv b.sys)) := by
      rintro op rfl hs
      refine ⟨h1.1.rosUp stdEnv b.sys, fun ok el e k t hk => ?_⟩
      cases op with
      | poll ok' el' => cases e; exact h1.2.2 ok el rfl k t hk
      | update t r hw => exact absurd rfl (hs t r hw)
      | _ => cases e
    have hf : Fine b mv := by
      cases mv with
      | begin i => trivial
      | go => exact h1
      | service op =>
        refine ⟨h1.1, fun hi => ⟨h1.2.1 hi, fun hd => ?_⟩, fun ⟨u, c, l, e⟩ => absurd e (hcalm.restarting u c l)⟩
        obtain ⟨k, t, e⟩ := hcalm.switch hd
        dsimp only at e
        cases op with
        | poll ok el => exact Or.inr ⟨k, t, e, hd, h1.2.2 ok el rfl k t e⟩
        | _ => show _ ≠ _; rw [e]; simp
    obtain ⟨b', p, hs⟩ := step_ok hS hb h mv hf fun i hi => Or.inl (hp i (by simp [hi]))
    refine ⟨hf, fun b'' p'' e => ?_⟩
    rw [hs.eq] at e
    cases e
    have key : Inter.Calm ⟨b'.sys.mgr, b'.rt⟩ ∧ ∀ i s m, b'.stage = .inside i s m → i.restart = false := by
      have heq := hs.eq
      cases mv with
      | begin i =>
        cases hst : b.stage with
        | outside =>
          simp only [Busy.step, hst, Busy.enter] at heq
          split at heq
          · cases heq
          · cases heq
            exact ⟨Inter.calm_rt hcalm h1, by rintro _ _ _ ⟨⟩; exact h1⟩
        | inside i' s m =>
          simp only [Busy.step, hst] at heq
          cases heq
          exact ⟨hcalm, hin⟩
      | go =>
        cases hst : b.stage with
        | outside =>
          simp only [Busy.step, hst] at heq
          cases heq
          exact ⟨hcalm, hin⟩
        | inside i s m =>
          by_cases hidle : b.rt = .idle
          · obtain ⟨b'', p', e, hb', -, -, e3, e4, -⟩ := leave_ok hS hb h hst hidle
            have es : b.step S nd .go = .ok (b'', some p') := by simp [Busy.step, hst, hidle, e, Except.map]
            rw [es] at heq
            cases heq
            refine ⟨?_, fun i s m e => by rw [e3] at e; cases e⟩
            rw [e4, hb'.outside e3, ← hidle]
            exact hcalm
          · have es : b.step S nd .go = .ok (b.advance i, none) := by
              unfold Busy.step
              simp only [hst]
            rw [es] at heq
            cases heq
            exact ⟨Inter.calm_rt hcalm (hin i s m hst), hin⟩
      | service op =>
        by_cases hupd : ∃ t r hw, op = .update t r hw
        · obtain ⟨t, r, hw, rfl⟩ := hupd
          cases heq
          exact ⟨hcalm, hin⟩
        · push Not at hupd
          have es : b.step S nd (.service op) = .ok ({ b with sys := b.sys.step stdEnv checkForConflict op }, none) := by
            cases op with
            | update t r hw => exact absurd rfl (hupd t r hw)
            | _ => rfl
          rw [es] at heq
          cases heq
          refine ⟨?_, hin⟩
          obtain ⟨a, ha, hr⟩ := h.sim
          rw [Sys.step_mgr]
          exact Inter.calm_svc (conf := checkForConflict) (inv_of_reachable ha) hr hcalm (toOp_service hupd) (patient op rfl hupd)
    exact ih hs.inv key.1 key.2 (fun i hi => hp i (by simp [hi])) (h2 b' p hs.eq)

section

variable {joints : List (Cmd × String × UrdfJoint (Dbl K))} {r : Robot T K}

variable (hS : Lawful S) (ha : Assembled stod S.toArith L0 d infos joints r) (m : Mem T) (ms : List (Move T))
  (hf : AllMoves S nd Fine (Busy.start r m) ms)
  (hp : ∀ i, .begin i ∈ ms → Limits.dlt (some S.zero) (S.see i.period) = true)

include hS ha hf hp

theorem busy_inv : BusyInv S nd r.loader ((Busy.start r m).run S nd ms).2.1 :=
  (busy_run hS ha.toBase ms (busyInv_start rfl ha.handles.1 m) hf fun i hi => Or.inl (hp i hi)).2.1

/-- The completed cycles are a run of the hardware. -/
theorem busy_refines :
    ((Busy.start r m).run S nd ms).2.2 = none ∧
    r.run S nd (((Busy.start r m).run S nd ms).1.map Past.hardware) m = (((Busy.start r m).run S nd ms).1.map (·.record), none) ∧
    begun S nd (Busy.start r m) ms = ((Busy.start r m).run S nd ms).1.map (·.input) ++ ((Busy.start r m).run S nd ms).2.1.stage.now ∧
    (∀ x, ((Busy.start r m).run S nd ms).1[0]? = some x → x.start = m) ∧
    ∀ k x y, ((Busy.start r m).run S nd ms).1[k]? = some x → ((Busy.start r m).run S nd ms).1[k + 1]? = some y →
      y.start = x.record.sent := by
  obtain ⟨h1, -, h3, h4, h5, h6, -⟩ := busy_run hS ha.toBase ms (busyInv_start rfl ha.handles.1 m) hf fun i hi => Or.inl (hp i hi)
  exact ⟨h1, h3, h4, h5, h6⟩

omit [OfNat T 0] [OfNat T 1] [DecidableEq T] hS ha hf hp in
theorem begun_mem (ms : List (Move T)) (b : Busy T K) : ∀ i ∈ begun S nd b ms, .begin i ∈ ms := by
  induction ms generalizing b with
  | nil => intro i hi; cases hi
  | cons mv ms ih =>
    intro i hi
    unfold begun at hi
    rcases List.mem_append.1 hi with hi | hi
    · cases hst : b.stage with
      | outside =>
        cases mv with
        | begin j => rw [hst] at hi; rw [List.mem_singleton.1 hi]; simp
        | _ => rw [hst] at hi; cases hi
      | inside _ _ _ => rw [hst] at hi; cases hi
    · split at hi
      · cases hi
      · exact List.mem_cons_of_mem _ (ih _ i hi)

theorem busy_hardware :
    (∀ i ∈ ((Busy.start r m).run S nd ms).1.map Past.hardware, ∃ j, .begin j ∈ ms ∧ i.period = j.period) ∧
    (∀ (k : Nat) x, ((Busy.start r m).run S nd ms).1[k]? = some x →
      (((Busy.start r m).run S nd ms).1.map Past.hardware)[k]? = some x.hardware ∧
      (r.run S nd (((Busy.start r m).run S nd ms).1.map Past.hardware) m).1[k]? = some x.record) ∧
    ∀ (k : Nat) i rec, (((Busy.start r m).run S nd ms).1.map Past.hardware)[k]? = some i →
      (r.run S nd (((Busy.start r m).run S nd ms).1.map Past.hardware) m).1[k]? = some rec →
      ∃ x, ((Busy.start r m).run S nd ms).1[k]? = some x ∧ i = x.hardware ∧ rec = x.record := by
  obtain ⟨-, h3, h4, -⟩ := busy_refines hS ha m ms hf hp
  refine ⟨fun i hi => ?_, fun k x hx => ⟨?_, ?_⟩, fun k i rec hi hrec => ?_⟩
  · obtain ⟨x, hx, rfl⟩ := List.mem_map.1 hi
    refine ⟨x.input, begun_mem (S := S) (nd := nd) ms (Busy.start r m) _ ?_, rfl⟩
    rw [h4]
    exact List.mem_append_left _ (List.mem_map_of_mem hx)
  · rw [List.getElem?_map, hx]; rfl
  · rw [h3, List.getElem?_map, hx]; rfl
  · rw [List.getElem?_map] at hi
    obtain ⟨x, hx, rfl⟩ := Option.map_eq_some_iff.1 hi
    rw [h3, List.getElem?_map, hx] at hrec
    exact ⟨x, hx, rfl, (Option.some.inj hrec).symm⟩

end

end Verif.Whole
