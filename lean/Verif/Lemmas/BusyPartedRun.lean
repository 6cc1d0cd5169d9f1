import Verif.Lemmas.BusyParted

/-!
Runs of whole robots with a combined hardware whose services are called in the middle of cycles.
-/

namespace Verif.Parted

open Verif.Spec (ConflictFree)
open Verif.Mgr (isRunning_iff)
open Verif.Transmission (Mem Loader Cmd Doc TransInfo)
open Verif.Cycle (Record Halt overwrite)
open Verif.Described (Robot Setting Lawful Base Made Assembled)
open Verif.Whole (Input Stage Move Past Stuck)

variable {T K : Type} [Add T] [Sub T] [Mul T] [Div T] [OfNat T 0] [OfNat T 1] [OfNat T 2] [DecidableEq T] [LinearOrder K]
  {stod : String → Option T} {S : Setting T K} {nd : Bool} {rs : List (Robot T K)}

/-- At no moment do two controllers run that hold commands of joints of the same name. -/
theorem inv_one_commander {b : Team T K} (h : TeamInv stod nd rs b) {n : String} {q q' : Cmd} {c c' : CId} {k k' : Nat}
    (h1 : Holds rs b.sys c k q n) (h2 : Holds rs b.sys c' k' q' n) (hc : b.sys.mgr.state c = .running)
    (hc' : b.sys.mgr.state c' = .running) : c = c' := by
  by_contra hne
  obtain ⟨f, hinj⟩ := numbered
  obtain ⟨a', ha, hr⟩ := h.sim
  obtain ⟨m, i, hcur, hrun⟩ := Inter.rel_running checkOk_checkForConflict.mono (Mgr.inv_reachable checkOk_checkForConflict ha) hr
  obtain ⟨x, hx, rfl⟩ := List.mem_map.1 (i.running c (hrun c hc))
  obtain ⟨y, hy, rfl⟩ := List.mem_map.1 (i.running c' (hrun c' hc'))
  have hn : (b.sys.mgr.cur.map (·.info.name)).Nodup := by
    have := i.names
    rw [hcur] at this
    exact this
  exact h.mid.apart hn (interfaces_apart h.based hinj) i.free (hcur ▸ hx) (hcur ▸ hy)
    (List.mem_map_of_mem (List.mem_filter.2 ⟨hx, isRunning_iff.2 (hrun _ hc)⟩))
    (List.mem_map_of_mem (List.mem_filter.2 ⟨hy, isRunning_iff.2 (hrun _ hc')⟩)) hne
    (h1.canWrite h.based f) (h2.canWrite h.based f)

section

omit [OfNat T 0] [OfNat T 1] [DecidableEq T]

theorem run_cons_ok {mv : Move T} {ms : List (Move T)} {b b' : Team T K} {p : Option (Past T)}
    (e : b.step S nd mv = .ok (b', p)) :
    b.run S nd (mv :: ms) = (p.toList ++ (b'.run S nd ms).1, (b'.run S nd ms).2.1, (b'.run S nd ms).2.2) := by
  simp [Team.run, e]

theorem run_cons_error {mv : Move T} {ms : List (Move T)} {b : Team T K} {x : Halt} (e : b.step S nd mv = .error x) :
    b.run S nd (mv :: ms) = ([], b, some x) := by
  simp [Team.run, e]

theorem team_append (ms ms' : List (Move T)) (b : Team T K) (h : (b.run S nd ms).2.2 = none) :
    b.run S nd (ms ++ ms') = ((b.run S nd ms).1 ++ ((b.run S nd ms).2.1.run S nd ms').1, ((b.run S nd ms).2.1.run S nd ms').2.1,
      ((b.run S nd ms).2.1.run S nd ms').2.2) := by
  induction ms generalizing b with
  | nil => simp [Team.run]
  | cons mv ms ih =>
    rw [List.cons_append]
    cases e : b.step S nd mv with
    | error x => rw [run_cons_error e] at h; cases h
    | ok y =>
      obtain ⟨b', p⟩ := y
      rw [run_cons_ok e] at h
      rw [run_cons_ok e, run_cons_ok e, ih b' h, List.append_assoc]

end

theorem allMoves_append {P : Team T K → Move T → Prop} (ms ms' : List (Move T)) (b : Team T K) (h : (b.run S nd ms).2.2 = none) :
    AllMoves S nd P b (ms ++ ms') ↔ AllMoves S nd P b ms ∧ AllMoves S nd P (b.run S nd ms).2.1 ms' := by
  induction ms generalizing b with
  | nil => simp [AllMoves, Team.run]
  | cons mv ms ih =>
    rw [List.cons_append]
    cases e : b.step S nd mv with
    | error x => rw [run_cons_error e] at h; cases h
    | ok y =>
      obtain ⟨b1, p1⟩ := y
      rw [run_cons_ok e] at h
      rw [run_cons_ok e]
      have ih := ih b1 h
      constructor
      · rintro ⟨h1, h2⟩
        obtain ⟨g1, g2⟩ := ih.1 (h2 b1 p1 e)
        exact ⟨⟨h1, fun b' p hh => by rw [e] at hh; cases hh; exact g1⟩, g2⟩
      · rintro ⟨⟨h1, h2⟩, g2⟩
        exact ⟨h1, fun b' p hh => by rw [e] at hh; cases hh; exact ih.2 ⟨h2 b1 p1 e, g2⟩⟩

theorem allMoves_prefix {P : Team T K → Move T → Prop} (ms ms' : List (Move T)) (b : Team T K)
    (h : AllMoves S nd P b (ms ++ ms')) : AllMoves S nd P b ms := by
  induction ms generalizing b with
  | nil => trivial
  | cons x l ih => exact ⟨h.1, fun b' p e => ih b' (h.2 b' p e)⟩

omit [OfNat T 0] [OfNat T 1] [DecidableEq T] in
theorem step_advance {b : Team T K} {i : Input T} {s m : Mem T} (hst : b.stage = .inside i s m) (hidle : b.rt ≠ .idle) :
    b.step S nd .go = .ok (b.advance i, none) := by
  unfold Team.step
  simp only [hst]

/-- Left alone, the loop completes its cycle. -/
theorem inv_finish (hS : Lawful S) {b : Team T K} (h : TeamInv stod nd rs b) (hrd : b.Accepted S) {i : Input T}
    {start measured : Mem T} (hst : b.stage = .inside i start measured)
    (hw : ∀ c k m a, ¬b.sys.CanWrite (fun d => [d]) c a → i.act c k m a = m a) :
    ∃ N x, (b.run S nd (List.replicate N .go)).1 = [x] ∧ x.input = i ∧ (b.run S nd (List.replicate N .go)).2.1.stage = .outside ∧
      AllMoves S nd Fine b (List.replicate N .go) := by
  have last : ∀ {b : Team T K}, TeamInv stod nd rs b → b.Accepted S → b.stage = .inside i start measured →
      (∀ c k m a, ¬b.sys.CanWrite (fun d => [d]) c a → i.act c k m a = m a) → b.rt = .idle →
      ∃ N x, (b.run S nd (List.replicate N .go)).1 = [x] ∧ x.input = i ∧ (b.run S nd (List.replicate N .go)).2.1.stage = .outside ∧
        AllMoves S nd Fine b (List.replicate N .go) := by
    intro b h hrd hst hw hidle
    have hf : Fine b .go := fun i' s' m' e => by rw [hst] at e; cases e; exact hw
    obtain ⟨b'', p', e, -, -, e2, e3, -⟩ := leave_ok hS h hrd hst hidle
    have es : b.step S nd .go = .ok (b'', some p') := by simp [Team.step, hst, hidle, e, Except.map]
    refine ⟨1, p', ?_, e2, ?_, ⟨hf, fun _ _ _ => trivial⟩⟩
    · simp [Team.run, es]
    · simp [Team.run, es, e3]
  obtain ⟨n, hn⟩ := ThrInt.completes i.args ⟨b.sys.mgr, b.rt⟩
  induction n generalizing b with
  | zero => exact last h hrd hst hw (congrArg Inter.St.rt hn)
  | succ n ih =>
    by_cases hidle : b.rt = .idle
    · exact last h hrd hst hw hidle
    · have hf : Fine b .go := fun i' s' m' e => by rw [hst] at e; cases e; exact hw
      have es := step_advance (S := S) (nd := nd) hst hidle
      obtain ⟨hi, -⟩ := advance_ok h hst hw
      rw [Function.iterate_succ_apply, ← Inter.complete_step ⟨b.sys.mgr, b.rt⟩ i.args hidle] at hn
      obtain ⟨N, x, h1, h2, h3, h5⟩ := ih (b := b.advance i) hi hrd hst hw hn
      refine ⟨N + 1, x, ?_, h2, ?_, hf, fun b' p e => ?_⟩
      · rw [List.replicate, run_cons_ok es, h1]; rfl
      · rw [List.replicate, run_cons_ok es]; exact h3
      · rw [es] at e
        cases e
        exact h5

/-- A cycle whose period the limits of some part do not accept: `write` fails. -/
theorem leave_halts (hS : Lawful S) {b : Team T K} (h : TeamInv stod nd rs b) {i : Input T} {start measured : Mem T}
    (hst : b.stage = .inside i start measured) (hno : ∃ r ∈ b.robots, ¬Described.Accepts S.toArith r (S.see i.period)) :
    b.leave S nd i start measured = .error .limits := by
  have h1 := h.inside i start measured hst
  unfold Team.leave
  rw [h.length, writeAll_halts (S := S) (nd := nd) rs.length i.reset i.period b.robots 0 b.mem b.mem (by rw [h.length]; omega)
    (fun j r hj ha => ?_) hno]
  rw [Nat.zero_add]
  obtain ⟨p, hp, -⟩ := part_turn (nd := nd) (reset := i.reset) hS (h.fit r (List.mem_of_getElem? hj)) (h1 j r hj).1 (h1 j r hj).2 ha
  exact ⟨p, hp⟩

/-- Such a cycle is not completed. -/
theorem refused_run (hS : Lawful S) {i : Input T} {start measured : Mem T} (ms : List (Move T)) {b : Team T K}
    (h : TeamInv stod nd rs b) (hst : b.stage = .inside i start measured)
    (hno : ∃ r ∈ b.robots, ¬Described.Accepts S.toArith r (S.see i.period)) (hf : AllMoves S nd Fine b ms) :
    (b.run S nd ms).1 = [] ∧ (b.run S nd ms).2.1.robots = b.robots ∧ (b.run S nd ms).2.1.stage = b.stage ∧
    TeamInv stod nd rs (b.run S nd ms).2.1 ∧
    ((b.run S nd ms).2.2 = none ∨ (b.run S nd ms).2.2 = some .limits ∧ (b.run S nd ms).2.1.rt = .idle) := by
  induction ms generalizing b with
  | nil => exact ⟨rfl, rfl, rfl, h, Or.inl rfl⟩
  | cons mv ms ih =>
    obtain ⟨hf1, hf2⟩ := hf
    have same : ∀ b' : Team T K, TeamInv stod nd rs b' → b'.robots = b.robots → b'.stage = b.stage →
        b.step S nd mv = .ok (b', none) →
        (b.run S nd (mv :: ms)).1 = [] ∧ (b.run S nd (mv :: ms)).2.1.robots = b.robots ∧
        (b.run S nd (mv :: ms)).2.1.stage = b.stage ∧ TeamInv stod nd rs (b.run S nd (mv :: ms)).2.1 ∧
        ((b.run S nd (mv :: ms)).2.2 = none ∨ (b.run S nd (mv :: ms)).2.2 = some .limits ∧ (b.run S nd (mv :: ms)).2.1.rt = .idle) := by
      intro b' h0 h1 h2 h3
      obtain ⟨g1, g2, g3, g5, g4⟩ := ih h0 (h2.trans hst) (by rw [h1]; exact hno) (hf2 b' none h3)
      rw [run_cons_ok h3]
      exact ⟨by simp [g1], g2.trans h1, g3.trans h2, g5, g4⟩
    cases mv with
    | begin j => exact same b h rfl rfl (by simp [Team.step, hst])
    | go =>
      by_cases hidle : b.rt = .idle
      · have e : b.step S nd .go = .error .limits := by
          simp [Team.step, hst, hidle, leave_halts hS h hst hno, Except.map]
        rw [run_cons_error e]
        exact ⟨rfl, rfl, rfl, h, Or.inr ⟨rfl, hidle⟩⟩
      · exact same (b.advance i) (advance_ok h hst (hf1 i _ _ hst)).1 rfl rfl (step_advance hst hidle)
    | service op =>
      by_cases hu : ∃ t r hw, op = .update t r hw
      · obtain ⟨t, r, hw, rfl⟩ := hu
        exact same b h rfl rfl rfl
      · push Not at hu
        refine same { b with sys := b.sys.step stdEnv checkForConflict op } (service_ok h hu hf1.1 hf1.2) rfl rfl ?_
        cases op with
        | update t r hw => exact absurd rfl (hu t r hw)
        | _ => rfl

/-- Left alone, it ends with a failed assertion. -/
theorem refused_ends (hS : Lawful S) {i : Input T} {start measured : Mem T} {b : Team T K} (h : TeamInv stod nd rs b)
    (hst : b.stage = .inside i start measured) (hno : ∃ r ∈ b.robots, ¬Described.Accepts S.toArith r (S.see i.period))
    (hw : ∀ c k m a, ¬b.sys.CanWrite (fun d => [d]) c a → i.act c k m a = m a) :
    ∃ N, (b.run S nd (List.replicate N .go)).2.2 = some .limits := by
  have last : ∀ {b : Team T K}, TeamInv stod nd rs b → b.stage = .inside i start measured →
      (∃ r ∈ b.robots, ¬Described.Accepts S.toArith r (S.see i.period)) → b.rt = .idle →
      ∃ N, (b.run S nd (List.replicate N .go)).2.2 = some .limits := by
    intro b h hst hno hidle
    refine ⟨1, ?_⟩
    have e : b.step S nd .go = .error .limits := by
      simp [Team.step, hst, hidle, leave_halts hS h hst hno, Except.map]
    rw [List.replicate, run_cons_error e]
  obtain ⟨n, hn⟩ := ThrInt.completes i.args ⟨b.sys.mgr, b.rt⟩
  induction n generalizing b with
  | zero => exact last h hst hno (congrArg Inter.St.rt hn)
  | succ n ih =>
    by_cases hidle : b.rt = .idle
    · exact last h hst hno hidle
    · have es := step_advance (S := S) (nd := nd) hst hidle
      rw [Function.iterate_succ_apply, ← Inter.complete_step ⟨b.sys.mgr, b.rt⟩ i.args hidle] at hn
      obtain ⟨N, hN⟩ := ih (b := b.advance i) (advance_ok h hst hw).1 hst hno hw hn
      exact ⟨N + 1, by rw [List.replicate, run_cons_ok es]; exact hN⟩

/-- Unhurried runs are fine. -/
theorem unhurried_fine (hS : Lawful S) (ms : List (Move T)) {b : Team T K} (h : TeamInv stod nd rs b) (hrd : b.Accepted S)
    (hcalm : Inter.Calm ⟨b.sys.mgr, b.rt⟩) (hin : ∀ i s m, b.stage = .inside i s m → i.restart = false)
    (hp : ∀ i, .begin i ∈ ms → Limits.dlt (some S.zero) (S.see i.period) = true)
    (hu : AllMoves S nd Unhurried b ms) : AllMoves S nd Fine b ms := by
  induction ms generalizing b with
  | nil => trivial
  | cons mv ms ih =>
    obtain ⟨h1, h2⟩ := hu
    have patient : ∀ op, mv = .service op → (∀ t r hw, op ≠ .update t r hw) →
        Inter.Patient ⟨b.sys.mgr, b.rt⟩ (.svc (op.toOp stdEnv b.sys)) := by
      rintro op rfl hs
      refine ⟨h1.1.rosUp stdEnv b.sys, fun ok el e k t hk => ?_⟩
      cases op with
      | poll ok' el' => cases e; exact h1.2.2 ok el rfl k t hk
      | update t r hw => exact absurd rfl (hs t r hw)
      | _ => cases e
    have hf : Fine b mv := by
      cases mv with
      | begin i => trivial
      | go => exact h1
      | service op =>
        refine ⟨h1.1, fun hi => ⟨h1.2.1 hi, fun hd => ?_⟩, fun ⟨u, c, l, e⟩ => absurd e (hcalm.restarting u c l)⟩
        obtain ⟨k, t, e⟩ := hcalm.switch hd
        dsimp only at e
        cases op with
        | poll ok el => exact Or.inr ⟨k, t, e, hd, h1.2.2 ok el rfl k t e⟩
        | _ => show _ ≠ _; rw [e]; simp
    obtain ⟨b', p, hs⟩ := step_ok hS h hrd mv hf fun i hi r _ => Or.inl (hp i (by simp [hi]))
    refine ⟨hf, fun b'' p'' e => ?_⟩
    rw [hs.eq] at e
    cases e
    have key : Inter.Calm ⟨b'.sys.mgr, b'.rt⟩ ∧ ∀ i s m, b'.stage = .inside i s m → i.restart = false := by
      have heq := hs.eq
      cases mv with
      | begin i =>
        cases hst : b.stage with
        | outside =>
          simp only [Team.step, hst, Team.enter] at heq
          split at heq
          · cases heq
          · cases heq
            exact ⟨Inter.calm_rt hcalm h1, by rintro _ _ _ ⟨⟩; exact h1⟩
        | inside i' s m =>
          simp only [Team.step, hst] at heq
          cases heq
          exact ⟨hcalm, hin⟩
      | go =>
        cases hst : b.stage with
        | outside =>
          simp only [Team.step, hst] at heq
          cases heq
          exact ⟨hcalm, hin⟩
        | inside i s m =>
          by_cases hidle : b.rt = .idle
          · obtain ⟨b'', p', e, hb', -, -, e3, e4, -⟩ := leave_ok hS h hrd hst hidle
            have es : b.step S nd .go = .ok (b'', some p') := by simp [Team.step, hst, hidle, e, Except.map]
            rw [es] at heq
            cases heq
            refine ⟨?_, fun i s m e => by rw [e3] at e; cases e⟩
            rw [e4, hb'.outside e3, ← hidle]
            exact hcalm
          · rw [step_advance hst hidle] at heq
            cases heq
            exact ⟨Inter.calm_rt hcalm (hin i s m hst), hin⟩
      | service op =>
        by_cases hupd : ∃ t r hw, op = .update t r hw
        · obtain ⟨t, r, hw, rfl⟩ := hupd
          cases heq
          exact ⟨hcalm, hin⟩
        · push Not at hupd
          have es : b.step S nd (.service op) = .ok ({ b with sys := b.sys.step stdEnv checkForConflict op }, none) := by
            cases op with
            | update t r hw => exact absurd rfl (hupd t r hw)
            | _ => rfl
          rw [es] at heq
          cases heq
          refine ⟨?_, hin⟩
          obtain ⟨a, ha, hr⟩ := h.sim
          rw [Sys.step_mgr]
          exact Inter.calm_svc (conf := checkForConflict) (Mgr.inv_of_reachable ha) hr hcalm (toOp_service hupd) (patient op rfl hupd)
    exact ih hs.inv hs.accepted key.1 key.2 (fun i hi => hp i (by simp [hi])) (h2 b' p hs.eq)

theorem begun_mem (ms : List (Move T)) (b : Team T K) : ∀ i ∈ begun S nd b ms, .begin i ∈ ms := by
  induction ms generalizing b with
  | nil => intro i hi; cases hi
  | cons mv ms ih =>
    intro i hi
    unfold begun at hi
    rcases List.mem_append.1 hi with hi | hi
    · cases hst : b.stage with
      | outside =>
        cases mv with
        | begin j => rw [hst] at hi; rw [List.mem_singleton.1 hi]; simp
        | _ => rw [hst] at hi; cases hi
      | inside _ _ _ => rw [hst] at hi; cases hi
    · split at hi
      · cases hi
      · exact List.mem_cons_of_mem _ (ih _ i hi)

end Verif.Parted
