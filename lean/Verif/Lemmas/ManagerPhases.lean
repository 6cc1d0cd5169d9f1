import Verif.Model.Manager
import Mathlib.Data.List.Basic
import Mathlib.Data.List.Nodup
import Mathlib.Tactic.Tauto

/-!
Helper lemmas for the manager: what each phase of a realtime update does, in closed form.
-/

namespace Verif

namespace Mgr

/-- Result of making callbacks: new controller states and further events. -/
def upd (m : Mgr) (st : CId → CState) (es : List Event) : Mgr :=
  { m with state := st, trace := m.trace ++ es }

theorem upd_self (m : Mgr) : m.upd m.state [] = m := by
  simp [upd]

@[simp] theorem upd_upd (m : Mgr) (st st' : CId → CState) (es es' : List Event) :
    (m.upd st es).upd st' es' = m.upd st' (es ++ es') := by
  simp [upd]

@[simp] theorem upd_state (m : Mgr) (st es) : (m.upd st es).state = st := rfl
@[simp] theorem upd_trace (m : Mgr) (st es) : (m.upd st es).trace = m.trace ++ es := rfl
@[simp] theorem upd_cur (m : Mgr) (st es) : (m.upd st es).cur = m.cur := rfl
@[simp] theorem upd_oth (m : Mgr) (st es) : (m.upd st es).oth = m.oth := rfl
@[simp] theorem upd_params (m : Mgr) (st es) : (m.upd st es).params = m.params := rfl
@[simp] theorem upd_startReq (m : Mgr) (st es) : (m.upd st es).startReq = m.startReq := rfl
@[simp] theorem upd_stopReq (m : Mgr) (st es) : (m.upd st es).stopReq = m.stopReq := rfl
@[simp] theorem upd_alive (m : Mgr) (st es c) : (m.upd st es).alive c = m.alive c := rfl
@[simp] theorem upd_isRunning (m : Mgr) (st es c) : (m.upd st es).isRunning c = (st c).isRunning := rfl

theorem req_alive {m : Mgr} {c : CId} (h : m.alive c = true) (r : Request) :
    m.req r c = m.upd (fun x => if x = c then (r.run (m.state c)).state else m.state x)
      ((r.run (m.state c)).calls.map (.cb c)) := by
  simp [req, h, upd]

theorem alive_of_mem {m : Mgr} {s : CtrlSpec} (h : s ∈ m.cur) : m.alive s.c = true := by
  simp only [alive, List.any_eq_true]
  exact ⟨s, List.mem_append_left _ h, by simp⟩

/-- A request that from every initialised state makes one callback `k` and ends in `target`. -/
structure OneShot (r : Request) (k : Callback) (target : CState) : Prop where
  run : ∀ s, s ≠ .constructed → r.run s = ⟨target, true, [k]⟩
  target : target ≠ .constructed

theorem oneShot_start : OneShot .start .starting .running :=
  ⟨fun s h => by simp [Request.run, startRequest, h], by simp⟩
theorem oneShot_stop : OneShot .stop .stopping .stopped :=
  ⟨fun s h => by simp [Request.run, stopRequest, h], by simp⟩
theorem oneShot_wait : OneShot .wait .waiting .waiting :=
  ⟨fun s h => by simp [Request.run, waitRequest, h], by simp⟩
theorem oneShot_abort : OneShot .abort .aborting .aborted :=
  ⟨fun s h => by simp [Request.run, abortRequest, h], by simp⟩

theorem req_oneShot {r : Request} {k : Callback} {target : CState} (o : OneShot r k target)
    {m : Mgr} {c : CId} (h : m.alive c = true) (hc : m.state c ≠ .constructed) :
    m.req r c = m.upd (fun x => if x = c then target else m.state x) [.cb c k] := by
  rw [req_alive h, o.run _ hc]; rfl

/-- A loop making the same request on every element of a list. -/
theorem foldl_oneShot {r : Request} {k : Callback} {target : CState} (o : OneShot r k target)
    (cs : List CId) (m : Mgr) (ha : ∀ c ∈ cs, m.alive c = true)
    (hc : ∀ c ∈ cs, m.state c ≠ .constructed) :
    cs.foldl (fun m c => m.req r c) m =
      m.upd (fun x => if x ∈ cs then target else m.state x) (cs.map (.cb · k)) := by
  induction cs generalizing m with
  | nil => simp [upd]
  | cons c cs ih =>
    rw [List.foldl_cons, req_oneShot o (ha c (by simp)) (hc c (by simp)), ih]
    · rw [upd_upd]
      congr 1
      funext x
      by_cases h1 : x ∈ cs
      · simp [h1]
      · by_cases h2 : x = c <;> simp [h1, h2]
    · intro x hx; exact ha x (by simp [hx])
    · intro x hx
      simp only [upd_state]
      split
      · exact o.target
      · exact hc x (by simp [hx])

/-- Requests made by `stopControllers`: stop events of the running controllers of the list, one
each, in order of first occurrence. -/
def stopEvents (running : CId → Bool) : List CId → List Event
  | [] => []
  | c :: cs =>
    if running c then .cb c .stopping :: stopEvents (fun x => x ≠ c && running x) cs
    else stopEvents running cs

theorem stopEvents_congr {f g : CId → Bool} (cs : List CId) (h : ∀ x ∈ cs, f x = g x) :
    stopEvents f cs = stopEvents g cs := by
  induction cs generalizing f g with
  | nil => rfl
  | cons c cs ih =>
    simp only [stopEvents]
    rw [h c (by simp)]
    split
    · rw [ih]; intro x hx; rw [h x (by simp [hx])]
    · exact ih fun x hx => h x (by simp [hx])

theorem mem_stopEvents {running : CId → Bool} {cs : List CId} {e : Event} :
    e ∈ stopEvents running cs ↔ ∃ c ∈ cs, running c = true ∧ e = .cb c .stopping := by
  induction cs generalizing running with
  | nil => simp [stopEvents]
  | cons c cs ih =>
    simp only [stopEvents]
    split
    · rename_i hr
      rw [List.mem_cons, ih]
      constructor
      · rintro (rfl | ⟨x, hx, hx', rfl⟩)
        · exact ⟨c, by simp, hr, rfl⟩
        · simp only [Bool.and_eq_true] at hx'
          exact ⟨x, by simp [hx], hx'.2, rfl⟩
      · rintro ⟨x, hx, hx', rfl⟩
        by_cases h : x = c
        · subst h; exact Or.inl rfl
        · right
          refine ⟨x, ?_, by simp [h, hx'], rfl⟩
          simpa [h] using hx
    · rename_i hr
      rw [ih]
      constructor
      · rintro ⟨x, hx, hx', rfl⟩; exact ⟨x, by simp [hx], hx', rfl⟩
      · rintro ⟨x, hx, hx', rfl⟩
        refine ⟨x, ?_, hx', rfl⟩
        rcases List.mem_cons.1 hx with rfl | hx
        · exact absurd hx' hr
        · exact hx

theorem nodup_stopEvents (running : CId → Bool) (cs : List CId) :
    (stopEvents running cs).Nodup := by
  induction cs generalizing running with
  | nil => simp [stopEvents]
  | cons c cs ih =>
    simp only [stopEvents]
    split
    · rw [List.nodup_cons]
      refine ⟨?_, ih _⟩
      rw [mem_stopEvents]
      rintro ⟨x, _, hx, he⟩
      cases he
      simp at hx
    · exact ih _

theorem foldl_stop (cs : List CId) (m : Mgr) (ha : ∀ c ∈ cs, m.alive c = true) :
    cs.foldl (fun m c => if m.isRunning c then m.req .stop c else m) m =
      m.upd (fun x => if x ∈ cs ∧ m.state x = .running then .stopped else m.state x)
        (stopEvents m.isRunning cs) := by
  induction cs generalizing m with
  | nil => simp [upd, stopEvents]
  | cons c cs ih =>
    rw [List.foldl_cons]
    by_cases hr : m.isRunning c = true
    · have hrun : m.state c = .running := by simpa [isRunning, CState.isRunning] using hr
      rw [if_pos hr, req_oneShot oneShot_stop (ha c (by simp)) (by simp [hrun]), ih]
      · rw [upd_upd]
        congr 1
        · funext x
          simp only [upd_state]
          by_cases h2 : x = c
          · subst h2; simp [hrun]
          · simp [h2]
        · simp only [stopEvents, hr, if_true, List.singleton_append, List.cons.injEq, true_and]
          apply stopEvents_congr
          intro x _
          simp only [upd_isRunning]
          by_cases h2 : x = c
          · subst h2; simp [CState.isRunning]
          · simp [h2, isRunning]
      · intro x hx; exact ha x (by simp [hx])
    · rw [if_neg hr, ih]
      · congr 1
        · funext x
          by_cases h2 : x = c
          · subst h2
            have : m.state x ≠ .running := by simpa [isRunning, CState.isRunning] using hr
            simp [this]
          · simp [h2]
        · simp [stopEvents, hr]
      · intro x hx; exact ha x (by simp [hx])

theorem stopControllers_eq (m : Mgr) (ha : ∀ c ∈ m.stopReq, m.alive c = true) :
    m.stopControllers =
      m.upd (fun x => if x ∈ m.stopReq ∧ m.state x = .running then .stopped else m.state x)
        (stopEvents m.isRunning m.stopReq) :=
  foldl_stop _ _ ha

/-- Events of a restart of the running controllers. -/
def resetEvents (m : Mgr) : List Event :=
  (m.cur.filter fun s => m.isRunning s.c).flatMap fun s => [.cb s.c .stopping, .cb s.c .starting]

theorem foldl_reset (l : List CtrlSpec) (m : Mgr) (ha : ∀ s ∈ l, m.alive s.c = true) :
    l.foldl (fun m s => if m.isRunning s.c then (m.req .stop s.c).req .start s.c else m) m =
      m.upd m.state ((l.filter fun s => m.isRunning s.c).flatMap
        fun s => [.cb s.c .stopping, .cb s.c .starting]) := by
  induction l generalizing m with
  | nil => simp [upd]
  | cons s l ih =>
    rw [List.foldl_cons]
    by_cases hr : m.isRunning s.c = true
    · have hrun : m.state s.c = .running := by simpa [isRunning, CState.isRunning] using hr
      have ha' := ha s (by simp)
      rw [if_pos hr, req_oneShot oneShot_stop ha' (by simp [hrun]),
        req_oneShot oneShot_start (by simpa using ha') (by simp), upd_upd]
      have hst : (fun x => if x = s.c then CState.running else
          (m.upd (fun x => if x = s.c then CState.stopped else m.state x)
            [.cb s.c .stopping]).state x) = m.state := by
        funext x
        by_cases h2 : x = s.c
        · subst h2; simp [hrun]
        · simp [h2]
      rw [hst, ih _ (fun t ht => by simpa using ha t (by simp [ht])), upd_upd]
      congr 1
      have hf : (s :: l).filter (fun s => m.isRunning s.c) = s :: l.filter fun s => m.isRunning s.c := by
        simp [hr]
      rw [hf]
      simp [isRunning]
    · rw [if_neg hr, ih _ (fun t ht => ha t (by simp [ht]))]
      simp [hr]

theorem resetControllers_eq (m : Mgr) : m.resetControllers = m.upd m.state m.resetEvents :=
  foldl_reset m.cur m fun _ h => alive_of_mem h

/-- Events of the update of all controllers. -/
def updateEvents (m : Mgr) : List Event :=
  (m.cur.filter fun s => m.isRunning s.c).map fun s => .cb s.c .update

theorem foldl_update (l : List CtrlSpec) (m : Mgr) (ha : ∀ s ∈ l, m.alive s.c = true) :
    l.foldl (fun m s => m.req .update s.c) m =
      m.upd m.state ((l.filter fun s => m.isRunning s.c).map fun s => .cb s.c .update) := by
  induction l generalizing m with
  | nil => simp [upd]
  | cons s l ih =>
    rw [List.foldl_cons, req_alive (ha s (by simp))]
    have hst : (fun x => if x = s.c then (Request.run .update (m.state s.c)).state else m.state x) =
        m.state := by
      funext x
      by_cases h2 : x = s.c
      · subst h2; simp only [if_true, Request.run, updateRequest]; split <;> rfl
      · simp [h2]
    rw [hst, ih _ (fun t ht => by simpa using ha t (by simp [ht])), upd_upd]
    congr 1
    by_cases hr : m.isRunning s.c = true
    · have hrun : m.state s.c = .running := by simpa [isRunning, CState.isRunning] using hr
      simp [isRunning, hrun, Request.run, updateRequest, CState.isRunning]
    · have hrun : m.state s.c ≠ .running := by simpa [isRunning, CState.isRunning] using hr
      simp [isRunning, hrun, Request.run, updateRequest, CState.isRunning]

theorem updateControllers_eq (m : Mgr) : m.updateControllers = m.upd m.state m.updateEvents :=
  foldl_update m.cur m fun _ h => alive_of_mem h

/-! ### Starting as soon as possible -/

/-- What the inner loop decides for a controller. -/
def asapDecision (m : Mgr) (n : Nat) (time : Int) (hw : HwReply) (s : CtrlSpec) : Callback × CState :=
  if (hw.per n s.info).1 = .done then (.starting, .running)
  else if (hw.per n s.info).2 = .error || timedOut m.params time then (.aborting, .aborted)
  else (.waiting, .waiting)

/-- The starting loop on controller states only: final states and events. -/
def asapPure (m : Mgr) (time : Int) (hw : HwReply) :
    Nat → List CId → (CId → CState) → (CId → CState) × List Event
  | _, [], st => (st, [])
  | n, c :: cs, st =>
    if (st c).isRunning then asapPure m time hw (n + 1) cs st
    else
      match m.cur.find? fun s => s.c = c with
      | none => asapPure m time hw (n + 1) cs st
      | some s =>
        let d := m.asapDecision n time hw s
        let r := asapPure m time hw (n + 1) cs (fun x => if x = c then d.2 else st x)
        (r.1, .cb c d.1 :: r.2)

theorem asapPure_upd (m : Mgr) (time : Int) (hw : HwReply) (st' : CId → CState) (es : List Event)
    (n : Nat) (cs : List CId) (st : CId → CState) :
    asapPure (m.upd st' es) time hw n cs st = asapPure m time hw n cs st := by
  induction cs generalizing n st with
  | nil => rfl
  | cons c cs ih => simp only [asapPure, ih]; rfl

theorem find_obj {l : List CtrlSpec} (hn : (l.map (·.c)).Nodup) {s : CtrlSpec} (hs : s ∈ l) :
    (l.find? fun t => t.c = s.c) = some s := by
  cases h : l.find? fun t => t.c = s.c with
  | none =>
    have := List.find?_eq_none.1 h s hs
    simp at this
  | some t =>
    have h1 := List.mem_of_find?_eq_some h
    have h2 := List.find?_some h
    simp only [decide_eq_true_eq] at h2
    rw [List.inj_on_of_nodup_map hn h1 hs h2]

theorem asapEntry_self {m : Mgr} {s : CtrlSpec} (n : Nat) (time : Int) (hw : HwReply)
    (ha : m.alive s.c = true) (hc : m.state s.c ≠ .constructed) :
    asapEntry n s.c time hw m s =
      m.upd (fun x => if x = s.c then (m.asapDecision n time hw s).2 else m.state x)
        [.cb s.c (m.asapDecision n time hw s).1] := by
  unfold asapEntry asapDecision
  simp only [if_true]
  split
  · rw [req_oneShot oneShot_start ha hc]
  · split
    · rw [req_oneShot oneShot_abort ha hc]
    · rw [req_oneShot oneShot_wait ha hc]

theorem foldl_asapEntry_absent (l : List CtrlSpec) (n : Nat) (c : CId) (time : Int) (hw : HwReply)
    (m : Mgr) (h : c ∉ l.map (·.c)) : l.foldl (asapEntry n c time hw) m = m := by
  induction l generalizing m with
  | nil => rfl
  | cons s l ih =>
    simp only [List.map_cons, List.mem_cons, not_or] at h
    rw [List.foldl_cons]
    have : asapEntry n c time hw m s = m := by simp [asapEntry, h.1]
    rw [this, ih _ h.2]

theorem foldl_asapEntry (l : List CtrlSpec) (hn : (l.map (·.c)).Nodup) (n : Nat) (s : CtrlSpec)
    (hs : s ∈ l) (time : Int) (hw : HwReply) (m : Mgr)
    (ha : m.alive s.c = true) (hc : m.state s.c ≠ .constructed) :
    l.foldl (asapEntry n s.c time hw) m =
      m.upd (fun x => if x = s.c then (m.asapDecision n time hw s).2 else m.state x)
        [.cb s.c (m.asapDecision n time hw s).1] := by
  induction l generalizing m with
  | nil => simp at hs
  | cons t l ih =>
    simp only [List.map_cons, List.nodup_cons] at hn
    rw [List.foldl_cons]
    rcases List.mem_cons.1 hs with rfl | hs
    · rw [asapEntry_self n time hw ha hc, foldl_asapEntry_absent _ _ _ _ _ _ hn.1]
    · have hne : s.c ≠ t.c := by
        intro h; exact hn.1 (h ▸ List.mem_map_of_mem (f := (·.c)) hs)
      have : asapEntry n s.c time hw m t = m := by simp [asapEntry, hne]
      rw [this]; exact ih hn.2 hs _ ha hc

/-- The hardware, asked for the controller `c` at its position in the list `cs` (counted from
`n`), gave an answer satisfying `p`. -/
def AsapCause (m : Mgr) (n : Nat) (cs : List CId) (hw : HwReply) (c : CId)
    (p : SwitchState × SwitchState → Prop) : Prop :=
  ∃ i s, cs[i]? = some c ∧ s ∈ m.cur ∧ s.c = c ∧ p (hw.per (n + i) s.info)

theorem AsapCause.cons {m : Mgr} {n : Nat} {cs : List CId} {hw : HwReply} {c : CId}
    {p : SwitchState × SwitchState → Prop} (h : AsapCause m (n + 1) cs hw c p) (x : CId) :
    AsapCause m n (x :: cs) hw c p := by
  obtain ⟨i, s, h1, h2, h3, h4⟩ := h
  refine ⟨i + 1, s, by simpa using h1, h2, h3, ?_⟩
  have : n + (i + 1) = n + 1 + i := by omega
  rw [this]; exact h4

theorem AsapCause.head {m : Mgr} {n : Nat} {cs : List CId} {hw : HwReply}
    {p : SwitchState × SwitchState → Prop} {s : CtrlSpec} (hs : s ∈ m.cur)
    (h : p (hw.per n s.info)) : AsapCause m n (s.c :: cs) hw s.c p :=
  ⟨0, s, by simp, hs, rfl, by simpa using h⟩

/-- Why the inner loop may abort a controller. -/
def abortReply (m : Mgr) (time : Int) (a : SwitchState × SwitchState) : Prop :=
  a.1 ≠ .done ∧ (a.2 = .error ∨ timedOut m.params time = true)

/-- Why the inner loop may let a controller wait. -/
def waitReply (m : Mgr) (time : Int) (a : SwitchState × SwitchState) : Prop :=
  a.1 ≠ .done ∧ a.2 ≠ .error ∧ timedOut m.params time = false

/-- Everything the later proofs need about `asapLoop`. -/
structure AsapOut (m : Mgr) (n : Nat) (cs : List CId) (time : Int) (hw : HwReply)
    (st : CId → CState) (es : List Event) : Prop where
  outside : ∀ x, x ∉ cs → st x = m.state x
  running : ∀ x, m.state x = .running → st x = .running
  inside : ∀ x ∈ cs, m.state x ≠ .running → st x = .running ∨ st x = .aborted ∨ st x = .waiting
  aborted : ∀ x ∈ cs, m.state x ≠ .running → st x = .aborted →
    AsapCause m n cs hw x (m.abortReply time) ∧ .cb x .aborting ∈ es
  waiting : ∀ x ∈ cs, m.state x ≠ .running → st x = .waiting →
    AsapCause m n cs hw x (m.waitReply time)
  events : ∀ e ∈ es, ∃ c ∈ cs, m.state c ≠ .running ∧
    ((e = .cb c .starting ∧ AsapCause m n cs hw c fun a => a.1 = .done) ∨
     (e = .cb c .aborting ∧ AsapCause m n cs hw c (m.abortReply time)) ∨ e = .cb c .waiting)
  started : ∀ x ∈ cs, m.state x ≠ .running → st x = .running → .cb x .starting ∈ es

theorem asapLoop_out (time : Int) (hw : HwReply) (n : Nat) (cs : List CId) (m : Mgr)
    (hn : (m.cur.map (·.c)).Nodup) (hmem : ∀ c ∈ cs, c ∈ m.cur.map (·.c))
    (hc : ∀ c ∈ cs, m.state c ≠ .constructed) :
    ∃ st es, asapPure m time hw n cs m.state = (st, es) ∧
      asapLoop time hw n cs m = m.upd st es ∧ AsapOut m n cs time hw st es := by
  induction cs generalizing m n with
  | nil =>
    exact ⟨m.state, [], rfl, by simp [asapLoop, upd], by constructor <;> simp⟩
  | cons c cs ih =>
    simp only [asapLoop]
    by_cases hr : m.isRunning c = true
    · have hrun : m.state c = .running := by simpa [isRunning, CState.isRunning] using hr
      simp only [hr, Bool.not_true, Bool.false_eq_true, if_false]
      obtain ⟨st, es, h0, h1, h2⟩ := ih (n + 1) m hn (fun x hx => hmem x (by simp [hx]))
        (fun x hx => hc x (by simp [hx]))
      refine ⟨st, es, ?_, h1, ?_⟩
      · have hr' : (m.state c).isRunning = true := hr
        simp only [asapPure, hr', if_true, h0]
      constructor
      · intro x hx; simp only [List.mem_cons, not_or] at hx; exact h2.outside x hx.2
      · exact h2.running
      · intro x hx hx'
        rcases List.mem_cons.1 hx with rfl | hx
        · exact absurd hrun hx'
        · exact h2.inside x hx hx'
      · intro x hx hx'
        rcases List.mem_cons.1 hx with rfl | hx
        · exact absurd hrun hx'
        · intro hab; obtain ⟨h3, h4⟩ := h2.aborted x hx hx' hab; exact ⟨h3.cons c, h4⟩
      · intro x hx hx'
        rcases List.mem_cons.1 hx with rfl | hx
        · exact absurd hrun hx'
        · intro hab; exact (h2.waiting x hx hx' hab).cons c
      · intro e he
        obtain ⟨x, hx, hx', h⟩ := h2.events e he
        refine ⟨x, by simp [hx], hx', ?_⟩
        rcases h with ⟨h, h3⟩ | ⟨h, h3⟩ | h
        · exact Or.inl ⟨h, h3.cons c⟩
        · exact Or.inr (Or.inl ⟨h, h3.cons c⟩)
        · exact Or.inr (Or.inr h)
      · intro x hx hx'
        rcases List.mem_cons.1 hx with rfl | hx
        · exact absurd hrun hx'
        · exact h2.started x hx hx'
    · have hnr : m.state c ≠ .running := by simpa [isRunning, CState.isRunning] using hr
      simp only [hr, Bool.not_false, if_true]
      obtain ⟨s, hs, rfl⟩ := List.mem_map.1 (hmem c (by simp))
      rw [foldl_asapEntry m.cur hn n s hs time hw m (alive_of_mem hs) (hc _ (by simp))]
      set d := m.asapDecision n time hw s with hd
      have hd2 : d.2 ≠ .constructed := by
        rw [hd]; unfold asapDecision; split
        · simp
        · split <;> simp
      obtain ⟨st, es, h0, h1, h2⟩ := ih (n + 1)
        (m.upd (fun x => if x = s.c then d.2 else m.state x) [.cb s.c d.1]) hn
        (fun x hx => hmem x (by simp [hx]))
        (fun x hx => by
          simp only [upd_state]; split
          · exact hd2
          · exact hc x (by simp [hx]))
      refine ⟨st, .cb s.c d.1 :: es, ?_, by rw [h1]; simp, ?_⟩
      · have hr' : ¬ (m.state s.c).isRunning = true := hr
        rw [asapPure_upd] at h0
        simp only [upd_state] at h0
        simp only [asapPure, hr', if_false, find_obj hn hs, ← hd, h0, Bool.false_eq_true]
      have hdr : ∀ x, m.state x ≠ .running → x ≠ s.c →
          (m.upd (fun x => if x = s.c then d.2 else m.state x) [.cb s.c d.1]).state x ≠ .running := by
        intro x hx hne; simpa [hne] using hx
      -- the decision with its reason
      have dec : (d = (.starting, .running) ∧ (hw.per n s.info).1 = .done) ∨
          (d = (.aborting, .aborted) ∧ (hw.per n s.info).1 ≠ .done ∧
            ((hw.per n s.info).2 = .error ∨ timedOut m.params time = true)) ∨
          (d = (.waiting, .waiting) ∧ (hw.per n s.info).1 ≠ .done ∧
            (hw.per n s.info).2 ≠ .error ∧ timedOut m.params time = false) := by
        rw [hd]; unfold asapDecision
        split
        · left; simp [*]
        · rename_i h0
          split
          · rename_i h3
            right; left
            refine ⟨rfl, h0, ?_⟩
            simpa using h3
          · rename_i h3
            right; right
            simp only [Bool.or_eq_true, decide_eq_true_eq, not_or, Bool.not_eq_true] at h3
            exact ⟨rfl, h0, h3.1, h3.2⟩
      constructor
      · intro x hx
        simp only [List.mem_cons, not_or] at hx
        rw [h2.outside x hx.2]; simp [hx.1]
      · intro x hx
        apply h2.running
        have : x ≠ s.c := by rintro rfl; exact hnr hx
        simpa [this] using hx
      · intro x hx hx'
        by_cases hxs : x = s.c
        · subst hxs
          by_cases hxc : s.c ∈ cs
          · by_cases hdrun : d.2 = .running
            · left; apply h2.running; simpa using hdrun
            · exact h2.inside _ hxc (by simpa using hdrun)
          · rw [h2.outside _ hxc]
            simp only [upd_state, if_true]
            rcases dec with ⟨h, _⟩ | ⟨h, _⟩ | ⟨h, _⟩ <;> simp [h]
        · have hxc : x ∈ cs := by simpa [hxs] using hx
          exact h2.inside x hxc (hdr x hx' hxs)
      · intro x hx hx' hab
        by_cases hxs : x = s.c
        · subst hxs
          by_cases hxc : s.c ∈ cs
          · by_cases hdrun : d.2 = .running
            · have := h2.running s.c (by simpa using hdrun)
              rw [this] at hab; cases hab
            · obtain ⟨h3, h4⟩ := h2.aborted _ hxc (by simpa using hdrun) hab
              exact ⟨AsapCause.cons (m := m) h3 _, List.mem_cons_of_mem _ h4⟩
          · rw [h2.outside _ hxc] at hab
            simp only [upd_state, if_true] at hab
            rcases dec with ⟨h, _⟩ | ⟨h, h3⟩ | ⟨h, _⟩
            · rw [h] at hab; cases hab
            · exact ⟨AsapCause.head hs h3, by simp [h]⟩
            · rw [h] at hab; cases hab
        · have hxc : x ∈ cs := by simpa [hxs] using hx
          obtain ⟨h3, h4⟩ := h2.aborted x hxc (hdr x hx' hxs) hab
          exact ⟨AsapCause.cons (m := m) h3 _, List.mem_cons_of_mem _ h4⟩
      · intro x hx hx' hab
        by_cases hxs : x = s.c
        · subst hxs
          by_cases hxc : s.c ∈ cs
          · by_cases hdrun : d.2 = .running
            · have := h2.running s.c (by simpa using hdrun)
              rw [this] at hab; cases hab
            · exact AsapCause.cons (m := m) (h2.waiting _ hxc (by simpa using hdrun) hab) _
          · rw [h2.outside _ hxc] at hab
            simp only [upd_state, if_true] at hab
            rcases dec with ⟨h, _⟩ | ⟨h, h3⟩ | ⟨h, h3⟩
            · rw [h] at hab; cases hab
            · rw [h] at hab; cases hab
            · exact AsapCause.head hs h3
        · have hxc : x ∈ cs := by simpa [hxs] using hx
          exact AsapCause.cons (m := m) (h2.waiting x hxc (hdr x hx' hxs) hab) _
      · intro e he
        rcases List.mem_cons.1 he with rfl | he
        · refine ⟨s.c, by simp, hnr, ?_⟩
          rcases dec with ⟨h, h3⟩ | ⟨h, h3⟩ | ⟨h, _⟩
          · left; exact ⟨by rw [h], AsapCause.head hs h3⟩
          · right; left; exact ⟨by rw [h], AsapCause.head hs h3⟩
          · right; right; rw [h]
        · obtain ⟨x, hx, hx', h⟩ := h2.events e he
          refine ⟨x, by simp [hx], ?_, ?_⟩
          · by_cases hxs : x = s.c
            · subst hxs; exact hnr
            · simpa [hxs] using hx'
          · rcases h with ⟨h, h3⟩ | ⟨h, h3⟩ | h
            · exact Or.inl ⟨h, AsapCause.cons (m := m) (p := fun a => a.1 = .done) h3 _⟩
            · exact Or.inr (Or.inl ⟨h, AsapCause.cons (m := m) h3 _⟩)
            · exact Or.inr (Or.inr h)
      · intro x hx hx' hrn
        by_cases hxs : x = s.c
        · subst hxs
          by_cases hdrun : d.2 = .running
          · rcases dec with ⟨h, _⟩ | ⟨h, _⟩ | ⟨h, _⟩
            · simp [h]
            · rw [h] at hdrun; cases hdrun
            · rw [h] at hdrun; cases hdrun
          · by_cases hxc : s.c ∈ cs
            · exact List.mem_cons_of_mem _ (h2.started _ hxc (by simpa using hdrun) hrn)
            · rw [h2.outside _ hxc] at hrn
              simp only [upd_state, if_true] at hrn
              exact absurd hrn hdrun
        · have hxc : x ∈ cs := by simpa [hxs] using hx
          exact List.mem_cons_of_mem _ (h2.started x hxc (hdr x hx' hxs) hrn)

end Mgr

end Verif
