import Verif.Spec.Threads
import Verif.Lemmas.Plugins
import Verif.Lemmas.ManagerWindow
import Verif.Lemmas.ManagerSim

/-!
Helper lemmas for calls by several threads.
-/

namespace Verif

namespace Thr

open Mgr

/-- Where the manager can be: never inside a reload, which the threads keep track of. -/
def Plain : Svc → Prop
  | .idle => True
  | .switching k _ => k = .ret
  | .releasing _ (.load _) => True
  | .releasing _ (.unload _ k) => k = .ret
  | .unloading _ => False

/-- Only services reload. -/
def WellFormed : Pos → Bool
  | .entered srv (.reload _ _ _) => srv
  | .beforeSwitch srv _ _ _ (some _) => srv
  | .atSwitch srv _ _ _ (some _) => srv
  | .inside srv (some _) => srv
  | _ => true

/-- The locks are held by whom they should. -/
structure Locks (s : St) : Prop where
  ctrl : ∀ t, s.controllers = some t ↔ Inside (s.pos t) = true
  srv : ∀ t, s.services = some t ↔ InService (s.pos t) = true
  svc : s.controllers = none ↔ s.mgr.svc = .idle
  plain : Plain s.mgr.svc
  wf : ∀ t, WellFormed (s.pos t) = true

theorem locks_init : Locks {} := by
  constructor
  · intro t; simp [Inside]
  · intro t; simp [InService]
  · simp [Mgr.init]
  · trivial
  · intro t; rfl

/-- A thread moves. -/
theorem Locks.move {s s' : St} (h : Locks s) (t : Tid) (p : Pos)
    (hp : s'.pos = fun t' => if t' = t then p else s.pos t')
    (hc : (s'.controllers = s.controllers ∧ Inside p = Inside (s.pos t)) ∨
      (s.controllers = none ∧ s'.controllers = some t ∧ Inside p = true) ∨
      (s.controllers = some t ∧ s'.controllers = none ∧ Inside p = false))
    (hv : (s'.services = s.services ∧ InService p = InService (s.pos t)) ∨
      (s.services = none ∧ s'.services = some t ∧ InService p = true) ∨
      (s.services = some t ∧ s'.services = none ∧ InService p = false))
    (hs : s'.controllers = none ↔ s'.mgr.svc = .idle) (hpl : Plain s'.mgr.svc) (hw : WellFormed p = true) :
    Locks s' := by
  constructor
  · intro t'
    rw [hp]
    dsimp only
    split
    · rename_i e; subst e
      rcases hc with ⟨h1, h2⟩ | ⟨h1, h2, h3⟩ | ⟨h1, h2, h3⟩
      · rw [h1, h2]; exact h.ctrl _
      · simp [h2, h3]
      · simp [h2, h3]
    · rename_i e
      rcases hc with ⟨h1, h2⟩ | ⟨h1, h2, h3⟩ | ⟨h1, h2, h3⟩
      · rw [h1]; exact h.ctrl _
      · rw [h2, ← h.ctrl, h1]
        simp [Ne.symm e]
      · rw [h2, ← h.ctrl, h1]
        simp [Ne.symm e]
  · intro t'
    rw [hp]
    dsimp only
    split
    · rename_i e; subst e
      rcases hv with ⟨h1, h2⟩ | ⟨h1, h2, h3⟩ | ⟨h1, h2, h3⟩
      · rw [h1, h2]; exact h.srv _
      · simp [h2, h3]
      · simp [h2, h3]
    · rename_i e
      rcases hv with ⟨h1, h2⟩ | ⟨h1, h2, h3⟩ | ⟨h1, h2, h3⟩
      · rw [h1]; exact h.srv _
      · rw [h2, ← h.srv, h1]
        simp [Ne.symm e]
      · rw [h2, ← h.srv, h1]
        simp [Ne.symm e]
  · exact hs
  · exact hpl
  · intro t'
    rw [hp]
    dsimp only
    split
    · exact hw
    · exact h.wf _

theorem Locks.services_of {s : St} (h : Locks s) {t : Tid} (ht : InService (s.pos t) = true) : s.services = some t :=
  (h.srv t).2 ht

/-- A call returns. -/
theorem Locks.answer {s s' : St} (h : Locks s) (t : Tid) (srv : Bool) (a : Answer)
    (hp : s'.pos = s.pos) (hv : s'.services = s.services)
    (hsrv : InService (s.pos t) = srv)
    (hc : (s'.controllers = s.controllers ∧ Inside (s.pos t) = false) ∨ (s.controllers = some t ∧ s'.controllers = none))
    (hs : s'.controllers = none ↔ s'.mgr.svc = .idle) (hpl : Plain s'.mgr.svc) :
    Locks (s'.answer t srv a) := by
  refine h.move t .idle ?_ ?_ ?_ hs hpl rfl
  · show (fun t' => if t' = t then Pos.idle else s'.pos t') = _
    rw [hp]
  · rcases hc with ⟨h1, h2⟩ | ⟨h1, h2⟩
    · exact Or.inl ⟨h1, h2.symm⟩
    · exact Or.inr (Or.inr ⟨h1, h2, rfl⟩)
  · cases srv with
    | true => exact Or.inr (Or.inr ⟨h.services_of hsrv, rfl, rfl⟩)
    | false => exact Or.inl ⟨hv, hsrv.symm⟩

theorem Locks.endReload {s s' : St} (h : Locks s) (t : Tid) (ok : Bool)
    (hp : s'.pos = s.pos) (hv : s'.services = s.services)
    (hsrv : InService (s.pos t) = true)
    (hc : (s'.controllers = s.controllers ∧ Inside (s.pos t) = false) ∨ (s.controllers = some t ∧ s'.controllers = none))
    (hs : s'.controllers = none ↔ s'.mgr.svc = .idle) (hpl : Plain s'.mgr.svc) :
    Locks (s'.endReload t ok) :=
  Locks.answer (s' := { s' with mgr := s'.mgr.emit [.reloadRet ok] }) h t true _ hp hv hsrv hc hs hpl

/-- A function returns. -/
theorem Locks.back {s s' : St} (h : Locks s) (t : Tid) (srv : Bool) (k : Option (List String)) (e : Event)
    (hp : s'.pos = s.pos) (hv : s'.services = s.services)
    (hsrv : InService (s.pos t) = srv) (hk : k ≠ none → srv = true)
    (hc : (s'.controllers = s.controllers ∧ Inside (s.pos t) = false) ∨ (s.controllers = some t ∧ s'.controllers = none))
    (hs : s'.controllers = none ↔ s'.mgr.svc = .idle) (hpl : Plain s'.mgr.svc) :
    Locks (s'.back t srv k e) := by
  cases k with
  | none => exact h.answer t srv _ hp hv hsrv hc hs hpl
  | some rest =>
    obtain rfl := hk (by simp)
    unfold St.back
    dsimp only
    split
    · have hn : Inside (next rest) = false ∧ InService (next rest) = true ∧ WellFormed (next rest) = true := by
        cases rest <;> exact ⟨rfl, rfl, rfl⟩
      refine h.move t (next rest) ?_ ?_ ?_ hs hpl hn.2.2
      · show (fun t' => if t' = t then next rest else s'.pos t') = _
        rw [hp]
      · rcases hc with ⟨h1, h2⟩ | ⟨h1, h2⟩
        · exact Or.inl ⟨h1, by rw [hn.1, h2]⟩
        · exact Or.inr (Or.inr ⟨h1, h2, hn.1⟩)
      · exact Or.inl ⟨hv, by rw [hn.2.1, hsrv]⟩
    · exact h.endReload t false hp hv hsrv hc hs hpl

/-- A thread has got the lock. -/
theorem Locks.locked {s s' : St} (h : Locks s) (t : Tid) (srv : Bool) (k : Option (List String)) (m : Mgr)
    (hp : s'.pos = s.pos) (hv : s'.services = s.services) (hc' : s'.controllers = s.controllers)
    (hsrv : InService (s.pos t) = srv) (hk : k ≠ none → srv = true)
    (hin : Inside (s.pos t) = false) (hc : s.controllers = none) (hpl : Plain m.svc) :
    Locks (s'.locked t srv k m) := by
  unfold St.locked
  split
  · rename_i hi
    exact Locks.back (s' := { s' with mgr := m }) h t srv k _ hp hv hsrv hk (Or.inl ⟨hc', hin⟩)
      (by show s'.controllers = none ↔ _; rw [hc', hc]; simp [hi]) hpl
  · rename_i hi
    refine h.move t (.inside srv k) ?_ (Or.inr (Or.inl ⟨hc, rfl, rfl⟩)) (Or.inl ⟨hv, ?_⟩) ?_ hpl ?_
    · show (fun t' => if t' = t then Pos.inside srv k else s'.pos t') = _
      rw [hp]
    · rw [hsrv]; rfl
    · simp [hi]
    · cases k with
      | none => rfl
      | some _ => exact hk (by simp)

/-! ### What the manager's functions do to its position -/

theorem plain_load {m : Mgr} (hi : m.svc = .idle) (n : String) (env : LoadEnv) : Plain (m.load n env).svc := by
  unfold Mgr.load
  simp only [hi, ne_eq, not_true_eq_false, if_false]
  repeat' split
  all_goals first | trivial | simp [Mgr.emit, hi, Plain]

theorem plain_unload {m : Mgr} (hi : m.svc = .idle) (n : String) : Plain (m.unload n).svc := by
  unfold Mgr.unload unloadCore
  simp only [hi, ne_eq, not_true_eq_false, if_false]
  repeat' split
  all_goals first | trivial | simp [Mgr.emit, hi, Plain]

theorem plain_switch {conf} {m : Mgr} (hi : m.svc = .idle) (r : SwitchReq) (now : Int) (p : Bool) :
    Plain (switchLocked conf m r now p).2.svc := by
  have : Plain (m.switchCore conf r now p .ret).2.svc := by
    unfold switchCore
    simp only
    repeat' split
    all_goals first | trivial | simp [Mgr.emit, Mgr.refuse, hi, Plain]
  unfold switchLocked
  split <;> (rename_i e; rw [e] at this; exact this)

theorem plain_poll {m : Mgr} (hpl : Plain m.svc) (ok : RosOk) (el : Int) : Plain (m.poll ok el).svc := by
  unfold Mgr.poll
  split
  · rename_i e; rw [e]; trivial
  · rename_i k tmo e
    rw [e] at hpl
    obtain rfl : k = .ret := hpl
    simp only [Mgr.finish]
    repeat' split
    all_goals first | trivial | simp [Plain, e]
  · rename_i f r e
    rw [e] at hpl
    cases r with
    | load n =>
      simp only
      repeat' split
      all_goals first | trivial | simp [Plain, e]
    | unload n k =>
      obtain rfl : k = .ret := hpl
      simp only [Mgr.finish]
      repeat' split
      all_goals first | trivial | simp [Plain, e]
  · rename_i e; rw [e] at hpl; cases hpl
  · rename_i e; rw [e] at hpl; cases hpl

/-! ### An update does not look at the position of the service thread -/

/-- The same with another position of the service thread. -/
abbrev withSvc (m : Mgr) (x : Svc) : Mgr := { m with svc := x }

theorem req_svc (m : Mgr) (x : Svc) (r : Request) (c : CId) : (withSvc m x).req r c = withSvc (m.req r c) x := by
  unfold Mgr.req
  have : (withSvc m x).alive c = m.alive c := rfl
  rw [this]
  split <;> rfl

theorem foldl_svc {α} (f : Mgr → α → Mgr) (x : Svc) (hf : ∀ m a, f (withSvc m x) a = withSvc (f m a) x)
    (l : List α) (m : Mgr) : l.foldl f (withSvc m x) = withSvc (l.foldl f m) x := by
  induction l generalizing m with
  | nil => rfl
  | cons a l ih => rw [List.foldl_cons, List.foldl_cons, hf, ih]

theorem resetControllers_svc (m : Mgr) (x : Svc) : (withSvc m x).resetControllers = withSvc m.resetControllers x := by
  refine foldl_svc _ x ?_ m.cur m
  intro m s
  have : (withSvc m x).isRunning s.c = m.isRunning s.c := rfl
  rw [this]
  split
  · rw [req_svc m, req_svc (m.req _ _)]
  · rfl

theorem updateControllers_svc (m : Mgr) (x : Svc) : (withSvc m x).updateControllers = withSvc m.updateControllers x :=
  foldl_svc _ x (fun m s => req_svc m x .update s.c) m.cur m

theorem stopControllers_svc (m : Mgr) (x : Svc) : (withSvc m x).stopControllers = withSvc m.stopControllers x := by
  refine foldl_svc _ x ?_ m.stopReq m
  intro m c
  have : (withSvc m x).isRunning c = m.isRunning c := rfl
  rw [this]
  split
  · rw [req_svc]
  · rfl

theorem startControllers_svc (m : Mgr) (x : Svc) (time : Int) (hw : HwReply) :
    (withSvc m x).startControllers time hw = withSvc (m.startControllers time hw) x := by
  have h : ∀ r : Request, m.startReq.foldl (fun m c => m.req r c) (withSvc m x) =
      withSvc (m.startReq.foldl (fun m c => m.req r c) m) x :=
    fun r => foldl_svc _ x (fun m c => req_svc m x r c) m.startReq m
  unfold startControllers
  have e : (withSvc m x).startReq = m.startReq := rfl
  have e2 : (withSvc m x).params = m.params := rfl
  rw [e, e2]
  split
  · simp only [h]
  split
  · simp only [h]
  · exact h _

theorem asapEntry_svc (n : Nat) (c : CId) (time : Int) (hw : HwReply) (m : Mgr) (x : Svc) (s : CtrlSpec) :
    asapEntry n c time hw (withSvc m x) s = withSvc (asapEntry n c time hw m s) x := by
  unfold asapEntry
  have e2 : (withSvc m x).params = m.params := rfl
  rw [e2]
  repeat' split
  all_goals first | exact req_svc _ _ _ _ | rfl

theorem asapLoop_svc (time : Int) (hw : HwReply) (n : Nat) (cs : List CId) (m : Mgr) (x : Svc) :
    asapLoop time hw n cs (withSvc m x) = withSvc (asapLoop time hw n cs m) x := by
  induction cs generalizing n m with
  | nil => rfl
  | cons c cs ih =>
    unfold asapLoop
    rw [← ih]
    congr 1
    have : (withSvc m x).isRunning c = m.isRunning c := rfl
    rw [this]
    split
    · exact foldl_svc _ x (fun m s => asapEntry_svc n c time hw m x s) m.cur m
    · rfl

theorem startControllersAsap_svc (m : Mgr) (x : Svc) (time : Int) (hw : HwReply) :
    (withSvc m x).startControllersAsap time hw = withSvc (m.startControllersAsap time hw) x := by
  unfold startControllersAsap
  have e : (withSvc m x).startReq = m.startReq := rfl
  rw [e, asapLoop_svc]
  simp only
  split <;> rfl

theorem manageSwitch_svc (m : Mgr) (x : Svc) (time : Int) (hw : HwReply) :
    (withSvc m x).manageSwitch time hw = withSvc (m.manageSwitch time hw) x := by
  unfold manageSwitch
  have e1 : (if !(withSvc m x).params.started then
      { (withSvc m x).emit [.doSwitch (withSvc m x).swStart (withSvc m x).swStop] with
        params := { (withSvc m x).params with started := true } } else withSvc m x) =
      withSvc (if !m.params.started then
        { m.emit [.doSwitch m.swStart m.swStop] with params := { m.params with started := true } } else m) x := by
    show (if !m.params.started then _ else _) = _
    split <;> rfl
  rw [e1]
  simp only
  rw [stopControllers_svc]
  generalize (if (!m.params.started) = true then
    { m.emit [.doSwitch m.swStart m.swStop] with params := { m.params with started := true } } else m).stopControllers = m1
  show (if !m1.params.asap then _ else _) = _
  split
  · exact startControllers_svc m1 x time hw
  · exact startControllersAsap_svc m1 x time hw

theorem update_svc (m : Mgr) (x : Svc) (time : Int) (reset : Bool) (hw : HwReply) :
    (withSvc m x).update time reset hw = withSvc (m.update time reset hw) x := by
  unfold Mgr.update
  have e1 : (if reset then ({ (withSvc m x) with used := some (withSvc m x).current } : Mgr).resetControllers
      else { (withSvc m x) with used := some (withSvc m x).current }) =
      withSvc (if reset then ({ m with used := some m.current } : Mgr).resetControllers
        else { m with used := some m.current }) x := by
    split
    · exact resetControllers_svc { m with used := some m.current } x
    · rfl
  simp only
  rw [e1, updateControllers_svc]
  generalize (if reset = true then ({ m with used := some m.current } : Mgr).resetControllers
        else { m with used := some m.current }).updateControllers = m1
  show (if m1.params.doSwitch then _ else _) = _
  split
  · exact manageSwitch_svc m1 x time hw
  · rfl

theorem svc_update (m : Mgr) (time : Int) (reset : Bool) (hw : HwReply) : (m.update time reset hw).svc = m.svc := by
  have := congrArg Mgr.svc (update_svc m m.svc time reset hw)
  exact this

/-! ### Every step respects the locks -/

theorem locks_go {conf} {s s' : St} (h : Locks s) (t : Tid) (ok : RosOk) (el : Int) (hg : s.go conf t ok el = some s') :
    Locks s' := by
  unfold St.go at hg
  have hwf := h.wf t
  have idle_of : s.controllers = none → s.mgr.svc = .idle := h.svc.1
  split at hg
  · cases hg
  · -- at the services lock
    rename_i c hpos
    split at hg
    · rename_i hsv
      cases hg
      refine h.move t (.entered true c) rfl (Or.inl ⟨rfl, by rw [hpos]; rfl⟩) (Or.inr (Or.inl ⟨hsv, rfl, rfl⟩)) h.svc
        h.plain (by cases c <;> rfl)
    · cases hg
  · -- load
    rename_i srv n env hpos
    split at hg
    · cases hg
    · rename_i hc
      simp only [ne_eq, not_not] at hc
      split at hg
      · cases hg; exact h
      · cases hg
        exact h.locked t srv none _ rfl rfl rfl (by rw [hpos]; rfl) (by simp) (by rw [hpos]; rfl) hc
          (plain_load (idle_of hc) n env)
  · -- unload
    rename_i srv n hpos
    split at hg
    · cases hg
    · rename_i hc
      simp only [ne_eq, not_not] at hc
      split at hg
      · cases hg; exact h
      · cases hg
        exact h.locked t srv none _ rfl rfl rfl (by rw [hpos]; rfl) (by simp) (by rw [hpos]; rfl) hc
          (plain_unload (idle_of hc) n)
  · -- names
    rename_i srv hpos
    split at hg
    · cases hg
    · cases hg
      exact h.answer t srv _ rfl rfl (by rw [hpos]; rfl) (Or.inl ⟨rfl, by rw [hpos]; rfl⟩) h.svc h.plain
  · -- switch
    rename_i srv r now p hpos
    cases hg
    exact h.move t _ rfl (Or.inl ⟨rfl, by rw [hpos]; rfl⟩) (Or.inl ⟨rfl, by rw [hpos]; rfl⟩) h.svc h.plain rfl
  · -- reload
    rename_i srv f now p hpos
    rw [hpos] at hwf
    have hsrv : srv = true := hwf
    subst hsrv
    split at hg
    · cases hg
    · split at hg
      · cases hg
        exact h.endReload t false rfl rfl (by rw [hpos]; rfl) (Or.inl ⟨rfl, by rw [hpos]; rfl⟩) h.svc h.plain
      · split at hg
        · cases hg
          exact h.move t _ rfl (Or.inl ⟨rfl, by rw [hpos]; rfl⟩) (Or.inl ⟨rfl, by rw [hpos]; rfl⟩) h.svc h.plain rfl
        · cases hg
          exact h.move t _ rfl (Or.inl ⟨rfl, by rw [hpos]; rfl⟩) (Or.inl ⟨rfl, by rw [hpos]; rfl⟩) h.svc h.plain rfl
  · -- before the switch
    rename_i srv r now p k hpos
    cases hg
    rw [hpos] at hwf
    exact h.move t _ rfl (Or.inl ⟨rfl, by rw [hpos]; rfl⟩) (Or.inl ⟨rfl, by rw [hpos]; rfl⟩) h.svc h.plain
      (by cases k <;> exact hwf)
  · -- at the lock of the switch
    rename_i srv r now p k hpos
    rw [hpos] at hwf
    split at hg
    · cases hg
    · rename_i hc
      simp only [ne_eq, not_not] at hc
      cases hg
      exact h.locked t srv k _ rfl rfl rfl (by rw [hpos]; rfl) (by cases k with
        | none => simp
        | some _ => exact fun _ => hwf) (by rw [hpos]; rfl) hc (plain_switch (idle_of hc) r now p)
  · -- at the lock of the unload
    rename_i n ns hpos
    split at hg
    · cases hg
    · rename_i hc
      simp only [ne_eq, not_not] at hc
      split at hg
      · cases hg; exact h
      · cases hg
        exact h.locked t true (some ns) _ rfl rfl rfl (by rw [hpos]; rfl) (by simp) (by rw [hpos]; rfl) hc
          (plain_unload (idle_of hc) n)
  · -- at the end of the reload
    rename_i hpos
    split at hg
    · cases hg
    · cases hg
      exact h.move t _ rfl (Or.inl ⟨rfl, by rw [hpos]; rfl⟩) (Or.inl ⟨rfl, by rw [hpos]; rfl⟩) h.svc h.plain rfl
  · -- at the loaders
    rename_i kl hpos
    cases hg
    exact h.endReload t true rfl rfl (by rw [hpos]; rfl) (Or.inl ⟨rfl, by rw [hpos]; rfl⟩) h.svc h.plain
  · -- inside
    rename_i srv k hpos
    rw [hpos] at hwf
    have hct : s.controllers = some t := (h.ctrl t).2 (by rw [hpos]; rfl)
    simp only at hg
    split at hg
    · rename_i hi
      cases hg
      exact h.back t srv k _ rfl rfl (by rw [hpos]; rfl) (by cases k with
        | none => simp
        | some _ => exact fun _ => hwf) (Or.inr ⟨hct, rfl⟩) (by simp [hi]) (plain_poll h.plain ok el)
    · rename_i hi
      cases hg
      exact ⟨h.ctrl, h.srv, by show s.controllers = none ↔ _; simp [hct, hi], plain_poll h.plain ok el, h.wf⟩

theorem call_cases (s : St) (t : Tid) (srv : Bool) (c : Call) :
    s.call t srv c = s ∨ (s.pos t = .idle ∧ srv = true ∧ s.call t srv c = s.at t (.atServices c)) ∨
    (s.pos t = .idle ∧ srv = false ∧ (∀ f now p, c ≠ .reload f now p) ∧ s.call t srv c = s.at t (.entered false c)) := by
  cases hp : s.pos t with
  | idle =>
    cases srv with
    | true => exact Or.inr (Or.inl ⟨rfl, rfl, by simp [St.call, hp]⟩)
    | false =>
      cases c with
      | reload f now p => exact Or.inl (by simp [St.call, hp])
      | _ => exact Or.inr (Or.inr ⟨rfl, rfl, by simp, by simp [St.call, hp]⟩)
  | _ => exact Or.inl (by simp [St.call, hp])

theorem locks_step {conf} {s : St} (h : Locks s) (op : ThrOp) : Locks (s.step conf op) := by
  cases op with
  | call t srv c =>
    show Locks (s.call t srv c)
    rcases call_cases s t srv c with e | ⟨hpos, _, e⟩ | ⟨hpos, _, hnr, e⟩
    · rw [e]; exact h
    · rw [e]
      exact h.move t _ rfl (Or.inl ⟨rfl, by rw [hpos]; rfl⟩) (Or.inl ⟨rfl, by rw [hpos]; rfl⟩) h.svc h.plain rfl
    · rw [e]
      refine h.move t _ rfl (Or.inl ⟨rfl, by rw [hpos]; rfl⟩) (Or.inl ⟨rfl, by rw [hpos]; rfl⟩) h.svc h.plain ?_
      cases c with
      | reload f now p => exact absurd rfl (hnr f now p)
      | _ => rfl
  | go t ok el =>
    show Locks ((s.go conf t ok el).getD s)
    cases hg : s.go conf t ok el with
    | none => exact h
    | some s' => exact locks_go h t ok el hg
  | update time reset hw =>
    exact ⟨h.ctrl, h.srv, by
      show s.controllers = none ↔ (s.mgr.update time reset hw).svc = .idle
      rw [svc_update]; exact h.svc, by
      show Plain (s.mgr.update time reset hw).svc
      rw [svc_update]; exact h.plain, h.wf⟩

theorem run_concat (conf : List ControllerInfo → Bool) (s : St) (ops : List ThrOp) (op : ThrOp) :
    s.run conf (ops ++ [op]) = (s.run conf ops).step conf op := by
  simp [St.run, List.foldl_append]

theorem locks_after (conf : List ControllerInfo → Bool) (ops : List ThrOp) : Locks (after conf ops) := by
  induction ops using List.reverseRecOn with
  | nil => exact locks_init
  | append_singleton ops op ih =>
    unfold after
    rw [run_concat]
    exact locks_step ih op

/-! ### States of a manager used by one thread -/

theorem inv_forget {P} {m : Mgr} (h : Inv P m) (hs : ¬ m.Switching) : Inv P { m with params := {} } := by
  exact ⟨h.names, h.objs, h.fresh, h.inited, h.unborn, h.running, fun _ => h.reqs hs, h.start, h.stop, h.free,
    (fun hh => by cases hh), fun hh => absurd hh hs, h.used, h.former, h.old, h.fault⟩

theorem inv_of_serial {conf P} {pt : Bool} (hc : CheckOk conf P) {m : Mgr} (h : Serial conf pt m) : Inv P m := by
  induction h with
  | init => exact inv_init hc.nil
  | step _ ho _ ih => exact inv_step hc ih _ ho
  | forget _ hs ih => exact inv_forget ih hs

theorem names_of_serial {conf} {pt : Bool} {m : Mgr} (h : Serial conf pt m) : ReloadNames m := by
  induction h with
  | init => exact reloadNames_idle rfl
  | step h ho _ ih => exact (Plug.reloadStep_step (inv_of_serial (checkOk_true conf) h) ih _ ho).1
  | forget h hs ih => exact reloadNames_of_svc ih rfl rfl

/-! ### What a call inside a reload looks like to one thread -/

/-- The function that waits was called by a reload. -/
def addK (ns : List String) : Svc → Svc
  | .switching .ret tmo => .switching (.reload ns) tmo
  | .releasing f (.unload n .ret) => .releasing f (.unload n (.reload ns))
  | x => x

/-- The position of the service thread, given the position of the thread that holds `services_lock_`. -/
def lift : Pos → Svc → Svc
  | .inside _ (some ns), x => addK ns x
  | .atUnload n ns, _ => .unloading (n :: ns)
  | .atEnd, _ => .unloading []
  | .atLoaders true, _ => .unloading []
  | _, x => x

/-- The manager as it looks from a thread. -/
def view (s : St) (t : Tid) : Mgr := withSvc s.mgr (lift (s.pos t) s.mgr.svc)

/-- The manager as it would be if one thread had made all calls. -/
def seqOf (s : St) : Mgr :=
  match s.services with
  | none => s.mgr
  | some t => view s t

theorem switchCore_kont (conf : List ControllerInfo → Bool) (m : Mgr) (r : SwitchReq) (now : Int) (p : Bool) (k : Kont) :
    m.switchCore conf r now p k = ((m.switchCore conf r now p .ret).1,
      if (m.switchCore conf r now p .ret).1 then withSvc (m.switchCore conf r now p .ret).2 (.switching k r.timeout)
      else (m.switchCore conf r now p .ret).2) := by
  unfold switchCore
  simp only
  repeat' split
  all_goals first | rfl | simp_all

theorem switchCore_svc {conf : List ControllerInfo → Bool} {m : Mgr} (hi : m.svc = .idle) (r : SwitchReq) (now : Int) (p : Bool) :
    ((m.switchCore conf r now p .ret).1 = true ∧ (m.switchCore conf r now p .ret).2.svc = .switching .ret r.timeout) ∨
    ((m.switchCore conf r now p .ret).1 = false ∧ (m.switchCore conf r now p .ret).2.svc = .idle ∧
      (m.switchCore conf r now p .ret).2.params = {} ∧ last (m.switchCore conf r now p .ret).2 = .switchRet false) := by
  unfold switchCore
  simp only
  repeat' split
  all_goals first
    | exact Or.inl ⟨rfl, rfl⟩
    | exact Or.inr ⟨rfl, hi, rfl, by simp [last, Mgr.emit, Mgr.refuse]⟩

theorem switchLocked_eq {conf : List ControllerInfo → Bool} {m : Mgr} (hi : m.svc = .idle) (hp : m.params = {})
    (r : SwitchReq) (now : Int) (p : Bool) : switchLocked conf m r now p = m.switchCore conf r now p .ret := by
  unfold switchLocked
  rcases switchCore_svc (conf := conf) hi r now p with ⟨h1, _⟩ | ⟨h1, _, h3, _⟩
  · have hs : (m.switchCore conf r now p .ret).1 = true → (m.switchCore conf r now p .ret).2.params.started = false := by
      unfold switchCore
      simp only
      repeat' split
      all_goals simp
    have := hs h1
    split
    · rename_i m' e
      rw [e] at this ⊢
      dsimp only at this
      have hq : ({ m'.params with started := m.params.started } : SwitchParams) = m'.params := by
        rw [hp, ← this]
      rw [hq]
    · rename_i m' e
      rw [e] at h1
      cases h1
  · split
    · rename_i m' e
      rw [e] at h1
      cases h1
    · rename_i m' e
      rw [e] at h3 ⊢
      dsimp only at h3
      rw [hp, ← h3]

/-! ### The invariant -/

/-- The call that a thread makes is allowed: with `direct`, no reloads, and switches only through the service. -/
def mildCall (srv : Bool) : Call → Bool
  | .reload _ _ _ => false
  | .switch _ _ _ => srv
  | _ => true

/-- Positions in a history with direct calls (`direct`) and in one with services only. -/
def Calm : Bool → Pos → Bool
  | true, .idle => true
  | true, .atServices c => mildCall true c
  | true, .entered srv c => mildCall srv c
  | true, .beforeSwitch srv _ _ _ k => srv && k.isNone
  | true, .atSwitch srv _ _ _ k => srv && k.isNone
  | true, .inside _ k => k.isNone
  | true, _ => false
  | false, .idle => true
  | false, .atServices _ => true
  | false, p => InService p

/-- The switch that a reload makes. -/
def FromReload (m : Mgr) (r : SwitchReq) (ns : List String) : Prop :=
  r = ⟨[], ns, strictnessBestEffort, false, 0⟩ ∧ ns = m.getControllerNames ∧ ns ≠ []

/-- What holds at a position. -/
def PosOk (m : Mgr) : Pos → Prop
  | .beforeSwitch _ r _ _ k => ∀ ns, k = some ns → FromReload m r ns
  | .atSwitch _ r _ _ k => m.params = {} ∧ ∀ ns, k = some ns → FromReload m r ns
  | .inside srv k => (m.Switching → srv = true) ∧ (k ≠ none → m.Switching ∨ ∃ f n k', m.svc = .releasing f (.unload n k'))
  | .atLoaders killed => killed = false → m.cur = []
  | _ => True

structure Good (conf : List ControllerInfo → Bool) (pt D : Bool) (s : St) : Prop where
  locks : Locks s
  calm : ∀ t, Calm D (s.pos t) = true
  ok : ∀ t, PosOk s.mgr (s.pos t)
  serial : Serial conf pt (seqOf s)
  noAssert : s.assertFailed = false

theorem lift_calm {p : Pos} (h : Calm true p = true) (x : Svc) : lift p x = x := by
  cases p with
  | inside srv k =>
    cases k with
    | none => rfl
    | some _ => simp [Calm] at h
  | atUnload _ _ => simp [Calm] at h
  | atEnd => simp [Calm] at h
  | atLoaders _ => simp [Calm] at h
  | _ => rfl

theorem lift_out {p : Pos} (h : Calm false p = true) (hs : InService p = false) (x : Svc) : lift p x = x := by
  cases p <;> simp_all [Calm, lift]

/-- The view of a thread that is alone in the services is the sequential state. -/
theorem seq_view {D : Bool} {s : St} (hl : Locks s) (hc : ∀ t, Calm D (s.pos t) = true) (t : Tid)
    (hD : D = false → InService (s.pos t) = true ∨ s.services = none) : seqOf s = view s t := by
  unfold seqOf
  cases D with
  | true =>
    have h1 : ∀ t, view s t = s.mgr := fun t => by unfold view; rw [lift_calm (hc t)]
    cases s.services with
    | none => exact (h1 t).symm
    | some t' => show view s t' = _; rw [h1, h1]
  | false =>
    by_cases hi : InService (s.pos t) = true
    · rw [(hl.srv t).2 hi]
    · rcases hD rfl with h | h
      · exact absurd h hi
      · rw [h]
        show s.mgr = view s t
        unfold view
        rw [lift_out (hc t) (by simpa using hi)]

/-- Positions of other threads stay right. -/
theorem posOk_other {conf} {pt D : Bool} {s : St} (h : Good conf pt D s) {t t' : Tid} (hne : t' ≠ t) {m' : Mgr}
    (hD : D = false → InService (s.pos t) = true ∨ s.services = none)
    (hpar : D = true → m'.params = s.mgr.params ∨ m'.params = {} ∨ InService (s.pos t) = true)
    (hsvc : m'.svc = s.mgr.svc ∨ s.controllers = none ∨ s.controllers = some t) : PosOk m' (s.pos t') := by
  have hc := h.calm t'
  have hold := h.ok t'
  have notsrv : InService (s.pos t') = true → s.services = some t' := h.locks.services_of
  cases D with
  | false =>
    have hq : InService (s.pos t') = false := by
      by_contra hh
      have hh : InService (s.pos t') = true := by simpa using hh
      have h1 := notsrv hh
      rcases hD rfl with h2 | h2
      · rw [h.locks.services_of h2] at h1
        cases h1
        exact hne rfl
      · rw [h2] at h1
        cases h1
    cases hp : s.pos t' <;> rw [hp] at hc hq <;> first | trivial | (simp [Calm] at hc; rw [hc] at hq; cases hq)
  | true =>
    cases hp : s.pos t' with
    | beforeSwitch srv r now p k =>
      rw [hp] at hc
      simp only [Calm, Bool.and_eq_true, Option.isNone_iff_eq_none] at hc
      intro ns e
      rw [hc.2] at e
      cases e
    | atSwitch srv r now p k =>
      rw [hp] at hc hold
      simp only [Calm, Bool.and_eq_true, Option.isNone_iff_eq_none] at hc
      refine ⟨?_, fun ns e => by rw [hc.2] at e; cases e⟩
      rcases hpar rfl with h1 | h1 | h1
      · rw [h1]; exact hold.1
      · exact h1
      · exfalso
        have h2 := notsrv (by rw [hp]; exact hc.1)
        rw [h.locks.services_of h1] at h2
        cases h2
        exact hne rfl
    | inside srv k =>
      rw [hp] at hc hold
      simp only [Calm, Option.isNone_iff_eq_none] at hc
      have hct : s.controllers = some t' := (h.locks.ctrl t').2 (by rw [hp]; rfl)
      rcases hsvc with h1 | h1 | h1
      · refine ⟨fun ⟨k1, t1, e⟩ => hold.1 ⟨k1, t1, by rw [← h1]; exact e⟩, fun hk => absurd hc hk⟩
      · rw [h1] at hct; cases hct
      · rw [h1] at hct; cases hct; exact absurd rfl hne
    | atLoaders _ => rw [hp] at hc; simp [Calm] at hc
    | _ => trivial

/-- A thread moves. -/
theorem Good.move {conf} {pt D : Bool} {s s' : St} (h : Good conf pt D s) (t : Tid) (p : Pos)
    (hp : s'.pos = fun t' => if t' = t then p else s.pos t') (hl : Locks s')
    (hcalm : Calm D p = true) (hok : PosOk s'.mgr p)
    (hD : D = false → InService (s.pos t) = true ∨ s.services = none)
    (hD' : D = false → InService p = true ∨ s'.services = none)
    (hpar : D = true → s'.mgr.params = s.mgr.params ∨ s'.mgr.params = {} ∨ InService (s.pos t) = true)
    (hsvc : s'.mgr.svc = s.mgr.svc ∨ s.controllers = none ∨ s.controllers = some t)
    (hser : Serial conf pt (withSvc s'.mgr (lift p s'.mgr.svc))) (ha : s'.assertFailed = false) : Good conf pt D s' := by
  have hc : ∀ t', Calm D (s'.pos t') = true := by
    intro t'
    rw [hp]
    dsimp only
    split
    · exact hcalm
    · exact h.calm t'
  have hpt : s'.pos t = p := by rw [hp]; simp
  refine ⟨hl, hc, ?_, ?_, ha⟩
  · intro t'
    rw [hp]
    dsimp only
    split
    · exact hok
    · rename_i hne
      exact posOk_other h hne hD hpar hsvc
  · rw [seq_view hl hc t (by rw [hpt]; exact hD')]
    unfold view
    rw [hpt]
    exact hser

theorem Good.answer {conf} {pt D : Bool} {s s' : St} (h : Good conf pt D s) (t : Tid) (srv : Bool) (a : Answer)
    (hp : s'.pos = s.pos) (hv : s'.services = s.services) (hl : Locks (s'.answer t srv a))
    (hsrv : InService (s.pos t) = srv) (hD : D = false → InService (s.pos t) = true ∨ s.services = none)
    (hpar : D = true → s'.mgr.params = s.mgr.params ∨ s'.mgr.params = {} ∨ InService (s.pos t) = true)
    (hsvc : s'.mgr.svc = s.mgr.svc ∨ s.controllers = none ∨ s.controllers = some t)
    (hser : Serial conf pt s'.mgr) (ha : s'.assertFailed = false) : Good conf pt D (s'.answer t srv a) := by
  refine h.move t .idle ?_ hl (by cases D <;> rfl) trivial hD ?_ hpar hsvc hser ha
  · show (fun t' => if t' = t then Pos.idle else s'.pos t') = _
    rw [hp]
  · intro hd
    right
    show (if srv then none else s'.services) = none
    cases srv with
    | true => rfl
    | false =>
      rcases hD hd with h1 | h1
      · rw [hsrv] at h1; cases h1
      · rw [hv, h1]; rfl

theorem Good.endReload {conf} {pt D : Bool} {s s' : St} (h : Good conf pt D s) (t : Tid) (ok : Bool)
    (hp : s'.pos = s.pos) (hv : s'.services = s.services) (hl : Locks (s'.endReload t ok))
    (hsrv : InService (s.pos t) = true)
    (hpar : D = true → s'.mgr.params = s.mgr.params ∨ s'.mgr.params = {} ∨ InService (s.pos t) = true)
    (hsvc : s'.mgr.svc = s.mgr.svc ∨ s.controllers = none ∨ s.controllers = some t)
    (hser : Serial conf pt (s'.mgr.emit [.reloadRet ok])) (ha : s'.assertFailed = false) : Good conf pt D (s'.endReload t ok) :=
  Good.answer (s' := { s' with mgr := s'.mgr.emit [.reloadRet ok] }) h t true _ hp hv hl hsrv (fun _ => Or.inl hsrv) hpar hsvc
    hser ha

theorem Good.back {conf} {pt D : Bool} {s s' : St} (h : Good conf pt D s) (t : Tid) (srv : Bool) (k : Option (List String)) (e : Event)
    (hp : s'.pos = s.pos) (hv : s'.services = s.services) (hl : Locks (s'.back t srv k e))
    (hsrv : InService (s.pos t) = srv) (hk : k ≠ none → srv = true ∧ D = false)
    (hD : D = false → InService (s.pos t) = true ∨ s.services = none)
    (hpar : D = true → s'.mgr.params = s.mgr.params ∨ s'.mgr.params = {} ∨ InService (s.pos t) = true)
    (hsvc : s'.mgr.svc = s.mgr.svc ∨ s.controllers = none ∨ s.controllers = some t)
    (hser1 : k = none → Serial conf pt s'.mgr)
    (hser2 : ∀ rest, k = some rest → okOf e = true → Serial conf pt (withSvc s'.mgr (.unloading rest)))
    (hser3 : ∀ rest, k = some rest → okOf e = false → Serial conf pt (s'.mgr.emit [.reloadRet false]))
    (ha : s'.assertFailed = false) : Good conf pt D (s'.back t srv k e) := by
  cases k with
  | none => exact h.answer t srv _ hp hv hl hsrv hD hpar hsvc (hser1 rfl) ha
  | some rest =>
    obtain ⟨rfl, rfl⟩ := hk (by simp)
    unfold St.back at hl ⊢
    dsimp only at hl ⊢
    split
    · rename_i hok
      rw [if_pos hok] at hl
      have hn : Calm false (next rest) = true ∧ InService (next rest) = true ∧ PosOk s'.mgr (next rest) ∧
          lift (next rest) s'.mgr.svc = .unloading rest := by
        cases rest <;> exact ⟨rfl, rfl, trivial, rfl⟩
      refine h.move t (next rest) ?_ hl hn.1 hn.2.2.1 hD (fun _ => Or.inl hn.2.1) hpar hsvc ?_ ha
      · show (fun t' => if t' = t then next rest else s'.pos t') = _
        rw [hp]
      · show Serial conf pt (withSvc s'.mgr (lift (next rest) s'.mgr.svc))
        rw [hn.2.2.2]
        exact hser2 rest rfl hok
    · rename_i hok
      rw [if_neg hok] at hl
      exact h.endReload t false hp hv hl hsrv hpar hsvc (hser3 rest rfl (by simpa using hok)) ha

theorem Good.locked {conf} {pt D : Bool} {s s' : St} (h : Good conf pt D s) (t : Tid) (srv : Bool) (k : Option (List String)) (m : Mgr)
    (hp : s'.pos = s.pos) (hv : s'.services = s.services) (hl : Locks (s'.locked t srv k m))
    (hsrv : InService (s.pos t) = srv) (hk : k ≠ none → srv = true ∧ D = false)
    (hD : D = false → srv = true)
    (hpar : D = true → m.params = s.mgr.params ∨ m.params = {} ∨ InService (s.pos t) = true)
    (hc : s.controllers = none)
    (hin : (m.Switching → srv = true) ∧ (k ≠ none → m.svc = .idle ∨ m.Switching ∨ ∃ f n k', m.svc = .releasing f (.unload n k')))
    (hser1 : k = none → Serial conf pt m)
    (hser2 : ∀ rest, k = some rest → m.svc ≠ .idle → Serial conf pt (withSvc m (addK rest m.svc)))
    (hser3 : ∀ rest, k = some rest → m.svc = .idle → okOf (last m) = false ∧ Serial conf pt (m.emit [.reloadRet false]))
    (ha : s'.assertFailed = false) : Good conf pt D (s'.locked t srv k m) := by
  have hD0 : D = false → InService (s.pos t) = true ∨ s.services = none := fun hd => Or.inl (hsrv.trans (hD hd))
  unfold St.locked at hl ⊢
  split
  · rename_i hi
    rw [if_pos hi] at hl
    refine Good.back (s' := { s' with mgr := m }) h t srv k _ hp hv hl hsrv hk hD0 hpar (Or.inr (Or.inl hc)) hser1 ?_ ?_ ha
    · intro rest e hok
      rw [(hser3 rest e hi).1] at hok
      cases hok
    · intro rest e _
      exact (hser3 rest e hi).2
  · rename_i hi
    rw [if_neg hi] at hl
    refine h.move t (.inside srv k) ?_ hl ?_ ?_ hD0 (fun hd => Or.inl (hD hd)) hpar (Or.inr (Or.inl hc)) ?_ ha
    · show (fun t' => if t' = t then Pos.inside srv k else s'.pos t') = _
      rw [hp]
    · cases D with
      | true =>
        cases k with
        | none => rfl
        | some _ => exact absurd (hk (by simp)).2 (by simp)
      | false => exact hD rfl
    · refine ⟨hin.1, fun hk' => ?_⟩
      rcases hin.2 hk' with h1 | h1
      · exact absurd h1 hi
      · exact h1
    · cases k with
      | none => exact hser1 rfl
      | some rest => exact hser2 rest rfl hi

/-! ### Steps -/

theorem load_params (m : Mgr) (n : String) (env : LoadEnv) : (m.load n env).params = m.params := by
  unfold Mgr.load
  simp only
  repeat' split
  all_goals rfl

theorem unload_params (m : Mgr) (n : String) : (m.unload n).params = m.params := by
  unfold Mgr.unload unloadCore
  repeat' split
  all_goals rfl

theorem load_not_switching {m : Mgr} (hi : m.svc = .idle) (n : String) (env : LoadEnv) : ¬ (m.load n env).Switching := by
  unfold Mgr.load
  simp only [hi, ne_eq, not_true_eq_false, if_false]
  repeat' split
  all_goals (rintro ⟨k, t, e⟩; simp [Mgr.emit, hi] at e)

theorem unload_svc {m : Mgr} (hi : m.svc = .idle) (n : String) :
    (m.unload n).svc = .idle ∨ ∃ f, (m.unload n).svc = .releasing f (.unload n .ret) := by
  unfold Mgr.unload unloadCore
  simp only [hi, ne_eq, not_true_eq_false, if_false]
  repeat' split
  all_goals simp [Mgr.emit, hi]

/-- A step of a reload that unloads, seen from one thread. -/
theorem unload_reload {m : Mgr} (hi : m.svc = .idle) (hu : m.used ≠ some (!m.current)) (n : String) (ns : List String) :
    (withSvc m (.unloading (n :: ns))).poll {} 0 =
      if (m.unload n).svc = .idle then (m.unload n).emit [.reloadRet false]
      else withSvc (m.unload n) (addK ns (m.unload n).svc) := by
  have h0 : ∀ l out b, (withSvc m (.unloading (n :: ns))).transfer n l out b = m.transfer n l out b := by
    intro l
    induction l with
    | nil => intro out b; rfl
    | cons s ss ih =>
      intro out b
      unfold transfer
      have : (withSvc m (.unloading (n :: ns))).isRunning s.c = m.isRunning s.c := rfl
      rw [this]
      split
      · split
        · rfl
        · exact ih _ _
      · exact ih _ _
  unfold Mgr.poll
  simp only
  unfold Mgr.unload unloadCore
  simp only [hi, ne_eq, not_true_eq_false, if_false]
  rw [if_neg hu, if_neg hu, h0]
  cases m.transfer n m.cur [] false with
  | none => simp [Mgr.emit, hi]
  | some q =>
    obtain ⟨out, removed⟩ := q
    cases removed with
    | false => simp [Mgr.emit, hi]
    | true => simp [addK]

theorem last_unload {m : Mgr} (hi : m.svc = .idle) (hu : m.used ≠ some (!m.current)) (n : String)
    (h : (m.unload n).svc = .idle) : okOf (last (m.unload n)) = false := by
  unfold Mgr.unload unloadCore at h ⊢
  simp only [hi, ne_eq, not_true_eq_false, if_false] at h ⊢
  rw [if_neg hu] at h ⊢
  cases ht : m.transfer n m.cur [] false with
  | none => simp [Mgr.emit, last, okOf]
  | some q =>
    obtain ⟨out, removed⟩ := q
    cases removed with
    | false => simp [Mgr.emit, last, okOf]
    | true => rw [ht] at h; simp at h

/-- An iteration of a loop inside a reload, seen from one thread. -/
theorem poll_reload {m : Mgr} (hpl : Plain m.svc) (hs : m.Switching ∨ ∃ f n k', m.svc = .releasing f (.unload n k'))
    (ok : RosOk) (el : Int) (ns : List String) :
    (withSvc m (addK ns m.svc)).poll ok el =
      if (m.poll ok el).svc = .idle then
        if okOf (last (m.poll ok el)) then withSvc (m.poll ok el) (.unloading ns)
        else (m.poll ok el).emit [.reloadRet false]
      else withSvc (m.poll ok el) (addK ns (m.poll ok el).svc) := by
  rcases hs with ⟨k, tmo, e⟩ | ⟨f, n, k, e⟩
  · rw [e] at hpl
    obtain rfl : k = .ret := hpl
    unfold Mgr.poll
    simp only [e, addK]
    have e1 : (withSvc m (.switching (.reload ns) tmo)).params = m.params := rfl
    rw [e1]
    split
    · split
      · simp [Mgr.finish, last, Mgr.emit, okOf]
      · split
        · simp [e, addK]
        · simp [Mgr.finish, last, Mgr.emit, okOf]
    · simp [Mgr.finish, last, Mgr.emit, okOf]
  · rw [e] at hpl
    obtain rfl : k = .ret := hpl
    unfold Mgr.poll
    simp only [e, addK]
    have e1 : (withSvc m (.releasing f (.unload n (.reload ns)))).used = m.used := rfl
    rw [e1]
    split
    · split
      · simp [Mgr.finish, last, Mgr.emit, okOf]
      · simp [e, addK]
    · simp [Mgr.finish, last, Mgr.emit, okOf, clearOld, dropped]

theorem poll_params (m : Mgr) (ok : RosOk) (el : Int) : (m.poll ok el).params = m.params := by
  have hf : ∀ (m : Mgr) (k : Kont) (b : Bool), (m.finish k b).params = m.params := by
    intro m k b
    unfold Mgr.finish
    repeat' split
    all_goals rfl
  have hu : ∀ (m : Mgr) (n : String) (k : Kont) (f : Mgr → Mgr), (∀ m, (f m).params = m.params) →
      (m.unloadCore n k f).params = m.params := by
    intro m n k f h
    unfold unloadCore
    repeat' split
    all_goals first | rfl | exact h _
  unfold Mgr.poll
  split
  · rfl
  · repeat' split
    all_goals first | rfl | exact hf _ _ _
  · simp only
    repeat' split
    all_goals first | rfl | exact hf _ _ _
  · rfl
  · exact hu _ _ _ _ fun _ => rfl

theorem poll_svc {m : Mgr} (hpl : Plain m.svc) (ok : RosOk) (el : Int) :
    (m.poll ok el).svc = .idle ∨ (m.poll ok el).svc = m.svc := by
  unfold Mgr.poll
  split
  · rename_i e; exact Or.inl e
  · rename_i k tmo e
    rw [e] at hpl
    obtain rfl : k = .ret := hpl
    simp only [Mgr.finish]
    repeat' split
    all_goals first | exact Or.inl rfl | exact Or.inr e | exact Or.inr rfl
  · rename_i f r e
    rw [e] at hpl
    cases r with
    | load n =>
      simp only
      repeat' split
      all_goals first | exact Or.inl rfl | exact Or.inr e | exact Or.inr rfl
    | unload n k =>
      obtain rfl : k = .ret := hpl
      simp only [Mgr.finish]
      repeat' split
      all_goals first | exact Or.inl rfl | exact Or.inr e | exact Or.inr rfl
  · rename_i e; rw [e] at hpl; cases hpl
  · rename_i e; rw [e] at hpl; cases hpl

/-- The request that a thread is about to make sets no limit to the waiting. -/
def NoTimeout : Pos → Prop
  | .atServices (.switch r _ _) => r.timeout = 0
  | .entered _ (.switch r _ _) => r.timeout = 0
  | .beforeSwitch _ r _ _ _ => r.timeout = 0
  | .atSwitch _ r _ _ _ => r.timeout = 0
  | _ => True

theorem noTimeout_at {s : St} (h : ∀ t, NoTimeout (s.pos t)) {t : Tid} {p : Pos} (hp : NoTimeout p) {s' : St}
    (e : s'.pos = fun t' => if t' = t then p else s.pos t') : ∀ t', NoTimeout (s'.pos t') := by
  intro t'
  rw [e]
  dsimp only
  split
  · exact hp
  · exact h t'

theorem noTimeout_back {s s' : St} (h : ∀ t, NoTimeout (s.pos t)) (hp : s'.pos = s.pos) (t : Tid) (srv : Bool)
    (k : Option (List String)) (e : Event) : ∀ t', NoTimeout ((s'.back t srv k e).pos t') := by
  have h' : ∀ t, NoTimeout (s'.pos t) := by rw [hp]; exact h
  unfold St.back
  split
  · exact noTimeout_at h' (p := .idle) (t := t) trivial rfl
  · rename_i rest
    split
    · refine noTimeout_at h' (p := next rest) (t := t) ?_ rfl
      cases rest <;> trivial
    · exact noTimeout_at h' (p := .idle) (t := t) trivial rfl

theorem noTimeout_locked {s s' : St} (h : ∀ t, NoTimeout (s.pos t)) (hp : s'.pos = s.pos) (t : Tid) (srv : Bool)
    (k : Option (List String)) (m : Mgr) : ∀ t', NoTimeout ((s'.locked t srv k m).pos t') := by
  have h' : ∀ t, NoTimeout (s'.pos t) := by rw [hp]; exact h
  unfold St.locked
  split
  · exact noTimeout_back (s := s') (s' := { s' with mgr := m }) h' rfl t srv k _
  · exact noTimeout_at h' (p := .inside srv k) (t := t) trivial rfl

theorem noTimeout_go {conf} {s s' : St} (h : ∀ t, NoTimeout (s.pos t)) (t : Tid) (ok : RosOk) (el : Int)
    (hg : s.go conf t ok el = some s') : ∀ t', NoTimeout (s'.pos t') := by
  have ht := h t
  unfold St.go at hg
  split at hg <;> rename_i hpos <;> rw [hpos] at ht <;> (try simp only at hg)
  · cases hg
  · rename_i c
    split at hg <;> cases hg
    refine noTimeout_at h (t := t) (p := .entered true c) ?_ rfl
    cases c <;> first | trivial | exact ht
  · repeat' split at hg
    all_goals first | cases hg
    · exact h
    · exact noTimeout_locked (s := s)
        (s' := { s with made := fun c => if c = s.mgr.nextId then s.generation else s.made c }) h rfl _ _ _ _
  · repeat' split at hg
    all_goals first | cases hg
    · exact h
    · exact noTimeout_locked (s := s) h rfl _ _ _ _
  · split at hg <;> cases hg
    exact noTimeout_at h (p := .idle) (t := t) trivial rfl
  · cases hg
    refine noTimeout_at h (t := t) ?_ rfl
    exact ht
  · repeat' split at hg
    all_goals first | cases hg
    · exact noTimeout_at h (p := .idle) (t := t) trivial rfl
    · refine noTimeout_at h (t := t) ?_ rfl
      exact rfl
    · refine noTimeout_at h (t := t) ?_ rfl
      trivial
  · cases hg
    refine noTimeout_at h (t := t) ?_ rfl
    exact ht
  · repeat' split at hg
    all_goals first | cases hg
    exact noTimeout_locked (s := s) h rfl _ _ _ _
  · repeat' split at hg
    all_goals first | cases hg
    · exact h
    · exact noTimeout_locked (s := s) h rfl _ _ _ _
  · split at hg <;> cases hg
    refine noTimeout_at h (t := t) ?_ rfl
    trivial
  · cases hg
    exact noTimeout_at h (p := .idle) (t := t) trivial rfl
  · split at hg <;> cases hg
    · exact noTimeout_back (s := s) (s' := { s with mgr := s.mgr.poll ok el, controllers := none }) h rfl _ _ _ _
    · exact h

theorem noTimeout_after (conf : List ControllerInfo → Bool) (ops : List ThrOp) (hops : ∀ op ∈ ops, op.noTimeout) :
    ∀ t, NoTimeout ((after conf ops).pos t) := by
  induction ops using List.reverseRecOn with
  | nil => intro t; trivial
  | append_singleton ops op ih =>
    have ih := ih fun o ho => hops o (by simp [ho])
    have hop := hops op (by simp)
    unfold after at ih ⊢
    rw [run_concat]
    generalize ({} : St).run conf ops = s at ih
    cases op with
    | call t srv c =>
      show ∀ t', NoTimeout ((s.call t srv c).pos t')
      rcases call_cases s t srv c with e | ⟨hpos, _, e⟩ | ⟨hpos, _, hnr, e⟩
      · rw [e]; exact ih
      · rw [e]
        refine noTimeout_at ih (t := t) ?_ rfl
        cases c <;> first | trivial | exact hop
      · rw [e]
        refine noTimeout_at ih (t := t) ?_ rfl
        cases c <;> first | trivial | exact hop
    | go t ok el =>
      show ∀ t', NoTimeout (((s.go conf t ok el).getD s).pos t')
      cases e : s.go conf t ok el with
      | none => exact ih
      | some s' => exact noTimeout_go ih t ok el e
    | update time reset hw => exact ih

theorem good_go {conf} {pt D : Bool} {s s' : St} (h : Good conf pt D s) (t : Tid) (ok : RosOk) (el : Int)
    (hro : ok.cond = true ∧ ok.body = true) (hpt : pt = true → NoTimeout (s.pos t)) (hg : s.go conf t ok el = some s') : Good conf pt D s' := by
  have hl := locks_go h.locks t ok el hg
  unfold St.go at hg
  have hcalm := h.calm t
  have hok := h.ok t
  have idle_of : s.controllers = none → s.mgr.svc = .idle := h.locks.svc.1
  -- the sequential state as the thread sees it
  have hview : (D = false → InService (s.pos t) = true ∨ s.services = none) → Serial conf pt (view s t) := by
    intro hD
    rw [← seq_view h.locks h.calm t hD]
    exact h.serial
  split at hg
  · cases hg
  · -- at the services lock
    rename_i c hpos
    split at hg
    · rename_i hsv
      cases hg
      rw [hpos] at hcalm
      have hv := hview (fun _ => Or.inr hsv)
      unfold view at hv
      rw [hpos] at hv
      refine h.move t (.entered true c) rfl hl ?_ trivial (fun _ => Or.inr hsv) (fun _ => Or.inl rfl)
        (fun _ => Or.inl rfl) (Or.inl rfl) hv h.noAssert
      cases D with
      | true => exact hcalm
      | false => rfl
    · cases hg
  · -- load
    rename_i srv n env hpos
    split at hg
    · cases hg
    · rename_i hc
      simp only [ne_eq, not_not] at hc
      split at hg
      · cases hg; exact h
      · cases hg
        have hD : D = false → srv = true := by
          rintro rfl
          rw [hpos] at hcalm
          exact hcalm
        have hsrv : InService (s.pos t) = srv := by rw [hpos]; rfl
        have hv := hview (fun hd => Or.inl (hsrv.trans (hD hd)))
        unfold view at hv
        rw [hpos] at hv
        have hv : Serial conf pt s.mgr := hv
        refine h.locked t srv none _ rfl rfl hl hsrv (by simp) hD (fun _ => Or.inl (load_params _ _ _)) hc
          ⟨fun hs => absurd hs (load_not_switching (idle_of hc) n env), by simp⟩
          (fun _ => hv.step (o := .load n env) trivial (fun _ => trivial)) (by simp) (by simp) h.noAssert
  · -- unload
    rename_i srv n hpos
    split at hg
    · cases hg
    · rename_i hc
      simp only [ne_eq, not_not] at hc
      split at hg
      · cases hg; exact h
      · cases hg
        have hD : D = false → srv = true := by
          rintro rfl
          rw [hpos] at hcalm
          exact hcalm
        have hsrv : InService (s.pos t) = srv := by rw [hpos]; rfl
        have hv := hview (fun hd => Or.inl (hsrv.trans (hD hd)))
        unfold view at hv
        rw [hpos] at hv
        have hv : Serial conf pt s.mgr := hv
        refine h.locked t srv none _ rfl rfl hl hsrv (by simp) hD (fun _ => Or.inl (unload_params _ _)) hc
          ⟨fun ⟨k, tm, e⟩ => ?_, by simp⟩ (fun _ => hv.step (o := .unload n) trivial (fun _ => trivial)) (by simp) (by simp) h.noAssert
        rcases unload_svc (idle_of hc) n with h1 | ⟨f, h1⟩ <;> (rw [h1] at e; cases e)
  · -- names
    rename_i srv hpos
    split at hg
    · cases hg
    · cases hg
      have hsrv : InService (s.pos t) = srv := by rw [hpos]; rfl
      have hD : D = false → InService (s.pos t) = true ∨ s.services = none := by
        rintro rfl
        rw [hpos] at hcalm
        exact Or.inl (hsrv.trans hcalm)
      have hv := hview hD
      unfold view at hv
      rw [hpos] at hv
      exact h.answer t srv _ rfl rfl hl hsrv hD (fun _ => Or.inl rfl) (Or.inl rfl) hv h.noAssert
  · -- switch
    rename_i srv r now p hpos
    cases hg
    have hsrv : InService (s.pos t) = srv := by rw [hpos]; rfl
    have hs1 : srv = true := by
      rw [hpos] at hcalm
      cases D <;> exact hcalm
    subst hs1
    have hv := hview fun _ => Or.inl hsrv
    unfold view at hv
    rw [hpos] at hv
    exact h.move t _ rfl hl (by cases D <;> rfl) (fun ns e => by cases e) (fun _ => Or.inl hsrv) (fun _ => Or.inl rfl)
      (fun _ => Or.inl rfl) (Or.inl rfl) hv h.noAssert
  · -- reload
    rename_i srv f now p hpos
    have hd : D = false := by
      rw [hpos] at hcalm
      cases D with
      | true => cases hcalm
      | false => rfl
    subst hd
    have hsrv : InService (s.pos t) = true := by rw [hpos] at hcalm ⊢; exact hcalm
    have hs1 : srv = true := by rw [hpos] at hsrv; exact hsrv
    subst hs1
    have hv := hview fun _ => Or.inl hsrv
    unfold view at hv
    rw [hpos] at hv
    have hv : Serial conf pt s.mgr := hv
    split at hg
    · cases hg
    · rename_i hc
      simp only [ne_eq, not_not] at hc
      have hi := idle_of hc
      split at hg
      · rename_i hn
        cases hg
        have e : s.mgr.emit [.reloadRet false] = s.mgr.step conf (.reload f now p) := by
          show _ = s.mgr.reload conf f now p
          unfold Mgr.reload
          rw [if_neg (by simpa using hi)]
          simp only
          rw [if_pos hn]
        exact h.endReload t false rfl rfl hl hsrv (by simp) (Or.inl rfl) (e ▸ hv.step (o := .reload f now p) trivial (fun _ => trivial)) h.noAssert
      · split at hg
        · rename_i hn
          cases hg
          refine h.move t _ rfl hl rfl ?_ (fun _ => Or.inl hsrv) (fun _ => Or.inl rfl) (by simp) (Or.inl rfl) hv h.noAssert
          intro ns e
          cases e
          exact ⟨rfl, rfl, by simpa using hn⟩
        · rename_i hn
          cases hg
          refine h.move t _ rfl hl rfl ?_ (fun _ => Or.inl hsrv) (fun _ => Or.inl rfl) (by simp) (Or.inl rfl) hv h.noAssert
          intro _
          have : s.mgr.getControllerNames = [] := by simpa using hn
          exact List.map_eq_nil_iff.1 this
  · -- before the switch
    rename_i srv r now p k hpos
    cases hg
    have hsrv : InService (s.pos t) = true := by
      rw [hpos] at hcalm ⊢
      cases D with
      | true => simp [Calm] at hcalm; exact hcalm.1
      | false => exact hcalm
    have hs1 : srv = true := by rw [hpos] at hsrv; exact hsrv
    subst hs1
    have hv := hview fun _ => Or.inl hsrv
    unfold view at hv
    rw [hpos] at hv
    have hv : Serial conf pt s.mgr := hv
    rw [hpos] at hcalm hok
    have hnsw : ¬ s.mgr.Switching := by
      rintro ⟨k1, tm, e⟩
      cases hc : s.controllers with
      | none => rw [idle_of hc] at e; cases e
      | some t' =>
        have hin := (h.locks.ctrl t').1 hc
        cases hp' : s.pos t' with
        | inside srv' k' =>
          have := h.ok t'
          rw [hp'] at this
          have h1 := this.1 ⟨k1, tm, e⟩
          subst h1
          have h2 := h.locks.services_of (t := t') (by rw [hp']; rfl)
          rw [h.locks.services_of hsrv] at h2
          cases h2
          rw [hpos] at hp'
          cases hp'
        | _ => rw [hp'] at hin; cases hin
    refine h.move t _ rfl hl (by cases D <;> exact hcalm) ⟨rfl, hok⟩ (fun _ => Or.inl hsrv) (fun _ => Or.inl rfl)
      (fun _ => Or.inr (Or.inl rfl)) (Or.inl rfl) (hv.forget hnsw) h.noAssert
  · -- at the lock of the switch
    rename_i srv r now p k hpos
    split at hg
    · cases hg
    · rename_i hc
      simp only [ne_eq, not_not] at hc
      cases hg
      have hi := idle_of hc
      have hsrv : InService (s.pos t) = true := by
        rw [hpos] at hcalm ⊢
        cases D with
        | true => simp [Calm] at hcalm; exact hcalm.1
        | false => exact hcalm
      have hs1 : srv = true := by rw [hpos] at hsrv; exact hsrv
      subst hs1
      have hv := hview fun _ => Or.inl hsrv
      unfold view at hv
      rw [hpos] at hv
      have hv : Serial conf pt s.mgr := hv
      rw [hpos] at hcalm hok
      obtain ⟨hpar, hfr⟩ := hok
      rw [switchLocked_eq hi hpar] at hl ⊢
      have hk : k ≠ none → D = false := by
        intro hk
        cases D with
        | true => simp [Calm] at hcalm; exact absurd hcalm hk
        | false => rfl
      have hreload : ∀ rest, k = some rest → s.mgr.step conf (.reload true now p) =
          if (s.mgr.switchCore conf r now p .ret).1 then
            withSvc (s.mgr.switchCore conf r now p .ret).2 (.switching (.reload rest) r.timeout)
          else (s.mgr.switchCore conf r now p .ret).2.emit [.reloadRet false] := by
        intro rest e
        obtain ⟨h1, h2, h3⟩ := hfr rest e
        show s.mgr.reload conf true now p = _
        unfold Mgr.reload
        rw [if_neg (by simpa using hi)]
        simp only
        rw [← h2, ← h1, if_neg (by simp), if_pos (by simpa using h3), switchCore_kont]
        cases (s.mgr.switchCore conf r now p .ret).1 <;> rfl
      refine h.locked t true k _ rfl rfl hl hsrv (fun hk' => ⟨rfl, hk hk'⟩) (fun _ => rfl) (fun _ => Or.inr (Or.inr hsrv)) hc
        ⟨fun _ => rfl, fun _ => ?_⟩ ?_ ?_ ?_ h.noAssert
      · rcases switchCore_svc (conf := conf) hi r now p with ⟨_, h2⟩ | ⟨_, h2, _⟩
        · exact Or.inr (Or.inl ⟨_, _, h2⟩)
        · exact Or.inl h2
      · intro _
        have e : (s.mgr.switchCore conf r now p .ret).2 = s.mgr.step conf (.switch r now p) := by
          show _ = s.mgr.switch conf r now p
          unfold Mgr.switch
          rw [if_neg (by simpa using hi)]
        rw [e]
        exact hv.step (o := .switch r now p) trivial (by rw [hpos] at hpt; exact hpt)
      · intro rest e hni
        rcases switchCore_svc (conf := conf) hi r now p with ⟨h1, h2⟩ | ⟨_, h2, _⟩
        · have := hv.step (o := .reload true now p) trivial (fun _ => trivial)
          rw [hreload rest e, if_pos h1] at this
          rw [h2]
          exact this
        · exact absurd h2 hni
      · intro rest e hidle
        rcases switchCore_svc (conf := conf) hi r now p with ⟨h1, h2⟩ | ⟨h1, h2, _, h4⟩
        · rw [h2] at hidle; cases hidle
        · rw [h4]
          refine ⟨rfl, ?_⟩
          have := hv.step (o := .reload true now p) trivial (fun _ => trivial)
          rw [hreload rest e, if_neg (by simp [h1])] at this
          exact this
  · -- at the lock of the unload
    rename_i n ns hpos
    split at hg
    · cases hg
    · rename_i hc
      simp only [ne_eq, not_not] at hc
      split at hg
      · cases hg; exact h
      · rename_i hu
        cases hg
        have hi := idle_of hc
        have hd : D = false := by
          rw [hpos] at hcalm
          cases D with
          | true => cases hcalm
          | false => rfl
        subst hd
        have hsrv : InService (s.pos t) = true := by rw [hpos]; rfl
        have hv := hview fun _ => Or.inl hsrv
        unfold view at hv
        rw [hpos] at hv
        have hv : Serial conf pt (withSvc s.mgr (.unloading (n :: ns))) := hv
        have hst := hv.step (o := .poll {} 0) ⟨rfl, rfl⟩ (fun _ => trivial)
        have hst : Serial conf pt ((withSvc s.mgr (.unloading (n :: ns))).poll {} 0) := hst
        rw [unload_reload hi hu] at hst
        refine h.locked t true (some ns) _ rfl rfl hl hsrv (fun _ => ⟨rfl, rfl⟩) (fun _ => rfl) (by simp) hc
          ⟨fun _ => rfl, fun _ => ?_⟩ (by simp) ?_ ?_ h.noAssert
        · rcases unload_svc hi n with h1 | ⟨f, h1⟩
          · exact Or.inl h1
          · exact Or.inr (Or.inr ⟨_, _, _, h1⟩)
        · intro rest e hni
          cases e
          rw [if_neg hni] at hst
          exact hst
        · intro rest e hii
          cases e
          rw [if_pos hii] at hst
          exact ⟨last_unload hi hu n hii, hst⟩
  · -- at the end of the reload
    rename_i hpos
    split at hg
    · cases hg
    · rename_i hc
      simp only [ne_eq, not_not] at hc
      cases hg
      have hd : D = false := by
        rw [hpos] at hcalm
        cases D with
        | true => cases hcalm
        | false => rfl
      subst hd
      have hsrv : InService (s.pos t) = true := by rw [hpos]; rfl
      have hv := hview fun _ => Or.inl hsrv
      unfold view at hv
      rw [hpos] at hv
      have hv : Serial conf pt (withSvc s.mgr (.unloading [])) := hv
      have hnm := (names_of_serial hv).unloading [] rfl
      refine h.move t _ rfl hl rfl (fun e => by cases e) (fun _ => Or.inl hsrv) (fun _ => Or.inl rfl) (by simp) (Or.inl rfl) hv ?_
      have : s.mgr.getControllerNames = [] := hnm.symm
      show (s.assertFailed || !s.mgr.getControllerNames.isEmpty) = false
      rw [this, h.noAssert]
      rfl
  · -- at the loaders
    rename_i kl hpos
    cases hg
    have hd : D = false := by
      rw [hpos] at hcalm
      cases D with
      | true => cases hcalm
      | false => rfl
    subst hd
    have hsrv : InService (s.pos t) = true := by rw [hpos]; rfl
    have hi : s.mgr.svc = .idle := by
      apply idle_of
      cases hc : s.controllers with
      | none => rfl
      | some t' =>
        exfalso
        have hin := (h.locks.ctrl t').1 hc
        have hct := h.calm t'
        cases hp' : s.pos t' with
        | inside srv' k' =>
          rw [hp'] at hct
          have h2 := h.locks.services_of (t := t') (by rw [hp']; exact hct)
          rw [h.locks.services_of hsrv] at h2
          cases h2
          rw [hpos] at hp'
          cases hp'
        | _ => rw [hp'] at hin; cases hin
    have hv := hview fun _ => Or.inl hsrv
    unfold view at hv
    rw [hpos] at hv hok
    refine Good.endReload (s' := { s with generation := s.generation + 1 }) h t true rfl rfl hl hsrv (by simp) (Or.inl rfl) ?_ h.noAssert
    cases kl with
    | true =>
      have hst := hv.step (o := .poll {} 0) ⟨rfl, rfl⟩ (fun _ => trivial)
      have e : (withSvc s.mgr (.unloading [])).step conf (.poll {} 0) = s.mgr.emit [.reloadRet true] := by
        show (withSvc s.mgr (.unloading [])).poll {} 0 = _
        unfold Mgr.poll
        simp only
        rw [← hi]
      exact e ▸ hst
    | false =>
      have hcur : s.mgr.cur = [] := hok rfl
      have hst := hv.step (o := .reload true 0 true) trivial (fun _ => trivial)
      have e : s.mgr.step conf (.reload true 0 true) = s.mgr.emit [.reloadRet true] := by
        show s.mgr.reload conf true 0 true = _
        unfold Mgr.reload
        rw [if_neg (by simpa using hi)]
        simp [getControllerNames, hcur]
      exact e ▸ hst
  · -- inside
    rename_i srv k hpos
    have hct : s.controllers = some t := (h.locks.ctrl t).2 (by rw [hpos]; rfl)
    have hsrv : InService (s.pos t) = srv := by rw [hpos]; rfl
    have hD : D = false → srv = true := by
      rintro rfl
      rw [hpos] at hcalm
      exact hcalm
    have hv := hview fun hd => Or.inl (hsrv.trans (hD hd))
    unfold view at hv
    rw [hpos] at hv hok
    have hk : k ≠ none → srv = true ∧ D = false := by
      intro hk
      rw [hpos] at hcalm
      cases D with
      | true => simp [Calm] at hcalm; exact absurd hcalm hk
      | false => exact ⟨hcalm, rfl⟩
    have hst := hv.step (o := .poll ok el) hro (fun _ => trivial)
    simp only at hg
    split at hg
    · rename_i hi
      cases hg
      refine h.back t srv k _ rfl rfl hl hsrv hk (fun hd => Or.inl (hsrv.trans (hD hd))) (fun _ => Or.inl (poll_params _ _ _))
        (Or.inr (Or.inr hct)) ?_ ?_ ?_ h.noAssert
      · rintro rfl
        exact hst
      · rintro rest rfl hokk
        have hst : Serial conf pt ((withSvc s.mgr (addK rest s.mgr.svc)).poll ok el) := hst
        rw [poll_reload h.locks.plain (hok.2 (by simp)), if_pos hi, if_pos hokk] at hst
        exact hst
      · rintro rest rfl hokk
        have hst : Serial conf pt ((withSvc s.mgr (addK rest s.mgr.svc)).poll ok el) := hst
        rw [poll_reload h.locks.plain (hok.2 (by simp)), if_pos hi, if_neg (by simp [hokk])] at hst
        exact hst
    · rename_i hi
      cases hg
      have hsv : (s.mgr.poll ok el).svc = s.mgr.svc := (poll_svc h.locks.plain ok el).resolve_left hi
      refine h.move t (.inside srv k) ?_ hl ?_ ?_ (fun hd => Or.inl (hsrv.trans (hD hd))) (fun hd => Or.inl (hD hd))
        (fun _ => Or.inl (poll_params _ _ _)) (Or.inl hsv) ?_ h.noAssert
      · funext t'
        show s.pos t' = _
        split
        · rename_i e; rw [e, hpos]
        · rfl
      · rw [← hpos]; exact h.calm t
      · refine ⟨fun ⟨k1, t1, e⟩ => hok.1 ⟨k1, t1, hsv ▸ e⟩, fun hk' => ?_⟩
        rcases hok.2 hk' with ⟨k1, t1, e⟩ | ⟨f, n, k1, e⟩
        · exact Or.inl ⟨k1, t1, hsv.trans e⟩
        · exact Or.inr ⟨f, n, k1, hsv.trans e⟩
      · cases k with
        | none => exact hst
        | some rest =>
          have hst : Serial conf pt ((withSvc s.mgr (addK rest s.mgr.svc)).poll ok el) := hst
          rw [poll_reload h.locks.plain (hok.2 (by simp)), if_neg hi] at hst
          exact hst

/-! ### Histories -/

theorem good_init (conf : List ControllerInfo → Bool) (pt D : Bool) : Good conf pt D {} :=
  ⟨locks_init, fun _ => by cases D <;> rfl, fun _ => trivial, Serial.init, rfl⟩

/-- A thread makes a call. -/
theorem Good.enter {conf} {pt D : Bool} {s : St} (h : Good conf pt D s) (t : Tid) (p : Pos) (hi : s.pos t = .idle)
    (hl : Locks (s.at t p)) (hc : Calm D p = true) (hin : InService p = false) (hok : PosOk s.mgr p)
    (hli : ∀ x, lift p x = x) : Good conf pt D (s.at t p) := by
  have hat : ∀ t', (s.at t p).pos t' = if t' = t then p else s.pos t' := fun _ => rfl
  refine ⟨hl, fun t' => ?_, fun t' => ?_, ?_, h.noAssert⟩
  · rw [hat]; split
    · exact hc
    · exact h.calm t'
  · rw [hat]; split
    · exact hok
    · exact h.ok t'
  · have e : seqOf (s.at t p) = seqOf s := by
      unfold seqOf
      have e0 : (s.at t p).services = s.services := rfl
      rw [e0]
      cases hs : s.services with
      | none => rfl
      | some t' =>
        show withSvc s.mgr (lift ((s.at t p).pos t') s.mgr.svc) = withSvc s.mgr (lift (s.pos t') s.mgr.svc)
        rw [hat]
        split
        · rename_i e
          subst e
          have := (h.locks.srv t').1 hs
          rw [hi] at this
          cases this
        · rfl
    rw [e]
    exact h.serial

theorem good_update {conf} {pt D : Bool} {s : St} (h : Good conf pt D s) (time : Int) (reset : Bool) (hw : HwReply) :
    Good conf pt D { s with mgr := s.mgr.update time reset hw } := by
  have hl : Locks { s with mgr := s.mgr.update time reset hw } := locks_step (conf := conf) h.locks (.update time reset hw)
  have hcur : (s.mgr.update time reset hw).cur = s.mgr.cur := by
    have hi := inv_of_serial (checkOk_true conf) h.serial
    obtain ⟨x, e⟩ : ∃ x, seqOf s = withSvc s.mgr x := by
      unfold seqOf
      split
      · exact ⟨s.mgr.svc, rfl⟩
      · exact ⟨_, rfl⟩
    rw [e] at hi
    have h1 := (update_cur hi time reset hw).1
    rw [update_svc] at h1
    exact h1
  have hsv := svc_update s.mgr time reset hw
  refine ⟨hl, h.calm, fun t => ?_, ?_, h.noAssert⟩
  · have hok := h.ok t
    show PosOk (s.mgr.update time reset hw) (s.pos t)
    cases hp : s.pos t with
    | beforeSwitch srv r now p k =>
      rw [hp] at hok
      intro ns e
      obtain ⟨h1, h2, h3⟩ := hok ns e
      exact ⟨h1, by rw [h2]; unfold getControllerNames; rw [hcur], h3⟩
    | atSwitch srv r now p k =>
      rw [hp] at hok
      refine ⟨?_, fun ns e => ?_⟩
      · rw [update_idle _ (by rw [hok.1])]
        exact hok.1
      · obtain ⟨h1, h2, h3⟩ := hok.2 ns e
        exact ⟨h1, by rw [h2]; unfold getControllerNames; rw [hcur], h3⟩
    | inside srv k =>
      rw [hp] at hok
      refine ⟨fun ⟨k1, t1, e⟩ => hok.1 ⟨k1, t1, hsv ▸ e⟩, fun hk => ?_⟩
      rcases hok.2 hk with ⟨k1, t1, e⟩ | ⟨f, n, k1, e⟩
      · exact Or.inl ⟨k1, t1, hsv.trans e⟩
      · exact Or.inr ⟨f, n, k1, hsv.trans e⟩
    | atLoaders kl =>
      rw [hp] at hok
      intro e
      rw [hcur]
      exact hok e
    | _ => trivial
  · have hst := h.serial.step (o := .update time reset hw) trivial (fun _ => trivial)
    have e : seqOf { s with mgr := s.mgr.update time reset hw } = (seqOf s).update time reset hw := by
      unfold seqOf
      dsimp only
      cases s.services with
      | none => rfl
      | some t =>
        show withSvc (s.mgr.update time reset hw) (lift (s.pos t) (s.mgr.update time reset hw).svc) =
          (withSvc s.mgr (lift (s.pos t) s.mgr.svc)).update time reset hw
        rw [hsv]
        exact (update_svc _ _ _ _ _).symm
    rw [e]
    exact hst

theorem good_after (conf : List ControllerInfo → Bool) (pt D : Bool) (ops : List ThrOp) (hup : ∀ op ∈ ops, op.rosUp)
    (hpt : pt = true → ∀ op ∈ ops, op.noTimeout) (hD : if D then ∀ op ∈ ops, op.mild else ∀ op ∈ ops, op.service) :
    Good conf pt D (after conf ops) := by
  induction ops using List.reverseRecOn with
  | nil => exact good_init conf pt D
  | append_singleton ops op ih =>
    have ih := ih (fun o ho => hup o (by simp [ho])) (fun e o ho => hpt e o (by simp [ho])) (by
      cases D <;> exact fun o ho => hD o (by simp [ho]))
    have hno : pt = true → ∀ t, NoTimeout ((after conf ops).pos t) := fun e =>
      noTimeout_after conf ops fun o ho => hpt e o (by simp [ho])
    have hl := locks_after conf (ops ++ [op])
    have hop := hup op (by simp)
    have hDo : if D then op.mild else op.service := by
      cases D <;> exact hD op (by simp)
    unfold after at ih hl hno ⊢
    rw [run_concat] at hl ⊢
    generalize ({} : St).run conf ops = s at ih hl hno
    cases op with
    | call t srv c =>
      change Good conf pt D (s.call t srv c)
      change Locks (s.call t srv c) at hl
      rcases call_cases s t srv c with e | ⟨hpos, rfl, e⟩ | ⟨hpos, rfl, hnr, e⟩
      · rw [e]; exact ih
      · rw [e] at hl ⊢
        refine ih.enter t _ hpos hl ?_ rfl trivial (fun _ => rfl)
        cases D with
        | false => rfl
        | true => cases c <;> first | rfl | exact absurd hDo id
      · rw [e] at hl ⊢
        cases D with
        | false => cases hDo
        | true =>
          refine ih.enter t _ hpos hl ?_ rfl trivial (fun _ => rfl)
          cases c <;> first | rfl | exact absurd hDo id | cases hDo
    | go t ok el =>
      change Good conf pt D ((s.go conf t ok el).getD s)
      cases e : s.go conf t ok el with
      | none => exact ih
      | some s' => exact good_go ih t ok el hop (fun e => hno e t) e
    | update time reset hw => exact good_update ih time reset hw

/-! ### A switch without timeout is not abandoned -/

/-- Nobody has abandoned a switch. -/
structure Kept (m : Mgr) : Prop where
  pending : m.params.doSwitch = true → m.Switching
  zero : ∀ k t, m.svc = .switching k t → t = 0

theorem kept_step {conf P} {m : Mgr} (hi : Inv P m) (h : Kept m) (o : Op) (ho : o.rosUp) (hn : o.noTimeout) :
    Kept (m.step conf o) := by
  by_cases hs : m.Switching
  · obtain ⟨k, t, e⟩ := hs
    have hni : m.svc ≠ .idle := by rw [e]; simp
    obtain rfl := h.zero k t e
    cases o with
    | update time reset hw =>
      have e' : (m.update time reset hw).svc = .switching k 0 := (svc_update m time reset hw).trans e
      exact ⟨fun _ => ⟨k, 0, e'⟩, fun k' t' e1 => by rw [show (m.step conf (.update time reset hw)).svc = _ from e'] at e1; cases e1; rfl⟩
    | load n env => rw [show m.step conf (.load n env) = m by show m.load n env = m; simp [Mgr.load, hni]]; exact h
    | unload n => rw [show m.step conf (.unload n) = m by show m.unload n = m; simp [Mgr.unload, hni]]; exact h
    | switch r now p => rw [show m.step conf (.switch r now p) = m by show m.switch conf r now p = m; simp [Mgr.switch, hni]]; exact h
    | reload f now p => rw [show m.step conf (.reload f now p) = m by show m.reload conf f now p = m; simp [Mgr.reload, hni]]; exact h
    | poll ok el =>
      rcases poll_switching e ok ho el with ⟨_, e1⟩ | e1
      · rw [show m.step conf (.poll ok el) = m from e1]; exact h
      · refine ⟨fun hd => ?_, fun k' t' e' => absurd ⟨k', t', e'⟩ e1⟩
        have hd : (m.poll ok el).params.doSwitch = true := hd
        rw [poll_params] at hd
        exfalso
        apply e1
        have : m.poll ok el = m := by
          unfold Mgr.poll
          rw [e]
          simp [hd, ho.1, ho.2]
        rw [this]
        exact ⟨k, 0, e⟩
  · have hd : m.params.doSwitch = false := by
      cases hd : m.params.doSwitch with
      | false => rfl
      | true => exact absurd (h.pending hd) hs
    have done : ∀ m' : Mgr, m'.params.doSwitch = false → ¬ m'.Switching → Kept m' := fun m' h1 h2 =>
      ⟨fun hh => (by rw [h1] at hh; cases hh), fun k t e => absurd ⟨k, t, e⟩ h2⟩
    have hcore : m.svc = .idle → ∀ r now p k, r.timeout = 0 →
        (((m.switchCore conf r now p k).1 = true ∧ (m.switchCore conf r now p k).2.svc = .switching k 0) ∨
        ((m.switchCore conf r now p k).1 = false ∧ (m.switchCore conf r now p k).2.svc = .idle ∧
          (m.switchCore conf r now p k).2.params = {})) := by
      intro hi' r now p k hr
      rw [switchCore_kont]
      rcases switchCore_svc (conf := conf) hi' r now p with ⟨h1, h2⟩ | ⟨h1, h2, h3, _⟩
      · left
        rw [h1]
        exact ⟨rfl, by rw [hr]; rfl⟩
      · right
        rw [h1]
        exact ⟨rfl, h2, h3⟩
    cases o with
    | update time reset hw =>
      refine done _ ?_ (step_notSwitching hi hs _ ho trivial)
      show (m.update time reset hw).params.doSwitch = false
      rw [update_idle m hd]
      exact hd
    | load n env =>
      refine done _ ?_ (step_notSwitching hi hs _ ho trivial)
      show (m.load n env).params.doSwitch = false
      rw [load_params]
      exact hd
    | unload n =>
      refine done _ ?_ (step_notSwitching hi hs _ ho trivial)
      show (m.unload n).params.doSwitch = false
      rw [unload_params]
      exact hd
    | poll ok el =>
      refine done _ ?_ (step_notSwitching hi hs _ ho trivial)
      show (m.poll ok el).params.doSwitch = false
      rw [poll_params]
      exact hd
    | switch r now p =>
      show Kept (m.switch conf r now p)
      unfold Mgr.switch
      split
      · exact h
      · rename_i hni
        rcases hcore (by simpa using hni) r now p .ret hn with ⟨_, e⟩ | ⟨_, e, e2⟩
        · exact ⟨fun _ => ⟨_, _, e⟩, fun k t e' => by rw [e] at e'; cases e'; rfl⟩
        · exact done _ (by rw [e2]) (by rintro ⟨k, t, e'⟩; rw [e] at e'; cases e')
    | reload f now p =>
      show Kept (m.reload conf f now p)
      unfold Mgr.reload
      split
      · exact h
      · rename_i hni
        have hc := hcore (by simpa using hni) ⟨[], m.getControllerNames, strictnessBestEffort, false, 0⟩ now p
          (.reload m.getControllerNames) rfl
        simp only
        split
        · exact done _ hd hs
        · split
          · split
            · rename_i m' e
              rw [e] at hc
              rcases hc with ⟨h1, _⟩ | ⟨_, e1, e2⟩
              · cases h1
              · dsimp only at e1 e2
                refine done _ ?_ ?_
                · show m'.params.doSwitch = false
                  rw [e2]
                · rintro ⟨k, t, e'⟩
                  have e' : m'.svc = .switching k t := e'
                  rw [e1] at e'; cases e'
            · rename_i m' e
              rw [e] at hc
              rcases hc with ⟨_, e1⟩ | ⟨h1, _⟩
              · dsimp only at e1
                exact ⟨fun _ => ⟨_, _, e1⟩, fun k t e' => by rw [e1] at e'; cases e'; rfl⟩
              · cases h1
          · exact done _ hd hs

theorem kept_of_serial {conf} {m : Mgr} (h : Serial conf true m) : Kept m := by
  induction h with
  | init => exact ⟨(fun hh => by cases hh), (fun _ _ hh => by cases hh)⟩
  | step h ho hn ih => exact kept_step (inv_of_serial (checkOk_true conf) h) ih _ ho (hn rfl)
  | forget h hs ih => exact ⟨(fun hh => by cases hh), ih.zero⟩

/-- If no switch is abandoned, forgetting its parameters makes no difference. -/
theorem reachable_of_serial {conf} {m : Mgr} (h : Serial conf true m) : ∃ m', Reachable conf m' ∧ Sim [] [] m' m := by
  induction h with
  | init => exact ⟨.init, ⟨[], by simp, rfl⟩, [], {}, [], [], [], rfl, rfl, fun _ => rfl, rfl, fun _ => ⟨rfl, rfl, rfl⟩⟩
  | @step m o h ho hn ih =>
    obtain ⟨m', hr, hs⟩ := ih
    refine ⟨m'.step conf o, ?_, sim_step (inv_of_reachable hr) (inv_of_serial (checkOk_true conf) h) hs o⟩
    obtain ⟨ops, hops, rfl⟩ := hr
    refine ⟨ops ++ [o], ?_, ?_⟩
    · intro op hop
      rcases List.mem_append.1 hop with h1 | h1
      · exact hops op h1
      · simp only [List.mem_singleton] at h1
        rw [h1]; exact ho
    · simp [Mgr.run, List.foldl_append]
  | @forget m h hs ih =>
    obtain ⟨m', hr, o, q, a, b, es, e, ht, ho, hq, hp⟩ := ih
    have hd : m'.params.doSwitch = false := by
      cases hd : m'.params.doSwitch with
      | false => rfl
      | true =>
        exfalso
        apply hs
        apply (kept_of_serial h).pending
        rw [e]
        exact hq.trans hd
    refine ⟨m', hr, o, {}, a, b, es, ?_, ht, ho, hd.symm, fun hh => ?_⟩
    · rw [e]
    · rw [hd] at hh; cases hh

/-! ### What one step of a thread does, in any history -/

/-- What the step of a thread does to the manager, apart from announcing the end of a reload. -/
inductive Effect (conf : List ControllerInfo → Bool) (m : Mgr) (ok : RosOk) (el : Int) : Mgr → Prop
  | nothing : Effect conf m ok el m
  | load (n env) : m.svc = .idle → m.used ≠ some (!m.current) → Effect conf m ok el (m.load n env)
  | unload (n) : m.svc = .idle → m.used ≠ some (!m.current) → Effect conf m ok el (m.unload n)
  | switch (r now p) : m.svc = .idle → Effect conf m ok el (switchLocked conf m r now p).2
  | reset : Effect conf m ok el { m with params := {} }
  | poll : Effect conf m ok el (m.poll ok el)

/-- The manager has just returned the last event. -/
def Returned (m m' : Mgr) : Prop := ∃ es, m'.trace = m.trace ++ es ++ [last m']

/-- The answer given in a step. -/
def Answers (s s' : St) (t : Tid) : Prop :=
  s'.answers = s.answers ∨
  (∃ es e, s'.mgr.trace = s.mgr.trace ++ es ++ [e] ∧ s'.answers = s.answers ++ [(t, .ret e)]) ∨
  (s'.mgr = s.mgr ∧ s'.answers = s.answers ++ [(t, .names s.mgr.getControllerNames)])

structure StepOf (conf : List ControllerInfo → Bool) (s : St) (t : Tid) (ok : RosOk) (el : Int) (s' : St) : Prop where
  mgr : ∃ m es, Effect conf s.mgr ok el m ∧ s'.mgr = m.emit es ∧ (es = [] ∨ ∃ b, es = [.reloadRet b])
  made : (s'.generation = s.generation ∧ ((s'.made = s.made ∧ ∀ x ∈ s'.mgr.cur, x ∈ s.mgr.cur) ∨
      (s'.made = (fun c => if c = s.mgr.nextId then s.generation else s.made c) ∧
        ∀ x ∈ s'.mgr.cur, x ∈ s.mgr.cur ∨ x.c = s.mgr.nextId))) ∨
    ((∃ k, s.pos t = .atLoaders k) ∧ s'.generation = s.generation + 1 ∧ s'.made = s.made ∧ s'.mgr.cur = s.mgr.cur)
  answers : Answers s s' t

theorem emit_nil (m : Mgr) : m.emit [] = m := by simp [Mgr.emit]

theorem last_eq {m : Mgr} {es : List Event} {e : Event} (h : m.trace = es ++ [e]) : last m = e := by
  simp [last, h]

theorem returned_of {m m' : Mgr} {es : List Event} {e : Event} (h : m'.trace = m.trace ++ es ++ [e]) : Returned m m' :=
  ⟨es, by rw [last_eq h]; exact h⟩

theorem returned_load {m : Mgr} (hi : m.svc = .idle) (hu : m.used ≠ some (!m.current)) (n : String) (env : LoadEnv)
    (h : (m.load n env).svc = .idle) : Returned m (m.load n env) := by
  rcases load_cases m n env hi hu with ⟨ty, i, cl, _, _, _, _, _, e⟩ | ⟨_, o, _, e⟩
  · rw [e] at h; simp [loaded] at h
  · rw [e]
    exact returned_of (es := []) (e := .loadRet n false) (by simp)

theorem returned_unload {m : Mgr} (hi : m.svc = .idle) (hu : m.used ≠ some (!m.current)) (n : String)
    (h : (m.unload n).svc = .idle) : Returned m (m.unload n) := by
  have e0 : m.unload n = m.unloadCore n .ret id := by simp [Mgr.unload, hi]
  rw [e0] at h ⊢
  rcases unloadCore_cases m n .ret id hu with ⟨_, _, e⟩ | ⟨_, e⟩
  · rw [e] at h; simp [unloaded] at h
  · rw [e]
    exact returned_of (es := []) (e := .unloadRet n false) (by simp)

theorem returned_switch {conf} {m : Mgr} (hi : m.svc = .idle) (r : SwitchReq) (now : Int) (p : Bool)
    (h : (switchLocked conf m r now p).2.svc = .idle) : Returned m (switchLocked conf m r now p).2 := by
  have hc : (m.switchCore conf r now p .ret).1 = false →
      ∃ es, (m.switchCore conf r now p .ret).2.trace = m.trace ++ es ++ [.switchRet false] := by
    unfold switchCore
    simp only
    repeat' split
    all_goals first
      | exact fun hh => absurd hh.symm Bool.false_ne_true
      | (intro _; refine ⟨[], ?_⟩; simp [Mgr.emit, Mgr.refuse]; done)
      | exact fun _ => ⟨[_], rfl⟩
  unfold switchLocked at h ⊢
  rcases switchCore_svc (conf := conf) hi r now p with ⟨h1, h2⟩ | ⟨h1, h2, _⟩
  · split at h
    · rename_i m' e
      rw [e] at h2
      have h : m'.svc = .idle := h
      rw [h2] at h; cases h
    · rename_i m' e
      rw [e] at h1; cases h1
  · split
    · rename_i m' e
      rw [e] at h1; cases h1
    · rename_i m' e
      obtain ⟨es, h3⟩ := hc h1
      rw [e] at h3
      exact returned_of (es := es) (e := .switchRet false) h3

theorem returned_poll {m : Mgr} (hpl : Plain m.svc) (hni : m.svc ≠ .idle) (ok : RosOk) (el : Int)
    (h : (m.poll ok el).svc = .idle) : Returned m (m.poll ok el) := by
  have key : ∃ es e, (m.poll ok el).trace = m.trace ++ es ++ [e] := by
    revert h
    unfold Mgr.poll
    split
    · rename_i e; exact absurd e hni
    · rename_i k tmo e
      rw [e] at hpl
      obtain rfl : k = .ret := hpl
      simp only [Mgr.finish]
      repeat' split
      all_goals first
        | exact fun _ => ⟨[], _, by simp [Mgr.emit]; rfl⟩
        | exact fun hh => absurd hh hni
    · rename_i f r e
      rw [e] at hpl
      cases r with
      | load n =>
        simp only
        repeat' split
        all_goals first
          | exact fun _ => ⟨[], _, by simp [Mgr.emit]; rfl⟩
          | exact fun hh => absurd hh hni
          | exact fun _ => ⟨_, _, by simp [Mgr.emit, clearOld]; exact ⟨rfl, rfl⟩⟩
      | unload n k =>
        obtain rfl : k = .ret := hpl
        simp only [Mgr.finish]
        repeat' split
        all_goals first
          | exact fun _ => ⟨[], _, by simp [Mgr.emit]; rfl⟩
          | exact fun hh => absurd hh hni
          | exact fun _ => ⟨_, _, by simp [Mgr.emit, clearOld]; exact ⟨rfl, rfl⟩⟩
    · rename_i e; rw [e] at hpl; cases hpl
    · rename_i e; rw [e] at hpl; cases hpl
  obtain ⟨es, e, h1⟩ := key
  exact returned_of h1

theorem locked_cur (conf : List ControllerInfo → Bool) (m : Mgr) (r : SwitchReq) (now : Int) (p : Bool) :
    (switchLocked conf m r now p).2.cur = m.cur := by
  have h : (m.switchCore conf r now p .ret).2.cur = m.cur := by
    unfold switchCore
    simp only
    repeat' split
    all_goals rfl
  unfold switchLocked
  split <;> (rename_i e; rw [e] at h; exact h)

theorem pollPlain_cur {m : Mgr} (hpl : Plain m.svc) (ok : RosOk) (el : Int) : (m.poll ok el).cur = m.cur := by
  unfold Mgr.poll
  split
  · rfl
  · rename_i k tmo e
    rw [e] at hpl
    obtain rfl : k = .ret := hpl
    simp only [Mgr.finish]
    repeat' split
    all_goals rfl
  · rename_i f r e
    rw [e] at hpl
    cases r with
    | load n =>
      simp only
      repeat' split
      all_goals rfl
    | unload n k =>
      obtain rfl : k = .ret := hpl
      simp only [Mgr.finish]
      repeat' split
      all_goals rfl
  · rename_i e; rw [e] at hpl; cases hpl
  · rename_i e; rw [e] at hpl; cases hpl

/-! ### The positions of `St.go` -/

theorem stepOf_back {conf} {s : St} {t : Tid} {ok : RosOk} {el : Int} {s1 : St} (srv : Bool) (k : Option (List String)) {m : Mgr}
    (he : Effect conf s.mgr ok el m) (h1 : s1.mgr = m) (h2 : s1.answers = s.answers) (h3 : s1.generation = s.generation)
    (h4 : (s1.made = s.made ∧ ∀ x ∈ m.cur, x ∈ s.mgr.cur) ∨
      (s1.made = (fun c => if c = s.mgr.nextId then s.generation else s.made c) ∧ ∀ x ∈ m.cur, x ∈ s.mgr.cur ∨ x.c = s.mgr.nextId)) (hr : Returned s.mgr m) :
    StepOf conf s t ok el (s1.back t srv k (last m)) := by
  obtain ⟨es, hes⟩ := hr
  have h4 : (s1.made = s.made ∧ ∀ x ∈ s1.mgr.cur, x ∈ s.mgr.cur) ∨
      (s1.made = (fun c => if c = s.mgr.nextId then s.generation else s.made c) ∧
        ∀ x ∈ s1.mgr.cur, x ∈ s.mgr.cur ∨ x.c = s.mgr.nextId) := by rw [h1]; exact h4
  unfold St.back
  split
  · exact ⟨⟨m, [], he, by rw [emit_nil]; exact h1, Or.inl rfl⟩, Or.inl ⟨h3, h4⟩,
      Or.inr (Or.inl ⟨es, last m, by rw [← hes]; exact congrArg _ h1, by
        show s1.answers ++ _ = _
        rw [h2]⟩)⟩
  · split
    · exact ⟨⟨m, [], he, by rw [emit_nil]; exact h1, Or.inl rfl⟩, Or.inl ⟨h3, h4⟩, Or.inl h2⟩
    · refine ⟨⟨m, [.reloadRet false], he, ?_, Or.inr ⟨_, rfl⟩⟩, Or.inl ⟨h3, h4⟩,
        Or.inr (Or.inl ⟨es ++ [last m], .reloadRet false, ?_, ?_⟩)⟩
      · show s1.mgr.emit _ = _
        rw [h1]
      · show s1.mgr.trace ++ [Event.reloadRet false] = _
        rw [h1, hes]
        simp
      · show s1.answers ++ _ = _
        rw [h2]

theorem stepOf_locked {conf} {s : St} {t : Tid} {ok : RosOk} {el : Int} {s1 : St} (srv : Bool) (k : Option (List String)) {m : Mgr}
    (he : Effect conf s.mgr ok el m) (h2 : s1.answers = s.answers) (h3 : s1.generation = s.generation)
    (h4 : (s1.made = s.made ∧ ∀ x ∈ m.cur, x ∈ s.mgr.cur) ∨
      (s1.made = (fun c => if c = s.mgr.nextId then s.generation else s.made c) ∧ ∀ x ∈ m.cur, x ∈ s.mgr.cur ∨ x.c = s.mgr.nextId))
    (hr : m.svc = .idle → Returned s.mgr m) :
    StepOf conf s t ok el (s1.locked t srv k m) := by
  unfold St.locked
  split
  · rename_i hi
    exact stepOf_back (s1 := { s1 with mgr := m }) srv k he rfl h2 h3 h4 (hr hi)
  · exact ⟨⟨m, [], he, by rw [emit_nil], Or.inl rfl⟩, Or.inl ⟨h3, h4⟩, Or.inl h2⟩

theorem go_stepOf {conf} {s s' : St} (h : Locks s) (t : Tid) (ok : RosOk) (el : Int) (hg : s.go conf t ok el = some s') :
    StepOf conf s t ok el s' := by
  have unl : s.mgr.svc = .idle → s.mgr.used ≠ some (!s.mgr.current) → ∀ n, ∀ x ∈ (s.mgr.unload n).cur, x ∈ s.mgr.cur := by
    intro hi hu n
    rw [show s.mgr.unload n = s.mgr.unloadCore n .ret id by simp [Mgr.unload, hi]]
    rcases unloadCore_cases s.mgr n .ret id hu with ⟨_, _, e⟩ | ⟨_, e⟩
    · rw [e]
      exact fun x hx => List.mem_of_mem_filter hx
    · rw [e]
      exact fun x hx => hx
  have idle_of : s.controllers = none → s.mgr.svc = .idle := h.svc.1
  have same : ∀ s1 : St, s1.mgr = s.mgr → s1.answers = s.answers → s1.generation = s.generation → s1.made = s.made →
      StepOf conf s t ok el s1 := fun s1 h1 h2 h3 h4 =>
    ⟨⟨s.mgr, [], .nothing, by rw [emit_nil]; exact h1, Or.inl rfl⟩, Or.inl ⟨h3, Or.inl ⟨h4, fun x hx => by rw [h1] at hx; exact hx⟩⟩, Or.inl h2⟩
  unfold St.go at hg
  split at hg
  · cases hg
  · split at hg <;> cases hg
    exact same _ rfl rfl rfl rfl
  · rename_i srv n env hpos
    split at hg
    · cases hg
    · rename_i hc
      simp only [ne_eq, not_not] at hc
      split at hg
      · cases hg
        exact same _ rfl rfl rfl rfl
      · rename_i hu
        cases hg
        refine stepOf_locked (s := s) (s1 := { s with made := fun c => if c = s.mgr.nextId then s.generation else s.made c }) _ _
          (.load _ _ (idle_of hc) hu) rfl rfl (Or.inr ⟨rfl, ?_⟩) (returned_load (idle_of hc) hu _ _)
        rcases load_cases s.mgr n env (idle_of hc) hu with ⟨ty, i, cl, _, _, _, _, _, e⟩ | ⟨_, o, _, e⟩
        · rw [e]
          intro x hx
          rcases List.mem_append.1 hx with h1 | h1
          · exact Or.inl h1
          · simp only [List.mem_singleton] at h1
            rw [h1]
            exact Or.inr rfl
        · rw [e]
          exact fun x hx => Or.inl hx
  · split at hg
    · cases hg
    · rename_i hc
      simp only [ne_eq, not_not] at hc
      split at hg
      · cases hg
        exact same _ rfl rfl rfl rfl
      · rename_i hu
        cases hg
        exact stepOf_locked (s := s) (s1 := s) _ _ (.unload _ (idle_of hc) hu) rfl rfl (Or.inl ⟨rfl, unl (idle_of hc) hu _⟩)
          (returned_unload (idle_of hc) hu _)
  · split at hg <;> cases hg
    exact ⟨⟨s.mgr, [], .nothing, by rw [emit_nil]; rfl, Or.inl rfl⟩, Or.inl ⟨rfl, Or.inl ⟨rfl, fun _ hx => hx⟩⟩,
      Or.inr (Or.inr ⟨rfl, rfl⟩)⟩
  · cases hg
    exact same _ rfl rfl rfl rfl
  · repeat' split at hg
    all_goals first | cases hg
    · exact ⟨⟨s.mgr, [.reloadRet false], .nothing, rfl, Or.inr ⟨_, rfl⟩⟩, Or.inl ⟨rfl, Or.inl ⟨rfl, fun _ hx => hx⟩⟩,
        Or.inr (Or.inl ⟨[], _, by simp [St.endReload, St.answer, St.at, Mgr.emit], rfl⟩)⟩
    · exact same _ rfl rfl rfl rfl
    · exact same _ rfl rfl rfl rfl
  · cases hg
    exact ⟨⟨_, [], .reset, by rw [emit_nil]; rfl, Or.inl rfl⟩, Or.inl ⟨rfl, Or.inl ⟨rfl, fun _ hx => hx⟩⟩, Or.inl rfl⟩
  · split at hg
    · cases hg
    · rename_i hc
      simp only [ne_eq, not_not] at hc
      cases hg
      exact stepOf_locked (s := s) (s1 := s) _ _ (.switch _ _ _ (idle_of hc)) rfl rfl (Or.inl ⟨rfl, fun x hx => (locked_cur conf s.mgr _ _ _) ▸ hx⟩)
        (returned_switch (idle_of hc) _ _ _)
  · split at hg
    · cases hg
    · rename_i hc
      simp only [ne_eq, not_not] at hc
      split at hg
      · cases hg
        exact same _ rfl rfl rfl rfl
      · rename_i hu
        cases hg
        exact stepOf_locked (s := s) (s1 := s) _ _ (.unload _ (idle_of hc) hu) rfl rfl (Or.inl ⟨rfl, unl (idle_of hc) hu _⟩)
          (returned_unload (idle_of hc) hu _)
  · split at hg <;> cases hg
    exact same _ rfl rfl rfl rfl
  · rename_i hpos
    cases hg
    exact ⟨⟨s.mgr, [.reloadRet true], .nothing, rfl, Or.inr ⟨_, rfl⟩⟩, Or.inr ⟨⟨_, hpos⟩, rfl, rfl, rfl⟩,
      Or.inr (Or.inl ⟨[], _, by simp [St.endReload, St.answer, St.at, Mgr.emit], rfl⟩)⟩
  · rename_i srv k hpos
    have hni : s.mgr.svc ≠ .idle := by
      intro hi
      have h1 := h.svc.2 hi
      have h2 := (h.ctrl t).2 (by rw [hpos]; rfl)
      rw [h1] at h2; cases h2
    simp only at hg
    split at hg <;> cases hg
    · rename_i hi
      exact stepOf_back (s := s) (s1 := { s with mgr := s.mgr.poll ok el, controllers := none }) _ _ .poll rfl rfl rfl
        (Or.inl ⟨rfl, fun x hx => pollPlain_cur h.plain ok el ▸ hx⟩) (returned_poll h.plain hni ok el hi)
    · exact ⟨⟨_, [], .poll, by rw [emit_nil], Or.inl rfl⟩, Or.inl ⟨rfl, Or.inl ⟨rfl, fun x hx => pollPlain_cur h.plain ok el ▸ hx⟩⟩, Or.inl rfl⟩

/-! ### Safety in any history -/

/-- The manager after the call that waits has given up. -/
def drop (m : Mgr) : Mgr := { m with svc := .idle, startReq := [], stopReq := [], params := {} }

/-- The invariant of the manager, or the switch that is waited for has been forgotten. -/
def Safe (P : List ControllerInfo → Prop) (m : Mgr) : Prop :=
  Inv P m ∨ (m.Switching ∧ m.params.doSwitch = false ∧ Inv P (drop m))

theorem Safe.inv {P} {m : Mgr} (h : Safe P m) (hs : ¬ m.Switching) : Inv P m :=
  h.resolve_right fun hh => hs hh.1

theorem safe_emit {P} {m : Mgr} (h : Safe P m) (es : List Event) : Safe P (m.emit es) := by
  rcases h with h | ⟨h1, h2, h3⟩
  · exact Or.inl (inv_emit h _)
  · exact Or.inr ⟨h1, h2, inv_emit h3 _⟩

theorem inv_drop {P} {m : Mgr} (h : Inv P m) (hs : m.Switching) : Inv P (drop m) := by
  have hnr : ¬ m.ReleasingList := by
    rintro ⟨f, r, e⟩
    obtain ⟨k, t, e'⟩ := hs
    rw [e] at e'; cases e'
  exact ⟨h.names, h.objs, h.fresh, h.inited, h.unborn, h.running, fun _ => ⟨rfl, rfl⟩, by simp [drop], by simp [drop], h.free,
    (fun hh => by cases hh), (fun ⟨k, t, e⟩ => by cases e), fun _ => h.used hnr, (fun f r e => by cases e),
    fun _ => h.old hnr, h.fault⟩

theorem safe_reset {P} {m : Mgr} (h : Safe P m) : Safe P { m with params := {} } := by
  by_cases hs : m.Switching
  · refine Or.inr ⟨hs, rfl, ?_⟩
    rcases h with h | ⟨_, _, h3⟩
    · exact (inv_drop h hs : Inv P (drop m))
    · exact h3
  · exact Or.inl (inv_forget (h.inv hs) hs)

theorem safe_update {P} (mono : ∀ l l', List.Sublist l' l → P l → P l') {m : Mgr} (h : Safe P m) (time : Int) (reset : Bool)
    (hw : HwReply) : Safe P (m.update time reset hw) := by
  rcases h with h | ⟨⟨k, t, h1⟩, h2, h3⟩
  · exact Or.inl (inv_update mono h time reset hw)
  · refine Or.inr ⟨⟨k, t, (svc_update m time reset hw).trans h1⟩, ?_, ?_⟩
    · rw [update_idle m h2]; exact h2
    · have h4 := inv_update mono h3 time reset hw
      have e : drop (m.update time reset hw) = (drop m).update time reset hw := by
        rw [update_idle m h2, update_idle (drop m) rfl]
        rfl
      rw [e]
      exact h4

theorem safe_effect {conf P} (hc : CheckOk conf P) {m m' : Mgr} (h : Safe P m) (hpl : Plain m.svc) {ok : RosOk} {el : Int}
    (hok : ok.cond = true ∧ ok.body = true) (he : Effect conf m ok el m') : Safe P m' := by
  have hns : m.svc = .idle → ¬ m.Switching := by
    rintro hi ⟨k, t, e⟩; rw [hi] at e; cases e
  cases he with
  | nothing => exact h
  | load n env hi hu => exact Or.inl (inv_step hc (h.inv (hns hi)) (.load n env) trivial)
  | unload n hi hu => exact Or.inl (inv_step hc (h.inv (hns hi)) (.unload n) trivial)
  | reset => exact safe_reset h
  | switch r now p hi =>
    have hv := h.inv (hns hi)
    have h1 := inv_step hc hv (.switch r now p) trivial
    have e : m.step conf (.switch r now p) = (m.switchCore conf r now p .ret).2 := by
      show m.switch conf r now p = _
      unfold Mgr.switch
      rw [if_neg (by simpa using hi)]
    rw [e] at h1
    left
    unfold switchLocked
    rcases switchCore_svc (conf := conf) hi r now p with ⟨g1, g2⟩ | ⟨g1, g2, g3, _⟩
    · split
      · rename_i m' em
        rw [em] at h1 g2
        dsimp only at h1 g2
        have hd : m'.params.doSwitch = true := by
          have : (m.switchCore conf r now p .ret).2.params.doSwitch = true := by
            have g1' := g1
            revert g1'
            unfold switchCore
            simp only
            repeat' split
            all_goals first
              | exact fun hh => absurd hh Bool.false_ne_true
              | exact fun _ => rfl
          rw [em] at this
          exact this
        exact ⟨h1.names, h1.objs, h1.fresh, h1.inited, h1.unborn, h1.running, h1.reqs, h1.start, h1.stop, h1.free, h1.target,
          (fun _ hh => by have hh : m'.params.doSwitch = false := hh; rw [hd] at hh; cases hh), h1.used, h1.former, h1.old, h1.fault⟩
      · rename_i m' em
        rw [em] at g1; cases g1
    · split
      · rename_i m' em
        rw [em] at g1; cases g1
      · rename_i m' em
        rw [em] at h1 g2
        dsimp only at h1 g2
        have hns' : ¬ m'.Switching := by rintro ⟨k, t, e⟩; rw [g2] at e; cases e
        refine ⟨h1.names, h1.objs, h1.fresh, h1.inited, h1.unborn, h1.running, h1.reqs, h1.start, h1.stop, h1.free, fun _ => ?_,
          (fun hh => absurd hh hns'), h1.used, h1.former, h1.old, h1.fault⟩
        obtain ⟨q1, q2⟩ := h1.reqs hns'
        have hfree := h1.free
        unfold targetInfos
        unfold runningInfos at hfree
        dsimp only
        rw [q1, q2]
        simpa [isRunning] using hfree
  | poll =>
    rcases h with h | ⟨⟨k, t, h1⟩, h2, h3⟩
    · exact Or.inl (inv_step hc h (.poll ok el) hok)
    · left
      rw [h1] at hpl
      obtain rfl : k = .ret := hpl
      have e : m.poll ok el = { drop m with params := m.params, trace := m.trace ++ [.switchRet true] } := by
        unfold Mgr.poll
        rw [h1]
        simp [h2, Mgr.finish, Mgr.emit, drop]
      rw [e]
      exact ⟨h3.names, h3.objs, h3.fresh, h3.inited, h3.unborn, h3.running, h3.reqs, h3.start, h3.stop, h3.free,
        (fun hh => by have hh : m.params.doSwitch = true := hh; rw [h2] at hh; cases hh), (fun ⟨k, t, e⟩ => by cases e), h3.used, h3.former,
        h3.old, h3.fault⟩

theorem safe_after {conf P} (hc : CheckOk conf P) (ops : List ThrOp) (hup : ∀ op ∈ ops, op.rosUp) :
    Safe P (after conf ops).mgr := by
  induction ops using List.reverseRecOn with
  | nil => exact Or.inl (inv_init hc.nil)
  | append_singleton ops op ih =>
    have ih := ih fun o ho => hup o (by simp [ho])
    have hl := locks_after conf ops
    have hop := hup op (by simp)
    unfold after at ih hl ⊢
    rw [run_concat]
    generalize ({} : St).run conf ops = s at ih hl
    cases op with
    | call t srv c =>
      show Safe P (s.call t srv c).mgr
      rcases call_cases s t srv c with e | ⟨hpos, _, e⟩ | ⟨hpos, _, hnr, e⟩ <;> (rw [e]; exact ih)
    | go t ok el =>
      show Safe P ((s.go conf t ok el).getD s).mgr
      cases e : s.go conf t ok el with
      | none => exact ih
      | some s' =>
        obtain ⟨m, es, h1, h2, _⟩ := (go_stepOf hl t ok el e).mgr
        show Safe P s'.mgr
        rw [h2]
        exact safe_emit (safe_effect hc ih hl.plain hop h1) es
    | update time reset hw => exact safe_update hc.mono ih time reset hw

/-- Every loaded controller has been created since the libraries were last reloaded. -/
def Lib (s : St) : Prop := ∀ x ∈ s.mgr.cur, s.made x.c = s.generation

theorem fresh_of_safe {P} {m : Mgr} (h : Safe P m) : ∀ x ∈ m.cur, x.c < m.nextId := by
  rcases h with h | ⟨_, _, h⟩
  · exact fun x hx => h.fresh x (Or.inl hx)
  · exact fun x hx => h.fresh x (Or.inl hx)

theorem lib_after (conf : List ControllerInfo → Bool) (ops : List ThrOp) (hup : ∀ op ∈ ops, op.rosUp)
    (hs : (∀ op ∈ ops, op.service) ∨ ∀ op ∈ ops, op.mild) : Lib (after conf ops) := by
  induction ops using List.reverseRecOn with
  | nil => intro x hx; cases hx
  | append_singleton ops op ih =>
    have hup' : ∀ op ∈ ops, op.rosUp := fun o ho => hup o (by simp [ho])
    have hs' : (∀ op ∈ ops, op.service) ∨ ∀ op ∈ ops, op.mild := by
      rcases hs with hs | hs
      · exact Or.inl fun o ho => hs o (by simp [ho])
      · exact Or.inr fun o ho => hs o (by simp [ho])
    have ih := ih hup' hs'
    have hl := locks_after conf ops
    have hsafe := safe_after (checkOk_true conf) ops hup'
    have hg : Good conf false false (after conf ops) ∨ Good conf false true (after conf ops) := by
      rcases hs' with hs' | hs'
      · exact Or.inl (good_after conf false false ops hup' (fun e => by cases e) hs')
      · exact Or.inr (good_after conf false true ops hup' (fun e => by cases e) hs')
    unfold after at ih hl hsafe hg ⊢
    rw [run_concat]
    generalize ({} : St).run conf ops = s at ih hl hsafe hg
    cases op with
    | call t srv c =>
      show Lib (s.call t srv c)
      rcases call_cases s t srv c with e | ⟨hpos, _, e⟩ | ⟨hpos, _, hnr, e⟩ <;> (rw [e]; exact ih)
    | go t ok el =>
      show Lib ((s.go conf t ok el).getD s)
      cases e : s.go conf t ok el with
      | none => exact ih
      | some s' =>
        show Lib s'
        intro x hx
        rcases (go_stepOf hl t ok el e).made with ⟨h1, ⟨h2, h3⟩ | ⟨h2, h3⟩⟩ | ⟨⟨k, h1⟩, h2, h3, h4⟩
        · rw [h1, h2]
          exact ih x (h3 x hx)
        · rw [h1, h2]
          dsimp only
          split
          · rfl
          · rename_i hne
            exact ih x ((h3 x hx).resolve_right hne)
        · exfalso
          rw [h4] at hx
          have hnil : s.mgr.cur = [] := by
            rcases hg with hg | hg
            · have hp := hg.ok t
              rw [h1] at hp
              cases k with
              | false => exact hp rfl
              | true =>
                have hv := hg.serial
                rw [seq_view hl hg.calm t (fun _ => Or.inl (by rw [h1]; rfl))] at hv
                unfold view at hv
                rw [h1] at hv
                have := (names_of_serial hv).unloading [] rfl
                exact List.map_eq_nil_iff.1 this.symm
            · have := hg.calm t
              rw [h1] at this
              cases this
          rw [hnil] at hx
          cases hx
    | update time reset hw =>
      have hcur : (s.mgr.update time reset hw).cur = s.mgr.cur := by
        rcases hsafe with h | ⟨_, h, _⟩
        · exact (update_cur h time reset hw).1
        · rw [update_idle _ h]; rfl
      intro x hx
      have hx : x ∈ (s.mgr.update time reset hw).cur := hx
      rw [hcur] at hx
      exact ih x hx

theorem effect_trace {conf} {m m' : Mgr} (hpl : Plain m.svc) {ok : RosOk} {el : Int} (he : Effect conf m ok el m') :
    m.trace <+: m'.trace := by
  cases he with
  | nothing => exact List.prefix_rfl
  | reset => exact List.prefix_rfl
  | load n env hi hu =>
    rcases load_cases m n env hi hu with ⟨ty, i, cl, _, _, _, _, _, e⟩ | ⟨_, o, _, e⟩
    · rw [e]; exact List.prefix_rfl
    · rw [e]; exact List.prefix_append _ _
  | unload n hi hu =>
    rw [show m.unload n = m.unloadCore n .ret id by simp [Mgr.unload, hi]]
    rcases unloadCore_cases m n .ret id hu with ⟨_, _, e⟩ | ⟨_, e⟩
    · rw [e]; exact List.prefix_rfl
    · rw [e]; exact List.prefix_append _ _
  | switch r now p hi =>
    have h : m.trace <+: (m.switchCore conf r now p .ret).2.trace := by
      unfold switchCore
      simp only
      repeat' split
      all_goals first
        | exact List.prefix_append _ _
        | exact (List.prefix_append _ _).trans (List.prefix_append _ _)
    unfold switchLocked
    split <;> (rename_i e; rw [e] at h; exact h)
  | poll =>
    by_cases hni : m.svc = .idle
    · unfold Mgr.poll
      rw [hni]
      exact List.prefix_rfl
    · by_cases hi : (m.poll ok el).svc = .idle
      · obtain ⟨es, h⟩ := returned_poll hpl hni ok el hi
        rw [h, List.append_assoc]
        exact List.prefix_append _ _
      · have : m.poll ok el = m := by
          revert hi
          unfold Mgr.poll
          split
          · exact fun _ => rfl
          · rename_i k tmo e
            rw [e] at hpl
            obtain rfl : k = .ret := hpl
            simp only [Mgr.finish]
            repeat' split
            all_goals first
              | exact fun _ => rfl
              | exact fun hh => absurd rfl hh
          · rename_i f r e
            rw [e] at hpl
            cases r with
            | load n =>
              simp only
              repeat' split
              all_goals first
                | exact fun _ => rfl
                | exact fun hh => absurd rfl hh
            | unload n k =>
              obtain rfl : k = .ret := hpl
              simp only [Mgr.finish]
              repeat' split
              all_goals first
                | exact fun _ => rfl
                | exact fun hh => absurd rfl hh
          · rename_i e; rw [e] at hpl; cases hpl
          · rename_i e; rw [e] at hpl; cases hpl
        rw [this]
        exact List.prefix_rfl

theorem update_trace {P} {m : Mgr} (h : Safe P m) (time : Int) (reset : Bool) (hw : HwReply) :
    m.trace <+: (m.update time reset hw).trace := by
  cases hd : m.params.doSwitch
  · rw [update_idle m hd]
    exact List.prefix_append _ _
  · rcases h with h | ⟨_, h2, _⟩
    · obtain ⟨st, es, d, _, he, _⟩ := update_switch m h.sane hd time reset hw
      rw [he]
      exact List.prefix_append _ _
    · rw [hd] at h2; cases h2

/-- The results that threads have got appear in the trace in the order in which they got them. -/
theorem answers_after (conf : List ControllerInfo → Bool) (ops : List ThrOp) (hup : ∀ op ∈ ops, op.rosUp) :
    List.Sublist ((after conf ops).answers.filterMap fun a => match a.2 with | .ret e => some e | .names _ => none)
      (after conf ops).mgr.trace := by
  induction ops using List.reverseRecOn with
  | nil => exact List.nil_sublist _
  | append_singleton ops op ih =>
    have hup' : ∀ op ∈ ops, op.rosUp := fun o ho => hup o (by simp [ho])
    have ih := ih hup'
    have hl := locks_after conf ops
    have hsafe := safe_after (checkOk_true conf) ops hup'
    unfold after at ih hl hsafe ⊢
    rw [run_concat]
    generalize ({} : St).run conf ops = s at ih hl hsafe
    cases op with
    | call t srv c =>
      show List.Sublist ((s.call t srv c).answers.filterMap _) (s.call t srv c).mgr.trace
      rcases call_cases s t srv c with e | ⟨hpos, _, e⟩ | ⟨hpos, _, hnr, e⟩ <;> (rw [e]; exact ih)
    | go t ok el =>
      show List.Sublist (((s.go conf t ok el).getD s).answers.filterMap _) ((s.go conf t ok el).getD s).mgr.trace
      cases e : s.go conf t ok el with
      | none => exact ih
      | some s' =>
        show List.Sublist (s'.answers.filterMap _) s'.mgr.trace
        rcases (go_stepOf hl t ok el e).answers with h1 | ⟨es, e', h1, h2⟩ | ⟨h1, h2⟩
        · rw [h1]
          refine ih.trans ?_
          obtain ⟨m, es, g1, g2, _⟩ := (go_stepOf hl t ok el e).mgr
          rw [g2]
          exact ((effect_trace hl.plain g1).trans (List.prefix_append _ _)).sublist
        · rw [h1, h2, List.filterMap_append]
          refine List.Sublist.append (ih.trans (List.sublist_append_left _ _)) ?_
          simp
        · rw [h1, h2, List.filterMap_append]
          simpa using ih
    | update time reset hw =>
      exact ih.trans (update_trace hsafe time reset hw).sublist

end Thr

end Verif
