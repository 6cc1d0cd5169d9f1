import Verif.Spec.Interleaved
import Verif.Lemmas.ManagerSim

/-!
Helper lemmas for executions in which service operations happen in the middle of updates.
-/

namespace Verif

open Mgr

namespace Mgr

/-- The manager with another list of past events. -/
def withTrace (m : Mgr) (t : List Event) : Mgr := { m with trace := t }

@[simp] theorem withTrace_self (m : Mgr) : m.withTrace m.trace = m := rfl
@[simp] theorem withTrace_withTrace (m : Mgr) (t t' : List Event) :
    (m.withTrace t).withTrace t' = m.withTrace t' := rfl

/-- `f` neither reads nor rewrites the past events; it appends service events. -/
def Blind (f : Mgr → Mgr) (m : Mgr) : Prop :=
  ∃ es : List Event, (∀ e ∈ es, e.realtime = false) ∧
    ∀ t, f (m.withTrace t) = (f m).withTrace (t ++ es)

theorem blind_id (m : Mgr) : Blind (fun m => m) m := ⟨[], by simp, by simp⟩

theorem transfer_withTrace (m : Mgr) (t : List Event) (n : String) (l out : List CtrlSpec) (b : Bool) :
    (m.withTrace t).transfer n l out b = m.transfer n l out b := by
  induction l generalizing out b with
  | nil => rfl
  | cons s l ih => simp only [transfer, ih]; rfl

theorem resolve_withTrace (m : Mgr) (t : List Event) (s : Bool) (ns : List String) (acc : List CId) :
    (m.withTrace t).resolve s ns acc = m.resolve s ns acc := by
  induction ns generalizing acc with
  | nil => rfl
  | cons n ns ih => simp only [resolve, ih]; rfl

theorem scan_withTrace (m : Mgr) (t : List Event) (s : Bool) (a b : List CId) (l : List CtrlSpec)
    (acc : Scan) : (m.withTrace t).scan s a b l acc = m.scan s a b l acc := by
  induction l generalizing acc with
  | nil => rfl
  | cons c l ih => simp only [scan, ih]; rfl

theorem blind_load (m : Mgr) (n : String) (env : LoadEnv) : Blind (fun m => m.load n env) m := by
  by_cases h1 : m.svc = .idle
  · by_cases h2 : m.used = some (!m.current)
    · exact ⟨[], by simp, fun t => by simp [load, withTrace, h1, h2]⟩
    · by_cases h3 : (m.cur.any fun s => s.info.name = n) = true
      · exact ⟨[.loadRet n false], by simp [Event.realtime], fun t => by simp [load, withTrace, h1, h2, h3, emit]⟩
      · cases h4 : env.nodeHandleOk
        · exact ⟨[.loadRet n false], by simp [Event.realtime], fun t => by simp [load, withTrace, h1, h2, h3, h4, emit]⟩
        · cases h5 : env.type with
          | none => exact ⟨[.loadRet n false], by simp [Event.realtime], fun t => by simp [load, withTrace, h1, h2, h3, h4, h5, emit]⟩
          | some ty =>
            cases h6 : instantiate ty 0 env.loaders with
            | none => exact ⟨[.loadRet n false], by simp [Event.realtime], fun t => by simp [load, withTrace, h1, h2, h3, h4, h5, h6, emit]⟩
            | some i =>
              cases h7 : env.init with
              | none => exact ⟨[.loadRet n false], by simp [Event.realtime], fun t => by simp [load, withTrace, h1, h2, h3, h4, h5, h6, h7, emit]⟩
              | some cl => exact ⟨[], by simp, fun t => by simp [load, withTrace, h1, h2, h3, h4, h5, h6, h7]⟩
  · exact ⟨[], by simp, fun t => by simp [load, withTrace, h1]⟩

theorem blind_unloadCore (m : Mgr) (n : String) (k : Kont) (f : Mgr → Mgr) (es : List Event)
    (hes : ∀ e ∈ es, e.realtime = false)
    (hf : ∀ m t, f (m.withTrace t) = (f m).withTrace (t ++ es)) :
    Blind (fun m => m.unloadCore n k f) m := by
  by_cases h2 : m.used = some (!m.current)
  · exact ⟨[], by simp, fun t => by simp [unloadCore, withTrace, h2]⟩
  · have key : ∀ t, f ({ m.withTrace t with oth := [] }.emit [.unloadRet n false]) =
        (f ({ m with oth := [] }.emit [.unloadRet n false])).withTrace (t ++ ([.unloadRet n false] ++ es)) := by
      intro t
      have := hf ({ m with oth := [] }.emit [.unloadRet n false]) (t ++ [.unloadRet n false])
      rw [List.append_assoc] at this
      exact this
    have hes' : ∀ e ∈ [Event.unloadRet n false] ++ es, e.realtime = false := by
      intro e he
      rcases List.mem_append.1 he with he | he
      · simp only [List.mem_singleton] at he; rw [he]; rfl
      · exact hes e he
    cases h3 : m.transfer n m.cur [] false with
    | none =>
      refine ⟨_, hes', fun t => ?_⟩
      have h3' : (m.withTrace t).transfer n (m.withTrace t).cur [] false = none := by
        rw [transfer_withTrace]; exact h3
      simp only [unloadCore, h3, h3']
      rw [if_neg (show ¬ (m.withTrace t).used = some (!(m.withTrace t).current) from h2), if_neg h2]
      exact key t
    | some p =>
      obtain ⟨out, rm⟩ := p
      cases rm
      · refine ⟨_, hes', fun t => ?_⟩
        have h3' : (m.withTrace t).transfer n (m.withTrace t).cur [] false = some (out, false) := by
          rw [transfer_withTrace]; exact h3
        simp only [unloadCore, h3, h3']
        rw [if_neg (show ¬ (m.withTrace t).used = some (!(m.withTrace t).current) from h2), if_neg h2]
        exact key t
      · refine ⟨[], by simp, fun t => ?_⟩
        have h3' : (m.withTrace t).transfer n (m.withTrace t).cur [] false = some (out, true) := by
          rw [transfer_withTrace]; exact h3
        simp only [unloadCore, h3, h3']
        rw [if_neg (show ¬ (m.withTrace t).used = some (!(m.withTrace t).current) from h2), if_neg h2]
        simp [withTrace]

theorem blind_switchCore (conf : List ControllerInfo → Bool) (m : Mgr) (r : SwitchReq) (now : Int)
    (p : Bool) (k : Kont) (hs : m.startReq = []) (ht : m.stopReq = []) :
    ∃ es : List Event, (∀ e ∈ es, e.realtime = false) ∧
      ∀ t, (m.withTrace t).switchCore conf r now p k =
        ((m.switchCore conf r now p k).1, (m.switchCore conf r now p k).2.withTrace (t ++ es)) := by
  rw [switchCore_eq conf m r now p k hs ht]
  have main := fun t => switchCore_eq conf (m.withTrace t) r now p k hs ht
  have e1 : ∀ t, (m.withTrace t).getControllerByName = m.getControllerByName := fun _ => rfl
  simp only [scan_withTrace, e1] at main
  generalize hsc : m.scan (strictOf r) (r.start.filterMap m.getControllerByName)
    (r.stop.filterMap m.getControllerByName) m.cur {} = sc
  have hsc' : ∀ t, m.scan (strictOf r) (r.start.filterMap m.getControllerByName)
    (r.stop.filterMap m.getControllerByName) (m.withTrace t).cur {} = sc := fun _ => hsc
  simp only [hsc'] at main
  simp only [hsc]
  by_cases h1 : strictOf r = true ∧ ∃ n ∈ r.stop ++ r.start, m.getControllerByName n = none
  · simp only [if_pos h1] at main ⊢
    exact ⟨[.switchRet false], by simp [Event.realtime], fun t => by rw [main t]; rfl⟩
  · simp only [if_neg h1] at main ⊢
    by_cases h2 : sc.1 = false ∨ conf sc.2.infos = true
    · simp only [if_pos h2] at main ⊢
      exact ⟨[.switchRet false], by simp [Event.realtime], fun t => by rw [main t]; rfl⟩
    · simp only [if_neg h2] at main ⊢
      cases p
      · exact ⟨[.prepareSwitch sc.2.swStart sc.2.swStop false, .switchRet false],
          by simp [Event.realtime], fun t => by rw [main t]; simp [withTrace]⟩
      · exact ⟨[.prepareSwitch sc.2.swStart sc.2.swStop true, .accepted sc.2.swStart sc.2.swStop],
          by simp [Event.realtime], fun t => by rw [main t]; rfl⟩

theorem blind_poll (m : Mgr) (ok : RosOk) (el : Int) : Blind (fun m => m.poll ok el) m := by
  cases hs : m.svc with
  | idle => exact ⟨[], by simp, fun t => by simp [poll, withTrace, hs]⟩
  | switching k tmo =>
    cases k with
    | ret =>
      cases h1 : (ok.cond && m.params.doSwitch)
      · exact ⟨[.switchRet true], by simp [Event.realtime], fun t => by
          simp [poll, withTrace, hs, h1, finish, emit]⟩
      · cases h2 : ok.body
        · exact ⟨[.switchRet false], by simp [Event.realtime], fun t => by
            simp [poll, withTrace, hs, h1, h2, finish, emit]⟩
        · by_cases h3 : el < tmo + second ∨ tmo = 0
          · exact ⟨[], by simp, fun t => by simp [poll, withTrace, hs, h1, h2, h3]⟩
          · exact ⟨[.switchRet false], by simp [Event.realtime], fun t => by
              simp [poll, withTrace, hs, h1, h2, h3, finish, emit]⟩
    | reload rest =>
      cases h1 : (ok.cond && m.params.doSwitch)
      · exact ⟨[.switchRet true], by simp [Event.realtime], fun t => by
          simp [poll, withTrace, hs, h1, finish, emit]⟩
      · cases h2 : ok.body
        · exact ⟨[.switchRet false, .reloadRet false], by simp [Event.realtime], fun t => by
            simp [poll, withTrace, hs, h1, h2, finish, emit]⟩
        · by_cases h3 : el < tmo + second ∨ tmo = 0
          · exact ⟨[], by simp, fun t => by simp [poll, withTrace, hs, h1, h2, h3]⟩
          · exact ⟨[.switchRet false, .reloadRet false], by simp [Event.realtime], fun t => by
              simp [poll, withTrace, hs, h1, h2, h3, finish, emit]⟩
  | releasing f r =>
    have hd : ∀ t, (m.withTrace t).dropped = m.dropped := fun t => rfl
    have hr : ∀ e ∈ m.dropped.map Event.destroyed, e.realtime = false := by
      intro e he; obtain ⟨c, _, rfl⟩ := List.mem_map.1 he; rfl
    by_cases h1 : ok.cond = true ∧ m.used = some f
    · cases h2 : ok.body
      · cases r with
        | load n => exact ⟨[.loadRet n false], by simp [Event.realtime], fun t => by
            simp [poll, withTrace, hs, h1, h2, emit]⟩
        | unload n k =>
          cases k with
          | ret => exact ⟨[.unloadRet n false], by simp [Event.realtime], fun t => by
              simp [poll, withTrace, hs, h1, h2, emit, finish]⟩
          | reload rest => exact ⟨[.unloadRet n false, .reloadRet false], by simp [Event.realtime], fun t => by
              simp [poll, withTrace, hs, h1, h2, emit, finish]⟩
      · exact ⟨[], by simp, fun t => by simp [poll, withTrace, hs, h1, h2]⟩
    · have key : ∀ (g : Event) (s : Svc), g.realtime = false →
          ∀ e ∈ m.dropped.map Event.destroyed ++ [g], e.realtime = false := by
        intro g s hg e he
        rcases List.mem_append.1 he with he | he
        · exact hr e he
        · simp only [List.mem_singleton] at he; rw [he]; exact hg
      cases r with
      | load n =>
        refine ⟨m.dropped.map .destroyed ++ [.loadRet n true], key _ .idle rfl, fun t => ?_⟩
        simp only [poll, hs, show (m.withTrace t).svc = _ from hs]
        simp only [clearOld, emit, hd t]
        have h1' : (ok.cond && decide (m.used = some f)) = false := by
          rw [Bool.eq_false_iff]; simpa using h1
        simp only [show (m.withTrace t).used = m.used from rfl, h1']
        simp [withTrace]
      | unload n k =>
        refine ⟨m.dropped.map .destroyed ++ [.unloadRet n true], key _ .idle rfl, fun t => ?_⟩
        simp only [poll, hs, show (m.withTrace t).svc = _ from hs]
        simp only [clearOld, emit, hd t]
        have h1' : (ok.cond && decide (m.used = some f)) = false := by
          rw [Bool.eq_false_iff]; simpa using h1
        simp only [show (m.withTrace t).used = m.used from rfl, h1']
        cases k <;> simp [withTrace, finish]
  | unloading l =>
    cases l with
    | nil => exact ⟨[.reloadRet true], by simp [Event.realtime], fun t => by
        simp [poll, withTrace, hs, emit]⟩
    | cons n ns =>
      obtain ⟨es, h1, h2⟩ := blind_unloadCore m n (.reload ns)
        (fun m => { m with svc := .idle }.emit [.reloadRet false]) [.reloadRet false]
        (by simp [Event.realtime]) (fun m t => by simp [withTrace, emit])
      refine ⟨es, h1, fun t => ?_⟩
      have := h2 t
      simp only [poll]
      rw [show (m.withTrace t).svc = .unloading (n :: ns) from hs, hs]
      exact this

/-- Operations of the service thread do not depend on the past events. -/
theorem blind_step (conf : List ControllerInfo → Bool) {P} (m : Mgr) (hm : Inv P m) (op : Op)
    (hop : op.isService = true) :
    Blind (fun m => m.step conf op) m := by
  cases op with
  | update => simp [Op.isService] at hop
  | load n e => exact blind_load m n e
  | unload n =>
    by_cases h : m.svc = .idle
    · obtain ⟨es, h1, h2⟩ := blind_unloadCore m n .ret id [] (by simp) (fun m t => by simp)
      refine ⟨es, h1, fun t => ?_⟩
      have := h2 t
      simp only [Mgr.step, unload]
      rw [show (m.withTrace t).svc = .idle from h, h]
      simpa using this
    · exact ⟨[], by simp, fun t => by simp [Mgr.step, unload, withTrace, h]⟩
  | switch r now p =>
    by_cases h : m.svc = .idle
    · obtain ⟨es, h1, h2⟩ := blind_switchCore conf m r now p .ret
        (hm.reqs (not_switching_of_idle h)).1 (hm.reqs (not_switching_of_idle h)).2
      refine ⟨es, h1, fun t => ?_⟩
      have := h2 t
      simp only [Mgr.step, switch]
      rw [show (m.withTrace t).svc = .idle from h, h]
      simp [this]
    · exact ⟨[], by simp, fun t => by simp [Mgr.step, switch, withTrace, h]⟩
  | reload f now p =>
    by_cases h : m.svc = .idle
    · by_cases h1 : m.getControllerNames.isEmpty = true
      · exact ⟨[.reloadRet true], by simp [Event.realtime], fun t => by
          have : (m.withTrace t).getControllerNames = m.getControllerNames := rfl
          simp only [Mgr.step, reload, this, h1]
          simp [withTrace, h, emit]⟩
      · cases f
        · exact ⟨[.reloadRet false], by simp [Event.realtime], fun t => by
            have : (m.withTrace t).getControllerNames = m.getControllerNames := rfl
            simp only [Mgr.step, reload, this, h1]
            simp [withTrace, h, emit]⟩
        · obtain ⟨es, h2, h3⟩ := blind_switchCore conf m
            ⟨[], m.getControllerNames, strictnessBestEffort, false, 0⟩ now p (.reload m.getControllerNames)
            (hm.reqs (not_switching_of_idle h)).1 (hm.reqs (not_switching_of_idle h)).2
          generalize hx : m.switchCore conf ⟨[], m.getControllerNames, strictnessBestEffort, false, 0⟩
            now p (.reload m.getControllerNames) = x at h3
          obtain ⟨b, m'⟩ := x
          simp only at h3
          cases b
          · refine ⟨es ++ [.reloadRet false], ?_, fun t => ?_⟩
            · intro e he
              rcases List.mem_append.1 he with he | he
              · exact h2 e he
              · simp only [List.mem_singleton] at he; rw [he]; rfl
            · have hg : (m.withTrace t).getControllerNames = m.getControllerNames := rfl
              have hv : (m.withTrace t).svc = .idle := h
              simp only [Mgr.step, reload, hg, h3 t, hx, hv, h]
              simp [h1, withTrace, emit]
          · refine ⟨es, h2, fun t => ?_⟩
            have hg : (m.withTrace t).getControllerNames = m.getControllerNames := rfl
            have hv : (m.withTrace t).svc = .idle := h
            simp only [Mgr.step, reload, hg, h3 t, hx, hv, h]
            simp [h1]
    · exact ⟨[], by simp, fun t => by simp [Mgr.step, reload, withTrace, h]⟩
  | poll ok e => exact blind_poll m ok e

/-- What an operation of the service thread does to the data shared with the realtime thread. -/
inductive SvcOut (m : Mgr) : Mgr → Prop
  | quiet (m' : Mgr) : m'.cur = m.cur → m'.current = m.current → m'.state = m.state →
      m'.used = m.used → m'.nextId = m.nextId →
      (m'.oth = m.oth ∨ m.used ≠ some (!m.current)) →
      (m'.params.doSwitch = true → m.params.doSwitch = true ∨ m'.Switching) → SvcOut m m'
  | loaded (n t : String) (cl : List InterfaceResources) : m.svc = .idle →
      m.used ≠ some (!m.current) → SvcOut m (m.loaded n t cl)
  | unloaded (n : String) (k : Kont) : (m.svc = .idle ∨ ∃ l, m.svc = .unloading l) →
      m.used ≠ some (!m.current) →
      (∀ s ∈ m.cur, s.info.name = n → m.isRunning s.c = false) → SvcOut m (m.unloaded n k)

theorem svcOut_self (m : Mgr) : SvcOut m m :=
  .quiet m rfl rfl rfl rfl rfl (Or.inl rfl) Or.inl

theorem svcOut_switchCore (conf : List ControllerInfo → Bool) (m : Mgr) (r : SwitchReq) (now : Int)
    (p : Bool) (k : Kont) (hs : m.startReq = []) (ht : m.stopReq = []) (es : List Event) :
    SvcOut m (m.switchCore conf r now p k).2 ∧
      ((m.switchCore conf r now p k).1 = false →
        SvcOut m ((m.switchCore conf r now p k).2.emit es)) := by
  by_cases h : m.okRequest conf r p
  · rw [switchCore_accept conf m r now p k hs ht h]
    refine ⟨.quiet _ rfl rfl rfl rfl rfl (Or.inl rfl) fun _ => Or.inr ⟨k, r.timeout, rfl⟩, ?_⟩
    intro hf; cases hf
  · obtain ⟨a, b, es', e, _⟩ := switchCore_refuse conf m r now p k hs ht h
    rw [e]
    exact ⟨.quiet _ rfl rfl rfl rfl rfl (Or.inl rfl) (by simp),
      fun _ => .quiet _ rfl rfl rfl rfl rfl (Or.inl rfl) (by simp [emit])⟩

theorem svcOut_step (conf : List ControllerInfo → Bool) {P} {m : Mgr} (hm : Inv P m) {op : Op}
    (hop : op.isService = true) (hr : op.rosUp) : SvcOut m (m.step conf op) := by
  cases op with
  | update => simp [Op.isService] at hop
  | load n e =>
    show SvcOut m (m.load n e)
    by_cases h : m.svc = .idle
    · have hu := hm.used (not_releasing_of_idle h)
      rcases load_cases m n e h hu with ⟨ty, i, cl, _, _, _, _, _, e'⟩ | ⟨_, o, _, e'⟩
      · rw [e']; exact .loaded n ty cl h hu
      · rw [e']; exact .quiet _ rfl rfl rfl rfl rfl (Or.inr hu) Or.inl
    · have : m.load n e = m := by simp [load, h]
      rw [this]; exact svcOut_self m
  | unload n =>
    show SvcOut m (m.unload n)
    by_cases h : m.svc = .idle
    · have hu := hm.used (not_releasing_of_idle h)
      have e0 : m.unload n = m.unloadCore n .ret id := by simp [unload, h]
      rw [e0]
      rcases unloadCore_cases m n .ret id hu with ⟨_, h2, e'⟩ | ⟨_, e'⟩
      · rw [e']; exact .unloaded n .ret (Or.inl h) hu h2
      · rw [e']; exact .quiet _ rfl rfl rfl rfl rfl (Or.inr hu) Or.inl
    · have : m.unload n = m := by simp [unload, h]
      rw [this]; exact svcOut_self m
  | switch r now p =>
    show SvcOut m (m.switch conf r now p)
    by_cases h : m.svc = .idle
    · have hq := hm.reqs (not_switching_of_idle h)
      have e0 : m.switch conf r now p = (m.switchCore conf r now p .ret).2 := by simp [switch, h]
      rw [e0]; exact (svcOut_switchCore conf m r now p .ret hq.1 hq.2 []).1
    · have : m.switch conf r now p = m := by simp [switch, h]
      rw [this]; exact svcOut_self m
  | reload f now p =>
    show SvcOut m (m.reload conf f now p)
    by_cases h : m.svc = .idle
    · have hq := hm.reqs (not_switching_of_idle h)
      unfold reload
      rw [if_neg (by simpa using h)]
      simp only
      split
      · exact .quiet _ rfl rfl rfl rfl rfl (Or.inl rfl) Or.inl
      split
      · have hc := svcOut_switchCore conf m ⟨[], m.getControllerNames, strictnessBestEffort, false, 0⟩
          now p (.reload m.getControllerNames) hq.1 hq.2 [.reloadRet false]
        split
        · rename_i m' e; rw [e] at hc; exact hc.2 rfl
        · rename_i m' e; rw [e] at hc; exact hc.1
      · exact .quiet _ rfl rfl rfl rfl rfl (Or.inl rfl) Or.inl
    · have : m.reload conf f now p = m := by simp [reload, h]
      rw [this]; exact svcOut_self m
  | poll ok el =>
    show SvcOut m (m.poll ok el)
    obtain ⟨hok1, hok2⟩ := hr
    unfold poll
    split
    · exact svcOut_self m
    · rename_i k tmo hsvc
      simp only [hok1, hok2, Bool.true_and, Bool.not_true, Bool.false_eq_true, if_false]
      split
      · split
        · exact svcOut_self m
        · cases k <;> exact .quiet _ rfl rfl rfl rfl rfl (Or.inl rfl) Or.inl
      · cases k <;> exact .quiet _ rfl rfl rfl rfl rfl (Or.inl rfl) Or.inl
    · rename_i former r hsvc
      have hf := hm.former _ _ hsvc
      simp only [hok1, hok2, Bool.true_and, Bool.not_true, Bool.false_eq_true, if_false]
      split
      · exact svcOut_self m
      · rename_i hu
        have hu' : m.used ≠ some (!m.current) := by rw [← hf]; simpa using hu
        cases r with
        | load name => exact .quiet _ rfl rfl rfl rfl rfl (Or.inr hu') Or.inl
        | unload name k => cases k <;> exact .quiet _ rfl rfl rfl rfl rfl (Or.inr hu') Or.inl
    · exact .quiet _ rfl rfl rfl rfl rfl (Or.inl rfl) Or.inl
    · rename_i n ns hsvc
      have hnr : ¬ m.ReleasingList := by rintro ⟨f, r, e⟩; rw [hsvc] at e; cases e
      rcases unloadCore_cases m n (.reload ns)
        (fun m => { m with svc := .idle }.emit [.reloadRet false]) (hm.used hnr) with ⟨_, h2, e⟩ | ⟨_, e⟩
      · rw [e]; exact .unloaded n _ (Or.inr ⟨_, hsvc⟩) (hm.used hnr) h2
      · rw [e]; exact .quiet _ rfl rfl rfl rfl rfl (Or.inr (hm.used hnr)) Or.inl

theorem SvcOut.used {m m' : Mgr} (h : SvcOut m m') : m'.used = m.used := by
  cases h <;> first | assumption | rfl

theorem SvcOut.state {m m' : Mgr} (h : SvcOut m m') {c : CId} (hc : c < m.nextId) :
    m'.state c = m.state c := by
  cases h with
  | quiet _ _ h2 => rw [‹m'.state = m.state›]
  | loaded n t cl => simp [Mgr.loaded, Nat.ne_of_lt hc]
  | unloaded => rfl

/-- The list the realtime thread uses is not touched. -/
theorem SvcOut.usedList {m m' : Mgr} (h : SvcOut m m') : Inter.usedList m' = Inter.usedList m := by
  have hu := h.used
  unfold Inter.usedList
  rw [hu]
  cases hq : m.used with
  | none => rfl
  | some r =>
    simp only [Inter.list]
    cases h with
    | quiet _ h1 h2 h3 h4 h5 h6 h7 =>
      rw [h1, h2]
      by_cases hr : r = m.current
      · simp [hr]
      · rw [if_neg hr, if_neg hr]
        rcases h6 with h6 | h6
        · exact h6
        · exfalso; apply h6; rw [hq]; cases r <;> cases hc : m.current <;> simp_all
    | loaded n t cl _ h1 =>
      have hr : r = m.current := by
        rw [hq] at h1; cases r <;> cases hc : m.current <;> simp_all
      subst hr
      simp [Mgr.loaded]
    | unloaded n k _ h1 =>
      have hr : r = m.current := by
        rw [hq] at h1; cases r <;> cases hc : m.current <;> simp_all
      subst hr
      simp [Mgr.unloaded]

theorem SvcOut.switch {m m' : Mgr} (h : SvcOut m m') (hd : m.params.doSwitch = false)
    (hd' : m'.params.doSwitch = true) : m'.Switching ∧ m'.current = m.current := by
  cases h with
  | quiet _ h1 h2 h3 h4 h5 h6 h7 =>
    rcases h7 hd' with h | h
    · rw [hd] at h; cases h
    · exact ⟨h, h2⟩
  | loaded => rw [show m.params.doSwitch = true from hd'] at hd; cases hd
  | unloaded => rw [show m.params.doSwitch = true from hd'] at hd; cases hd

end Mgr

namespace Inter

/-! ### Equal up to the past -/

@[simp] theorem transitions_append (a b : List Event) :
    transitions (a ++ b) = transitions a ++ transitions b := List.filter_append ..

@[simp] theorem answers_append (a b : List Event) : answers (a ++ b) = answers a ++ answers b :=
  List.filter_append ..

theorem transitions_service {es : List Event} (h : ∀ e ∈ es, e.realtime = false) :
    transitions es = [] := by
  unfold transitions
  rw [List.filter_eq_nil_iff]
  intro e he
  simp [h e he]

theorem answers_realtime {es : List Event} (h : ∀ e ∈ es, e.realtime = true) : answers es = [] := by
  unfold answers
  rw [List.filter_eq_nil_iff]
  intro e he
  simp [h e he]

/-- `a` is `m` except for the past events, and it is `p` ahead of it. -/
structure Same (p : List Event) (m a : Mgr) : Prop where
  eq : a = m.withTrace a.trace
  trans : transitions a.trace = transitions m.trace ++ p
  ans : answers a.trace = answers m.trace

theorem Same.refl (m : Mgr) : Same [] m m := ⟨rfl, by simp, rfl⟩

theorem Same.agrees {m a : Mgr} (h : Same [] m a) : m.Agrees a := by
  have e := h.eq
  constructor
  all_goals first | (rw [e]; rfl) | (simpa using h.trans) | exact h.ans

theorem Same.svc {conf : List ControllerInfo → Bool} {P} {p : List Event} {m a : Mgr} (i : Inv P a)
    (h : Same p m a) {op : Op} (hop : op.isService = true) :
    Same p (m.step conf op) (a.step conf op) := by
  have em : m = a.withTrace m.trace := by rw [h.eq]; rfl
  have im : Inv P m := by rw [em]; exact inv_emit i _
  obtain ⟨es, h1, h2⟩ := blind_step conf m im op hop
  have ea := h2 a.trace
  rw [← h.eq] at ea
  have em := h2 m.trace
  simp only [withTrace_self] at em ea
  refine ⟨by rw [ea]; rfl, ?_, ?_⟩
  · rw [ea, em]
    simp [withTrace, transitions_service h1, h.trans]
  · rw [ea, em]
    simp [withTrace, h.ans]

theorem Same.inv {P} {p : List Event} {m a : Mgr} (i : Inv P a) (h : Same p m a) : Inv P m := by
  have em : m = a.withTrace m.trace := by rw [h.eq]; rfl
  rw [em]; exact inv_emit i _

/-! ### The rest of an update -/

/-- 86-90: what is left of the update when it looks for a pending switch. -/
def look (u : Args) (m : Mgr) : Mgr := if m.params.doSwitch then m.manageSwitch u.time u.hw else m

/-- 126-135: what is left after stopping controllers. -/
def launch (u : Args) (m : Mgr) : Mgr :=
  if !m.params.asap then m.startControllers u.time u.hw else m.startControllersAsap u.time u.hw

/-- The state at the end of the update if nothing else happens. -/
def complete (m : Mgr) : Rt → Mgr
  | .idle => m
  | .read u r =>
    let m := { m with used := some r }
    let m := if u.reset then (usedList m).foldl (fun m s => if m.isRunning s.c then (m.req .stop s.c).req .start s.c else m) m else m
    look u ((usedList m).foldl (fun m s => m.req .update s.c) m)
  | .resetting u l =>
    let m := l.foldl (fun m s => if m.isRunning s.c then (m.req .stop s.c).req .start s.c else m) m
    look u ((usedList m).foldl (fun m s => m.req .update s.c) m)
  | .restarting u c l =>
    let m := l.foldl (fun m s => if m.isRunning s.c then (m.req .stop s.c).req .start s.c else m)
      (m.req .start c)
    look u ((usedList m).foldl (fun m s => m.req .update s.c) m)
  | .updating u l => look u (l.foldl (fun m s => m.req .update s.c) m)
  | .looking u => look u m
  | .stopping u l => launch u (l.foldl (fun m c => if m.isRunning c then m.req .stop c else m) m)
  | .choosing u => launch u m
  | .starting _ l =>
    let m := l.foldl (fun m c => m.req .start c) m
    { m with params := { m.params with doSwitch := false } }
  | .aborting _ l =>
    let m := l.foldl (fun m c => m.req .abort c) m
    { m with params := { m.params with doSwitch := false } }
  | .waiting _ l => l.foldl (fun m c => m.req .wait c) m
  | .asap u n l =>
    let m := asapLoop u.time u.hw n l m
    if m.startReq.all fun c => (m.state c).isRunning || (m.state c).isAborted then
      { m with params := { m.params with doSwitch := false } }
    else m

theorem complete_step (s : St) (u' : Args) (hr : s.rt ≠ .idle) :
    complete (rtStep s u').m (rtStep s u').rt = complete s.m s.rt := by
  obtain ⟨m, rt⟩ := s
  cases rt with
  | idle => exact absurd rfl hr
  | read u r =>
    simp only [rtStep]
    cases hu : u.reset <;> simp [complete, hu]
  | resetting u l =>
    cases l with
    | nil => rfl
    | cons c l =>
      simp only [rtStep]
      by_cases h : m.isRunning c.c = true
      · simp [complete, h]
      · simp [complete, h]
  | restarting u c l => rfl
  | updating u l => cases l <;> rfl
  | looking u =>
    by_cases h : m.params.doSwitch = true
    · have e : complete m (.looking u) = m.manageSwitch u.time u.hw := if_pos h
      have e' : rtStep { m := m, rt := .looking u } u' =
          (let m := if !m.params.started then
              { m.emit [.doSwitch m.swStart m.swStop] with params := { m.params with started := true } }
            else m
           { m := m, rt := .stopping u m.stopReq }) := if_pos h
      show complete _ _ = complete m (.looking u)
      rw [e, e']
      rfl
    · have e : complete m (.looking u) = m := if_neg h
      have e' : rtStep { m := m, rt := .looking u } u' = { m := m, rt := .idle } := if_neg h
      show complete _ _ = complete m (.looking u)
      rw [e, e']
      rfl
  | stopping u l => cases l <;> rfl
  | choosing u =>
    simp only [rtStep, complete, launch]
    cases ha : m.params.asap
    · simp only [Bool.false_eq_true, if_false, Bool.not_false, if_true, startControllers]
      by_cases h1 : u.hw.first = .done
      · simp [h1]
      · by_cases h2 : (decide (u.hw.second = .error) || timedOut m.params u.time) = true
        · simp only [h1, h2, if_true, if_false]
        · simp only [h1, h2, if_false, Bool.false_eq_true]
    · simp only [if_true, Bool.not_true, Bool.false_eq_true, if_false]
      rfl
  | starting u l => cases l <;> rfl
  | aborting u l => cases l <;> rfl
  | waiting u l => cases l <;> rfl
  | asap u n l =>
    cases l with
    | nil =>
      simp only [rtStep, complete, asapLoop]
      by_cases h : (m.startReq.all fun c => (m.state c).isRunning || (m.state c).isAborted) = true
      · simp only [h, if_true]
      · simp only [h, if_false, Bool.false_eq_true]
    | cons c l => rfl

end Inter

end Verif
