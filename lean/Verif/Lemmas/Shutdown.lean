import Verif.Lemmas.Plugins
import Verif.Lemmas.Threads
import Verif.Spec.Shutdown

/-!
Helper lemmas for the shutdown of ROS.
-/

namespace Verif

namespace Mgr

theorem inv_with_used {P} {m : Mgr} (h : Inv P m) (u : Option Bool) : Inv P ({ m with used := u } : Mgr).released :=
  ⟨h.names, h.objs, h.fresh, h.inited, h.unborn, h.running, h.reqs, h.start, h.stop, h.free, h.target, h.done,
    fun _ e => by simp [released] at e, h.former, h.old, h.fault⟩

/-- The list in use plays no role. -/
theorem inv_released_used {P} {m : Mgr} (h : Inv P m) : Inv P m.released :=
  ⟨h.names, h.objs, h.fresh, h.inited, h.unborn, h.running, h.reqs, h.start, h.stop, h.free, h.target, h.done,
    fun _ e => by simp [released] at e, h.former, h.old, h.fault⟩

theorem released_update (m : Mgr) (t : Int) (r : Bool) (hw : HwReply) : m.released.update t r hw = m.update t r hw := rfl

theorem inv_poll_down {P} (mono : ∀ l l', List.Sublist l' l → P l → P l') {m : Mgr} (h : Inv P m)
    (hu : m.used ≠ some (!m.current)) (elapsed : Int) : Inv P (m.poll ⟨false, false⟩ elapsed) := by
  cases hs : m.svc with
  | switching k timeout =>
    have hnr : ¬ m.ReleasingList := by rintro ⟨f, r, e⟩; rw [hs] at e; cases e
    unfold poll
    rw [hs]
    simp only [Bool.false_and, Bool.false_eq_true, if_false]
    cases k with
    | ret => exact inv_svc h hnr .idle (by simp) (by simp) _
    | reload rest => exact inv_svc h hnr (.unloading rest) (by simp) (by simp) _
  | releasing former r =>
    have hf := h.former _ _ hs
    have e : m.poll ⟨false, false⟩ elapsed = m.poll {} elapsed := by
      unfold poll
      rw [hs]
      simp only [Bool.false_and, Bool.false_eq_true, if_false, Bool.true_and]
      rw [if_neg (by rw [hf]; simpa using hu)]
    rw [e]
    exact inv_poll mono h {} ⟨rfl, rfl⟩ elapsed
  | idle =>
    have e : m.poll ⟨false, false⟩ elapsed = m.poll {} elapsed := by unfold poll; rw [hs]
    rw [e]
    exact inv_poll mono h {} ⟨rfl, rfl⟩ elapsed
  | unloading l =>
    have e : m.poll ⟨false, false⟩ elapsed = m.poll {} elapsed := by unfold poll; rw [hs]; cases l <;> rfl
    rw [e]
    exact inv_poll mono h {} ⟨rfl, rfl⟩ elapsed

theorem inv_downStep {conf P} (hc : CheckOk conf P) {m : Mgr} (h : Inv P m.released) (op : Op) :
    Inv P (m.downStep conf op).released := by
  have other : ∀ op : Op, op.rosUp → Inv P ({ m.released.step conf op with used := m.used } : Mgr).released :=
    fun op ho => inv_with_used (inv_step hc h op ho) m.used
  cases op with
  | update t r hw => exact inv_released_used (inv_update hc.mono h t r hw)
  | load n e => exact other (.load n e) trivial
  | unload n => exact other (.unload n) trivial
  | switch r now p => exact other (.switch r now p) trivial
  | reload f now p => exact other (.reload f now p) trivial
  | poll ok el => exact inv_with_used (inv_poll_down hc.mono h (by simp [released]) el) m.used

theorem inv_downRun {conf P} (hc : CheckOk conf P) (ops : List Op) : ∀ {m : Mgr}, Inv P m.released →
    Inv P (m.downRun conf ops).released := by
  induction ops with
  | nil => exact fun h => h
  | cons op ops ih => exact fun h => ih (inv_downStep hc h op)

/-! ### Calls return -/

/-- How many looks a call needs at most to return. -/
def looksLeft : Svc → Nat
  | .idle => 0
  | .switching .ret _ => 1
  | .switching (.reload l) _ => 2 * l.length + 2
  | .releasing _ (.load _) => 1
  | .releasing _ (.unload _ .ret) => 1
  | .releasing _ (.unload _ (.reload l)) => 2 * l.length + 2
  | .unloading l => 2 * l.length + 1

theorem looksLeft_zero {s : Svc} (h : looksLeft s = 0) : s = .idle := by
  unfold looksLeft at h
  split at h <;> first | rfl | omega

theorem looksLeft_poll (m : Mgr) (hu : m.used ≠ some (!m.current)) (el : Int) :
    looksLeft (m.poll ⟨false, false⟩ el).svc ≤ looksLeft m.svc - 1 := by
  cases hs : m.svc with
  | idle => unfold poll; rw [hs]; simp [hs, looksLeft]
  | switching k t =>
    unfold poll
    rw [hs]
    simp only [Bool.false_and, Bool.false_eq_true, if_false]
    cases k with
    | ret => simp [finish, looksLeft]
    | reload l => simp [finish, looksLeft]
  | releasing f r =>
    unfold poll
    rw [hs]
    simp only [Bool.false_and, Bool.false_eq_true, if_false]
    cases r with
    | load n => simp [looksLeft]
    | unload n k =>
      cases k with
      | ret => simp [finish, looksLeft]
      | reload l => simp [finish, looksLeft]
  | unloading l =>
    unfold poll
    rw [hs]
    cases l with
    | nil => simp [emit, looksLeft]
    | cons n ns =>
      simp only
      rcases unloadCore_cases m n (.reload ns) (fun m => { m with svc := .idle }.emit [.reloadRet false]) hu with
        ⟨_, _, e⟩ | ⟨_, e⟩ <;> rw [e]
      · simp [unloaded, looksLeft]; omega
      · simp [emit, looksLeft]

theorem looks_run {conf} (ops : List Op) : ∀ m : Mgr, (∀ op ∈ ops, op.noCall = true) →
    looksLeft (m.downRun conf ops).svc ≤ looksLeft m.svc - (ops.filter Op.isLook).length := by
  induction ops with
  | nil => exact fun m _ => by simp [downRun]
  | cons op ops ih =>
    intro m h
    have hi := ih (m.downStep conf op) fun o ho => h o (by simp [ho])
    show looksLeft ((m.downStep conf op).downRun conf ops).svc ≤ _
    cases op with
    | update t r hw =>
      have e : (m.downStep conf (.update t r hw)).svc = m.svc := Thr.svc_update m t r hw
      rw [e] at hi
      simpa [Op.isLook] using hi
    | poll ok el =>
      have e : looksLeft (m.downStep conf (.poll ok el)).svc ≤ looksLeft m.svc - 1 :=
        looksLeft_poll m.released (by simp [released]) el
      have e2 : ((Op.poll ok el :: ops).filter Op.isLook).length = (ops.filter Op.isLook).length + 1 := rfl
      omega
    | load n e => exact absurd (h (.load n e) (by simp)) (by simp [Op.noCall])
    | unload n => exact absurd (h (.unload n) (by simp)) (by simp [Op.noCall])
    | switch r now p => exact absurd (h (.switch r now p) (by simp)) (by simp [Op.noCall])
    | reload f now p => exact absurd (h (.reload f now p) (by simp)) (by simp [Op.noCall])

theorem looksLeft_le {m : Mgr} (h : ReloadNames m) : looksLeft m.svc ≤ 2 * m.cur.length + 2 := by
  cases hs : m.svc with
  | idle => simp [looksLeft]
  | switching k t =>
    cases k with
    | ret => simp [looksLeft]
    | reload l => simp [looksLeft, h.switching l t hs]
  | releasing f r =>
    cases r with
    | load n => simp [looksLeft]
    | unload n k =>
      cases k with
      | ret => simp [looksLeft]
      | reload l => simp [looksLeft, h.releasing f n l hs]
  | unloading l => simp [looksLeft, h.unloading l hs]

theorem reloadNames_of_reachable {conf} {m : Mgr} (h : Reachable conf m) : ReloadNames m := by
  obtain ⟨ops, hops, rfl⟩ := h
  induction ops using List.reverseRecOn with
  | nil => exact reloadNames_idle rfl
  | append_singleton ops op ih =>
    rw [run, List.foldl_append]
    exact (Plug.reloadStep_step (inv_run (checkOk_true conf) (inv_init trivial) ops fun o ho => hops o (by simp [ho]))
      (ih fun o ho => hops o (by simp [ho])) op (hops op (by simp))).1

/-! ### What is answered -/

/-- A call that waits for the old list to be released has changed the list of controllers as it should. -/
structure Waits (m : Mgr) : Prop where
  load : ∀ f n, m.svc = .releasing f (.load n) → n ∈ m.cur.map (·.info.name)
  unload : ∀ f n k, m.svc = .releasing f (.unload n k) → n ∉ m.cur.map (·.info.name)

theorem waits_of_svc {m m' : Mgr} (h : Waits m) (h1 : m'.svc = m.svc) (h2 : m'.cur = m.cur) : Waits m' :=
  ⟨fun f n e => h2 ▸ h.load f n (h1 ▸ e), fun f n k e => h2 ▸ h.unload f n k (h1 ▸ e)⟩

theorem waits_other {m : Mgr} (h : ¬ m.ReleasingList) : Waits m :=
  ⟨fun f _ e => absurd ⟨f, _, e⟩ h, fun f _ _ e => absurd ⟨f, _, e⟩ h⟩

theorem waits_unloaded (m : Mgr) (n : String) (k : Kont) : Waits (m.unloaded n k) := by
  refine ⟨fun f n' e => by simp [unloaded] at e, fun f n' k' e => ?_⟩
  have e : Svc.releasing m.current (.unload n k) = .releasing f (.unload n' k') := e
  cases e
  simp [unloaded]

theorem waits_unloadCore {m : Mgr} (hu : m.used ≠ some (!m.current)) (n : String) (k : Kont) (onFail : Mgr → Mgr)
    (h : ∀ m' : Mgr, m'.svc = m.svc → Waits (onFail m')) : Waits (m.unloadCore n k onFail) := by
  rcases unloadCore_cases m n k onFail hu with ⟨_, _, e⟩ | ⟨_, e⟩ <;> rw [e]
  · exact waits_unloaded m n k
  · exact h _ rfl

theorem waits_load {m : Mgr} (hw : Waits m) (hu : m.svc = .idle → m.used ≠ some (!m.current)) (n : String) (env : LoadEnv) :
    Waits (m.load n env) := by
  by_cases hi : m.svc = .idle
  · rcases load_cases m n env hi (hu hi) with ⟨ty, i, cl, _, _, _, _, _, e⟩ | ⟨_, o, _, e⟩ <;> rw [e]
    · refine ⟨fun f n' e => ?_, fun f n' k e => by simp [loaded] at e⟩
      have e : Svc.releasing m.current (.load n) = .releasing f (.load n') := e
      cases e
      simp [loaded]
    · exact waits_of_svc hw rfl rfl
  · have e : m.load n env = m := by unfold load; rw [if_pos hi]
    rw [e]; exact hw

theorem waits_switchCore {conf P} {m : Mgr} (h : Inv P m) (hi : m.svc = .idle) (r : SwitchReq) (now : Int) (p : Bool) (k : Kont) :
    Waits (m.switchCore conf r now p k).2 := by
  rcases reloadStep_switchCore (conf := conf) h hi r now p k with ⟨_, e, _⟩ | ⟨_, e, _⟩
  · exact waits_other (by rintro ⟨f, r, e'⟩; rw [e] at e'; cases e')
  · exact waits_other (by rintro ⟨f, r, e'⟩; rw [e] at e'; cases e')

theorem waits_step {conf P} {m : Mgr} (h : Inv P m) (hw : Waits m) (op : Op) (hn : op.isLook = false) : Waits (m.step conf op) := by
  cases op with
  | update t r hw' => exact waits_of_svc hw (update_cur h t r hw').2.2.1 (update_cur h t r hw').1
  | load n e => exact waits_load hw (fun hi => h.used (not_releasing_of_idle hi)) n e
  | unload n =>
    show Waits (m.unload n)
    unfold unload
    split
    · exact hw
    · rename_i hi
      have hi : m.svc = .idle := by simpa using hi
      exact waits_unloadCore (h.used (not_releasing_of_idle hi)) n .ret id fun m' e =>
        waits_other (by rintro ⟨f, r, e'⟩; rw [show (id m').svc = _ from e, hi] at e'; cases e')
  | switch r now p =>
    show Waits (m.switch conf r now p)
    unfold switch
    split
    · exact hw
    · rename_i hi
      exact waits_switchCore h (by simpa using hi) r now p .ret
  | reload f now p =>
    show Waits (m.reload conf f now p)
    unfold reload
    split
    · exact hw
    · rename_i hi
      have hi : m.svc = .idle := by simpa using hi
      simp only
      split
      · exact waits_of_svc hw rfl rfl
      · split
        · have := waits_switchCore (conf := conf) h hi ⟨[], m.getControllerNames, strictnessBestEffort, false, 0⟩ now p
            (.reload m.getControllerNames)
          split <;> rename_i e <;> rw [e] at this
          · exact waits_of_svc this rfl rfl
          · exact this
        · exact waits_of_svc hw rfl rfl
  | poll ok el => cases hn

/-- After a look nobody waits for a list, unless the next controller of a reload is being unloaded or the call waits on. -/
theorem waits_poll {P} {m : Mgr} (h : Inv P m) (hw : Waits m) (ok : RosOk) (el : Int) : Waits (m.poll ok el) := by
  have idle : ∀ m' : Mgr, m'.svc = .idle → Waits m' := fun m' e => waits_other (not_releasing_of_idle e)
  have un : ∀ (m' : Mgr) l, m'.svc = .unloading l → Waits m' := fun m' l e =>
    waits_other (by rintro ⟨f, r, e'⟩; rw [e] at e'; cases e')
  have fin : ∀ (m' : Mgr) k b, Waits (m'.finish k b) := by
    intro m' k b
    unfold finish
    split
    · exact idle _ rfl
    · split
      · exact un _ _ rfl
      · exact idle _ rfl
  cases hs : m.svc with
  | idle => rw [show m.poll ok el = m by unfold poll; rw [hs]]; exact hw
  | switching k t =>
    unfold poll
    rw [hs]
    dsimp only
    split
    · split
      · exact fin _ _ _
      · split
        · exact hw
        · exact fin _ _ _
    · exact fin _ _ _
  | releasing f r =>
    unfold poll
    rw [hs]
    dsimp only
    split
    · split
      · cases r with
        | load n => exact idle _ rfl
        | unload n k => exact fin _ _ _
      · exact hw
    · cases r with
      | load n => exact idle _ rfl
      | unload n k => exact fin _ _ _
  | unloading l =>
    unfold poll
    rw [hs]
    cases l with
    | nil => exact idle _ rfl
    | cons n ns =>
      exact waits_unloadCore (h.used (by rintro ⟨f, r, e⟩; rw [hs] at e; cases e)) n _ _ fun m' _ => idle _ rfl

theorem waits_reachable {conf} {m : Mgr} (h : Reachable conf m) : Waits m := by
  obtain ⟨ops, hops, rfl⟩ := h
  induction ops using List.reverseRecOn with
  | nil => exact waits_other (not_releasing_of_idle rfl)
  | append_singleton ops op ih =>
    have ih := ih fun o ho => hops o (by simp [ho])
    have hi := inv_run (D := True) (checkOk_true conf) (inv_init (P := fun _ => True) trivial) ops fun o ho => hops o (by simp [ho])
    rw [run, List.foldl_append]
    cases hl : op.isLook
    · exact waits_step hi ih op hl
    · cases op with
      | poll ok el => exact waits_poll hi ih ok el
      | _ => cases hl

theorem waits_downStep {conf} {m : Mgr} (h : Inv (fun _ => True) m.released) (hw : Waits m) (op : Op) : Waits (m.downStep conf op) := by
  have hr : Waits m.released := waits_of_svc hw rfl rfl
  cases op with
  | update t r hw' => exact waits_step (conf := conf) h hr (.update t r hw') rfl
  | load n e => exact waits_of_svc (waits_step (conf := conf) h hr (.load n e) rfl) rfl rfl
  | unload n => exact waits_of_svc (waits_step (conf := conf) h hr (.unload n) rfl) rfl rfl
  | switch r now p => exact waits_of_svc (waits_step (conf := conf) h hr (.switch r now p) rfl) rfl rfl
  | reload f now p => exact waits_of_svc (waits_step (conf := conf) h hr (.reload f now p) rfl) rfl rfl
  | poll ok el => exact waits_of_svc (waits_poll h hr ⟨false, false⟩ el) rfl rfl

theorem waits_downRun {conf} (ops : List Op) : ∀ {m : Mgr}, Inv (fun _ => True) m.released → Waits m → Waits (m.downRun conf ops) := by
  induction ops with
  | nil => exact fun _ h => h
  | cons op ops ih => exact fun h1 h2 => ih (inv_downStep (checkOk_true conf) h1 op) (waits_downStep h1 h2 op)

end Mgr

end Verif
