import Verif.Spec.Plugins
import Verif.Lemmas.ManagerRelease
import Verif.Lemmas.ManagerLoaders

/-!
Lemmas on the loaders of controller classes.
-/

namespace Verif

open Mgr

namespace Mgr

/-- The controllers still to be unloaded in a reload are the ones that are loaded. -/
structure ReloadNames (m : Mgr) : Prop where
  switching : ∀ l t, m.svc = .switching (.reload l) t → l = m.cur.map (·.info.name)
  releasing : ∀ f n l, m.svc = .releasing f (.unload n (.reload l)) → l = m.cur.map (·.info.name)
  unloading : ∀ l, m.svc = .unloading l → l = m.cur.map (·.info.name)

/-- No reload has come to its end. -/
def NoReload (m m' : Mgr) : Prop := ∃ es, m'.trace = m.trace ++ es ∧ .reloadRet true ∉ es

theorem NoReload.drop {m m' : Mgr} (h : NoReload m m') : .reloadRet true ∉ m'.trace.drop m.trace.length := by
  obtain ⟨es, h1, h2⟩ := h
  rw [h1, List.drop_left]
  exact h2

theorem noReload_self (m : Mgr) : NoReload m m := ⟨[], by simp, by simp⟩

theorem reloadNames_of_svc {m m' : Mgr} (h : ReloadNames m) (h1 : m'.svc = m.svc) (h2 : m'.cur = m.cur) : ReloadNames m' :=
  ⟨fun l t e => by rw [h2]; exact h.switching l t (h1 ▸ e), fun f n l e => by rw [h2]; exact h.releasing f n l (h1 ▸ e),
    fun l e => by rw [h2]; exact h.unloading l (h1 ▸ e)⟩

theorem reloadNames_other {m : Mgr} (h1 : ∀ l t, m.svc ≠ .switching (.reload l) t)
    (h2 : ∀ f n l, m.svc ≠ .releasing f (.unload n (.reload l))) (h3 : ∀ l, m.svc ≠ .unloading l) : ReloadNames m :=
  ⟨fun l t e => absurd e (h1 l t), fun f n l e => absurd e (h2 f n l), fun l e => absurd e (h3 l)⟩

theorem reloadNames_idle {m : Mgr} (h : m.svc = .idle) : ReloadNames m :=
  reloadNames_other (by simp [h]) (by simp [h]) (by simp [h])

theorem noReload_update {P} {m : Mgr} (h : Inv P m) (time : Int) (reset : Bool) (hw : HwReply) :
    NoReload m (m.update time reset hw) := by
  have hdr : .reloadRet true ∉ m.drivenEvents reset := by
    intro he
    obtain ⟨s, _, _, hh⟩ := mem_drivenEvents he
    rcases hh with e | ⟨_, e | e⟩ <;> cases e
  cases hd : m.params.doSwitch
  · rw [update_idle m hd]
    exact ⟨_, rfl, hdr⟩
  · obtain ⟨st, es, d, h1, he, ho⟩ := update_switch m h.sane hd time reset hw
    refine ⟨_, by rw [he]; rfl, ?_⟩
    simp only [List.mem_append, not_or]
    refine ⟨⟨⟨hdr, ?_⟩, ?_⟩, ?_⟩
    · intro hx
      have := (mem_hwEvents hx).1
      cases this
    · intro hx
      obtain ⟨x, _, _, e⟩ := mem_stopEvents.1 hx
      cases e
    · intro hx
      obtain ⟨x, _, hh⟩ := ho.events _ hx
      rcases hh with ⟨e, _⟩ | ⟨e, _⟩ | e <;> cases e

theorem oth_nil {P} {m : Mgr} (h : Inv P m) (hr : ¬ m.ReleasingList) (hc : m.cur = []) : m.oth = [] := by
  refine List.eq_nil_iff_forall_not_mem.2 fun s hs => ?_
  have := h.old hr s hs
  rw [hc] at this
  cases this

/-- What an operation does as to reloads. -/
def ReloadStep (m m' : Mgr) : Prop :=
  ReloadNames m' ∧ (NoReload m m' ∨ (m'.trace = m.trace ++ [.reloadRet true] ∧ m'.cur = [] ∧ m'.oth = [] ∧ m'.svc = .idle))

theorem reloadStep_update {P} {m : Mgr} (h : Inv P m) (hn : ReloadNames m) (time : Int) (reset : Bool) (hw : HwReply) :
    ReloadNames (m.update time reset hw) ∧ NoReload m (m.update time reset hw) :=
  ⟨reloadNames_of_svc hn (update_cur h time reset hw).2.2.1 (update_cur h time reset hw).1,
    (noReload_update h time reset hw)⟩

theorem reloadStep_load {P} {m : Mgr} (h : Inv P m) (hn : ReloadNames m) (name : String) (env : LoadEnv) :
    ReloadNames (m.load name env) ∧ NoReload m (m.load name env) := by
  by_cases hi : m.svc = .idle
  · rcases load_cases m name env hi (h.used (not_releasing_of_idle hi)) with ⟨ty, i, cl, _, _, _, _, _, e⟩ | ⟨_, o, _, e⟩
    · rw [e]
      exact ⟨reloadNames_other (by simp [loaded]) (by simp [loaded]) (by simp [loaded]), ⟨[], by simp [loaded], by simp⟩⟩
    · rw [e]
      exact ⟨reloadNames_idle hi, ⟨_, rfl, by simp⟩⟩
  · have : m.load name env = m := by simp [load, hi]
    rw [this]
    exact ⟨hn, (noReload_self m)⟩

theorem reloadStep_unload {P} {m : Mgr} (h : Inv P m) (hn : ReloadNames m) (name : String) :
    ReloadNames (m.unload name) ∧ NoReload m (m.unload name) := by
  by_cases hi : m.svc = .idle
  · have e0 : m.unload name = m.unloadCore name .ret id := by simp [unload, hi]
    rw [e0]
    rcases unloadCore_cases m name .ret id (h.used (not_releasing_of_idle hi)) with ⟨_, _, e⟩ | ⟨_, e⟩
    · rw [e]
      exact ⟨reloadNames_other (by simp [unloaded]) (by simp [unloaded]) (by simp [unloaded]),
        ⟨[], by simp [unloaded], by simp⟩⟩
    · rw [e]
      exact ⟨reloadNames_idle hi, ⟨_, rfl, by simp⟩⟩
  · have : m.unload name = m := by simp [unload, hi]
    rw [this]
    exact ⟨hn, (noReload_self m)⟩

theorem reloadStep_switchCore {conf P} {m : Mgr} (h : Inv P m) (hi : m.svc = .idle) (r : SwitchReq) (now : Int) (p : Bool) (k : Kont) :
    ((m.switchCore conf r now p k).1 = true ∧ (m.switchCore conf r now p k).2.svc = .switching k r.timeout ∧
      (m.switchCore conf r now p k).2.cur = m.cur ∧ NoReload m (m.switchCore conf r now p k).2) ∨
    ((m.switchCore conf r now p k).1 = false ∧ (m.switchCore conf r now p k).2.svc = .idle ∧
      (m.switchCore conf r now p k).2.cur = m.cur ∧ NoReload m (m.switchCore conf r now p k).2) := by
  obtain ⟨c1, c2⟩ := h.reqs (not_switching_of_idle hi)
  by_cases ha : m.okRequest conf r p
  · rw [switchCore_accept conf m r now p k c1 c2 ha]
    exact Or.inl ⟨rfl, rfl, rfl, _, rfl, by simp⟩
  · obtain ⟨a, b, es, e, hes⟩ := switchCore_refuse conf m r now p k c1 c2 ha
    rw [e]
    refine Or.inr ⟨rfl, hi, rfl, es ++ [.switchRet false], by simp, ?_⟩
    rcases hes with rfl | ⟨_, rfl⟩ <;> simp

theorem reloadStep_switch {conf P} {m : Mgr} (h : Inv P m) (hn : ReloadNames m) (r : SwitchReq) (now : Int) (p : Bool) :
    ReloadNames (m.switch conf r now p) ∧ NoReload m (m.switch conf r now p) := by
  by_cases hi : m.svc = .idle
  · have e0 : m.switch conf r now p = (m.switchCore conf r now p .ret).2 := by simp [switch, hi]
    rw [e0]
    rcases reloadStep_switchCore (conf := conf) h hi r now p .ret with ⟨_, h2, _, h4⟩ | ⟨_, h2, _, h4⟩
    · exact ⟨reloadNames_other (by simp [h2]) (by simp [h2]) (by simp [h2]), h4⟩
    · exact ⟨reloadNames_idle h2, h4⟩
  · have : m.switch conf r now p = m := by simp [switch, hi]
    rw [this]
    exact ⟨hn, (noReload_self m)⟩

theorem reloadStep_reload {conf P} {m : Mgr} (h : Inv P m) (hn : ReloadNames m) (f : Bool) (now : Int) (p : Bool) :
    ReloadStep m (m.reload conf f now p) := by
  by_cases hi : m.svc = .idle
  · unfold reload
    rw [if_neg (by simpa using hi)]
    simp only
    split
    · exact ⟨reloadNames_idle hi, Or.inl ⟨_, rfl, by simp⟩⟩
    split
    · rcases reloadStep_switchCore (conf := conf) h hi ⟨[], m.getControllerNames, strictnessBestEffort, false, 0⟩ now p
        (.reload m.getControllerNames) with ⟨h1, h2, h3, h4⟩ | ⟨h1, h2, h3, h4⟩
      · split
        · rename_i m' e
          rw [e] at h1
          cases h1
        · rename_i m' e
          rw [e] at h2 h3 h4
          dsimp only at h2 h3 h4
          refine ⟨⟨fun l t e => ?_, by simp [h2], by simp [h2]⟩, Or.inl h4⟩
          rw [h2] at e
          cases e
          rw [h3]
          rfl
      · split
        · rename_i m' e
          rw [e] at h2 h4
          dsimp only at h2 h4
          obtain ⟨es, e1, e2⟩ := h4
          exact ⟨reloadNames_idle h2, Or.inl ⟨es ++ [.reloadRet false], by simp [emit, e1], by simpa using e2⟩⟩
        · rename_i m' e
          rw [e] at h1
          cases h1
    · rename_i h1 h2
      have hc : m.cur = [] := by
        cases hc : m.cur with
        | nil => rfl
        | cons s l => simp [getControllerNames, hc] at h2
      have ho := oth_nil h (not_releasing_of_idle hi) hc
      exact ⟨reloadNames_idle hi, Or.inr ⟨rfl, hc, ho, hi⟩⟩
  · have : m.reload conf f now p = m := by simp [reload, hi]
    rw [this]
    exact ⟨hn, Or.inl (noReload_self m)⟩

theorem reloadStep_poll {P} {m : Mgr} (h : Inv P m) (hn : ReloadNames m) {ok : RosOk} (hok : ok.cond = true ∧ ok.body = true)
    (el : Int) : ReloadStep m (m.poll ok el) := by
  obtain ⟨hok1, hok2⟩ := hok
  unfold poll
  split
  · exact ⟨hn, Or.inl (noReload_self m)⟩
  · rename_i k tmo hsvc
    simp only [hok1, hok2, Bool.true_and, Bool.not_true, Bool.false_eq_true, if_false]
    have fin : ∀ b b', ReloadStep m (({ m with startReq := [], stopReq := [] }.emit [.switchRet b]).finish k b') := by
      intro b b'
      cases k with
      | ret => exact ⟨reloadNames_idle rfl, Or.inl ⟨_, rfl, by simp⟩⟩
      | reload rest =>
        cases b' with
        | true =>
          refine ⟨⟨by simp [finish], by simp [finish], fun l e => ?_⟩, Or.inl ⟨_, rfl, by simp⟩⟩
          cases e
          exact hn.switching _ _ hsvc
        | false => exact ⟨reloadNames_idle rfl, Or.inl ⟨[.switchRet b, .reloadRet false], by simp [finish, emit], by simp⟩⟩
    split
    · split
      · exact ⟨hn, Or.inl (noReload_self m)⟩
      · exact fin _ _
    · exact fin _ _
  · rename_i former r hsvc
    simp only [hok1, hok2, Bool.true_and, Bool.not_true, Bool.false_eq_true, if_false]
    split
    · exact ⟨hn, Or.inl (noReload_self m)⟩
    · cases r with
      | load name =>
        exact ⟨reloadNames_idle rfl, Or.inl ⟨m.dropped.map .destroyed ++ [.loadRet name true], by simp [clearOld, emit], by simp⟩⟩
      | unload name k =>
        have hq : NoReload m ((m.clearOld.emit [.unloadRet name true]).finish k true) := by
          refine ⟨m.dropped.map .destroyed ++ [.unloadRet name true], ?_, by simp⟩
          cases k <;> simp [clearOld, emit, finish]
        cases k with
        | ret => exact ⟨reloadNames_idle rfl, Or.inl hq⟩
        | reload rest =>
          refine ⟨⟨by simp [finish], by simp [finish], fun l e => ?_⟩, Or.inl hq⟩
          cases e
          exact hn.releasing _ _ _ hsvc
  · rename_i hsvc
    have hc : m.cur = [] := by
      have := hn.unloading _ hsvc
      simpa using this.symm
    have ho : m.oth = [] := oth_nil h (by rintro ⟨f, r, e⟩; rw [hsvc] at e; cases e) hc
    exact ⟨reloadNames_idle rfl, Or.inr ⟨rfl, hc, ho, rfl⟩⟩
  · rename_i n ns hsvc
    have hnr : ¬ m.ReleasingList := by rintro ⟨f, r, e⟩; rw [hsvc] at e; cases e
    rcases unloadCore_cases m n (.reload ns)
      (fun m => { m with svc := .idle }.emit [.reloadRet false]) (h.used hnr) with ⟨_, h2, e⟩ | ⟨_, e⟩
    · rw [e]
      refine ⟨⟨by simp [unloaded], fun f n' l e => ?_, by simp [unloaded]⟩, Or.inl ⟨[], by simp [unloaded], by simp⟩⟩
      cases e
      have hu := hn.unloading _ hsvc
      have hnd := h.names
      unfold unloaded
      simp only
      cases hcur : m.cur with
      | nil => rw [hcur] at hu; cases hu
      | cons s rest =>
        rw [hcur] at hu hnd
        simp only [List.map_cons, List.cons.injEq] at hu
        obtain ⟨rfl, rfl⟩ := hu
        simp only [List.map_cons, List.nodup_cons] at hnd
        rw [List.filter_cons_of_neg (by simp)]
        congr 1
        refine (List.filter_eq_self.2 fun t ht => ?_).symm
        have : t.info.name ≠ s.info.name := fun e => hnd.1 (List.mem_map.2 ⟨t, ht, e⟩)
        simpa using this
    · rw [e]
      exact ⟨reloadNames_idle rfl, Or.inl ⟨[.unloadRet n false, .reloadRet false], by simp [emit], by simp⟩⟩

end Mgr

namespace Plug

theorem listTypes_go (ls : List PluginLoader) (r : Types) :
    ls.foldl (fun r l => l.declared.foldl (fun r t =>
      { types := r.types ++ [t], baseClasses := r.baseClasses ++ [l.name] }) r) r =
    { types := r.types ++ ls.flatMap (·.declared),
      baseClasses := r.baseClasses ++ ls.flatMap fun l => l.declared.map fun _ => l.name } := by
  have inner : ∀ (ts : List String) (n : String) (r : Types), ts.foldl (fun (r : Types) t =>
      { types := r.types ++ [t], baseClasses := r.baseClasses ++ [n] }) r =
      { types := r.types ++ ts, baseClasses := r.baseClasses ++ ts.map fun _ => n } := by
    intro ts n
    induction ts with
    | nil => intro r; simp
    | cons t ts ih => intro r; rw [List.foldl_cons, ih]; simp
  induction ls generalizing r with
  | nil => simp
  | cons l ls ih =>
    rw [List.foldl_cons, inner, ih]
    simp

theorem listTypes_eq (ls : List PluginLoader) :
    listTypes ls = ⟨ls.flatMap (·.declared), ls.flatMap fun l => l.declared.map fun _ => l.name⟩ := by
  unfold listTypes
  rw [listTypes_go]
  simp

theorem view_getElem (create : Nat → String → CreateResult) (ls : List PluginLoader) (i j : Nat) :
    (view create i ls)[j]? = ls[j]?.map fun l => (⟨l.declared, create (i + j)⟩ : Loader) := by
  induction ls generalizing i j with
  | nil => simp [view]
  | cons l ls ih =>
    cases j with
    | zero => simp [view]
    | succ j =>
      simp only [view, List.getElem?_cons_succ, ih]
      have : i + 1 + j = i + (j + 1) := by omega
      rw [this]

theorem reloadAll_getElem (found : Nat → List String) (ls : List PluginLoader) (i j : Nat) :
    (reloadAll found i ls)[j]? = ls[j]?.map fun l => l.reload (found (i + j)) := by
  induction ls generalizing i j with
  | nil => simp [reloadAll]
  | cons l ls ih =>
    cases j with
    | zero => simp [reloadAll]
    | succ j =>
      simp only [reloadAll, List.getElem?_cons_succ, ih]
      have : i + 1 + j = i + (j + 1) := by omega
      rw [this]

theorem reloadAll_length (found : Nat → List String) (ls : List PluginLoader) (i : Nat) :
    (reloadAll found i ls).length = ls.length := by
  induction ls generalizing i with
  | nil => rfl
  | cons l ls ih => simp [reloadAll, ih]

/-- The operation on the manager. -/
def PlugOp.op (s : St) : PlugOp → Option Op
  | .register _ _ => none
  | .update t r hw => some (.update t r hw)
  | .load n r => some (.load n (r.env s.loaders))
  | .unload n => some (.unload n)
  | .switch r now p => some (.switch r now p)
  | .reload f now p _ => some (.reload f now p)
  | .poll ok e _ => some (.poll ok e)

theorem goOn_mgr (s : St) (m : Mgr) (found) : (s.goOn m found).mgr = m := by
  unfold St.goOn
  split <;> rfl

theorem step_mgr (conf : List ControllerInfo → Bool) (s : St) (op : PlugOp) :
    (s.step conf op).mgr = match op.op s with
      | none => s.mgr
      | some o => s.mgr.step conf o := by
  cases op <;> first | rfl | exact goOn_mgr _ _ _

theorem op_rosUp {s : St} {op : PlugOp} {o : Op} (h : op.rosUp) (he : op.op s = some o) : o.rosUp := by
  cases op <;> cases he <;> first | trivial | exact h

/-- The object was created by a loader as it is now, which knows its type. -/
def Current (s : St) (sp : CtrlSpec) : Prop :=
  ∃ i l, s.loaders[i]? = some l ∧ s.maker sp.c = some (i, l.generation) ∧ sp.info.type ∈ l.declared

/-- The invariant. -/
structure PInv (conf : List ControllerInfo → Bool) (s : St) : Prop where
  reach : Verif.Reachable conf s.mgr
  names : ReloadNames s.mgr
  made : ∀ sp, sp ∈ s.mgr.cur ∨ sp ∈ s.mgr.oth → Current s sp

theorem made_sub {s s' : St} (h : ∀ sp, sp ∈ s.mgr.cur ∨ sp ∈ s.mgr.oth → Current s sp)
    (h1 : s'.loaders = s.loaders) (h2 : s'.maker = s.maker)
    (h3 : ∀ sp, sp ∈ s'.mgr.cur ∨ sp ∈ s'.mgr.oth → sp ∈ s.mgr.cur ∨ sp ∈ s.mgr.oth) :
    ∀ sp, sp ∈ s'.mgr.cur ∨ sp ∈ s'.mgr.oth → Current s' sp := by
  intro sp hsp
  obtain ⟨i, l, e1, e2, e3⟩ := h sp (h3 sp hsp)
  exact ⟨i, l, by rw [h1]; exact e1, by rw [h2]; exact e2, e3⟩

/-- Every operation but a load leaves only objects that were there. -/
theorem objects_sub {conf} {m : Mgr} (h : Inv (fun _ => True) m) {o : Op} (ho : o.rosUp) (hl : ∀ n e, o ≠ .load n e) :
    ∀ sp, sp ∈ (m.step conf o).cur ∨ sp ∈ (m.step conf o).oth → sp ∈ m.cur ∨ sp ∈ m.oth := by
  intro sp
  have hun : ∀ (n : String) (k : Kont) (f : Mgr → Mgr), ¬ m.ReleasingList →
      (∀ m', (f m').cur = m'.cur ∧ (f m').oth = m'.oth) →
      sp ∈ (m.unloadCore n k f).cur ∨ sp ∈ (m.unloadCore n k f).oth → sp ∈ m.cur ∨ sp ∈ m.oth := by
    intro n k f hnr hf
    rcases unloadCore_cases m n k f (h.used hnr) with ⟨_, _, e⟩ | ⟨_, e⟩
    · rw [e]
      rintro (hs | hs)
      · exact Or.inl (List.mem_filter.1 hs).1
      · exact Or.inl hs
    · rw [e, (hf _).1, (hf _).2]
      rintro (hs | hs)
      · exact Or.inl hs
      · cases hs
  have hsw : ∀ (r : SwitchReq) (now : Int) (p : Bool) (k : Kont), m.svc = .idle →
      (m.switchCore conf r now p k).2.cur = m.cur ∧ (m.switchCore conf r now p k).2.oth = m.oth := by
    intro r now p k hi
    obtain ⟨c1, c2⟩ := h.reqs (not_switching_of_idle hi)
    by_cases ha : m.okRequest conf r p
    · rw [switchCore_accept conf m r now p k c1 c2 ha]
      exact ⟨rfl, rfl⟩
    · obtain ⟨a, b, es, e, _⟩ := switchCore_refuse conf m r now p k c1 c2 ha
      rw [e]
      exact ⟨rfl, rfl⟩
  cases o with
  | update t r hw =>
    show sp ∈ (m.update t r hw).cur ∨ sp ∈ (m.update t r hw).oth → _
    rw [(update_cur h t r hw).1, (update_lists h t r hw).1]
    exact id
  | load n e => exact absurd rfl (hl n e)
  | unload n =>
    show sp ∈ (m.unload n).cur ∨ sp ∈ (m.unload n).oth → _
    by_cases hi : m.svc = .idle
    · have e0 : m.unload n = m.unloadCore n .ret id := by simp [unload, hi]
      rw [e0]
      exact hun n .ret id (not_releasing_of_idle hi) fun _ => ⟨rfl, rfl⟩
    · have : m.unload n = m := by simp [unload, hi]
      rw [this]
      exact id
  | switch r now p =>
    show sp ∈ (m.switch conf r now p).cur ∨ sp ∈ (m.switch conf r now p).oth → _
    by_cases hi : m.svc = .idle
    · have e0 : m.switch conf r now p = (m.switchCore conf r now p .ret).2 := by simp [switch, hi]
      rw [e0, (hsw r now p .ret hi).1, (hsw r now p .ret hi).2]
      exact id
    · have : m.switch conf r now p = m := by simp [switch, hi]
      rw [this]
      exact id
  | reload f now p =>
    show sp ∈ (m.reload conf f now p).cur ∨ sp ∈ (m.reload conf f now p).oth → _
    by_cases hi : m.svc = .idle
    · unfold reload
      rw [if_neg (by simpa using hi)]
      simp only
      split
      · exact id
      split
      · obtain ⟨h1, h2⟩ := hsw ⟨[], m.getControllerNames, strictnessBestEffort, false, 0⟩ now p (.reload m.getControllerNames) hi
        split
        · rename_i m' e
          rw [e] at h1 h2
          dsimp only at h1 h2
          show sp ∈ m'.cur ∨ sp ∈ m'.oth → _
          rw [h1, h2]
          exact id
        · rename_i m' e
          rw [e] at h1 h2
          dsimp only at h1 h2
          rw [h1, h2]
          exact id
      · exact id
    · have : m.reload conf f now p = m := by simp [reload, hi]
      rw [this]
      exact id
  | poll ok el =>
    show sp ∈ (m.poll ok el).cur ∨ sp ∈ (m.poll ok el).oth → _
    obtain ⟨hok1, hok2⟩ := ho
    unfold poll
    split
    · exact id
    · rename_i k tmo hsvc
      simp only [hok1, hok2, Bool.true_and, Bool.not_true, Bool.false_eq_true, if_false]
      split
      · split
        · exact id
        · cases k <;> exact id
      · cases k <;> exact id
    · rename_i former r hsvc
      simp only [hok1, hok2, Bool.true_and, Bool.not_true, Bool.false_eq_true, if_false]
      split
      · exact id
      · cases r with
        | load name => rintro (hs | hs); exacts [Or.inl hs, by cases hs]
        | unload name k => cases k <;> (rintro (hs | hs); exacts [Or.inl hs, by cases hs])
    · exact id
    · rename_i n ns hsvc
      exact hun n _ _ (by rintro ⟨f, r, e⟩; rw [hsvc] at e; cases e) fun _ => ⟨rfl, rfl⟩

theorem pinv_init (conf : List ControllerInfo → Bool) (found : List String) : PInv conf (init found) :=
  ⟨⟨[], by simp, rfl⟩, reloadNames_idle rfl, fun _ h => by rcases h with h | h <;> cases h⟩

theorem drop_reload {m m' : Mgr} (h : ReloadStep m m') (hr : .reloadRet true ∈ m'.trace.drop m.trace.length) :
    m'.trace = m.trace ++ [.reloadRet true] ∧ m'.cur = [] ∧ m'.oth = [] ∧ m'.svc = .idle := by
  rcases h.2 with h | h
  · exact absurd hr h.drop
  · exact h

theorem noReload_step {m m' : Mgr} (h : ReloadNames m' ∧ NoReload m m') : ReloadStep m m' := ⟨h.1, Or.inl h.2⟩

theorem reloadStep_step {conf} {m : Mgr} (h : Inv (fun _ => True) m) (hn : ReloadNames m) (o : Op) (ho : o.rosUp) :
    ReloadStep m (m.step conf o) := by
  cases o with
  | update t r hw => exact noReload_step (reloadStep_update h hn t r hw)
  | load n e => exact noReload_step (reloadStep_load h hn n e)
  | unload n => exact noReload_step (reloadStep_unload h hn n)
  | switch r now p => exact noReload_step (reloadStep_switch h hn r now p)
  | reload f now p => exact reloadStep_reload h hn f now p
  | poll ok el => exact reloadStep_poll h hn ho el

theorem pinv_step {conf} {s : St} (h : PInv conf s) (op : PlugOp) (hop : op.rosUp) : PInv conf (s.step conf op) := by
  have hv := inv_of_reachable h.reach
  have hm := step_mgr conf s op
  have hreach : Verif.Reachable conf (s.step conf op).mgr := by
    rw [hm]
    cases he : op.op s with
    | none => exact h.reach
    | some o => exact reachable_step h.reach (op_rosUp hop he)
  have hnames : ReloadNames (s.step conf op).mgr := by
    rw [hm]
    cases he : op.op s with
    | none => exact h.names
    | some o => exact (reloadStep_step (conf := conf) hv h.names o (op_rosUp hop he)).1
  refine ⟨hreach, hnames, ?_⟩
  have goOn : ∀ (o : Op) (found : Nat → List String), o.rosUp → (∀ n e, o ≠ .load n e) →
      ∀ sp, sp ∈ (s.goOn (s.mgr.step conf o) found).mgr.cur ∨ sp ∈ (s.goOn (s.mgr.step conf o) found).mgr.oth →
        Current (s.goOn (s.mgr.step conf o) found) sp := by
    intro o found ho hl
    unfold St.goOn
    split
    · rename_i hr
      obtain ⟨_, h1, h2, _⟩ := drop_reload (reloadStep_step (conf := conf) hv h.names o ho) hr
      dsimp only
      rw [h1, h2]
      rintro sp (hs | hs) <;> cases hs
    · exact made_sub h.made rfl rfl (objects_sub hv ho hl)
  cases op with
  | register n found =>
    intro sp hsp
    obtain ⟨i, l, e1, e2, e3⟩ := h.made sp hsp
    exact ⟨i, l, by
      show (s.loaders ++ _)[i]? = _
      rw [List.getElem?_append_left (List.getElem?_eq_some_iff.1 e1).1]
      exact e1, e2, e3⟩
  | update t r hw => exact made_sub h.made rfl rfl (objects_sub (conf := conf) (o := .update t r hw) hv trivial (by simp))
  | load n r =>
    show ∀ sp, sp ∈ (s.load n r).mgr.cur ∨ sp ∈ (s.load n r).mgr.oth → Current (s.load n r) sp
    have old : ∀ sp, sp ∈ s.mgr.cur ∨ sp ∈ s.mgr.oth → Current (s.load n r) sp := by
      intro sp hsp
      obtain ⟨i, l, e1, e2, e3⟩ := h.made sp hsp
      refine ⟨i, l, e1, ?_, e3⟩
      show (if sp.c = s.mgr.nextId then _ else s.maker sp.c) = _
      rw [if_neg (Nat.ne_of_lt (hv.fresh sp hsp))]
      exact e2
    by_cases hi : s.mgr.svc = .idle
    · rcases load_cases s.mgr n (r.env s.loaders) hi (hv.used (not_releasing_of_idle hi)) with
        ⟨ty, i, cl, _, _, h3, h4, _, e⟩ | ⟨_, o, ho, e⟩
      · have e' : (s.load n r).mgr = s.mgr.loaded n ty cl := e
        rw [e']
        rintro sp (hs | hs)
        · rcases List.mem_append.1 hs with hs | hs
          · exact old sp (Or.inl hs)
          · rw [List.mem_singleton] at hs
            subst hs
            obtain ⟨j, ej, hp⟩ := (instantiate_iff ty 0 (view r.create 0 s.loaders) i).1 h4
            obtain rfl : i = j := by omega
            obtain ⟨l, g1, g2⟩ : ∃ l, (view r.create 0 s.loaders)[i]? = some l ∧ ty ∈ l.declared := by
              obtain ⟨⟨l, g1, g2⟩, _⟩ := hp
              exact ⟨l, g1, g2.1⟩
            rw [view_getElem] at g1
            obtain ⟨l', g3, g4⟩ := Option.map_eq_some_iff.1 g1
            subst g4
            refine ⟨i, l', g3, ?_, g2⟩
            show (if s.mgr.nextId = s.mgr.nextId then _ else _) = _
            rw [if_pos rfl]
            have h3' : r.type = some ty := h3
            have h4' : instantiate ty 0 (view r.create 0 s.loaders) = some i := h4
            simp [h3', h4', g3]
        · exact old sp (Or.inl hs)
      · have e' : (s.load n r).mgr = { s.mgr with oth := o, trace := s.mgr.trace ++ [.loadRet n false] } := e
        rw [e']
        rintro sp (hs | hs)
        · exact old sp (Or.inl hs)
        · rcases ho with rfl | rfl
          · cases hs
          · exact old sp (Or.inl hs)
    · have e' : (s.load n r).mgr = s.mgr := by
        show s.mgr.load n _ = _
        simp [Mgr.load, hi]
      rw [e']
      exact old
  | unload n => exact made_sub h.made rfl rfl (objects_sub (conf := conf) (o := .unload n) hv trivial (by simp))
  | switch r now p => exact made_sub h.made rfl rfl (objects_sub (conf := conf) (o := .switch r now p) hv trivial (by simp))
  | reload f now p found => exact goOn (.reload f now p) found trivial (by simp)
  | poll ok el found => exact goOn (.poll ok el) found hop (by simp)

theorem pinv_run {conf} (ops : List PlugOp) {s : St} (h : PInv conf s) (hops : ∀ op ∈ ops, op.rosUp) :
    PInv conf (s.run conf ops) := by
  induction ops generalizing s with
  | nil => exact h
  | cons op ops ih =>
    exact ih (pinv_step h op (hops op List.mem_cons_self)) fun o ho => hops o (List.mem_cons_of_mem _ ho)

theorem pinv_of_reachable {conf} {s : St} (h : Reachable conf s) : PInv conf s := by
  obtain ⟨found, ops, hops, rfl⟩ := h
  exact pinv_run ops (pinv_init conf found) hops

end Plug

end Verif
