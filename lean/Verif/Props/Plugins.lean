import Verif.Lemmas.Plugins
import Verif.Props.ManagerLoad
import Verif.Examples.ManagerWorld
import Mathlib.Data.Nat.Find

/-!
# C93: controller types and plugin libraries
-/

namespace Verif

namespace Plug

open Mgr Spec

/-- **C93, listing.** The listing of types has one entry per loader and class of it, loaders in the order of
their registration; types and base classes correspond to each other. -/
theorem c93_listing (ls : List PluginLoader) :
    (listTypes ls).types.length = (listTypes ls).baseClasses.length ∧
    (listTypes ls).types.zip (listTypes ls).baseClasses = ls.flatMap fun l => l.declared.map fun t => (t, l.name) := by
  rw [listTypes_eq]
  dsimp only
  induction ls with
  | nil => simp
  | cons l ls ih =>
    have hl : l.declared.length = (l.declared.map fun _ => l.name).length := by simp
    refine ⟨by simpa using ih.1, ?_⟩
    simp only [List.flatMap_cons]
    rw [List.zip_append hl, ih.2]
    congr 1
    generalize l.declared = ts
    induction ts with
    | nil => rfl
    | cons t ts ih2 => simp_all

theorem mem_listTypes {ls : List PluginLoader} {t : String} :
    t ∈ (listTypes ls).types ↔ ∃ l ∈ ls, t ∈ l.declared := by
  rw [listTypes_eq]
  simp

/-- **C93, loading.** If the loaders can create what they declare, a controller of a listed type can be loaded,
given a new name, a usable parameter server and an `init` that succeeds. -/
theorem c93_listed_loadable (s : St) (name : String) (r : LoadReq) {type : String} {claimed : List InterfaceResources}
    (hn : ¬ Loaded s.mgr name) (hok : r.nodeHandleOk = true) (ht : r.type = some type) (hi : r.init = some claimed)
    (hc : ∀ i l, s.loaders[i]? = some l → type ∈ l.declared → r.create i type = .object)
    (hl : type ∈ (listTypes s.loaders).types) : Loadable s.mgr name (r.env s.loaders) type claimed := by
  refine ⟨hn, hok, ht, ?_, hi⟩
  show ∃ i, Provides (view r.create 0 s.loaders) type i
  obtain ⟨l, h1, h2⟩ := mem_listTypes.1 hl
  obtain ⟨k, hk⟩ := List.mem_iff_getElem?.1 h1
  have hex : ∃ k, ∃ l : PluginLoader, s.loaders[k]? = some l ∧ type ∈ l.declared := ⟨k, l, hk, h2⟩
  classical
  obtain ⟨l', g1, g2⟩ := Nat.find_spec hex
  refine ⟨Nat.find hex, ⟨⟨l'.declared, r.create (Nat.find hex)⟩, ?_, g2, hc _ _ g1 g2⟩, ?_⟩
  · rw [view_getElem, g1]
    simp
  · intro j hj l0 hl0
    have hmin := Nat.find_min hex hj
    rw [view_getElem] at hl0
    obtain ⟨l1, e1, e2⟩ := Option.map_eq_some_iff.1 hl0
    subst e2
    exact fun hm => absurd ⟨l1, e1, hm⟩ hmin

/-- **C93, loading, converse.** A controller whose type is not listed cannot be loaded, whatever the plugins do:
the call returns false at once and the manager goes on as if it had not been made. -/
theorem c93_unlisted_fails {conf} {s : St} (h : Reachable conf s) (hi : s.mgr.svc = .idle) (name : String)
    (r : LoadReq) (hl : ∀ t, r.type = some t → t ∉ (listTypes s.loaders).types) :
    (s.step conf (.load name r)).mgr.trace = s.mgr.trace ++ [.loadRet name false] ∧
    SameFuture conf s.mgr (s.step conf (.load name r)).mgr := by
  have := c16_load_fails (pinv_of_reachable h).reach hi name (r.env s.loaders) (by
    rintro t cl ⟨_, _, ht, ⟨i, ⟨l, g1, g2⟩, _⟩, _⟩
    refine hl t ht (mem_listTypes.2 ?_)
    rw [show (r.env s.loaders).loaders = view r.create 0 s.loaders from rfl, view_getElem] at g1
    obtain ⟨l1, e1, e2⟩ := Option.map_eq_some_iff.1 g1
    subst e2
    exact ⟨l1, List.mem_of_getElem? e1, g2.1⟩)
  exact ⟨this.1, this.2.2.2⟩

/-- **C93, changes.** The loaders change in two ways only. Registering a loader adds it at the end. A reload
that answers true makes every loader look anew for its classes; none is added, removed or renamed. -/
theorem c93_changes {conf} {s : St} (h : Reachable conf s) (op : PlugOp) :
    (∃ name found, op = .register name found ∧ (s.step conf op).loaders = s.loaders ++ [⟨name, found, 0⟩] ∧
      (listTypes (s.step conf op).loaders).types = (listTypes s.loaders).types ++ found) ∨
    (Reloads conf s op ∧ ∃ found : Nat → List String,
      ((∃ f now p, op = .reload f now p found) ∨ ∃ ok el, op = .poll ok el found) ∧
      ∀ i : Nat, (s.step conf op).loaders[i]? =
        s.loaders[i]?.map fun l => (⟨l.name, found i, l.generation + 1⟩ : PluginLoader)) ∨
    (¬ Reloads conf s op ∧ (s.step conf op).loaders = s.loaders) := by
  have hv := inv_of_reachable (pinv_of_reachable h).reach
  have hn := (pinv_of_reachable h).names
  have go : ∀ (m : Mgr) (found : Nat → List String),
      (.reloadRet true ∈ m.trace.drop s.mgr.trace.length ∧ ∀ i : Nat, (s.goOn m found).loaders[i]? =
        s.loaders[i]?.map fun l => (⟨l.name, found i, l.generation + 1⟩ : PluginLoader)) ∨
      (.reloadRet true ∉ m.trace.drop s.mgr.trace.length ∧ (s.goOn m found).loaders = s.loaders) := by
    intro m found
    by_cases hr : .reloadRet true ∈ m.trace.drop s.mgr.trace.length
    · refine Or.inl ⟨hr, fun i => ?_⟩
      unfold St.goOn
      rw [if_pos hr]
      show (reloadAll found 0 s.loaders)[i]? = _
      rw [reloadAll_getElem]
      simp [PluginLoader.reload]
    · refine Or.inr ⟨hr, ?_⟩
      unfold St.goOn
      rw [if_neg hr]
  unfold Reloads
  rw [step_mgr]
  cases op with
  | register n found =>
    refine Or.inl ⟨n, found, rfl, rfl, ?_⟩
    show (listTypes (s.loaders ++ _)).types = _
    simp [listTypes_eq]
  | update t r hw => exact Or.inr (Or.inr ⟨(reloadStep_update hv hn t r hw).2.drop, rfl⟩)
  | load n r => exact Or.inr (Or.inr ⟨(reloadStep_load hv hn n _).2.drop, rfl⟩)
  | unload n => exact Or.inr (Or.inr ⟨(reloadStep_unload hv hn n).2.drop, rfl⟩)
  | switch r now p => exact Or.inr (Or.inr ⟨(reloadStep_switch hv hn r now p).2.drop, rfl⟩)
  | reload f now p found =>
    rcases go (s.mgr.reload conf f now p) found with ⟨h1, h2⟩ | ⟨h1, h2⟩
    · exact Or.inr (Or.inl ⟨h1, found, Or.inl ⟨f, now, p, rfl⟩, h2⟩)
    · exact Or.inr (Or.inr ⟨h1, h2⟩)
  | poll ok el found =>
    rcases go (s.mgr.poll ok el) found with ⟨h1, h2⟩ | ⟨h1, h2⟩
    · exact Or.inr (Or.inl ⟨h1, found, Or.inr ⟨ok, el, rfl⟩, h2⟩)
    · exact Or.inr (Or.inr ⟨h1, h2⟩)

/-- **C93, reload.** When a reload answers true, no controller is loaded, no controller object is left over, and
the answer is the only thing observed in this step: the check before the loaders are reloaded
(controller_manager.cpp 679) holds. -/
theorem c93_reload_empty {conf} {s : St} (h : Reachable conf s) {op : PlugOp} (hop : op.rosUp)
    (hr : Reloads conf s op) :
    (s.step conf op).mgr.listControllers = [] ∧ (∀ c, ¬ Alive (s.step conf op).mgr c) ∧
    (s.step conf op).mgr.trace = s.mgr.trace ++ [.reloadRet true] ∧ (s.step conf op).mgr.svc = .idle := by
  have hv := inv_of_reachable (pinv_of_reachable h).reach
  unfold Reloads at hr
  have hm := step_mgr conf s op
  cases he : op.op s with
  | none =>
    rw [hm, he] at hr
    simp at hr
  | some o =>
    rw [he] at hm
    dsimp only at hm
    rw [hm] at hr ⊢
    obtain ⟨h1, h2, h3, h4⟩ :=
      drop_reload (reloadStep_step (conf := conf) hv (pinv_of_reachable h).names o (op_rosUp hop he)) hr
    refine ⟨by simp [listControllers, h2], ?_, h1, h4⟩
    rintro c ⟨sp, hs, _⟩
    rw [h2, h3] at hs
    rcases hs with hs | hs <;> cases hs

/-- **C93, libraries.** At any time, every controller object that exists has been created by a loader that is
still there, and this loader has not been reloaded since: no object outlives the library that made it. -/
theorem c93_no_orphan {conf} {s : St} (h : Reachable conf s) {c : CId} (hc : Alive s.mgr c) :
    ∃ i l, s.loaders[i]? = some l ∧ s.maker c = some (i, l.generation) := by
  obtain ⟨sp, hs, rfl⟩ := hc
  obtain ⟨i, l, h1, h2, _⟩ := (pinv_of_reachable h).made sp hs
  exact ⟨i, l, h1, h2⟩

/-- **C93, types.** At any time, the type of every controller that `list_controllers` shows is one of those that
`list_controller_types` shows. -/
theorem c93_types_listed {conf} {s : St} (h : Reachable conf s) :
    ∀ e ∈ s.mgr.listControllers, e.type ∈ (listTypes s.loaders).types := by
  intro e he
  obtain ⟨sp, hs, rfl⟩ := List.mem_map.1 he
  obtain ⟨i, l, h1, _, h3⟩ := (pinv_of_reachable h).made sp (Or.inl hs)
  exact mem_listTypes.2 ⟨l, List.mem_of_getElem? h1, h3⟩

/-- **C93, generations.** The `ClassLoader` of a loader has been constructed anew once for each reload that has
answered true since the loader was registered; for the first loader, this is the number of such answers. -/
theorem c93_generation {conf} {s : St} (h : Reachable conf s) :
    ∃ l, s.loaders[0]? = some l ∧ l.generation = s.mgr.trace.count (.reloadRet true) := by
  obtain ⟨found, ops, hops, rfl⟩ := h
  induction ops using List.reverseRecOn with
  | nil => exact ⟨_, rfl, rfl⟩
  | append_singleton ops op ih =>
    have hops' : ∀ o ∈ ops, o.rosUp := fun o ho => hops o (List.mem_append_left _ ho)
    have hop : op.rosUp := hops op (by simp)
    obtain ⟨l, h1, h2⟩ := ih hops'
    have hr : Reachable conf ((init found).run conf ops) := ⟨found, ops, hops', rfl⟩
    have hrun : (init found).run conf (ops ++ [op]) = ((init found).run conf ops).step conf op := by
      simp [St.run, List.foldl_append]
    rw [hrun]
    generalize (init found).run conf ops = s at *
    have hv := inv_of_reachable (pinv_of_reachable hr).reach
    by_cases hrl : Reloads conf s op
    · obtain ⟨_, _, ht, _⟩ := c93_reload_empty hr hop hrl
      rw [ht]
      rcases c93_changes hr op with ⟨n, f, rfl, _⟩ | ⟨_, f, _, hl⟩ | ⟨hnr, _⟩
      · unfold Reloads at hrl
        rw [step_mgr] at hrl
        simp [PlugOp.op] at hrl
      · refine ⟨_, (hl 0).trans (by rw [h1]; rfl), ?_⟩
        simp [h2]
      · exact absurd hrl hnr
    · have hcount : (s.step conf op).mgr.trace.count (.reloadRet true) = s.mgr.trace.count (.reloadRet true) := by
        unfold Reloads at hrl
        have hm := step_mgr conf s op
        cases he : op.op s with
        | none => rw [hm, he]
        | some o =>
          rw [he] at hm
          dsimp only at hm
          rw [hm] at hrl ⊢
          rcases (reloadStep_step (conf := conf) hv (pinv_of_reachable hr).names o (op_rosUp hop he)).2 with hh | hh
          · obtain ⟨es, e1, e2⟩ := hh
            rw [e1, List.count_append, List.count_eq_zero_of_not_mem e2, Nat.add_zero]
          · rw [hh.1] at hrl
            simp at hrl
      rw [hcount]
      rcases c93_changes hr op with ⟨n, f, _, hl, _⟩ | ⟨hnr, _⟩ | ⟨_, hl⟩
      · refine ⟨l, ?_, h2⟩
        rw [hl, List.getElem?_append_left (List.getElem?_eq_some_iff.1 h1).1]
        exact h1
      · exact absurd hnr hrl
      · exact ⟨l, by rw [hl]; exact h1, h2⟩

/-- The names under which loaders are registered in a history, in order. -/
def registered (ops : List PlugOp) : List String :=
  ops.filterMap fun | .register n _ => some n | _ => none

theorem reloadAll_names (found : Nat → List String) (i : Nat) (ls : List PluginLoader) :
    (reloadAll found i ls).map (·.name) = ls.map (·.name) := by
  induction ls generalizing i with
  | nil => rfl
  | cons l ls ih => simp [reloadAll, PluginLoader.reload, ih]

/-- **C93, base classes.** At any time, reloads or not, the loaders are the one for `controller_interface::ControllerBase`, which the
manager makes itself, and behind it those that have been registered, in order; only these names appear as base classes in the
listing of types. -/
theorem c93_base_classes (conf) (found : List String) (ops : List PlugOp) :
    ((init found).run conf ops).loaders.map (·.name) = "controller_interface::ControllerBase" :: registered ops ∧
    ∀ b ∈ (listTypes ((init found).run conf ops).loaders).baseClasses,
      b = "controller_interface::ControllerBase" ∨ b ∈ registered ops := by
  have h : ((init found).run conf ops).loaders.map (·.name) = "controller_interface::ControllerBase" :: registered ops := by
    induction ops using List.reverseRecOn with
    | nil => rfl
    | append_singleton ops op ih =>
      have hrun : (init found).run conf (ops ++ [op]) = ((init found).run conf ops).step conf op := by
        simp [St.run, List.foldl_append]
      have go : ∀ (s : St) (m : Mgr) (f : Nat → List String), (s.goOn m f).loaders.map (·.name) = s.loaders.map (·.name) := by
        intro s m f
        unfold St.goOn
        split
        · exact reloadAll_names f 0 s.loaders
        · rfl
      have hr : registered (ops ++ [op]) = registered ops ++ registered [op] := by simp [registered]
      rw [hrun, hr, ← List.cons_append, ← ih]
      generalize (init found).run conf ops = s
      cases op with
      | register n f => simp [St.step, registered]
      | reload f now p g => simp [St.step, registered, go]
      | poll ok el g => simp [St.step, registered, go]
      | _ => simp [St.step, St.load, registered]
  refine ⟨h, fun b hb => ?_⟩
  rw [← List.mem_cons, ← h]
  rw [listTypes_eq] at hb
  dsimp only at hb
  obtain ⟨l, hl, hb⟩ := List.mem_flatMap.1 hb
  obtain ⟨t, -, rfl⟩ := List.mem_map.1 hb
  exact List.mem_map.2 ⟨l, hl, rfl⟩

/-! ### A concrete history -/

namespace Ex

/-- A load in which every loader creates what it declares. -/
def req (type : String) (rs : List String) : LoadReq := ⟨true, some type, fun _ _ => .object, some [⟨"Pos", rs⟩]⟩

def tick : PlugOp := .update 0 false (Verif.Ex.hw .done)

/-- What the loaders find after the reload. -/
def found : Nat → List String
  | 0 => ["T", "V"]
  | _ => []

def wait : PlugOp := .poll {} 0 found

/-- A second loader is registered; the controllers "a" of the first and "b" of the second are loaded, and "a" is
started. -/
def started : List PlugOp :=
  [.register "other" ["U"], .load "a" (req "T" ["j1"]), tick, wait, .load "b" (req "U" ["j2"]), tick, wait,
    .switch ⟨["a"], [], 2, false, 0⟩ 0 true, tick, wait]

/-- A forced reload up to the last poll. -/
def reloading : List PlugOp :=
  started ++ [.reload true 0 true found, tick, wait, wait, tick, wait, wait, tick, wait]

def after (ops : List PlugOp) : St := (init ["T"]).run checkForConflict ops

theorem reachable (ops : List PlugOp) (h : ∀ op ∈ ops, op.rosUp) : Reachable checkForConflict (after ops) :=
  ⟨["T"], ops, h, rfl⟩

theorem reachable_started : Reachable checkForConflict (after started) :=
  reachable _ (by simp [started, PlugOp.rosUp, tick, wait])

theorem reachable_reloading : Reachable checkForConflict (after reloading) :=
  reachable _ (by simp [reloading, started, PlugOp.rosUp, tick, wait])

end Ex

example : (Ex.after Ex.reloading).loaders.map (·.name) = ["controller_interface::ControllerBase", "other"] :=
  (c93_base_classes checkForConflict ["T"] Ex.reloading).1

/-- Both controllers belong to loaders as they are, and both types are listed. -/
example : Alive (Ex.after Ex.started).mgr 0 ∧ (Ex.after Ex.started).maker 0 = some (0, 0) ∧
    Alive (Ex.after Ex.started).mgr 1 ∧ (Ex.after Ex.started).maker 1 = some (1, 0) ∧
    (Ex.after Ex.started).mgr.listControllers.map (fun e => (e.name, e.type, e.state)) =
      [("a", "T", "running"), ("b", "U", "initialized")] ∧
    listTypes (Ex.after Ex.started).loaders = ⟨["T", "U"], ["controller_interface::ControllerBase", "other"]⟩ := by
  refine ⟨⟨(Ex.after Ex.started).mgr.cur[0]'(by decide), Or.inl (List.getElem_mem _), by decide⟩, by decide,
    ⟨(Ex.after Ex.started).mgr.cur[1]'(by decide), Or.inl (List.getElem_mem _), by decide⟩, by decide, by decide, by decide⟩

/-- The last poll ends the reload; afterwards the listing shows what the loaders have found, and the class "U"
cannot be loaded any more. -/
example : Reloads checkForConflict (Ex.after Ex.reloading) Ex.wait ∧
    ¬ Reloads checkForConflict (Ex.after (Ex.reloading.take 17)) Ex.tick ∧
    listTypes (Ex.after (Ex.reloading ++ [Ex.wait])).loaders =
      ⟨["T", "V"], ["controller_interface::ControllerBase", "controller_interface::ControllerBase"]⟩ ∧
    (Ex.after (Ex.reloading ++ [Ex.wait])).loaders.map (·.generation) = [1, 1] ∧
    (Ex.after (Ex.reloading ++ [Ex.wait, .load "b" (Ex.req "U" [])])).mgr.trace.getLast? =
      some (.loadRet "b" false) := by
  unfold Reloads
  decide

/-- Loading "V" is possible then. -/
example : Loadable (Ex.after (Ex.reloading ++ [Ex.wait])).mgr "v"
    ((Ex.req "V" []).env (Ex.after (Ex.reloading ++ [Ex.wait])).loaders) "V" [⟨"Pos", []⟩] :=
  c93_listed_loadable _ _ _ (by unfold Loaded; decide) rfl rfl rfl (fun _ _ _ _ => rfl) (by decide)

end Plug

end Verif
