import Verif.Lemmas.SystemInv

/-!
Lemmas about the handles of controllers whose interfaces claim resources.
-/

namespace Verif

open Spec Mgr Heap

/-- The manager of a `MultiInterfaceController`: without sub-managers, with objects of the right policy. -/
structure FlatTyped (env : TypeEnv) (h : Heap) (m : IMan) : Prop where
  flat : ∃ i c n r, m = .node i c n r [] ∧
    ∀ T o, smapFind T i = some o → o < h.next ∧ (h.objs o).claiming = env.claiming T

theorem ctrlGet_typed {env : TypeEnv} {h : Heap} {m : IMan} (hf : FlatTyped env h m) {T : String} {o : ObjId}
    (hg : ctrlGet env m h T = some o) : (h.objs o).claiming = env.claiming T := by
  obtain ⟨i, c, n, r, rfl, hi⟩ := hf.flat
  rw [ctrlGet, IMan.get] at hg
  simp only [IMan.getSubs, List.append_nil] at hg
  cases e : smapFind T i with
  | none => rw [e] at hg; simp at hg
  | some o' =>
    rw [e] at hg
    simp only [Option.toList_some, Option.some.injEq] at hg
    rw [← hg]
    exact (hi T o' e).2

theorem extract_flat (env : TypeEnv) (Ts : List String) (robot ctrl : IMan) (h : Heap)
    (ht : TypedRobot env h robot) (hf : FlatTyped env h ctrl) :
    FlatTyped env (extractInterfaceResources env Ts robot ctrl h).2.2
      (extractInterfaceResources env Ts robot ctrl h).2.1 := by
  induction Ts generalizing robot ctrl h with
  | nil => exact hf
  | cons T Ts ih =>
    have h1 := get_typed env T robot h ht
    obtain ⟨i, c, n, r, rfl, hi⟩ := hf.flat
    unfold extractInterfaceResources
    rcases hg : robot.get env T h with ⟨_ | o, r', h'⟩
    · rw [hg] at h1
      refine ih r' _ h' h1.typed ⟨i, c, n, r, rfl, fun T' o' ho => ?_⟩
      obtain ⟨a, b⟩ := hi T' o' ho
      exact ⟨lt_of_lt_of_le a h1.derived.ext.next, by rw [h1.derived.ext.objs o' a, b]⟩
    · rw [hg] at h1
      refine ih r' _ h' h1.typed ⟨_, _, _, _, rfl, fun T' o' ho => ?_⟩
      rw [smapFind_insert] at ho
      split at ho
      · rename_i e
        rw [e]
        cases ho
        exact h1.result o rfl
      · obtain ⟨a, b⟩ := hi T' o' ho
        exact ⟨lt_of_lt_of_le a h1.derived.ext.next, by rw [h1.derived.ext.objs o' a, b]⟩

/-- The handles a proper controller has obtained come from interfaces with the policies of its types. -/
theorem init_policy (env : TypeEnv) (cls : CtrlClass) (hp : cls.Proper) (robot : IMan) (h : Heap)
    (ht : TypedRobot env h robot) :
    ∀ g ∈ gotten (cls.initRequest env robot h).heap (cls.initRequest env robot h).log,
      ∃ T ∈ cls.types, g.exclusive = env.claiming T := by
  intro g hg
  obtain ⟨o, n, h1, -, h3⟩ := mem_gotten hg
  rw [h3]
  clear hg h3
  cases cls with
  | single T p1 p2 =>
    refine ⟨T, List.mem_singleton.2 rfl, ?_⟩
    revert h1
    have hgt := get_typed env T robot h ht
    simp only [CtrlClass.initRequest]
    unfold controllerInit
    rw [if_neg (by simp)]
    rcases hg' : robot.get env T h with ⟨_ | hw, robot', h'⟩
    · simp
    · rw [hg'] at hgt
      simp only
      have e1 : SameIfaces h' (h'.set hw (h'.objs hw).clearClaims) :=
        sameIfaces_set (by simp [Iface.clearClaims]) (by simp [Iface.clearClaims])
      have e2 := e1.trans (runInits_same (p1 hw) (p2 hw) _)
      have hu := runInits_uses _ _ (hp hw).1 (hp hw).2 (h'.set hw (h'.objs hw).clearClaims)
      have hres := (hgt.result hw rfl).2
      split <;> intro h1
      · have ho : o = hw := hu _ h1
        rw [ho]; exact (e2.claiming hw).trans hres
      · have ho : o = hw := hu _ h1
        rw [ho]; exact (e2.claiming hw).trans hres
      · have ho : o = hw := hu _ h1
        rw [ho]
        exact ((e2.trans (sameIfaces_set (by simp [Iface.clearClaims])
          (by simp [Iface.clearClaims]))).claiming hw).trans hres
  | multi Ts oo p1 p2 =>
    revert h1
    simp only [CtrlClass.initRequest, CtrlClass.types]
    unfold multiInit
    rw [if_neg (by simp)]
    have t0 : TypedRobot env (if oo = true then (true, robot, h) else hasInterfaces env Ts robot h).2.2
        (if oo = true then (true, robot, h) else hasInterfaces env Ts robot h).2.1 := by
      split
      · exact ht
      · exact (hasInterfaces_typed env Ts robot h ht).2
    revert t0
    rcases (if oo = true then (true, robot, h) else hasInterfaces env Ts robot h) with ⟨has, robot1, h1'⟩
    intro t0
    simp only at t0 ⊢
    split
    · simp
    · have hfl := extract_flat env Ts robot1 .empty h1' t0 ⟨[], [], [], [], rfl, by simp [smapFind]⟩
      revert hfl
      rcases extractInterfaceResources env Ts robot1 .empty h1' with ⟨robot2, ctrl, h2'⟩
      intro hfl
      simp only at hfl ⊢
      have e2 := (clearClaimsAll_same (ctrlGet env ctrl h2') Ts h2').trans
        (runInits_same (p1 (ctrlGet env ctrl h2')) (p2 (ctrlGet env ctrl h2')) _)
      have hu := runInits_uses _ _ (hp (ctrlGet env ctrl h2')).1 (hp (ctrlGet env ctrl h2')).2
        (clearClaimsAll (ctrlGet env ctrl h2') Ts h2')
      split <;> intro h1
      · obtain ⟨T, hT, hb⟩ := hu _ h1
        exact ⟨T, hT, (e2.claiming _).trans (ctrlGet_typed hfl hb)⟩
      · obtain ⟨T, hT, hb⟩ := hu _ h1
        exact ⟨T, hT, (e2.claiming _).trans (ctrlGet_typed hfl hb)⟩
      · obtain ⟨T, hT, hb⟩ := hu _ h1
        exact ⟨T, hT, ((e2.trans (clearClaimsAll_same _ _ _)).claiming _).trans (ctrlGet_typed hfl hb)⟩

/-- If all loaded controllers use only interfaces that claim resources, all their handles are exclusive. -/
theorem held_exclusive {env : TypeEnv} {robot : IMan} {h0 : Heap} (ht : TypedRobot env h0 robot) (hn : h0.Named)
    {types : List String} (hty : ∀ T ∈ types, env.claiming T = true) (ops : List SysOp)
    (hops : ∀ op ∈ ops, op.Good ∧ op.UsesOnly types) :
    ∀ c, ∀ g ∈ ((Sys.start robot h0).run env checkForConflict ops).held c, g.exclusive = true := by
  induction ops using List.reverseRecOn with
  | nil => simp [Sys.run, Sys.start]
  | append_singleton ops op ih =>
    have ih := ih fun o ho => hops o (by simp [ho])
    have hv := sysInv_reached ht hn ⟨ops, fun o ho => (hops o (by simp [ho])).1, rfl⟩
    rw [Sys.run_append]
    revert ih hv
    generalize (Sys.start robot h0).run env checkForConflict ops = s
    intro ih hv c g hg
    have hop := hops op (by simp)
    cases op with
    | load n r =>
      change g ∈ (s.load env n r).held c at hg
      unfold Sys.load at hg
      split at hg
      · simp only at hg
        split at hg
        · simp only at hg
          split at hg
          · obtain ⟨T, hT, e⟩ := init_policy env r.cls hop.1 s.robot s.heap hv.typed g hg
            rw [e]
            exact hty T (hop.2 T hT)
          · exact ih c g hg
        · exact ih c g hg
      · exact ih c g hg
    | _ => exact ih c g hg

/-- The joint command interfaces claim resources. -/
theorem jointCommand_claiming : ∀ T ∈ jointCommandTypes, stdEnv.claiming T = true := by decide

end Verif
