import Verif.Lemmas.InterfaceManager

/-!
Invariant of the resource lists kept by interface managers.
-/

namespace Verif

open Spec

namespace IMan

mutual

/-- Every kept list is the list of the names the registered object has now. -/
def ListOK (env : TypeEnv) (g : ObjId → Iface) : IMan → Prop
  | node i _ _ r s =>
    (∀ T, smapFind T r = (smapFind T i).map fun o => if env.isRM T then (g o).getNames else []) ∧
    ListOKSubs env g s

def ListOKSubs (env : TypeEnv) (g : ObjId → Iface) : List IMan → Prop
  | [] => True
  | m :: ms => ListOK env g m ∧ ListOKSubs env g ms

end

theorem listOKSubs_append (env : TypeEnv) (g : ObjId → Iface) (s t : List IMan) :
    ListOKSubs env g (s ++ t) ↔ ListOKSubs env g s ∧ ListOKSubs env g t := by
  induction s with
  | nil => simp [ListOKSubs]
  | cons m s ih => simp only [List.cons_append, ListOKSubs, ih, and_assoc]

mutual

theorem ListOK.congr {env : TypeEnv} {g g' : ObjId → Iface} : ∀ m,
    (∀ T, ∀ o ∈ registered T m, g' o = g o) → ListOK env g m → ListOK env g' m
  | node i c n r s, hg, h => by
    simp only [ListOK] at *
    refine ⟨fun T => ?_, ListOKSubs.congr s (fun T o ho => hg T o (by simp [registered, ho])) h.2⟩
    rw [h.1 T]
    cases ho : smapFind T i with
    | none => rfl
    | some o =>
      have := hg T o (by simp [registered, ho])
      simp [this]

theorem ListOKSubs.congr {env : TypeEnv} {g g' : ObjId → Iface} : ∀ s,
    (∀ T, ∀ o ∈ registeredSubs T s, g' o = g o) → ListOKSubs env g s → ListOKSubs env g' s
  | [], _, _ => by simp [ListOKSubs]
  | m :: ms, hg, h => by
    simp only [ListOKSubs] at *
    exact ⟨ListOK.congr m (fun T o ho => hg T o (by simp [registeredSubs, ho])) h.1,
      ListOKSubs.congr ms (fun T o ho => hg T o (by simp [registeredSubs, ho])) h.2⟩

end

mutual

theorem listing_eq {env : TypeEnv} {g : ObjId → Iface} (T : String) : ∀ m, ListOK env g m →
    getInterfaceResources T m = if env.isRM T then namesOf g (registered T m) else []
  | node i c n r s, h => by
    simp only [ListOK] at h
    simp only [getInterfaceResources, registered, h.1 T, listingSubs_eq T s h.2]
    cases smapFind T i <;> cases env.isRM T <;> simp [namesOf]

theorem listingSubs_eq {env : TypeEnv} {g : ObjId → Iface} (T : String) : ∀ s, ListOKSubs env g s →
    getInterfaceResourcesSubs T s = if env.isRM T then namesOf g (registeredSubs T s) else []
  | [], _ => by simp [getInterfaceResourcesSubs, registeredSubs, namesOf]
  | m :: ms, h => by
    simp only [ListOKSubs] at h
    simp only [getInterfaceResourcesSubs, registeredSubs, listing_eq T m h.1, listingSubs_eq T ms h.2]
    cases env.isRM T <;> simp [namesOf]

end

mutual

/-- Lookups change neither registrations nor kept lists, and only add objects. -/
theorem get_listing (env : TypeEnv) (T : String) : ∀ (m : IMan) (h : Heap),
    h.Ext (get env T m h).2.2 ∧
    (∀ a, RegOK a m → RegOK a (get env T m h).2.1) ∧
    (∀ g, ListOK env g m → ListOK env g (get env T m h).2.1)
  | node i c n r s, h => by
    have ih := getSubs_listing env T s h
    revert ih
    simp only [get]
    generalize getSubs env T s h = res
    obtain ⟨l, s', h'⟩ := res
    rintro ⟨h1, h2, h3⟩
    simp only at h1 h2 h3 ⊢
    have k2 : ∀ c' n' a, RegOK a (node i c n r s) → RegOK a (node i c' n' r s') := by
      intro c' n' a hr
      simp only [RegOK] at hr ⊢
      exact ⟨hr.1, h2 a hr.2⟩
    have k3 : ∀ c' n' g, ListOK env g (node i c n r s) → ListOK env g (node i c' n' r s') := by
      intro c' n' g hr
      simp only [ListOK] at hr ⊢
      exact ⟨hr.1, h3 g hr.2⟩
    split
    · exact ⟨h1, k2 _ _, k3 _ _⟩
    · exact ⟨h1, k2 _ _, k3 _ _⟩
    · split
      · split
        · exact ⟨h1, k2 _ _, k3 _ _⟩
        · split
          · exact ⟨h1.trans (Heap.ext_alloc _ _), k2 _ _, k3 _ _⟩
          · exact ⟨h1, k2 _ _, k3 _ _⟩
      · split
        · exact ⟨h1.trans (Heap.ext_alloc _ _), k2 _ _, k3 _ _⟩
        · exact ⟨h1, k2 _ _, k3 _ _⟩

theorem getSubs_listing (env : TypeEnv) (T : String) : ∀ (s : List IMan) (h : Heap),
    h.Ext (getSubs env T s h).2.2 ∧
    (∀ a, RegOKSubs a s → RegOKSubs a (getSubs env T s h).2.1) ∧
    (∀ g, ListOKSubs env g s → ListOKSubs env g (getSubs env T s h).2.1)
  | [], h => by simp [getSubs, RegOKSubs, ListOKSubs, Heap.Ext.refl]
  | m :: ms, h => by
    have ih1 := get_listing env T m h
    have ih2 := getSubs_listing env T ms (get env T m h).2.2
    simp only [getSubs]
    refine ⟨ih1.1.trans ih2.1, fun a hr => ?_, fun g hr => ?_⟩
    · simp only [RegOKSubs] at hr ⊢
      exact ⟨ih1.2.1 a hr.1, ih2.2.1 a hr.2⟩
    · simp only [ListOKSubs] at hr ⊢
      exact ⟨ih1.2.2 g hr.1, ih2.2.2 g hr.2⟩

end

mutual

theorem modifyAt_listOK (env : TypeEnv) (g : ObjId → Iface) (f : IMan → IMan)
    (hf : ∀ m, ListOK env g m → ListOK env g (f m)) :
    ∀ (p : List Nat) (m : IMan), ListOK env g m → ListOK env g (modifyAt f p m)
  | [], m, h => by rw [modifyAt]; exact hf m h
  | k :: p, node i c n r s, h => by
    rw [modifyAt]
    simp only [ListOK] at *
    exact ⟨h.1, modifySubs_listOK env g f hf k p s h.2⟩

theorem modifySubs_listOK (env : TypeEnv) (g : ObjId → Iface) (f : IMan → IMan)
    (hf : ∀ m, ListOK env g m → ListOK env g (f m)) :
    ∀ (k : Nat) (p : List Nat) (s : List IMan), ListOKSubs env g s → ListOKSubs env g (modifySubs f k p s)
  | _, _, [], h => by rw [modifySubs]; exact h
  | 0, p, m :: ms, h => by
    rw [modifySubs]; simp only [ListOKSubs] at *
    exact ⟨modifyAt_listOK env g f hf p m h.1, h.2⟩
  | k + 1, p, m :: ms, h => by
    rw [modifySubs]; simp only [ListOKSubs] at *
    exact ⟨h.1, modifySubs_listOK env g f hf k p ms h.2⟩

end

theorem registerInterface_listOK (env : TypeEnv) (T : String) (o : ObjId) (h : Heap) (m : IMan)
    (hm : ListOK env h.objs m) : ListOK env h.objs (registerInterface env T o h m) := by
  cases m with
  | node i c n r s =>
    simp only [registerInterface, ListOK] at *
    refine ⟨fun T' => ?_, hm.2⟩
    rw [smapFind_insert, smapFind_insert]
    by_cases hT : T' = T
    · subst hT
      rw [if_pos rfl, if_pos rfl, hm.1 T']
      cases env.isRM T' <;> cases smapFind T' i <;> simp
    · rw [if_neg hT, if_neg hT]
      exact hm.1 T'

theorem registerManager_listOK (env : TypeEnv) (g : ObjId → Iface) (m : IMan)
    (hm : ListOK env g m) : ListOK env g (registerInterfaceManager .empty m) := by
  cases m with
  | node i c n r s =>
    simp only [registerInterfaceManager, ListOK, listOKSubs_append] at *
    refine ⟨hm.1, hm.2, ?_⟩
    simp [ListOKSubs, empty, ListOK, smapFind]

mutual

theorem mem_allRegistered (T : String) : ∀ m, ∀ o ∈ registered T m, o ∈ allRegistered m
  | node i c n r s, o, ho => by
    simp only [registered, allRegistered, List.mem_append, Option.mem_toList] at *
    rcases ho with ho | ho
    · exact Or.inl (List.mem_map.2 ⟨(T, o), mem_of_smapFind ho, rfl⟩)
    · exact Or.inr (mem_allRegisteredSubs T s o ho)

theorem mem_allRegisteredSubs (T : String) : ∀ s, ∀ o ∈ registeredSubs T s, o ∈ allRegisteredSubs s
  | [], o, ho => by simp [registeredSubs] at ho
  | m :: ms, o, ho => by
    simp only [registeredSubs, allRegisteredSubs, List.mem_append] at *
    exact ho.imp (mem_allRegistered T m o) (mem_allRegisteredSubs T ms o)

end

end IMan

namespace IWorld

/-- The invariant kept by histories which register complete interfaces. -/
structure Listing (env : TypeEnv) (w : IWorld) : Prop where
  reg : IMan.RegOK w.heap.next w.root
  list : IMan.ListOK env w.heap.objs w.root

theorem listing_step {env : TypeEnv} {w : IWorld} (hw : w.Listing env) (op : IOp)
    (hop : ∀ o hd, op = .registerHandle o hd → ∀ T, o ∉ registered T w.root) :
    (w.step env op).Listing env := by
  cases op with
  | registerInterface p T o =>
    simp only [step]
    split
    · rename_i ho
      exact ⟨IMan.modifyAt_regOK _ _ (fun m hm => IMan.registerInterface_regOK env T w.heap ho m hm) p _ hw.reg,
        IMan.modifyAt_listOK env _ _ (fun m hm => IMan.registerInterface_listOK env T o w.heap m hm) p _ hw.list⟩
    · exact hw
  | registerManager p =>
    exact ⟨IMan.modifyAt_regOK _ _ (fun m hm => IMan.registerManager_regOK _ m hm) p _ hw.reg,
      IMan.modifyAt_listOK env _ _ (fun m hm => IMan.registerManager_listOK env _ m hm) p _ hw.list⟩
  | newIface T =>
    refine ⟨IMan.RegOK.mono (Nat.le_succ _) _ hw.reg, IMan.ListOK.congr _ ?_ hw.list⟩
    intro T' o ho
    have := IMan.registered_lt T' _ hw.reg o ho
    exact (Heap.ext_alloc w.heap _).objs o this
  | registerHandle o hd =>
    simp only [step]
    split
    · refine ⟨hw.reg, IMan.ListOK.congr _ ?_ hw.list⟩
      intro T o' ho'
      have : o' ≠ o := by
        rintro rfl
        exact hop o' hd rfl T ho'
      simp [Heap.set, this]
    · exact hw
  | get T =>
    obtain ⟨h1, h2, h3⟩ := IMan.get_listing env T w.root w.heap
    refine ⟨h2 _ (IMan.RegOK.mono h1.next _ hw.reg), IMan.ListOK.congr _ ?_ (h3 _ hw.list)⟩
    intro T' o ho
    exact h1.objs o (IMan.registered_lt T' _ (h2 _ hw.reg) o ho)

theorem listing_run {env : TypeEnv} (ops : List IOp) {w : IWorld} (hw : w.Listing env)
    (hops : completeFirst env w ops = true) : (w.run env ops).Listing env := by
  induction ops generalizing w with
  | nil => exact hw
  | cons op ops ih =>
    simp only [completeFirst, Bool.and_eq_true] at hops
    refine ih (listing_step hw op ?_) hops.2
    rintro o hd rfl T ho
    simp only [decide_eq_true_eq] at hops
    exact hops.1 (IMan.mem_allRegistered T _ o ho)

theorem listing_init (env : TypeEnv) : IWorld.init.Listing env := by
  constructor <;> simp [init, IMan.empty, IMan.RegOK, IMan.RegOKSubs, IMan.ListOK, IMan.ListOKSubs, smapFind]

end IWorld

end Verif
