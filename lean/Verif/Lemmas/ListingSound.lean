import Verif.Lemmas.InterfaceListing

/-!
What the kept resource lists have in common with the registered interfaces in every history.
-/

namespace Verif

open Spec

namespace IMan

mutual

/-- Every kept list belongs to a registered object, and contains only names which the object has. -/
def Sound (env : TypeEnv) (g : ObjId → Iface) : IMan → Prop
  | node i _ _ r s =>
    (∀ T ns, smapFind T r = some ns → (∃ o, smapFind T i = some o ∧ ∀ x ∈ ns, (g o).rmGetHandle x ≠ none) ∧
      (env.isRM T = false → ns = [])) ∧ SoundSubs env g s

def SoundSubs (env : TypeEnv) (g : ObjId → Iface) : List IMan → Prop
  | [] => True
  | m :: ms => Sound env g m ∧ SoundSubs env g ms

end

theorem soundSubs_append (env : TypeEnv) (g : ObjId → Iface) (s t : List IMan) :
    SoundSubs env g (s ++ t) ↔ SoundSubs env g s ∧ SoundSubs env g t := by
  induction s with
  | nil => simp [SoundSubs]
  | cons m s ih => simp only [List.cons_append, SoundSubs, ih, and_assoc]

mutual

theorem Sound.mono {env : TypeEnv} {g g' : ObjId → Iface} : ∀ m,
    (∀ T, ∀ o ∈ registered T m, ∀ x, (g o).rmGetHandle x ≠ none → (g' o).rmGetHandle x ≠ none) → Sound env g m → Sound env g' m
  | node i c n r s, hg, h => by
    simp only [Sound] at *
    refine ⟨fun T ns hns => ?_, SoundSubs.mono s (fun T o ho => hg T o (by simp [registered, ho])) h.2⟩
    obtain ⟨⟨o, ho, hx⟩, h2⟩ := h.1 T ns hns
    exact ⟨⟨o, ho, fun x hxn => hg T o (by simp [registered, ho]) x (hx x hxn)⟩, h2⟩

theorem SoundSubs.mono {env : TypeEnv} {g g' : ObjId → Iface} : ∀ s,
    (∀ T, ∀ o ∈ registeredSubs T s, ∀ x, (g o).rmGetHandle x ≠ none → (g' o).rmGetHandle x ≠ none) →
    SoundSubs env g s → SoundSubs env g' s
  | [], _, _ => by simp [SoundSubs]
  | m :: ms, hg, h => by
    simp only [SoundSubs] at *
    exact ⟨Sound.mono m (fun T o ho => hg T o (by simp [registeredSubs, ho])) h.1,
      SoundSubs.mono ms (fun T o ho => hg T o (by simp [registeredSubs, ho])) h.2⟩

end

mutual

theorem Sound.listed {env : TypeEnv} {g : ObjId → Iface} (T : String) : ∀ m, Sound env g m → ∀ x ∈ getInterfaceResources T m,
    env.isRM T = true ∧ ∃ o ∈ registered T m, (g o).rmGetHandle x ≠ none
  | node i c n r s, h, x, hx => by
    simp only [Sound] at h
    simp only [getInterfaceResources, List.mem_append] at hx
    rcases hx with hx | hx
    · cases hr : smapFind T r with
      | none => simp [hr] at hx
      | some ns =>
        obtain ⟨⟨o, ho, h1⟩, h2⟩ := h.1 T ns hr
        simp only [hr, Option.getD_some] at hx
        refine ⟨?_, o, by simp [registered, ho], h1 x hx⟩
        by_contra hno
        rw [h2 (by simpa using hno)] at hx
        simp at hx
    · obtain ⟨h1, o, ho, h2⟩ := SoundSubs.listed T s h.2 x hx
      exact ⟨h1, o, by simp [registered, ho], h2⟩

theorem SoundSubs.listed {env : TypeEnv} {g : ObjId → Iface} (T : String) : ∀ s, SoundSubs env g s →
    ∀ x ∈ getInterfaceResourcesSubs T s, env.isRM T = true ∧ ∃ o ∈ registeredSubs T s, (g o).rmGetHandle x ≠ none
  | [], _, x, hx => by simp [getInterfaceResourcesSubs] at hx
  | m :: ms, h, x, hx => by
    simp only [SoundSubs] at h
    simp only [getInterfaceResourcesSubs, List.mem_append] at hx
    rcases hx with hx | hx
    · obtain ⟨h1, o, ho, h2⟩ := Sound.listed T m h.1 x hx
      exact ⟨h1, o, by simp [registeredSubs, ho], h2⟩
    · obtain ⟨h1, o, ho, h2⟩ := SoundSubs.listed T ms h.2 x hx
      exact ⟨h1, o, by simp [registeredSubs, ho], h2⟩

end

mutual

theorem get_sound (env : TypeEnv) (T : String) : ∀ (m : IMan) (h : Heap),
    ∀ g, Sound env g m → Sound env g (get env T m h).2.1
  | node i c n r s, h => by
    have ih := getSubs_sound env T s h
    revert ih
    simp only [get]
    generalize getSubs env T s h = res
    obtain ⟨l, s', h'⟩ := res
    intro h3
    simp only at h3 ⊢
    have k3 : ∀ c' n' g, Sound env g (node i c n r s) → Sound env g (node i c' n' r s') := by
      intro c' n' g hr
      simp only [Sound] at hr ⊢
      exact ⟨hr.1, h3 g hr.2⟩
    split
    · exact k3 _ _
    · exact k3 _ _
    · split
      · split
        · exact k3 _ _
        · split
          · exact k3 _ _
          · exact k3 _ _
      · split
        · exact k3 _ _
        · exact k3 _ _

theorem getSubs_sound (env : TypeEnv) (T : String) : ∀ (s : List IMan) (h : Heap),
    ∀ g, SoundSubs env g s → SoundSubs env g (getSubs env T s h).2.1
  | [], h => by simp [getSubs, SoundSubs]
  | m :: ms, h => by
    have ih1 := get_sound env T m h
    have ih2 := getSubs_sound env T ms (get env T m h).2.2
    simp only [getSubs]
    intro g hr
    simp only [SoundSubs] at hr ⊢
    exact ⟨ih1 g hr.1, ih2 g hr.2⟩

end

mutual

theorem modifyAt_sound (env : TypeEnv) (g : ObjId → Iface) (f : IMan → IMan) (hf : ∀ m, Sound env g m → Sound env g (f m)) :
    ∀ (p : List Nat) (m : IMan), Sound env g m → Sound env g (modifyAt f p m)
  | [], m, h => by rw [modifyAt]; exact hf m h
  | k :: p, node i c n r s, h => by
    rw [modifyAt]
    simp only [Sound] at *
    exact ⟨h.1, modifySubs_sound env g f hf k p s h.2⟩

theorem modifySubs_sound (env : TypeEnv) (g : ObjId → Iface) (f : IMan → IMan) (hf : ∀ m, Sound env g m → Sound env g (f m)) :
    ∀ (k : Nat) (p : List Nat) (s : List IMan), SoundSubs env g s → SoundSubs env g (modifySubs f k p s)
  | _, _, [], h => by rw [modifySubs]; exact h
  | 0, p, m :: ms, h => by
    rw [modifySubs]; simp only [SoundSubs] at *
    exact ⟨modifyAt_sound env g f hf p m h.1, h.2⟩
  | k + 1, p, m :: ms, h => by
    rw [modifySubs]; simp only [SoundSubs] at *
    exact ⟨h.1, modifySubs_sound env g f hf k p ms h.2⟩

end

theorem registerInterface_sound (env : TypeEnv) (T : String) (o : ObjId) (h : Heap) (m : IMan)
    (hm : Sound env h.objs m) : Sound env h.objs (registerInterface env T o h m) := by
  cases m with
  | node i c n r s =>
    simp only [registerInterface, Sound] at *
    refine ⟨fun T' ns hns => ?_, hm.2⟩
    rw [smapFind_insert] at hns
    rw [smapFind_insert]
    by_cases hT : T' = T
    · subst hT
      rw [if_pos rfl] at hns ⊢
      cases hrm : env.isRM T' with
      | true =>
        rw [hrm, if_pos rfl] at hns
        cases hns
        refine ⟨⟨o, rfl, fun x hx => ?_⟩, by simp⟩
        show smapFind x (h.objs o).handles ≠ none
        rw [← Option.isSome_iff_ne_none]
        exact (smapFind_isSome x _).2 hx
      | false =>
        rw [hrm, if_neg (by simp)] at hns
        cases hns
        have : (smapFind T' r).getD [] = [] := by
          cases hr : smapFind T' r with
          | none => rfl
          | some ns => exact (hm.1 T' ns hr).2 hrm
        rw [this]
        exact ⟨⟨o, rfl, by simp⟩, fun _ => rfl⟩
    · rw [if_neg hT] at hns ⊢
      exact hm.1 T' ns hns

theorem registerManager_sound (env : TypeEnv) (g : ObjId → Iface) (m : IMan)
    (hm : Sound env g m) : Sound env g (registerInterfaceManager .empty m) := by
  cases m with
  | node i c n r s =>
    simp only [registerInterfaceManager, Sound, soundSubs_append] at *
    refine ⟨hm.1, hm.2, ?_⟩
    simp [SoundSubs, empty, Sound, smapFind]

end IMan

theorem registerHandle_keeps (f : Iface) (hd : Handle) (x : String) (h : f.rmGetHandle x ≠ none) :
    (f.registerHandle hd).rmGetHandle x ≠ none := by
  have e : (f.registerHandle hd).handles = smapInsert hd.name hd f.handles := by
    unfold Iface.registerHandle
    split <;> rfl
  show smapFind x (f.registerHandle hd).handles ≠ none
  rw [e, smapFind_insert]
  split
  · simp
  · exact h

namespace IWorld

/-- The invariant of every history. -/
structure Sound (env : TypeEnv) (w : IWorld) : Prop where
  reg : IMan.RegOK w.heap.next w.root
  sound : IMan.Sound env w.heap.objs w.root

theorem sound_step {env : TypeEnv} {w : IWorld} (hw : w.Sound env) (op : IOp) : (w.step env op).Sound env := by
  cases op with
  | registerInterface p T o =>
    simp only [step]
    split
    · rename_i ho
      exact ⟨IMan.modifyAt_regOK _ _ (fun m hm => IMan.registerInterface_regOK env T w.heap ho m hm) p _ hw.reg,
        IMan.modifyAt_sound env _ _ (fun m hm => IMan.registerInterface_sound env T o w.heap m hm) p _ hw.sound⟩
    · exact hw
  | registerManager p =>
    exact ⟨IMan.modifyAt_regOK _ _ (fun m hm => IMan.registerManager_regOK _ m hm) p _ hw.reg,
      IMan.modifyAt_sound env _ _ (fun m hm => IMan.registerManager_sound env _ m hm) p _ hw.sound⟩
  | newIface T =>
    refine ⟨IMan.RegOK.mono (Nat.le_succ _) _ hw.reg, IMan.Sound.mono _ ?_ hw.sound⟩
    intro T' o ho x hx
    have := IMan.registered_lt T' _ hw.reg o ho
    have e : (w.step env (.newIface T)).heap.objs o = w.heap.objs o := (Heap.ext_alloc w.heap _).objs o this
    rw [e]
    exact hx
  | registerHandle o hd =>
    simp only [step]
    split
    · refine ⟨hw.reg, IMan.Sound.mono _ ?_ hw.sound⟩
      intro T o' _ x hx
      by_cases e : o' = o
      · subst e
        simpa [Heap.set] using registerHandle_keeps _ hd x hx
      · simpa [Heap.set, e] using hx
    · exact hw
  | get T =>
    obtain ⟨h1, h2, -⟩ := IMan.get_listing env T w.root w.heap
    refine ⟨h2 _ (IMan.RegOK.mono h1.next _ hw.reg), IMan.Sound.mono _ ?_ (IMan.get_sound env T w.root w.heap _ hw.sound)⟩
    intro T' o ho x hx
    have e : (w.step env (.get T)).heap.objs o = w.heap.objs o := h1.objs o (IMan.registered_lt T' _ (h2 _ hw.reg) o ho)
    rw [e]
    exact hx

theorem sound_run {env : TypeEnv} (ops : List IOp) {w : IWorld} (hw : w.Sound env) : (w.run env ops).Sound env := by
  induction ops generalizing w with
  | nil => exact hw
  | cons op ops ih => exact ih (sound_step hw op)

theorem sound_init (env : TypeEnv) : IWorld.init.Sound env := by
  constructor <;> simp [init, IMan.empty, IMan.RegOK, IMan.RegOKSubs, IMan.Sound, IMan.SoundSubs, smapFind]

end IWorld

end Verif
