import Verif.Lemmas.InterfaceManager

/-!
Helper lemmas: looking up an interface that is no resource manager, after any history of registrations and lookups.
-/

namespace Verif

open Spec

namespace IMan

mutual

/-- Combinations are only kept for resource managers. -/
def OnlyRM (env : TypeEnv) : IMan → Prop
  | node _ c _ _ s => (∀ T o, smapFind T c = some o → env.isRM T = true) ∧ OnlyRMSubs env s

/-- Same, for a list of trees. -/
def OnlyRMSubs (env : TypeEnv) : List IMan → Prop
  | [] => True
  | m :: ms => OnlyRM env m ∧ OnlyRMSubs env ms

end

mutual

theorem get_onlyRM (env : TypeEnv) (T : String) : ∀ (m : IMan) (h : Heap), OnlyRM env m → OnlyRM env (get env T m h).2.1
  | node i c n r s, h, hm => by
    simp only [OnlyRM] at hm
    have ih := getSubs_onlyRM env T s h hm.2
    revert ih
    rw [get]
    rcases getSubs env T s h with ⟨l, s', h'⟩
    intro ih
    simp only at ih ⊢
    have keep : OnlyRM env (node i c n r s') := by simp only [OnlyRM]; exact ⟨hm.1, ih⟩
    have build : env.isRM T = true → ∀ o n', OnlyRM env (node i (smapInsert T o c) n' r s') := by
      intro hT o n'
      simp only [OnlyRM]
      refine ⟨fun T' o' ho => ?_, ih⟩
      rw [smapFind_insert] at ho
      split at ho
      · rename_i e; rw [e]; exact hT
      · exact hm.1 T' o' ho
    split
    · exact keep
    · exact keep
    · split
      · split
        · exact keep
        · split
          · rename_i hT; exact build hT _ _
          · exact keep
      · split
        · rename_i hT; exact build hT _ _
        · exact keep

theorem getSubs_onlyRM (env : TypeEnv) (T : String) : ∀ (s : List IMan) (h : Heap), OnlyRMSubs env s →
    OnlyRMSubs env (getSubs env T s h).2.1
  | [], h, _ => by simp [getSubs, OnlyRMSubs]
  | m :: ms, h, hm => by
    simp only [OnlyRMSubs] at hm
    have h1 := get_onlyRM env T m h hm.1
    revert h1
    rw [getSubs]
    rcases get env T m h with ⟨r, m', h'⟩
    intro h1
    have h2 := getSubs_onlyRM env T ms h' hm.2
    revert h2
    simp only at h1 ⊢
    rcases getSubs env T ms h' with ⟨l, ms', h''⟩
    intro h2
    simp only [OnlyRMSubs]
    exact ⟨h1, h2⟩

end

mutual

theorem modifyAt_onlyRM {env : TypeEnv} (f : IMan → IMan) (hf : ∀ m, OnlyRM env m → OnlyRM env (f m)) :
    ∀ (p : List Nat) (m : IMan), OnlyRM env m → OnlyRM env (modifyAt f p m)
  | [], m, h => by rw [modifyAt]; exact hf m h
  | k :: p, node i c n r s, h => by
    simp only [OnlyRM] at h
    simp only [modifyAt, OnlyRM]
    exact ⟨h.1, modifySubs_onlyRM f hf k p s h.2⟩

theorem modifySubs_onlyRM {env : TypeEnv} (f : IMan → IMan) (hf : ∀ m, OnlyRM env m → OnlyRM env (f m)) :
    ∀ (k : Nat) (p : List Nat) (s : List IMan), OnlyRMSubs env s → OnlyRMSubs env (modifySubs f k p s)
  | _, _, [], h => by simp [modifySubs, OnlyRMSubs]
  | 0, p, m :: ms, h => by
    simp only [OnlyRMSubs] at h
    simp only [modifySubs, OnlyRMSubs]
    exact ⟨modifyAt_onlyRM f hf p m h.1, h.2⟩
  | k + 1, p, m :: ms, h => by
    simp only [OnlyRMSubs] at h
    simp only [modifySubs, OnlyRMSubs]
    exact ⟨h.1, modifySubs_onlyRM f hf k p ms h.2⟩

end

theorem onlyRMSubs_append (env : TypeEnv) (s t : List IMan) : OnlyRMSubs env (s ++ t) ↔ OnlyRMSubs env s ∧ OnlyRMSubs env t := by
  induction s with
  | nil => simp [OnlyRMSubs]
  | cons m s ih => simp only [List.cons_append, OnlyRMSubs, ih, and_assoc]

/-! ### What a lookup answers -/

mutual

/-- The answer to a lookup of something that cannot be combined. -/
def alone (T : String) : IMan → Option ObjId
  | node i _ _ _ s =>
    match (smapFind T i).toList ++ aloneSubs T s with
    | [o] => some o
    | _ => none

/-- The answers of the sub-managers. -/
def aloneSubs (T : String) : List IMan → List ObjId
  | [] => []
  | m :: ms => (alone T m).toList ++ aloneSubs T ms

end

mutual

theorem get_alone (env : TypeEnv) (T : String) (hT : env.isRM T = false) : ∀ (m : IMan) (h : Heap), OnlyRM env m →
    get env T m h = (alone T m, m, h)
  | node i c n r s, h, hm => by
    simp only [OnlyRM] at hm
    rw [get, getSubs_alone env T hT s h hm.2]
    simp only [alone]
    rcases (smapFind T i).toList ++ aloneSubs T s with _ | ⟨a, _ | ⟨b, t⟩⟩
    · rfl
    · rfl
    · simp only
      cases hf : smapFind T c with
      | none => simp [hT]
      | some o => rw [hm.1 T o hf] at hT; cases hT

theorem getSubs_alone (env : TypeEnv) (T : String) (hT : env.isRM T = false) : ∀ (s : List IMan) (h : Heap), OnlyRMSubs env s →
    getSubs env T s h = (aloneSubs T s, s, h)
  | [], h, _ => by simp [getSubs, aloneSubs]
  | m :: ms, h, hm => by
    simp only [OnlyRMSubs] at hm
    rw [getSubs, get_alone env T hT m h hm.1]
    simp only
    rw [getSubs_alone env T hT ms h hm.2]
    simp [aloneSubs]

end

mutual

theorem alone_mem (T : String) : ∀ (m : IMan) (o : ObjId), alone T m = some o → o ∈ registered T m
  | node i c n r s, o, h => by
    have ih := aloneSubs_mem T s
    simp only [alone] at h
    simp only [registered, List.mem_append]
    have : o ∈ (smapFind T i).toList ++ aloneSubs T s := by
      split at h
      · rename_i x e; rw [e]; cases h; simp
      · cases h
    rcases List.mem_append.1 this with k | k
    · exact Or.inl k
    · exact Or.inr (ih o k)

theorem aloneSubs_mem (T : String) : ∀ (s : List IMan) (o : ObjId), o ∈ aloneSubs T s → o ∈ registeredSubs T s
  | [], o, h => by simp [aloneSubs] at h
  | m :: ms, o, h => by
    simp only [aloneSubs, List.mem_append] at h
    simp only [registeredSubs, List.mem_append]
    rcases h with h | h
    · exact Or.inl (alone_mem T m o (by simpa using h))
    · exact Or.inr (aloneSubs_mem T ms o h)

end

mutual

theorem alone_single (T : String) : ∀ (m : IMan) (o : ObjId), registered T m = [o] → alone T m = some o
  | node i c n r s, o, h => by
    simp only [registered] at h
    have key : (smapFind T i).toList ++ aloneSubs T s = [o] := by
      rcases List.append_eq_singleton_iff.1 h with ⟨h1, h2⟩ | ⟨h1, h2⟩
      · rw [h1, aloneSubs_few T s (by rw [h2]; simp), h2]; rfl
      · rw [h1, aloneSubs_few T s (by rw [h2]; simp), h2]; rfl
    simp only [alone, key]

theorem aloneSubs_few (T : String) : ∀ (s : List IMan), (registeredSubs T s).length ≤ 1 → aloneSubs T s = registeredSubs T s
  | [], _ => by simp [aloneSubs, registeredSubs]
  | m :: ms, h => by
    simp only [registeredSubs, List.length_append] at h
    simp only [aloneSubs, registeredSubs]
    rw [aloneSubs_few T ms (by omega)]
    congr 1
    rcases e : registered T m with _ | ⟨a, _ | ⟨b, t⟩⟩
    · cases e' : alone T m with
      | none => rfl
      | some o => have := alone_mem T m o e'; rw [e] at this; simp at this
    · rw [alone_single T m a e]; rfl
    · rw [e] at h; simp only [List.length_cons] at h; omega

end

/-- If each of the sub-managers has at most one, their answers are what is registered. -/
theorem aloneSubs_each (T : String) (s : List IMan) (h : ∀ m ∈ s, (registered T m).length ≤ 1) :
    aloneSubs T s = registeredSubs T s := by
  induction s with
  | nil => simp [aloneSubs, registeredSubs]
  | cons m ms ih =>
    have h1 := aloneSubs_few T [m] (by simpa [registeredSubs] using h m (by simp))
    simp only [aloneSubs, registeredSubs, List.append_nil] at h1 ⊢
    rw [ih (fun x hx => h x (List.mem_cons_of_mem _ hx)), h1]

end IMan

namespace IWorld

theorem onlyRM_step {env : TypeEnv} {w : IWorld} (h : IMan.OnlyRM env w.root) (op : IOp) : IMan.OnlyRM env (w.step env op).root := by
  cases op with
  | registerInterface p T o =>
    simp only [step]
    split
    · refine IMan.modifyAt_onlyRM _ (fun m hm => ?_) p _ h
      obtain ⟨i, c, n, r, s⟩ := m
      simp only [IMan.registerInterface, IMan.OnlyRM] at hm ⊢
      exact hm
    · exact h
  | registerManager p =>
    refine IMan.modifyAt_onlyRM _ (fun m hm => ?_) p _ h
    obtain ⟨i, c, n, r, s⟩ := m
    simp only [IMan.registerInterfaceManager, IMan.OnlyRM] at hm ⊢
    refine ⟨hm.1, (IMan.onlyRMSubs_append env _ _).2 ⟨hm.2, ?_⟩⟩
    simp [IMan.OnlyRMSubs, IMan.OnlyRM, IMan.empty, smapFind]
  | newIface T => exact h
  | registerHandle o hd => simp only [step]; split <;> exact h
  | get T => exact IMan.get_onlyRM env T w.root w.heap h

theorem onlyRM_run {env : TypeEnv} (ops : List IOp) (w : IWorld) (h : IMan.OnlyRM env w.root) :
    IMan.OnlyRM env (w.run env ops).root := by
  induction ops generalizing w with
  | nil => exact h
  | cons op ops ih => exact ih _ (onlyRM_step h op)

theorem onlyRM_init (env : TypeEnv) : IMan.OnlyRM env init.root := by
  simp [init, IMan.empty, IMan.OnlyRM, IMan.OnlyRMSubs, smapFind]

end IWorld

end Verif
