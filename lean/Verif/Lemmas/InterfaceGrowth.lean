import Verif.Lemmas.InterfaceListing

/-!
Lemmas about lookups that are interleaved with registrations.
-/

namespace Verif

open Spec

namespace IMan

theorem subs_split (f : IMan → IMan) (k : Nat) (p : List Nat) (s : List IMan) :
    (s[k]? = none ∧ modifySubs f k p s = s) ∨
    ∃ a m b, s[k]? = some m ∧ s = a ++ m :: b ∧ modifySubs f k p s = a ++ modifyAt f p m :: b := by
  induction s generalizing k with
  | nil => exact Or.inl ⟨by simp, by rw [modifySubs]⟩
  | cons x s ih =>
    cases k with
    | zero => exact Or.inr ⟨[], x, s, rfl, rfl, by rw [modifySubs]; rfl⟩
    | succ k =>
      rw [modifySubs]
      rcases ih k with ⟨h1, h2⟩ | ⟨a, m, b, h1, h2, h3⟩
      · exact Or.inl ⟨by simpa using h1, by rw [h2]⟩
      · exact Or.inr ⟨x :: a, m, b, by simpa using h1, by rw [h2]; rfl, by rw [h3]; rfl⟩

theorem registeredSubs_append (T : String) (s t : List IMan) :
    registeredSubs T (s ++ t) = registeredSubs T s ++ registeredSubs T t := by
  induction s with
  | nil => rfl
  | cons m s ih => simp only [List.cons_append, registeredSubs, ih, List.append_assoc]

theorem providersSubs_append (T : String) (s t : List IMan) :
    providersSubs T (s ++ t) = providersSubs T s + providersSubs T t := by
  induction s with
  | nil => simp [providersSubs]
  | cons m s ih => simp only [List.cons_append, providersSubs, ih, Nat.add_assoc]

theorem comboOKSubs_append (env : TypeEnv) (h : Heap) (s t : List IMan) :
    ComboOKSubs env h (s ++ t) ↔ ComboOKSubs env h s ∧ ComboOKSubs env h t := by
  induction s with
  | nil => simp [ComboOKSubs]
  | cons m s ih => simp only [List.cons_append, ComboOKSubs, ih, and_assoc]

theorem providersSubs_nil (T : String) (s : List IMan) (h : registeredSubs T s = []) : providersSubs T s = 0 := by
  induction s with
  | nil => rfl
  | cons m s ih =>
    simp only [registeredSubs, List.append_eq_nil_iff] at h
    rw [providersSubs, if_pos h.1, ih h.2]

/-- A registration of another type. -/
theorem registered_other (env : TypeEnv) (T T' : String) (o : ObjId) (h : Heap) (hT : T' ≠ T) (p : List Nat) (m : IMan) :
    registered T' (modifyAt (registerInterface env T o h) p m) = registered T' m := by
  induction p generalizing m with
  | nil =>
    obtain ⟨i, c, n, r, s⟩ := m
    rw [modifyAt, registerInterface, registered, registered, smapFind_insert, if_neg hT]
  | cons k p ih =>
    obtain ⟨i, c, n, r, s⟩ := m
    rw [modifyAt]
    rcases subs_split (registerInterface env T o h) k p s with ⟨_, e⟩ | ⟨a, m, b, _, e1, e2⟩
    · rw [e]
    · rw [e2, e1]
      simp only [registered, registeredSubs_append, registeredSubs, ih]

/-- A registration has no effect, or the type is registered afterwards. -/
theorem registered_same (env : TypeEnv) (T : String) (o : ObjId) (h : Heap) (p : List Nat) (m : IMan) :
    modifyAt (registerInterface env T o h) p m = m ∨ registered T (modifyAt (registerInterface env T o h) p m) ≠ [] := by
  induction p generalizing m with
  | nil =>
    obtain ⟨i, c, n, r, s⟩ := m
    right
    rw [modifyAt, registerInterface, registered, smapFind_insert, if_pos rfl]
    simp
  | cons k p ih =>
    obtain ⟨i, c, n, r, s⟩ := m
    rw [modifyAt]
    rcases subs_split (registerInterface env T o h) k p s with ⟨_, e⟩ | ⟨a, m, b, _, e1, e2⟩
    · rw [e]; exact Or.inl rfl
    · rcases ih m with e | e
      · left; rw [e2, e1, e]
      · right
        rw [e2]
        simp only [registered, registeredSubs_append, registeredSubs, ne_eq, List.append_eq_nil_iff]
        exact fun hh => e hh.2.2.1

/-- Registration of a further provider. -/
theorem comboOK_register {env : TypeEnv} {g : Heap} (T : String) (o : ObjId) (h : Heap) (p : List Nat) (m : IMan)
    (hp : env.isRM T = true → addsProvider T p m = true) (hc : ComboOK env g m) :
    ComboOK env g (modifyAt (registerInterface env T o h) p m) := by
  induction p generalizing m with
  | nil =>
    obtain ⟨i, c, n, r, s⟩ := m
    rw [modifyAt, registerInterface]
    simp only [ComboOK] at hc ⊢
    refine ⟨fun T' o' ho => ?_, hc.2⟩
    obtain ⟨h0, h1, hk2, hkp, h2⟩ := hc.1 T' o' ho
    by_cases hT : T' = T
    · subst hT
      have hn := hp h0
      simp only [addsProvider, Option.isNone_iff_eq_none] at hn
      have e : providers T' (node (smapInsert T' o i) c n
          (smapInsert T' (if env.isRM T' = true then (h.objs o).getNames else (smapFind T' r).getD []) r) s) =
          providers T' (node i c n r s) + 1 := by
        simp only [providers, smapFind_insert, if_true, hn, Option.toList_some, Option.toList_none, List.length_singleton,
          List.length_nil]
        omega
      rw [e]
      exact ⟨h0, h1, hk2, by omega, fun hk => by omega⟩
    · simp only [providers, registered, smapFind_insert, if_neg hT] at hkp h2 ⊢
      exact ⟨h0, h1, hk2, hkp, h2⟩
  | cons k p ih =>
    obtain ⟨i, c, n, r, s⟩ := m
    rw [modifyAt]
    rcases subs_split (registerInterface env T o h) k p s with ⟨_, e⟩ | ⟨a, m, b, e0, e1, e2⟩
    · rw [e]; exact hc
    · simp only [addsProvider, e0, Bool.and_eq_true, decide_eq_true_eq] at hp
      rw [e2]
      subst e1
      simp only [ComboOK, comboOKSubs_append, ComboOKSubs] at hc ⊢
      refine ⟨fun T' o' ho => ?_, hc.2.1, ih m (fun hrm => (hp hrm).2) hc.2.2.1, hc.2.2.2⟩
      obtain ⟨h0, h1, hk2, hkp, h2⟩ := hc.1 T' o' ho
      by_cases hT : T' = T
      · subst hT
        rcases registered_same env T' o h p m with e | e
        · rw [e]; exact ⟨h0, h1, hk2, hkp, h2⟩
        · rcases (hp h0).1 with hm | hm
          · simp only [providers, providersSubs_append, providersSubs, if_pos hm, if_neg e] at hkp ⊢
            exact ⟨h0, h1, hk2, by omega, fun hk => by omega⟩
          · exfalso
            simp only [registered, registeredSubs_append, registeredSubs] at hm
            have hlen := congrArg List.length hm
            simp only [List.length_append] at hlen
            have l1 := List.eq_nil_of_length_eq_zero (l := registeredSubs T' a) (by omega)
            have l2 := List.eq_nil_of_length_eq_zero (l := registeredSubs T' b) (by omega)
            simp only [providers, providersSubs_append, providersSubs, providersSubs_nil T' _ l1, providersSubs_nil T' _ l2]
              at hkp
            split at hkp <;> omega
      · have e := registered_other env T T' o h hT p m
        simp only [providers, providersSubs_append, providersSubs, registered, registeredSubs_append, registeredSubs, e]
          at hkp h2 ⊢
        exact ⟨h0, h1, hk2, hkp, h2⟩

/-- A new sub-manager has nothing. -/
theorem registered_manager (T : String) (p : List Nat) (m : IMan) :
    registered T (modifyAt (registerInterfaceManager .empty) p m) = registered T m := by
  induction p generalizing m with
  | nil =>
    obtain ⟨i, c, n, r, s⟩ := m
    rw [modifyAt, registerInterfaceManager, registered, registered, registeredSubs_append]
    simp [registeredSubs, empty, registered, smapFind]
  | cons k p ih =>
    obtain ⟨i, c, n, r, s⟩ := m
    rw [modifyAt]
    rcases subs_split (registerInterfaceManager .empty) k p s with ⟨_, e⟩ | ⟨a, m, b, _, e1, e2⟩
    · rw [e]
    · rw [e2, e1]
      simp only [registered, registeredSubs_append, registeredSubs, ih]

theorem comboOK_manager {env : TypeEnv} {g : Heap} (p : List Nat) (m : IMan) (hc : ComboOK env g m) :
    ComboOK env g (modifyAt (registerInterfaceManager .empty) p m) := by
  induction p generalizing m with
  | nil =>
    obtain ⟨i, c, n, r, s⟩ := m
    rw [modifyAt, registerInterfaceManager]
    have e1 : ∀ T, registeredSubs T (s ++ [empty]) = registeredSubs T s := by
      intro T; simp [registeredSubs_append, registeredSubs, empty, registered, smapFind]
    have e2 : ∀ T, providersSubs T (s ++ [empty]) = providersSubs T s := by
      intro T
      simp [providersSubs_append, providersSubs, empty, registered, registeredSubs, smapFind]
    simp only [ComboOK, comboOKSubs_append, registered, providers, e1, e2] at hc ⊢
    exact ⟨hc.1, hc.2, by simp [ComboOKSubs, ComboOK, empty, smapFind]⟩
  | cons k p ih =>
    obtain ⟨i, c, n, r, s⟩ := m
    rw [modifyAt]
    rcases subs_split (registerInterfaceManager .empty) k p s with ⟨_, e⟩ | ⟨a, m, b, _, e1, e2⟩
    · rw [e]; exact hc
    · rw [e2]
      subst e1
      simp only [ComboOK, comboOKSubs_append, ComboOKSubs, registered, registeredSubs_append, registeredSubs, providers,
        providersSubs_append, providersSubs, registered_manager] at hc ⊢
      exact ⟨hc.1, hc.2.1, ih m hc.2.2.1, hc.2.2.2⟩

mutual

/-- A change of an object that is neither registered nor a combination. -/
theorem comboOK_set {env : TypeEnv} {h : Heap} (o : ObjId) (v : Iface) : ∀ m, o ∉ allRegistered m → o ∉ combinations m →
    ComboOK env h m → ComboOK env (h.set o v) m
  | node i c n r s, hr, hcm, hc => by
    have hne : ∀ T, ∀ x ∈ registered T (node i c n r s), x ≠ o := by
      intro T x hx e
      exact hr (e ▸ mem_allRegistered T _ x hx)
    simp only [allRegistered, combinations, List.mem_append, not_or] at hr hcm
    simp only [ComboOK] at hc ⊢
    refine ⟨fun T x hx => ?_, comboOKSubs_set o v s hr.2 hcm.2 hc.2⟩
    obtain ⟨h0, h1, hk2, hkp, h2⟩ := hc.1 T x hx
    refine ⟨h0, h1, hk2, hkp, fun hk name => ?_⟩
    have hxo : x ≠ o := by
      rintro rfl
      exact hcm.1 (List.mem_map.2 ⟨(T, x), mem_of_smapFind hx, rfl⟩)
    have e1 : (h.set o v).objs x = h.objs x := by simp [Heap.set, hxo]
    rw [e1, h2 hk name]
    refine offered_congr (fun y hy => ?_) name
    simp [Heap.set, hne T y hy]

theorem comboOKSubs_set {env : TypeEnv} {h : Heap} (o : ObjId) (v : Iface) : ∀ s, o ∉ allRegisteredSubs s →
    o ∉ combinationsSubs s → ComboOKSubs env h s → ComboOKSubs env (h.set o v) s
  | [], _, _, _ => by simp [ComboOKSubs]
  | m :: ms, hr, hcm, hc => by
    simp only [allRegisteredSubs, combinationsSubs, List.mem_append, not_or] at hr hcm
    simp only [ComboOKSubs] at hc ⊢
    exact ⟨comboOK_set o v m hr.1 hcm.1 hc.1, comboOKSubs_set o v ms hr.2 hcm.2 hc.2⟩

end

end IMan

namespace IWorld

theorem run_growing {env : TypeEnv} (ops : List IOp) (w : IWorld) (hg : growing env w ops = true) (h : OK w)
    (hc : IMan.ComboOK env w.heap w.root) :
    OK (w.run env ops) ∧ IMan.ComboOK env (w.run env ops).heap (w.run env ops).root := by
  induction ops generalizing w with
  | nil => exact ⟨h, hc⟩
  | cons op ops ih =>
    unfold growing at hg
    rw [Bool.and_eq_true] at hg
    refine ih (w.step env op) hg.2 ?_ ?_
    · cases op with
      | get T =>
        have sp := IMan.get_spec env T w.root w.heap h.heap h.reg hc
        exact ⟨sp.ok, sp.regOK⟩
      | _ => exact h.stepReg _ trivial
    · cases op with
      | get T => exact (IMan.get_spec env T w.root w.heap h.heap h.reg hc).comboOK
      | registerInterface p T o =>
        simp only [step]
        split
        · refine IMan.comboOK_register T o _ p _ (fun hrm => ?_) hc
          have := hg.1
          simpa [hrm] using this
        · exact hc
      | registerManager p => exact IMan.comboOK_manager p _ hc
      | newIface T => exact IMan.ComboOK.ext (Heap.ext_alloc _ _) _ h.reg hc
      | registerHandle o hd =>
        simp only [step]
        split
        · have := hg.1
          simp only [decide_eq_true_eq] at this
          exact IMan.comboOK_set o _ _ this.1 this.2 hc
        · exact hc

end IWorld

end Verif
