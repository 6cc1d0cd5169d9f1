import Verif.Lemmas.InterfaceManager

/-!
Names of the registered interfaces.
-/

namespace Verif.IMan

open Spec

theorem mem_addNew (l out : List String) (x : String) :
    x ∈ l.foldl (fun out x => if x ∈ out then out else out ++ [x]) out ↔ x ∈ out ∨ x ∈ l := by
  induction l generalizing out with
  | nil => simp
  | cons y l ih =>
    rw [List.foldl_cons, ih]
    by_cases h : y ∈ out
    · rw [if_pos h]
      simp only [List.mem_cons]
      constructor
      · rintro (h | h)
        · exact Or.inl h
        · exact Or.inr (Or.inr h)
      · rintro (h' | rfl | h')
        · exact Or.inl h'
        · exact Or.inl h
        · exact Or.inr h'
    · rw [if_neg h]
      simp only [List.mem_append, List.mem_cons, List.not_mem_nil, or_false]
      rw [or_assoc]

theorem nodup_addNew (l out : List String) (h : out.Nodup) :
    (l.foldl (fun out x => if x ∈ out then out else out ++ [x]) out).Nodup := by
  induction l generalizing out with
  | nil => exact h
  | cons y l ih =>
    rw [List.foldl_cons]
    apply ih
    split
    · exact h
    · rename_i hn
      rw [List.nodup_append]
      refine ⟨h, by simp, ?_⟩
      rintro a ha b hb rfl
      rw [List.mem_singleton] at hb
      exact hn (hb ▸ ha)

theorem nodup_getNamesSubs : ∀ (s : List IMan) (out : List String), out.Nodup → (getNamesSubs s out).Nodup
  | [], out, h => by simpa [getNamesSubs] using h
  | m :: ms, out, h => by
    rw [getNamesSubs]
    exact nodup_getNamesSubs ms _ (nodup_addNew _ _ h)

mutual

theorem mem_getNames (T : String) : ∀ m, T ∈ getNames m ↔ registered T m ≠ []
  | .node i c n r s => by
    rw [getNames, mem_getNamesSubs T s, registered]
    have : T ∈ smapKeys i ↔ (smapFind T i).toList ≠ [] := by
      rw [← smapFind_isSome]
      cases smapFind T i <;> simp
    rw [this]
    simp only [ne_eq, List.append_eq_nil_iff]
    tauto

theorem mem_getNamesSubs (T : String) : ∀ (s : List IMan) (out : List String),
    T ∈ getNamesSubs s out ↔ T ∈ out ∨ registeredSubs T s ≠ []
  | [], out => by simp [getNamesSubs, registeredSubs]
  | m :: ms, out => by
    rw [getNamesSubs, mem_getNamesSubs T ms, mem_addNew, mem_getNames T m, registeredSubs]
    simp only [ne_eq, List.append_eq_nil_iff]
    tauto

end

/-- The manager's own map is a map. -/
def TopSorted : IMan → Prop
  | .node i _ _ _ _ => KeysSorted i

theorem get_topSorted (env : TypeEnv) (T : String) (m : IMan) (h : Heap) (hm : TopSorted m) :
    TopSorted (m.get env T h).2.1 := by
  obtain ⟨i, c, n, r, s⟩ := m
  rw [get]
  dsimp only
  repeat' split
  all_goals exact hm

theorem topSorted_step (env : TypeEnv) (w : IWorld) (op : IOp) (h : TopSorted w.root) :
    TopSorted (w.step env op).root := by
  cases op with
  | registerInterface p T o =>
    rw [IWorld.step]
    split
    · cases hr : w.root with
      | node i c n r s =>
        rw [hr] at h
        cases p with
        | nil => exact keysSorted_insert _ _ h
        | cons k p => exact h
    · exact h
  | registerManager p =>
    cases hr : w.root with
    | node i c n r s =>
      rw [hr] at h
      cases p with
      | nil =>
        show TopSorted (modifyAt _ [] w.root)
        rw [hr]; exact h
      | cons k p =>
        show TopSorted (modifyAt _ (k :: p) w.root)
        rw [hr]; exact h
  | newIface T => exact h
  | registerHandle o hd =>
    rw [IWorld.step]
    split
    · exact h
    · exact h
  | get T => exact get_topSorted env T _ _ h

theorem topSorted_run (env : TypeEnv) (ops : List IOp) (w : IWorld) (h : TopSorted w.root) :
    TopSorted (w.run env ops).root := by
  induction ops generalizing w with
  | nil => exact h
  | cons op ops ih => exact ih _ (topSorted_step env w op h)

theorem nodup_getNames {m : IMan} (h : TopSorted m) : (getNames m).Nodup := by
  obtain ⟨i, c, n, r, s⟩ := m
  rw [getNames]
  exact nodup_getNamesSubs _ _ (List.Pairwise.imp (fun h => ne_of_lt h) h)

end Verif.IMan
