import Verif.Model.ControllerInit
import Verif.Lemmas.Resources

/-! Helper lemmas for controller initialisation. -/

namespace Verif

/-- What user code does to the claims of every interface object. -/
structure ClaimsGrow (h h' : Heap) (log : List (ObjId × String)) : Prop where
  handles : ∀ o, (h'.objs o).handles = (h.objs o).handles
  claiming : ∀ o, (h'.objs o).claiming = (h.objs o).claiming
  sorted : ∀ o, (h.objs o).claims.Pairwise (· < ·) → (h'.objs o).claims.Pairwise (· < ·)
  mem : ∀ o n, n ∈ (h'.objs o).claims ↔
    n ∈ (h.objs o).claims ∨ ((o, n) ∈ log ∧ (h.objs o).claiming = true)

theorem ClaimsGrow.refl (h : Heap) : ClaimsGrow h h [] :=
  ⟨fun _ => rfl, fun _ => rfl, fun _ x => x, by simp⟩

theorem ClaimsGrow.trans {a b c : Heap} {l m : List (ObjId × String)} (h1 : ClaimsGrow a b l)
    (h2 : ClaimsGrow b c m) : ClaimsGrow a c (l ++ m) := by
  refine ⟨fun o => (h2.handles o).trans (h1.handles o), fun o => (h2.claiming o).trans (h1.claiming o),
    fun o h => h2.sorted o (h1.sorted o h), fun o n => ?_⟩
  rw [h2.mem, h1.mem, h1.claiming, List.mem_append]
  tauto

theorem claimsGrow_getHandle (h : Heap) (o : ObjId) (name : String) :
    ClaimsGrow h (h.set o ((h.objs o).getHandle name).2)
      (if ((h.objs o).getHandle name).1.isSome then [(o, name)] else []) := by
  have hg : ((h.objs o).getHandle name).1 = smapFind name (h.objs o).handles := by
    unfold Iface.getHandle Iface.rmGetHandle; split <;> simp_all
  rw [hg]
  refine ⟨fun x => ?_, fun x => ?_, fun x hx => ?_, fun x n => ?_⟩
  · simp only [Heap.set]; split
    · subst_vars; simp
    · rfl
  · simp only [Heap.set]; split
    · subst_vars; simp
    · rfl
  · simp only [Heap.set]; split
    · subst_vars
      rw [Iface.getHandle_claims]; split
      · exact sorted_ssetInsert _ hx
      · exact hx
    · exact hx
  · simp only [Heap.set]
    by_cases hxo : x = o
    · subst hxo
      simp only [if_true]
      rw [Iface.getHandle_claims]
      by_cases h1 : (smapFind name (h.objs x).handles).isSome
      · by_cases h2 : (h.objs x).claiming
        · simp only [h1, h2, and_self, if_true, mem_ssetInsert, List.mem_singleton, Prod.mk.injEq,
            true_and, and_true]; tauto
        · simp [h1, h2]
      · simp [h1]
    · simp only [hxo, if_false]
      constructor
      · exact Or.inl
      · rintro (h1 | ⟨h1, _⟩)
        · exact h1
        · split at h1
          · simp [hxo] at h1
          · simp at h1

theorem InitProg.run_grow (p : InitProg) (h : Heap) : ClaimsGrow h (p.run h).heap (p.run h).log := by
  induction p generalizing h with
  | done ok => exact ClaimsGrow.refl h
  | throws => exact ClaimsGrow.refl h
  | getHandle o name k ih =>
    have h1 := claimsGrow_getHandle h o name
    unfold InitProg.run
    rcases hg : (h.objs o).getHandle name with ⟨r, v⟩
    rw [hg] at h1
    simp only at h1 ⊢
    have h2 := h1.trans (ih r (h.set o v))
    cases hr : r with
    | none => simpa [hr] using h2
    | some x => simpa [hr] using h2

theorem runInits_grow (p1 p2 : InitProg) (h : Heap) :
    ClaimsGrow h (runInits p1 p2 h).heap (runInits p1 p2 h).log := by
  have h1 := p1.run_grow h
  unfold runInits
  simp only
  split
  · exact h1.trans (p2.run_grow _)
  · exact h1

theorem clearClaimsAll_claims (get : String → Option ObjId) (Ts : List String) (h : Heap) :
    (∀ o, ((clearClaimsAll get Ts h).objs o).claiming = (h.objs o).claiming) ∧
    (∀ o, ((clearClaimsAll get Ts h).objs o).handles = (h.objs o).handles) ∧
    (∀ o, ((clearClaimsAll get Ts h).objs o).claims =
      if ∃ T ∈ Ts, get T = some o then [] else (h.objs o).claims) := by
  induction Ts generalizing h with
  | nil => simp [clearClaimsAll]
  | cons T Ts ih =>
    unfold clearClaimsAll
    cases hg : get T with
    | none =>
      obtain ⟨h1, h2, h3⟩ := ih h
      refine ⟨h1, h2, fun o => ?_⟩
      simp only
      rw [h3]
      simp [hg]
    | some x =>
      obtain ⟨h1, h2, h3⟩ := ih (h.set x (h.objs x).clearClaims)
      refine ⟨fun o => ?_, fun o => ?_, fun o => ?_⟩
      · simp only; rw [h1]; simp only [Heap.set]; split
        · subst_vars; rfl
        · rfl
      · simp only; rw [h2]; simp only [Heap.set]; split
        · subst_vars; rfl
        · rfl
      · simp only; rw [h3]
        by_cases hx : x = o
        · subst hx
          simp [hg, Heap.set, Iface.clearClaims]
        · have : ¬ o = x := fun h => hx h.symm
          simp [hg, hx, Heap.set, this]

theorem populateClaimed_eq (get : String → Option ObjId) (h : Heap) (Ts : List String)
    (acc : List InterfaceResources) :
    populateClaimed get h Ts acc =
      acc ++ Ts.filterMap fun T => (get T).map fun o => ⟨T, (h.objs o).claims⟩ := by
  induction Ts generalizing acc with
  | nil => simp [populateClaimed]
  | cons T Ts ih =>
    unfold populateClaimed
    cases hg : get T with
    | none => simp [ih, hg]
    | some o => simp [ih, hg, Iface.getClaims]

end Verif
