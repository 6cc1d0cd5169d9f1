import Verif.Model.Containers
import Mathlib.Order.Basic
import Mathlib.Data.List.Pairwise
import Mathlib.Tactic.Tauto

/-!
Lemmas about the container models.
-/

namespace Verif

variable {κ : Type} {β : Type} [LinearOrder κ]

theorem smapFind_insert (k k' : κ) (v : β) (m : List (κ × β)) :
    smapFind k' (smapInsert k v m) = if k' = k then some v else smapFind k' m := by
  induction m with
  | nil => simp [smapInsert, smapFind]
  | cons e t ih =>
    obtain ⟨ek, ev⟩ := e
    unfold smapInsert
    split
    · simp [smapFind]
    · split
      · rename_i h1 h2
        simp only [smapFind]
        rw [ih]
        by_cases hk : k' = ek
        · subst hk
          have : k' ≠ k := ne_of_lt h2
          simp [this]
        · simp [hk]
      · rename_i h1 h2
        have hk : k = ek := le_antisymm (not_lt.1 h2) (not_lt.1 h1)
        subst hk
        simp only [smapFind]
        by_cases h : k' = k <;> simp [h]

theorem mem_keys_insert (k k' : κ) (v : β) (m : List (κ × β)) :
    k' ∈ smapKeys (smapInsert k v m) ↔ k' = k ∨ k' ∈ smapKeys m := by
  induction m with
  | nil => simp [smapInsert, smapKeys]
  | cons e t ih =>
    obtain ⟨ek, ev⟩ := e
    unfold smapInsert
    split
    · simp [smapKeys]
    · split
      · simp only [smapKeys, List.map_cons, List.mem_cons] at *
        rw [ih]; tauto
      · rename_i h1 h2
        have hk : k = ek := le_antisymm (not_lt.1 h2) (not_lt.1 h1)
        simp [smapKeys, hk]

/-- Keys in strictly increasing order. -/
def KeysSorted (m : List (κ × β)) : Prop := (smapKeys m).Pairwise (· < ·)

theorem keysSorted_insert (k : κ) (v : β) {m : List (κ × β)} (h : KeysSorted m) :
    KeysSorted (smapInsert k v m) := by
  induction m with
  | nil => simp [KeysSorted, smapInsert, smapKeys]
  | cons e t ih =>
    obtain ⟨ek, ev⟩ := e
    simp only [KeysSorted, smapKeys, List.map_cons, List.pairwise_cons] at h
    unfold smapInsert
    split
    · rename_i hlt
      simp only [KeysSorted, smapKeys, List.map_cons, List.pairwise_cons, List.mem_cons]
      refine ⟨?_, h⟩
      rintro a (rfl | ha)
      · exact hlt
      · exact lt_trans hlt (h.1 a ha)
    · split
      · rename_i h1 h2
        simp only [KeysSorted, smapKeys, List.map_cons, List.pairwise_cons]
        refine ⟨?_, ih h.2⟩
        intro a ha
        rcases (mem_keys_insert k a v t).1 ha with rfl | ha
        · exact h2
        · exact h.1 a ha
      · rename_i h1 h2
        have hk : k = ek := le_antisymm (not_lt.1 h2) (not_lt.1 h1)
        subst hk
        simpa only [KeysSorted, smapKeys, List.map_cons, List.pairwise_cons] using h

theorem smapFind_isSome (k : κ) (m : List (κ × β)) :
    (smapFind k m).isSome ↔ k ∈ smapKeys m := by
  induction m with
  | nil => simp [smapFind, smapKeys]
  | cons e t ih =>
    obtain ⟨ek, ev⟩ := e
    simp only [smapFind, smapKeys, List.map_cons, List.mem_cons] at *
    by_cases h : k = ek <;> simp [h, ih]

theorem mem_of_smapFind {k : κ} {v : β} {m : List (κ × β)} (h : smapFind k m = some v) :
    (k, v) ∈ m := by
  induction m with
  | nil => simp [smapFind] at h
  | cons e t ih =>
    obtain ⟨ek, ev⟩ := e
    simp only [smapFind] at h
    split at h
    · rename_i hk; subst hk; cases h; simp
    · exact List.mem_cons_of_mem _ (ih h)

theorem smapFind_of_mem {k : κ} {v : β} {m : List (κ × β)} (hs : KeysSorted m)
    (h : (k, v) ∈ m) : smapFind k m = some v := by
  induction m with
  | nil => simp at h
  | cons e t ih =>
    obtain ⟨ek, ev⟩ := e
    simp only [KeysSorted, smapKeys, List.map_cons, List.pairwise_cons] at hs
    simp only [smapFind]
    rcases List.mem_cons.1 h with h | h
    · cases h; simp
    · have : ek < k := hs.1 k (by simpa [smapKeys] using List.mem_map_of_mem (f := Prod.fst) h)
      rw [if_neg (ne_of_gt this)]
      exact ih hs.2 h

theorem mem_ssetInsert (k k' : κ) (s : List κ) : k' ∈ ssetInsert k s ↔ k' = k ∨ k' ∈ s := by
  induction s with
  | nil => simp [ssetInsert]
  | cons e t ih =>
    unfold ssetInsert
    split
    · simp
    · split
      · simp only [List.mem_cons, ih]; tauto
      · rename_i h1 h2
        have hk : k = e := le_antisymm (not_lt.1 h2) (not_lt.1 h1)
        simp [hk]

theorem sorted_ssetInsert (k : κ) {s : List κ} (h : s.Pairwise (· < ·)) :
    (ssetInsert k s).Pairwise (· < ·) := by
  induction s with
  | nil => simp [ssetInsert]
  | cons e t ih =>
    rw [List.pairwise_cons] at h
    unfold ssetInsert
    split
    · rename_i hlt
      rw [List.pairwise_cons, List.pairwise_cons]
      refine ⟨?_, h⟩
      intro a ha
      rcases List.mem_cons.1 ha with rfl | ha
      · exact hlt
      · exact lt_trans hlt (h.1 a ha)
    · split
      · rename_i h1 h2
        rw [List.pairwise_cons]
        refine ⟨?_, ih h.2⟩
        intro a ha
        rcases (mem_ssetInsert k a t).1 ha with rfl | ha
        · exact h2
        · exact h.1 a ha
      · rw [List.pairwise_cons]; exact h

/-- Two strictly increasing lists with the same members are equal: a `std::set` is
determined by its members. -/
theorem sorted_ext {s t : List κ} (hs : s.Pairwise (· < ·)) (ht : t.Pairwise (· < ·))
    (h : ∀ x, x ∈ s ↔ x ∈ t) : s = t := by
  induction s generalizing t with
  | nil =>
    cases t with
    | nil => rfl
    | cons b t => exact absurd ((h b).2 (by simp)) (by simp)
  | cons a s ih =>
    cases t with
    | nil => exact absurd ((h a).1 (by simp)) (by simp)
    | cons b t =>
      rw [List.pairwise_cons] at hs ht
      have hab : a = b := by
        rcases List.mem_cons.1 ((h a).1 (by simp)) with h1 | h1
        · exact h1
        · rcases List.mem_cons.1 ((h b).2 (by simp)) with h2 | h2
          · exact h2.symm
          · exact absurd (lt_trans (hs.1 b h2) (ht.1 a h1)) (lt_irrefl _)
      subst hab
      congr 1
      refine ih hs.2 ht.2 fun x => ?_
      constructor
      · intro hx
        rcases List.mem_cons.1 ((h x).1 (List.mem_cons_of_mem _ hx)) with h1 | h1
        · subst h1; exact absurd (hs.1 _ hx) (lt_irrefl _)
        · exact h1
      · intro hx
        rcases List.mem_cons.1 ((h x).2 (List.mem_cons_of_mem _ hx)) with h1 | h1
        · subst h1; exact absurd (ht.1 _ hx) (lt_irrefl _)
        · exact h1

end Verif
