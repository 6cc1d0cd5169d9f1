import Mathlib.Data.List.Basic
import Mathlib.Data.List.Nodup

/-!
Helper lemmas about lists.
-/

namespace Verif

theorem nodup_flatMap_disjoint {α β : Type} {f : α → List β} {l : List α} (h : (l.flatMap f).Nodup)
    {a b : α} (ha : a ∈ l) (hb : b ∈ l) (hab : a ≠ b) {x : β} (hx : x ∈ f a) : x ∉ f b := by
  induction l with
  | nil => cases ha
  | cons c l ih =>
    rw [List.flatMap_cons, List.nodup_append] at h
    obtain ⟨h1, h2, h3⟩ := h
    intro hy
    rcases List.mem_cons.1 ha with ha' | ha' <;> rcases List.mem_cons.1 hb with hb' | hb'
    · exact hab (ha'.trans hb'.symm)
    · subst ha'
      exact h3 x hx x (List.mem_flatMap.2 ⟨b, hb', hy⟩) rfl
    · subst hb'
      exact h3 x hy x (List.mem_flatMap.2 ⟨a, ha', hx⟩) rfl
    · exact ih h2 ha' hb' hy

end Verif
