import Verif.Lemmas.ManagerRelease

/-!
Helper lemmas for the choice of the controller loader.
-/

namespace Verif

namespace Mgr

open Spec

theorem tryClasses_eq (l : Loader) (type : String) (ts : List String) (got : Bool) :
    tryClasses l type ts got =
      if type ∈ ts then
        match l.create type with
        | .object => (some true, true)
        | .null => (some false, false)
        | .throws => (none, got)
      else (some got, got) := by
  induction ts generalizing got with
  | nil => rfl
  | cons t ts ih =>
    unfold tryClasses
    by_cases h : type = t
    · subst h
      rw [if_pos rfl, if_pos (by simp)]
      cases hc : l.create type
      · simp only [ih, hc]; split <;> rfl
      · simp only [ih, hc]; split <;> rfl
      · rfl
    · rw [if_neg h, ih]
      simp [h]

theorem instantiate_iff (type : String) (k : Nat) (ls : List Loader) (i : Nat) :
    instantiate type k ls = some i ↔ ∃ j, i = k + j ∧ Provides ls type j := by
  induction ls generalizing k with
  | nil => simp [instantiate, Provides]
  | cons l ls ih =>
    have shift : Passes l type → ((∃ j, i = (k + 1) + j ∧ Provides ls type j) ↔
        ∃ j, i = k + j ∧ Provides (l :: ls) type j) := by
      intro hp
      constructor
      · rintro ⟨j, rfl, ⟨l', h1, h2⟩, h3⟩
        refine ⟨j + 1, by omega, ⟨l', by simpa using h1, h2⟩, ?_⟩
        intro j' hj' l'' hl''
        cases j' with
        | zero => simp at hl''; subst hl''; exact hp
        | succ j' => exact h3 j' (by omega) l'' (by simpa using hl'')
      · rintro ⟨j, rfl, ⟨l', h1, h2⟩, h3⟩
        cases j with
        | zero =>
          simp at h1; subst h1
          have := hp h2.1
          rw [h2.2] at this; cases this
        | succ j =>
          refine ⟨j, by omega, ⟨l', by simpa using h1, h2⟩, ?_⟩
          intro j' hj' l'' hl''
          exact h3 (j' + 1) (by omega) l'' (by simpa using hl'')
    have first : ¬ Passes l type → ∀ j, Provides (l :: ls) type j → j = 0 := by
      intro hp j hj
      by_contra hne
      exact hp (hj.2 0 (by omega) l (by simp))
    unfold instantiate
    rw [tryClasses_eq]
    by_cases hd : type ∈ l.declared
    · rw [if_pos hd]
      cases hc : l.create type
      · -- object
        simp only [Option.some.injEq]
        have hp : ¬ Passes l type := fun h => by have := h hd; rw [hc] at this; cases this
        constructor
        · rintro rfl
          exact ⟨0, rfl, ⟨l, by simp, hd, hc⟩, by simp⟩
        · rintro ⟨j, rfl, hj⟩
          rw [first hp j hj]; rfl
      · -- null
        simp only
        rw [ih]
        exact shift fun _ => hc
      · -- throws
        have hp : ¬ Passes l type := fun h => by have := h hd; rw [hc] at this; cases this
        simp only [reduceCtorEq, false_iff]
        rintro ⟨j, rfl, hj⟩
        have := first hp j hj
        subst this
        obtain ⟨⟨l', h1, _, h2⟩, _⟩ := hj
        simp at h1; subst h1
        rw [hc] at h2; cases h2
    · rw [if_neg hd]
      simp only
      rw [ih]
      exact shift fun h => absurd h hd

end Mgr

end Verif
