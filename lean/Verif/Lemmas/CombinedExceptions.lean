import Verif.Model.CombinedExceptions
import Verif.Lemmas.CombinedHW
import Verif.Spec.CombinedExceptions

/-!
Helper lemmas for C101.
-/

namespace Verif.Combined

theorem doSwitchFromX_eq (throws : Nat → Bool) (start stop : List ControllerInfo) (i : Nat) (hws : List IMan) :
    (doSwitchFromX throws start stop i hws).1 = true ↔ ∃ j, j < hws.length ∧ throws (i + j) = true := by
  induction hws generalizing i with
  | nil => simp [doSwitchFromX]
  | cons hw hws ih =>
    simp only [doSwitchFromX]
    by_cases h : throws i = true
    · simp only [h, if_true, true_iff]
      exact ⟨0, by simp, by simpa using h⟩
    · simp only [h, Bool.false_eq_true, if_false]
      rw [ih]
      constructor
      · rintro ⟨j, h1, h2⟩
        exact ⟨j + 1, by simpa using h1, by rw [← h2]; congr 1; omega⟩
      · rintro ⟨j, h1, h2⟩
        cases j with
        | zero => exact absurd h2 h
        | succ j => exact ⟨j, by simpa using h1, by rw [← h2]; congr 1; omega⟩

theorem doSwitchFromX_events (throws : Nat → Bool) (start stop : List ControllerInfo) (i k : Nat) (hws : List IMan)
    (hk : ∀ j < k, throws (i + j) = false) (hend : k < hws.length → throws (i + k) = true) :
    (doSwitchFromX throws start stop i hws).2 = (doSwitchFrom start stop i hws).take (k + 1) := by
  induction hws generalizing i k with
  | nil => simp [doSwitchFromX, doSwitchFrom]
  | cons hw hws ih =>
    simp only [doSwitchFromX, doSwitchFrom, List.take_succ_cons]
    cases k with
    | zero =>
      have : throws i = true := by simpa using hend (by simp)
      simp [this]
    | succ k =>
      have h0 : throws i = false := by simpa using hk 0 (by omega)
      simp only [h0, Bool.false_eq_true, if_false]
      congr 1
      refine ih (i + 1) k ?_ ?_
      · intro j hj
        have := hk (j + 1) (by omega)
        rw [← this]; congr 1; omega
      · intro hl
        have := hend (by simpa using hl)
        rw [← this]; congr 1; omega

theorem eachFromX_eq (throws : Nat → Bool) (e : Nat → Event) (i : Nat) (hws : List IMan) :
    (eachFromX throws e i hws).1 = true ↔ ∃ j, j < hws.length ∧ throws (i + j) = true := by
  induction hws generalizing i with
  | nil => simp [eachFromX]
  | cons hw hws ih =>
    simp only [eachFromX]
    by_cases h : throws i = true
    · simp only [h, if_true, true_iff]
      exact ⟨0, by simp, by simpa using h⟩
    · simp only [h, Bool.false_eq_true, if_false]
      rw [ih]
      constructor
      · rintro ⟨j, h1, h2⟩
        exact ⟨j + 1, by simpa using h1, by rw [← h2]; congr 1; omega⟩
      · rintro ⟨j, h1, h2⟩
        cases j with
        | zero => exact absurd h2 h
        | succ j => exact ⟨j, by simpa using h1, by rw [← h2]; congr 1; omega⟩

theorem eachFromX_events (throws : Nat → Bool) (e : Nat → Event) (i k : Nat) (hws : List IMan)
    (hk : ∀ j < k, throws (i + j) = false) (hend : k < hws.length → throws (i + k) = true) :
    (eachFromX throws e i hws).2 = (eachFrom e i hws).take (k + 1) := by
  induction hws generalizing i k with
  | nil => simp [eachFromX, eachFrom]
  | cons hw hws ih =>
    simp only [eachFromX, eachFrom, List.take_succ_cons]
    cases k with
    | zero =>
      have : throws i = true := by simpa using hend (by simp)
      simp [this]
    | succ k =>
      have h0 : throws i = false := by simpa using hk 0 (by omega)
      simp only [h0, Bool.false_eq_true, if_false]
      congr 1
      refine ih (i + 1) k ?_ ?_
      · intro j hj
        have := hk (j + 1) (by omega)
        rw [← this]; congr 1; omega
      · intro hl
        have := hend (by simpa using hl)
        rw [← this]; congr 1; omega

/-- The first sub-hardware that throws, or the number of sub-hardwares. -/
theorem exists_first (throws : Nat → Bool) (n : Nat) :
    ∃ k ≤ n, (∀ j < k, throws j = false) ∧ (k < n → throws k = true) := by
  induction n with
  | zero => exact ⟨0, le_refl _, by simp, by simp⟩
  | succ n ih =>
    obtain ⟨k, h1, h2, h3⟩ := ih
    by_cases hk : k < n
    · exact ⟨k, by omega, h2, fun _ => h3 hk⟩
    · have : k = n := by omega
      subst this
      cases ht : throws k
      · refine ⟨k + 1, le_refl _, ?_, fun h => absurd h (lt_irrefl _)⟩
        intro j hj
        rcases Nat.lt_succ_iff_lt_or_eq.1 hj with h | rfl
        · exact h2 j h
        · exact ht
      · exact ⟨k, by omega, h2, fun _ => ht⟩

theorem doSwitchX_events (hws : List IMan) (throws : Nat → Bool) (start stop : List ControllerInfo) (k : Nat)
    (hk : ∀ j < k, throws j = false) (hend : k < hws.length → throws k = true) :
    (doSwitchX hws throws start stop).2 = (doSwitch hws start stop).take (k + 1) :=
  doSwitchFromX_events throws start stop 0 k hws (by simpa using hk) (by simpa using hend)

theorem doSwitchX_threw (hws : List IMan) (throws : Nat → Bool) (start stop : List ControllerInfo) :
    (doSwitchX hws throws start stop).1 = true ↔ ∃ j, j < hws.length ∧ throws j = true := by
  rw [doSwitchX, doSwitchFromX_eq]; simp

theorem length_doSwitchFrom (start stop : List ControllerInfo) (i : Nat) (hws : List IMan) :
    (doSwitchFrom start stop i hws).length = hws.length := by
  induction hws generalizing i with
  | nil => rfl
  | cons hw hws ih => simp [doSwitchFrom, ih]

theorem getElem?_doSwitchFrom (start stop : List ControllerInfo) (i : Nat) (hws : List IMan) (j : Nat) :
    (doSwitchFrom start stop i hws)[j]? = hws[j]?.map fun hw =>
      Event.doSwitch (i + j) (filterControllerList hw start) (filterControllerList hw stop) := by
  induction hws generalizing i j with
  | nil => simp [doSwitchFrom]
  | cons hw hws ih =>
    cases j with
    | zero => simp [doSwitchFrom]
    | succ j =>
      simp only [doSwitchFrom, List.getElem?_cons_succ, ih]
      congr 1
      funext hw'
      congr 1
      omega

theorem callsOn_doSwitchFrom (start stop : List ControllerInfo) (n : Nat) (hws : List IMan) (i : Nat) (k : Nat) :
    callsOn (n + i) ((doSwitchFrom start stop n hws).take k) =
      if i < k then (hws[i]?.map fun hw => Event.doSwitch (n + i) (filterControllerList hw start) (filterControllerList hw stop)).toList
      else [] := by
  induction hws generalizing n i k with
  | nil => simp [doSwitchFrom, callsOn]
  | cons hw hws ih =>
    cases k with
    | zero => simp [callsOn]
    | succ k =>
      simp only [doSwitchFrom, List.take_succ_cons]
      cases i with
      | zero =>
        have hrest : callsOn n ((doSwitchFrom start stop (n + 1) hws).take k) = [] := by
          unfold callsOn
          rw [List.filter_eq_nil_iff]
          intro e he
          obtain ⟨j, hj⟩ := List.mem_iff_getElem?.1 (List.mem_of_mem_take he)
          rw [getElem?_doSwitchFrom] at hj
          cases hh : hws[j]? with
          | none => rw [hh] at hj; cases hj
          | some hw' =>
            rw [hh] at hj
            cases hj
            simp only [decide_eq_true_eq]
            omega
        have : callsOn (n + 0) (Event.doSwitch n (filterControllerList hw start) (filterControllerList hw stop) ::
            (doSwitchFrom start stop (n + 1) hws).take k) =
            Event.doSwitch n (filterControllerList hw start) (filterControllerList hw stop) ::
              callsOn n ((doSwitchFrom start stop (n + 1) hws).take k) := by
          simp [callsOn]
        rw [this, hrest]
        simp
      | succ i =>
        have : callsOn (n + (i + 1)) (Event.doSwitch n (filterControllerList hw start) (filterControllerList hw stop) ::
            (doSwitchFrom start stop (n + 1) hws).take k) =
            callsOn (n + 1 + i) ((doSwitchFrom start stop (n + 1) hws).take k) := by
          unfold callsOn
          rw [List.filter_cons_of_neg (by simp), show n + (i + 1) = n + 1 + i by omega]
        rw [this, ih (n + 1) i k, show n + (i + 1) = n + 1 + i by omega]
        simp only [List.getElem?_cons_succ, Nat.add_lt_add_iff_right]

theorem callsOn_doSwitch (hws : List IMan) (start stop : List ControllerInfo) (i k : Nat) :
    callsOn i ((doSwitch hws start stop).take k) =
      if i < k then (hws[i]?.map fun hw => Event.doSwitch i (filterControllerList hw start) (filterControllerList hw stop)).toList
      else [] := by
  have := callsOn_doSwitchFrom start stop 0 hws i k
  simpa [doSwitch] using this

theorem callsOn_append (i : Nat) (x y : List Event) : callsOn i (x ++ y) = callsOn i x ++ callsOn i y :=
  List.filter_append _ _

end Verif.Combined
