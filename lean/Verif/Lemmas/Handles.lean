import Verif.Spec.Handles

/-!
Lemmas for the properties of joint and actuator handles.
-/

namespace Verif.Handles

variable {V : Type}

/-- Stores one after the other, the way the setters do them. -/
def runStores : List (Ptr × V) → Mem V → Access (Mem V)
  | [], m => .ok m
  | (p, v) :: ss, m => (write p v m).andThen (runStores ss)

theorem andThen_assoc {α β γ : Type} (x : Access α) (f : α → Access β) (g : β → Access γ) :
    (x.andThen f).andThen g = x.andThen fun a => (f a).andThen g := by
  cases x <;> rfl

theorem andThen_ok {α : Type} (x : Access α) : x.andThen Access.ok = x := by
  cases x <;> rfl

theorem runStores_append (l1 l2 : List (Ptr × V)) (m : Mem V) :
    runStores (l1 ++ l2) m = (runStores l1 m).andThen (runStores l2) := by
  induction l1 generalizing m with
  | nil => rfl
  | cons s l1 ih =>
    simp only [List.cons_append, runStores, andThen_assoc]
    congr 1
    funext m'
    exact ih m'

theorem run_eq_stores (c : SetCall V) (m : Mem V) : c.run m = runStores c.stores m := by
  cases c <;>
    simp only [SetCall.run, SetCall.stores, runStores, CommandHandle.setCommand, PosVelHandle.setCommandPosition,
      PosVelHandle.setCommandVelocity, PosVelHandle.setCommand, PosVelAccHandle.setCommandAcceleration,
      PosVelAccHandle.setCommand3, GainsHandle.setCommandEffort, GainsHandle.setCommandKp, GainsHandle.setCommandKd,
      GainsHandle.setCommand5, ModeHandle.setMode, andThen_assoc] <;>
    (first
      | exact (andThen_ok _).symm
      | (congr 1; funext m1; first
          | exact (andThen_ok _).symm
          | (congr 1; funext m2; first
              | exact (andThen_ok _).symm
              | (congr 1; funext m3; first
                  | exact (andThen_ok _).symm
                  | (congr 1; funext m4; exact (andThen_ok _).symm)))))

theorem runCalls_eq_stores (cs : List (SetCall V)) (m : Mem V) :
    runCalls cs m = runStores (cs.flatMap (·.stores)) m := by
  induction cs generalizing m with
  | nil => rfl
  | cons c cs ih =>
    rw [runCalls, List.flatMap_cons, runStores_append, run_eq_stores]
    congr 1
    funext m'
    exact ih m'

theorem lastStore_cons (p : Ptr) (v : V) (ss : List (Ptr × V)) (a : Nat) (x : V) :
    lastStore ((p, v) :: ss) a x = lastStore ss a (if p = some a then v else x) := by
  unfold lastStore
  by_cases h : p = some a
  · subst h
    simp only [List.filter_cons, beq_self_eq_true, if_true, List.map_cons]
    cases ((ss.filter fun s => s.1 == some a).map (·.2)) <;> rfl
  · simp [List.filter_cons, h]

theorem runStores_ok (ss : List (Ptr × V)) (m : Mem V) :
    (none ∉ ss.map Prod.fst ∧ ∃ m', runStores ss m = .ok m' ∧ ∀ a, m' a = lastStore ss a (m a)) ∨
    (none ∈ ss.map Prod.fst ∧ runStores ss m = .assertion) := by
  induction ss generalizing m with
  | nil => exact Or.inl ⟨by simp, m, rfl, fun _ => rfl⟩
  | cons s ss ih =>
    obtain ⟨p, v⟩ := s
    cases p with
    | none => exact Or.inr ⟨by simp, rfl⟩
    | some b =>
      rcases ih (fun a => if a = b then v else m a) with ⟨h1, m', h2, h3⟩ | ⟨h1, h2⟩
      · refine Or.inl ⟨by simpa using h1, m', h2, fun a => ?_⟩
        rw [h3, lastStore_cons]
        congr 1
        simp [eq_comm]
      · exact Or.inr ⟨by simpa using h1, h2⟩

end Verif.Handles
