import Verif.Spec.DoubleBuffer

/-!
Invariant of the shared controller lists.
-/

namespace Verif.DoubleBuffer

variable {α : Type}

theorem run_append (s : St α) (a b : List (Op α)) :
    run s (a ++ b) = (run s a).bind fun s' => run s' b := by
  induction a generalizing s with
  | nil => rfl
  | cons op a ih =>
    simp only [List.cons_append, run]
    cases step s op with
    | none => rfl
    | some s' => exact ih s'

/-- The realtime thread uses, and will use after what it has read, only the current list. -/
def Settled (s : St α) : Prop := s.used = some s.current ∧ ∀ r, s.rt = .haveRead r → r = s.current

/-- The invariant after the first update. -/
structure Inv (s : St α) : Prop where
  settled : s.svc ≠ .waitFormer → Settled s
  former : s.svc = .waitFormer → s.used = some s.current → Settled s
  used : s.used ≠ none
  read : ∀ r, s.rt = .haveRead r → s.svc = .waitFormer ∨ r = s.current
  current : s.lists s.current ∈ s.published
  prev : s.svc = .waitFormer → s.lists (!s.current) ∈ s.published
  seen : s.rt = .iterating → (∃ i, s.used = some i ∧ s.lists i = s.seen) ∧ s.seen ∈ s.published

theorem inv_step {s s' : St α} (h : Inv s) (op : Op α) (hs : step s op = some s') : Inv s' := by
  cases op with
  | rtRead =>
    simp only [step] at hs
    split at hs
    rotate_left
    · cases hs
    cases hs
    refine ⟨fun hw => ⟨(h.settled hw).1, ?_⟩, fun hw hu => ⟨hu, ?_⟩, h.used, ?_, h.current, h.prev, ?_⟩
    · intro r e; cases e; rfl
    · intro r e; cases e; rfl
    · intro r e; cases e; exact Or.inr rfl
    · intro e; cases e
  | rtUse =>
    simp only [step] at hs
    split at hs
    rotate_left
    · cases hs
    rename_i r hr
    cases hs
    refine ⟨fun hw => ⟨?_, by simp⟩, fun hw hu => ⟨hu, by simp⟩, by simp, by simp, h.current, h.prev, ?_⟩
    · rw [(h.settled hw).2 r hr]
    · intro _
      refine ⟨⟨r, rfl, rfl⟩, ?_⟩
      rcases h.read r hr with hw | e
      · by_cases e : r = s.current
        · rw [e]; exact h.current
        · have : r = !s.current := by cases r <;> cases hc : s.current <;> simp_all
          rw [this]; exact h.prev hw
      · rw [e]; exact h.current
  | rtDone =>
    simp only [step] at hs
    split at hs
    rotate_left
    · cases hs
    cases hs
    exact ⟨fun hw => ⟨(h.settled hw).1, by simp⟩, fun hw hu => ⟨hu, by simp⟩, h.used, by simp,
      h.current, h.prev, by simp⟩
  | svcBegin =>
    simp only [step] at hs
    split at hs
    rotate_left
    · cases hs
    rename_i hi
    cases hs
    have hset := h.settled (by rw [hi]; simp)
    exact ⟨fun _ => hset, by simp, h.used, fun r hr => Or.inr (hset.2 r hr), h.current, by simp, h.seen⟩
  | svcPoll =>
    simp only [step] at hs
    split at hs
    · rename_i hi
      have hset := h.settled (by rw [hi]; simp)
      split at hs
      · cases hs; exact h
      · cases hs
        exact ⟨fun _ => hset, by simp, h.used, fun r hr => Or.inr (hset.2 r hr), h.current, by simp, h.seen⟩
    · rename_i hi
      split at hs
      · cases hs; exact h
      · rename_i hne
        cases hs
        have hu : s.used = some s.current := by
          cases hu : s.used with
          | none => exact absurd hu h.used
          | some i =>
            rw [hu] at hne
            cases i <;> cases hc : s.current <;> simp_all
        have hset := h.former hi hu
        exact ⟨fun _ => hset, by simp, h.used, fun r hr => Or.inr (hset.2 r hr), h.current, by simp, h.seen⟩
    · cases hs
  | svcWrite l =>
    simp only [step] at hs
    split at hs
    rotate_left
    · cases hs
    rename_i hi
    cases hs
    have hset := h.settled (by rw [hi]; simp)
    have hcur : (if s.current = !s.current then l else s.lists s.current) = s.lists s.current :=
      if_neg (by cases s.current <;> simp)
    refine ⟨fun _ => hset, fun hw => ?_, h.used, h.read, ?_, fun hw => ?_, ?_⟩
    · exact absurd (hi.symm.trans hw) (by simp)
    · show (if s.current = !s.current then l else s.lists s.current) ∈ _
      rw [hcur]; exact h.current
    · exact absurd (hi.symm.trans hw) (by simp)
    · intro hr
      obtain ⟨⟨i, h1, h2⟩, h3⟩ := h.seen hr
      refine ⟨⟨i, h1, ?_⟩, h3⟩
      have : i = s.current := by rw [hset.1] at h1; cases h1; rfl
      subst this
      show (if s.current = !s.current then l else s.lists s.current) = _
      rw [hcur]; exact h2
  | svcAbort =>
    simp only [step] at hs
    split at hs
    rotate_left
    · cases hs
    rename_i hi
    cases hs
    have hset := h.settled (by rw [hi]; simp)
    exact ⟨fun _ => hset, by simp, h.used, fun r hr => Or.inr (hset.2 r hr), h.current, by simp, h.seen⟩
  | svcPublish =>
    simp only [step] at hs
    split at hs
    rotate_left
    · cases hs
    rename_i hi
    cases hs
    have hset := h.settled (by rw [hi]; simp)
    refine ⟨by simp, ?_, h.used, fun _ _ => Or.inl rfl, by simp, ?_, ?_⟩
    · intro _ hu
      have hu' : s.used = some (!s.current) := hu
      rw [hset.1] at hu'
      exact absurd hu' (by cases s.current <;> simp)
    · intro _
      show s.lists (!!s.current) ∈ _
      rw [Bool.not_not]
      exact List.mem_cons_of_mem _ h.current
    · intro hr
      obtain ⟨h2, h3⟩ := h.seen hr
      exact ⟨h2, List.mem_cons_of_mem _ h3⟩
  | svcClear =>
    simp only [step] at hs
    split at hs
    rotate_left
    · cases hs
    rename_i hi
    cases hs
    have hset := h.settled (by rw [hi]; simp)
    have hcur : (if s.current = !s.current then [] else s.lists s.current) = s.lists s.current :=
      if_neg (by cases s.current <;> simp)
    refine ⟨fun _ => hset, by simp, h.used, fun r hr => Or.inr (hset.2 r hr), ?_, by simp, ?_⟩
    · show (if s.current = !s.current then [] else s.lists s.current) ∈ _
      rw [hcur]; exact h.current
    · intro hr
      obtain ⟨⟨i, h1, h2⟩, h3⟩ := h.seen hr
      refine ⟨⟨i, h1, ?_⟩, h3⟩
      have : i = s.current := by rw [hset.1] at h1; cases h1; rfl
      subst this
      show (if s.current = !s.current then [] else s.lists s.current) = _
      rw [hcur]; exact h2

theorem inv_run {s s' : St α} (h : Inv s) (ops : List (Op α)) (hs : run s ops = some s') : Inv s' := by
  induction ops generalizing s with
  | nil => cases hs; exact h
  | cons op ops ih =>
    simp only [run] at hs
    cases hst : step s op with
    | none => rw [hst] at hs; cases hs
    | some s1 => rw [hst] at hs; exact ih (inv_step h op hst) hs

theorem inv_first : ∃ s, run (init α) (oneUpdate α) = some s ∧ Inv s := by
  refine ⟨_, rfl, ?_⟩
  refine ⟨fun _ => ⟨rfl, by simp [init]⟩, ?_, ?_, ?_, ?_, ?_, ?_⟩ <;> simp [init]

/-- No race is possible under the invariant. -/
theorem not_race {s : St α} (h : Inv s) : ¬ Race s := by
  rintro ⟨_, hw, hu⟩
  have hset := h.settled (by rcases hw with e | e <;> rw [e] <;> simp)
  rw [hset.1] at hu
  exact absurd hu (by cases s.current <;> simp)

/-- Realtime steps do not move the service thread. -/
theorem rt_step {s s' : St α} {op : Op α} (hop : op.isRt) (hs : step s op = some s') :
    s'.svc = s.svc ∧ s'.current = s.current := by
  cases op with
  | rtRead => simp only [step] at hs; split at hs <;> cases hs; exact ⟨rfl, rfl⟩
  | rtUse => simp only [step] at hs; split at hs <;> cases hs; exact ⟨rfl, rfl⟩
  | rtDone => simp only [step] at hs; split at hs <;> cases hs; exact ⟨rfl, rfl⟩
  | _ => exact absurd hop (by simp [Op.isRt])

/-- Progress of the realtime thread towards the current list. -/
theorem rt_run {s s' : St α} (ops : List (Op α)) (hops : ∀ op ∈ ops, op.isRt)
    (hs : run s ops = some s') :
    s'.svc = s.svc ∧ s'.current = s.current ∧
    ((∀ r, s.rt = .haveRead r → r = s.current) → 1 ≤ uses ops ∨ s.used = some s.current →
      s'.used = some s.current) ∧
    (2 ≤ uses ops → s'.used = some s.current) := by
  induction ops generalizing s with
  | nil => cases hs; exact ⟨rfl, rfl, by simp [uses], by simp [uses]⟩
  | cons op ops ih =>
    simp only [run] at hs
    cases hst : step s op with
    | none => rw [hst] at hs; cases hs
    | some s1 =>
      rw [hst] at hs
      have hop := hops op (by simp)
      obtain ⟨k1, k2⟩ := rt_step hop hst
      obtain ⟨h1, h2, h3, h4⟩ := ih (fun o ho => hops o (by simp [ho])) hs
      rw [k2] at h2 h3 h4
      refine ⟨h1.trans k1, h2, ?_, ?_⟩
      · intro hr hu
        cases op with
        | rtRead =>
          simp only [step] at hst
          split at hst <;> cases hst
          exact h3 (by intro r e; cases e; rfl) (by simpa [uses] using hu)
        | rtUse =>
          simp only [step] at hst
          split at hst
          rotate_left
          · cases hst
          rename_i r hr'
          cases hst
          refine h3 (by simp) (Or.inr ?_)
          rw [hr r hr']
        | rtDone =>
          simp only [step] at hst
          split at hst <;> cases hst
          exact h3 (by simp) (by simpa [uses] using hu)
        | _ => exact absurd hop (by simp [Op.isRt])
      · intro hu
        cases op with
        | rtRead =>
          simp only [step] at hst
          split at hst <;> cases hst
          exact h4 (by simpa [uses] using hu)
        | rtUse =>
          simp only [step] at hst
          split at hst
          rotate_left
          · cases hst
          cases hst
          refine h3 (by simp) (Or.inl ?_)
          simpa [uses] using hu
        | rtDone =>
          simp only [step] at hst
          split at hst <;> cases hst
          exact h4 (by simpa [uses] using hu)
        | _ => exact absurd hop (by simp [Op.isRt])

end Verif.DoubleBuffer
