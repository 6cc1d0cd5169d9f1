import Verif.Lemmas.DoubleBuffer

/-!
Properties of the controller lists shared by the realtime thread and the service thread.
-/

namespace Verif.DoubleBuffer

variable {α : Type}

/-- **C25.** If the first update ends before the first service call, then in no interleaving of
the accesses of the two threads does the realtime thread go through a list while the service
thread may change it. -/
theorem c25_no_race_after_first_update_partial (ops : List (Op α)) {s : St α}
    (hs : run (init α) (oneUpdate α ++ ops) = some s) : ¬ Race s := by
  obtain ⟨s0, h0, hi⟩ := inv_first (α := α)
  rw [run_append, h0] at hs
  exact not_race (inv_run hi ops hs)

/-- **C25, contents.** Under the same condition, all the time the realtime thread goes through a
list, the list is unchanged since the update began to use it, and it is a list that was complete
when it was published (never one that is being built or has been cleared). -/
theorem c25_stable_published_list (ops : List (Op α)) {s : St α}
    (hs : run (init α) (oneUpdate α ++ ops) = some s) (hr : s.rt = .iterating) :
    ∃ i, s.used = some i ∧ s.lists i = s.seen ∧ s.seen ∈ s.published := by
  obtain ⟨s0, h0, hi⟩ := inv_first (α := α)
  rw [run_append, h0] at hs
  obtain ⟨⟨i, h1, h2⟩, h3⟩ := (inv_run hi ops hs).seen hr
  exact ⟨i, h1, h2, h3⟩

/-- **C25 does not hold in full.** If the very first update overlaps with service calls, the
realtime thread can go through a list while the service thread is filling it: it reads the
current index, two service calls run (the flag "used by realtime" is still -1, so they do not
wait), and then it starts to use the list the second call is writing. -/
theorem c25_race_during_first_update_negation :
    ∃ (ops : List (Op Nat)) (s : St Nat), run (init Nat) ops = some s ∧ Race s ∧
      ¬ (∃ i, s.used = some i ∧ s.lists i = s.seen) :=
  ⟨[.rtRead, .svcBegin, .svcPoll, .svcWrite [7], .svcPublish, .svcPoll, .svcClear, .svcBegin, .svcPoll,
    .rtUse, .svcWrite [7]], _, rfl, by simp [Race, init, St.write], by simp [init, St.write]⟩

/-- Two updates around a load, interleaved access by access. -/
example : ∃ s, run (init Nat) (oneUpdate Nat ++ [.svcBegin, .rtRead, .svcPoll, .rtUse, .svcWrite [7],
    .svcPublish, .svcPoll, .rtDone, .rtRead, .svcPoll, .rtUse, .svcPoll]) = some s ∧
    s.rt = .iterating ∧ s.svc = .clearing ∧ s.seen = [7] := ⟨_, rfl, rfl, rfl, rfl⟩

/-- **C26.** In whichever state of whichever interleaving (even one overlapping the first update)
the service thread waits for the realtime thread, after at most two further updates have begun to
use a list, the next evaluation of the loop condition ends the wait. -/
theorem c26_two_updates_end_wait {s s' s'' : St α} (hw : s.waiting) (ops : List (Op α))
    (hops : ∀ op ∈ ops, op.isRt) (hs : run s ops = some s') (h2 : 2 ≤ uses ops)
    (hp : step s' .svcPoll = some s'') : ¬ s''.waiting := by
  obtain ⟨k1, k2, _, k4⟩ := rt_run ops hops hs
  have hu := k4 h2
  rw [← k2] at hu
  have hne : s'.used ≠ some (!s'.current) := by
    rw [hu]; cases s'.current <;> simp
  rw [St.waiting, ← k1] at hw
  rcases hw with hw | hw
  · simp only [step, hw] at hp
    rw [if_neg hne] at hp
    cases hp
    simp [St.waiting]
  · simp only [step, hw] at hp
    rw [if_neg hne] at hp
    cases hp
    simp [St.waiting]

/-- **C26, one update.** One update suffices if it begins after the new list is published. -/
theorem c26_one_later_update_ends_wait {s s' s'' : St α} (hw : s.waiting) (hr : s.rt = .idle)
    (ops : List (Op α)) (hops : ∀ op ∈ ops, op.isRt) (hs : run s ops = some s') (h1 : 1 ≤ uses ops)
    (hp : step s' .svcPoll = some s'') : ¬ s''.waiting := by
  obtain ⟨k1, k2, k3, _⟩ := rt_run ops hops hs
  have hu := k3 (by rw [hr]; simp) (Or.inl h1)
  rw [← k2] at hu
  have hne : s'.used ≠ some (!s'.current) := by
    rw [hu]; cases s'.current <;> simp
  rw [St.waiting, ← k1] at hw
  rcases hw with hw | hw
  · simp only [step, hw] at hp
    rw [if_neg hne] at hp
    cases hp
    simp [St.waiting]
  · simp only [step, hw] at hp
    rw [if_neg hne] at hp
    cases hp
    simp [St.waiting]

/-- **C26, no wait before building.** After the first update the service thread never has to wait
for the free list. -/
theorem c26_free_list_available (ops : List (Op α)) {s : St α}
    (hs : run (init α) (oneUpdate α ++ ops) = some s) (hw : s.svc = .waitFree) :
    ∃ s', step s .svcPoll = some s' ∧ s'.svc = .building := by
  obtain ⟨s0, h0, hi⟩ := inv_first (α := α)
  rw [run_append, h0] at hs
  have hset := (inv_run hi ops hs).settled (by rw [hw]; simp)
  refine ⟨{ s with svc := .building }, ?_, rfl⟩
  simp only [step, hw]
  rw [if_neg]
  rw [hset.1]; cases s.current <;> simp

/-- A service thread that waits although one update has begun to use a list: this update had read
the index before the new list was published. -/
example : ∃ s, run (init Nat) (oneUpdate Nat ++ [.svcBegin, .svcPoll, .rtRead, .svcPublish, .rtUse,
    .svcPoll]) = some s ∧ s.waiting ∧ uses [Op.rtUse (α := Nat)] = 1 :=
  ⟨_, rfl, Or.inr rfl, rfl⟩

end Verif.DoubleBuffer
