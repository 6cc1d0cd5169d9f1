import Verif.Lemmas.ManagerWindow
import Verif.Examples.ManagerWorld

/-!
Property C60: how long a switch call waits.
-/

namespace Verif

open Mgr

/-- **C60.** Let a switch request made to an idle manager be accepted, and let the call still be waiting
after any updates and other activity. An iteration of the wait loop, `elapsed` after the call began to
wait (times in nanoseconds), gives the answer false only if there is a timeout and it has been exceeded by at least a second;
and if that is so the call answers in this iteration and is over. -/
theorem c60_bounded_wait {conf} {m : Mgr} (h : Reachable conf m) (hi : m.svc = .idle)
    (r : SwitchReq) (now : Int) (prepOk : Bool) (ops : List Op)
    (hops : ∀ op ∈ ops, op.rosUp) (hns : ∀ op ∈ ops, op.noSwitch)
    {m2 : Mgr} (hm2 : m2 = (m.switch conf r now prepOk).run conf ops) (hw : m2.Switching) (elapsed : Int) :
    ((m2.poll {} elapsed).trace = m2.trace ++ [.switchRet false] →
      r.timeout ≠ 0 ∧ r.timeout + 1000000000 ≤ elapsed) ∧
    (r.timeout ≠ 0 → r.timeout + 1000000000 ≤ elapsed →
      (∃ b, (m2.poll {} elapsed).trace = m2.trace ++ [.switchRet b]) ∧ (m2.poll {} elapsed).svc = .idle) := by
  rw [show (1000000000 : Int) = second from rfl]
  have hv := inv_of_reachable h
  have hv1 : Inv (fun _ => True) (m.switch conf r now prepOk) :=
    inv_step (checkOk_true conf) hv (.switch r now prepOk) trivial
  have hacc : (m.switch conf r now prepOk).Switching := by
    by_contra hn
    exact absurd hw (by rw [hm2]; exact run_notSwitching hv1 hn ops hops hns)
  obtain ⟨hok, _⟩ := switch_accepted hv hi hacc
  have e1 := switch_accepted_eq (now := now) hv hi hok
  have hS := (run_window (conf := conf) (fun _ => True) hv1 trivial ops
    (fun _ _ _ _ _ _ _ _ _ => trivial) hops hns (hm2 ▸ hw)).2
  rw [← hm2] at hS
  have hsvc : m2.svc = .switching .ret r.timeout := by rw [hS.svc, e1]
  unfold poll
  rw [hsvc]
  simp only [Bool.true_and, Bool.not_true, Bool.false_eq_true, if_false]
  cases hd : m2.params.doSwitch
  · simp only [Bool.false_eq_true, if_false]
    refine ⟨fun he => ?_, fun _ _ => ⟨⟨true, rfl⟩, rfl⟩⟩
    have := List.append_cancel_left (he : m2.trace ++ [Event.switchRet true] = _)
    simp at this
  · simp only [if_true]
    by_cases hc : elapsed < r.timeout + second ∨ r.timeout = 0
    · rw [if_pos (by simpa using hc)]
      refine ⟨fun he => ?_, fun h1 h2 => ?_⟩
      · have := congrArg List.length he
        simp at this
      · rcases hc with hc | hc
        · exact absurd h2 (not_le.2 hc)
        · exact absurd hc h1
    · rw [if_neg (by simpa using hc)]
      rw [not_or] at hc
      exact ⟨fun _ => ⟨hc.2, not_lt.1 hc.1⟩, fun _ _ => ⟨⟨false, rfl⟩, rfl⟩⟩

/-- Such calls exist: a timeout of 5, no update; not over just before a second after the timeout, over
then. -/
example : let m2 := (Ex.after Ex.three).switch checkForConflict ⟨["a"], [], 2, false, 5⟩ 0 true
    (m2.poll {} (5 + second - 1)).svc ≠ .idle ∧ (m2.poll {} (5 + second)).svc = .idle := by decide

end Verif
