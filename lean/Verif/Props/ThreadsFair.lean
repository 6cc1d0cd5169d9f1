import Verif.Lemmas.ThreadsFair
import Verif.Examples.ManagerWorld
import Mathlib.Data.Nat.Pairing

/-!
# C95: calls of the controller manager by several threads come to an end
-/

namespace Verif

namespace Thr

open Mgr Spec

/-- **C95, some call returns.** In a fair execution, whenever a thread is busy some call returns later, however many calls are
still being made: threads never block each other for good, and none is blocked for good by the realtime thread. -/
theorem c95_some_call_returns {conf : List ControllerInfo → Bool} {σ : Nat → ThrOp} (h : Fair conf σ) {n : Nat} {t : Tid}
    (hb : Busy (stateAt conf σ n) t) : ∃ m, n ≤ m ∧ Returns conf σ m :=
  later_busy h hb

/-- **C95, waiting for the realtime thread ends.** In a fair execution a thread that waits for the realtime thread stops waiting,
whatever other threads do. -/
theorem c95_waiting_ends {conf : List ControllerInfo → Bool} {σ : Nat → ThrOp} (h : Fair conf σ) {n : Nat} {t : Tid}
    (hi : Inside ((stateAt conf σ n).pos t) = true) : ∃ m, n ≤ m ∧ Inside ((stateAt conf σ m).pos t) = false := by
  cases hp : (stateAt conf σ n).pos t with
  | inside srv k =>
    obtain ⟨m, hm, _, s3, e, h2, _⟩ := out_of_inside h hp
    refine ⟨m + 1, by omega, ?_⟩
    rw [h2]
    rcases (back_pos (s := s3) (t := t) srv k e).1 with h3 | ⟨rest, _, h3⟩
    · rw [h3]; rfl
    · rw [h3]; cases rest <;> rfl
  | _ => rw [hp] at hi; cases hi

/-- **C95, all calls return.** In a fair execution in which clients make no more calls from some time on, all threads
have got their answers from some time on. -/
theorem c95_all_calls_return {conf : List ControllerInfo → Bool} {σ : Nat → ThrOp} (h : Fair conf σ) {N : Nat}
    (hN : ∀ n, N ≤ n → ∀ t srv c, σ n ≠ .call t srv c) :
    ∃ M, N ≤ M ∧ ∀ n, M ≤ n → ∀ t, ¬ Busy (stateAt conf σ n) t :=
  all_return h hN

/-- A finite history, followed by steps of all threads and updates in turn. -/
def continued (ops : List ThrOp) (n : Nat) : ThrOp :=
  if h : n < ops.length then ops[n]
  else if n % 2 = 0 then .go (Nat.unpair (n / 2)).1 {} 0
  else .update 0 false (Ex.hw .done)

/-- **C95, there are fair executions.** Every finite history can be continued to a fair execution without further calls. -/
theorem c95_fair_executions (conf : List ControllerInfo → Bool) (ops : List ThrOp) (hup : ∀ op ∈ ops, op.rosUp) :
    Fair conf (continued ops) ∧ stateAt conf (continued ops) ops.length = after conf ops ∧
      ∀ n, ops.length ≤ n → ∀ t srv c, continued ops n ≠ .call t srv c := by
  have late : ∀ n, ops.length ≤ n → continued ops n =
      if n % 2 = 0 then .go (Nat.unpair (n / 2)).1 {} 0 else .update 0 false (Ex.hw .done) := by
    intro n hn
    unfold continued
    rw [dif_neg (by omega)]
  refine ⟨⟨fun n => ?_, fun n t _ => ?_, fun n => ?_⟩, ?_, fun n hn t srv c e => ?_⟩
  · unfold continued
    split
    · exact hup _ (List.getElem_mem _)
    · split
      · exact ⟨rfl, rfl⟩
      · trivial
  · have hle : n + ops.length ≤ Nat.pair t (n + ops.length) := Nat.right_le_pair _ _
    refine ⟨2 * Nat.pair t (n + ops.length), by omega, {}, 0, ?_⟩
    rw [late _ (by omega), if_pos (by omega), show 2 * Nat.pair t (n + ops.length) / 2 = Nat.pair t (n + ops.length) by omega,
      Nat.unpair_pair]
  · refine ⟨2 * (n + ops.length) + 1, by omega, 0, false, Ex.hw .done, ?_, Or.inl rfl, fun _ _ => Or.inl rfl⟩
    rw [late _ (by omega), if_neg (by omega)]
  · unfold stateAt
    congr 1
    apply List.ext_getElem
    · simp
    · intro i h1 h2
      simp [continued, h2]
  · rw [late n hn] at e
    split at e <;> cases e

/-! ### Locks need not be kind -/

/-- One thread asks for the names of the controllers over and over again. Another does so once, and comes to its lock always
when the first one holds it. -/
def greedy : Nat → ThrOp
  | 0 => .call 0 true .names
  | n + 1 => match n % 5 with
    | 0 => .call 1 true .names
    | 1 => .go 1 {} 0
    | 2 => .go 0 {} 0
    | 3 => .go 1 {} 0
    | _ => .update 0 false (Ex.hw .done)

theorem greedy_inv (k : Nat) : let s := stateAt checkForConflict greedy
    (s (5 * k + 1)).pos 0 = .atServices .names ∧ (s (5 * k + 1)).pos 1 = .idle ∧ (s (5 * k + 1)).services = none ∧
      (s (5 * k + 1)).controllers = none := by
  intro s
  induction k with
  | zero => exact ⟨rfl, rfl, rfl, rfl⟩
  | succ k ih =>
    obtain ⟨h1, h2, h3, h4⟩ := ih
    have e1 : s (5 * k + 2) = (s (5 * k + 1)).at 1 (.atServices .names) := by
      show stateAt _ _ (5 * k + 1 + 1) = _
      rw [stateAt_succ, show greedy (5 * k + 1) = .call 1 true .names by simp [greedy]]
      show (s (5 * k + 1)).call 1 true .names = _
      unfold St.call
      rw [h2]
    have e2 : s (5 * k + 3) = { (s (5 * k + 2)).at 1 (.entered true .names) with services := some 1 } := by
      show stateAt _ _ (5 * k + 2 + 1) = _
      rw [stateAt_succ, show greedy (5 * k + 2) = .go 1 {} 0 by simp [greedy, Nat.add_mod]]
      show ((s (5 * k + 2)).go _ 1 {} 0).getD _ = _
      rw [e1]
      simp [St.go, St.at, h3]
    have e3 : s (5 * k + 4) = s (5 * k + 3) := by
      show stateAt _ _ (5 * k + 3 + 1) = _
      rw [stateAt_succ, show greedy (5 * k + 3) = .go 0 {} 0 by simp [greedy, Nat.add_mod]]
      have hg : (s (5 * k + 3)).go checkForConflict 0 {} 0 = none := by
        rw [e2, e1]
        simp [St.go, St.at, h1]
      show ((s (5 * k + 3)).go _ 0 {} 0).getD _ = _
      rw [hg]
      rfl
    have e4 : s (5 * k + 5) = (s (5 * k + 3)).answer 1 true (.names (s (5 * k + 3)).mgr.getControllerNames) := by
      show stateAt _ _ (5 * k + 4 + 1) = _
      rw [stateAt_succ, show greedy (5 * k + 4) = .go 1 {} 0 by simp [greedy, Nat.add_mod]]
      show ((s (5 * k + 4)).go _ 1 {} 0).getD _ = _
      rw [e3, e2, e1]
      simp [St.go, St.at, h4]
    have e5 : s (5 * (k + 1) + 1) = { s (5 * k + 5) with mgr := (s (5 * k + 5)).mgr.update 0 false (Ex.hw .done) } := by
      show stateAt _ _ (5 * k + 5 + 1) = _
      rw [stateAt_succ, show greedy (5 * k + 5) = .update 0 false (Ex.hw .done) by simp [greedy, Nat.add_mod]]
      rfl
    rw [e5, e4, e2, e1]
    simp [St.answer, St.at, h1, h4]

theorem greedy_pos (n : Nat) : (stateAt checkForConflict greedy (n + 1)).pos 0 = .atServices .names := by
  induction n with
  | zero => rfl
  | succ n ih =>
    by_cases hg : n % 5 = 2
    · have hd : n + 1 + 1 = 5 * (n / 5) + 4 := by omega
      rw [hd]
      by_cases hm : ∃ ok el, greedy (n + 1) = .go 0 ok el
      · -- the lock is held
        obtain ⟨h1, h2, h3, h4⟩ := greedy_inv (n / 5)
        rw [← hd, stateAt_succ]
        obtain ⟨ok, el, e⟩ := hm
        rw [e]
        show (((stateAt checkForConflict greedy (n + 1)).go _ 0 ok el).getD _).pos 0 = _
        have hsv : (stateAt checkForConflict greedy (n + 1)).services = some 1 := by
          rw [show n + 1 = 5 * (n / 5) + 1 + 1 + 1 by omega, stateAt_succ, stateAt_succ,
            show greedy (5 * (n / 5) + 1) = .call 1 true .names by simp [greedy],
            show greedy (5 * (n / 5) + 1 + 1) = .go 1 {} 0 by simp [greedy, Nat.add_mod]]
          simp [St.step, St.call, h2, St.go, St.at, h3]
        have hgo : (stateAt checkForConflict greedy (n + 1)).go checkForConflict 0 ok el = none := by
          unfold St.go
          rw [ih]
          dsimp only
          rw [if_neg (by rw [hsv]; simp)]
        rw [hgo]
        exact ih
      · rw [← hd, stateAt_succ, pos_step (by show _ ≠ _; rw [ih]; exact fun hh => by cases hh) _ fun ok el e => hm ⟨ok, el, e⟩, ih]
    · rw [stateAt_succ, pos_step (by show _ ≠ _; rw [ih]; exact fun hh => by cases hh) _ ?_, ih]
      intro ok el e
      unfold greedy at e
      dsimp only at e
      split at e <;> cases e
      exact hg (by assumption)

/-- A thread that makes no call is not busy. -/
theorem idle_of_no_call {conf : List ControllerInfo → Bool} {σ : Nat → ThrOp} {t : Tid} (h : ∀ n srv c, σ n ≠ .call t srv c) (n : Nat) :
    (stateAt conf σ n).pos t = .idle := by
  induction n with
  | zero => rfl
  | succ n ih =>
    rw [stateAt_succ]
    cases e : σ n with
    | call t' srv c =>
      have ht : t ≠ t' := fun hh => h n srv c (by rw [e, hh])
      show ((stateAt conf σ n).call t' srv c).pos t = _
      rcases call_cases (stateAt conf σ n) t' srv c with e | ⟨_, _, e⟩ | ⟨_, _, _, e⟩ <;> rw [e]
      · exact ih
      · simp [St.at, ht, ih]
      · simp [St.at, ht, ih]
    | go t' ok el =>
      show (((stateAt conf σ n).go conf t' ok el).getD _).pos t = _
      cases hg : (stateAt conf σ n).go conf t' ok el with
      | none => exact ih
      | some s' =>
        by_cases ht : t = t'
        · subst ht
          unfold St.go at hg
          rw [ih] at hg
          cases hg
        · show s'.pos t = _
          rw [go_others hg t ht, ih]
    | update time reset hw => exact ih

/-- **C95, why calls have to come to an end.** The locks of the manager promise no order: in a fair execution a thread can wait
for its lock forever while others make call after call. -/
theorem c95_starvation : ∃ σ, Fair checkForConflict σ ∧ ∀ n, 1 ≤ n → Busy (stateAt checkForConflict σ n) 0 := by
  refine ⟨greedy, ⟨fun n => ?_, fun n t hb => ?_, fun n => ?_⟩, fun n hn => ?_⟩
  · unfold greedy
    split
    · trivial
    · split <;> trivial
  · by_cases h0 : t = 0
    · subst h0
      exact ⟨5 * n + 3, by omega, {}, 0, by simp [greedy, Nat.add_mod]⟩
    · by_cases h1 : t = 1
      · subst h1
        exact ⟨5 * n + 2, by omega, {}, 0, by simp [greedy, Nat.add_mod]⟩
      · refine absurd (idle_of_no_call (σ := greedy) (t := t) ?_ n) hb
        intro n srv c e
        unfold greedy at e
        split at e
        · cases e; exact h0 rfl
        · split at e <;> cases e
          exact h1 rfl
  · exact ⟨5 * n + 5, by omega, 0, false, Ex.hw .done, by simp [greedy, Nat.add_mod], Or.inl rfl, fun _ _ => Or.inl rfl⟩
  · obtain ⟨m, rfl⟩ : ∃ m, n = m + 1 := ⟨n - 1, by omega⟩
    show _ ≠ _
    rw [greedy_pos]
    exact fun hh => by cases hh

/-! ### Examples -/

/-- Three threads load and switch; the second waits for the realtime thread, the others for locks. -/
def exFair : List ThrOp :=
  [.call 0 false (.load "a" (Ex.env ["j1"])), .call 1 true (.load "b" (Ex.env ["j2"])), .call 2 true .names,
    .go 1 {} 0, .go 1 {} 0, .go 2 {} 0, .go 0 {} 0]

example : let s := after checkForConflict exFair
    (∀ op ∈ exFair, op.rosUp) ∧ Busy s 0 ∧ Busy s 1 ∧ Busy s 2 := by
  refine ⟨by simp [exFair, ThrOp.rosUp], ?_, ?_, ?_⟩ <;> exact fun h => by cases h

/-- It goes on to a fair execution in which all three return. -/
example : ∃ M, ∀ n, M ≤ n → ∀ t, ¬ Busy (stateAt checkForConflict (continued exFair) n) t := by
  obtain ⟨h1, _, h3⟩ := c95_fair_executions checkForConflict exFair (by simp [exFair, ThrOp.rosUp])
  obtain ⟨M, _, h⟩ := c95_all_calls_return h1 h3
  exact ⟨M, h⟩

end Thr

end Verif
