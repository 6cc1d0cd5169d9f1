import Verif.Lemmas.CombinedExceptions
import Verif.Props.CombinedHW

/-!
Property C101: a sub-hardware of a combined hardware throws an exception.
-/

namespace Verif.Combined

open Spec

/-- **C101, the exception reaches the caller** of `doSwitch`, `read` and `write` iff a sub-hardware throws. -/
theorem c101_propagates (hws : List IMan) (throws : Nat → Bool) (start stop : List ControllerInfo) :
    ((doSwitchX hws throws start stop).1 = true ↔ ∃ j < hws.length, throws j = true) ∧
    ((readX hws throws).1 = true ↔ ∃ j < hws.length, throws j = true) ∧
    ((writeX hws throws).1 = true ↔ ∃ j < hws.length, throws j = true) := by
  refine ⟨doSwitchX_threw hws throws start stop, ?_, ?_⟩
  · rw [readX, eachFromX_eq]; simp
  · rw [writeX, eachFromX_eq]; simp

theorem take_mapIdx {α β : Type} (f : Nat → α → β) (l : List α) (k : Nat) : (l.mapIdx f).take k = (l.take k).mapIdx f := by
  apply List.ext_getElem?
  intro j
  simp only [List.getElem?_take, List.getElem?_mapIdx]
  split <;> simp

/-- **C101, who is called.** If the `k`-th sub-hardware is the first that throws, exactly the sub-hardwares up to and
including it are called, in order, `doSwitch` with their shares. The others are not called. If none throws (`k` is their
number), all are called. -/
theorem c101_called (hws : List IMan) (throws : Nat → Bool) (k : Nat) (hk : FirstThrow throws hws.length k)
    (start stop : List ControllerInfo) (h1 : SetClaims start) (h2 : SetClaims stop) :
    (doSwitchX hws throws start stop).2 =
      (hws.take (k + 1)).mapIdx (fun i hw => Event.doSwitch i (share hw start) (share hw stop)) ∧
    (readX hws throws).2 = (List.range (min (k + 1) hws.length)).map .read ∧
    (writeX hws throws).2 = (List.range (min (k + 1) hws.length)).map .write := by
  obtain ⟨_, hk1, hk2⟩ := hk
  refine ⟨?_, ?_, ?_⟩
  · rw [doSwitchX_events hws throws start stop k hk1 hk2, c35_doSwitch hws start stop h1 h2, take_mapIdx]
  · rw [readX, eachFromX_events throws .read 0 k hws (by simpa using hk1) (by simpa using hk2), ← List.take_range, List.map_take]
    exact congrArg _ (c35_read_write hws).1
  · rw [writeX, eachFromX_events throws .write 0 k hws (by simpa using hk1) (by simpa using hk2), ← List.take_range, List.map_take]
    exact congrArg _ (c35_read_write hws).2

/-- **C101, without exceptions** the functions do what C34 and C35 say. -/
theorem c101_no_exception (hws : List IMan) (start stop : List ControllerInfo) (throws : Nat → Bool)
    (h : ∀ j < hws.length, throws j = false) (reply : Nat → List ControllerInfo → List ControllerInfo → Bool) :
    doSwitchX hws throws start stop = (false, doSwitch hws start stop) ∧ readX hws throws = (false, read hws) ∧
    writeX hws throws = (false, write hws) ∧
    prepareSwitchX hws (fun i a b => if reply i a b then .yes else .no) start stop =
      (if (prepareSwitch hws reply start stop).1 then .yes else .no, (prepareSwitch hws reply start stop).2) := by
  have hno : ¬ ∃ j < hws.length, throws j = true := by
    rintro ⟨j, h1, h2⟩
    rw [h j h1] at h2; cases h2
  obtain ⟨p1, p2, p3⟩ := c101_propagates hws throws start stop
  refine ⟨Prod.ext ?_ ?_, Prod.ext ?_ ?_, Prod.ext ?_ ?_, ?_⟩
  · simpa using fun h => hno (p1.1 h)
  · rw [doSwitchX_events hws throws start stop hws.length h (fun h => absurd h (lt_irrefl _))]
    exact List.take_of_length_le (by simp [doSwitch, length_doSwitchFrom])
  · simpa using fun h => hno (p2.1 h)
  · rw [readX, eachFromX_events throws .read 0 hws.length hws (by simpa using h) (fun h => absurd h (lt_irrefl _))]
    exact List.take_of_length_le (by simp [eachFrom_eq])
  · simpa using fun h => hno (p3.1 h)
  · rw [writeX, eachFromX_events throws .write 0 hws.length hws (by simpa using h) (fun h => absurd h (lt_irrefl _))]
    exact List.take_of_length_le (by simp [eachFrom_eq])
  · unfold prepareSwitchX prepareSwitch
    generalize 0 = i
    induction hws generalizing i with
    | nil => rfl
    | cons hw hws ih =>
      have ih := fun i => ih (fun j hj => h j (by simp at hj ⊢; omega)) (by
        rintro ⟨j, h1, h2⟩
        exact hno ⟨j, by simp at h1 ⊢; omega, h2⟩) (c101_propagates hws throws start stop).1
          (c101_propagates hws throws start stop).2.1 (c101_propagates hws throws start stop).2.2 i
      simp only [prepareFromX, prepareFrom]
      cases hr : reply i (filterControllerList hw start) (filterControllerList hw stop)
      · simp
      · simp [ih]

/-- **C101, `prepareSwitch`.** A switch is prepared iff every sub-hardware accepts its share; an exception reaches the
caller iff a sub-hardware throws and all before it accept. Those before are asked, those behind are not. -/
theorem c101_prepare (hws : List IMan) (reply : Nat → List ControllerInfo → List ControllerInfo → Answer)
    (start stop : List ControllerInfo) (h1 : SetClaims start) (h2 : SetClaims stop) :
    ((prepareSwitchX hws reply start stop).1 = .yes ↔
      ∀ (i : Nat) (hw : IMan), hws[i]? = some hw → reply i (share hw start) (share hw stop) = .yes) ∧
    ∀ (k : Nat) (hw : IMan), hws[k]? = some hw → reply k (share hw start) (share hw stop) ≠ .yes →
      (∀ j < k, ∀ hw', hws[j]? = some hw' → reply j (share hw' start) (share hw' stop) = .yes) →
      prepareSwitchX hws reply start stop = (reply k (share hw start) (share hw stop),
        (hws.take (k + 1)).mapIdx fun i hw => Event.prepareSwitch i (share hw start) (share hw stop) (decide (i < k))) := by
  have key : ∀ (hws : List IMan) (i : Nat),
      ((prepareFromX reply start stop i hws).1 = .yes ↔
        ∀ (j : Nat) (hw : IMan), hws[j]? = some hw → reply (i + j) (share hw start) (share hw stop) = .yes) ∧
      ∀ (k : Nat) (hw : IMan), hws[k]? = some hw → reply (i + k) (share hw start) (share hw stop) ≠ .yes →
        (∀ j < k, ∀ hw', hws[j]? = some hw' → reply (i + j) (share hw' start) (share hw' stop) = .yes) →
        prepareFromX reply start stop i hws = (reply (i + k) (share hw start) (share hw stop),
          (hws.take (k + 1)).mapIdx fun j hw =>
            Event.prepareSwitch (i + j) (share hw start) (share hw stop) (decide (j < k))) := by
    intro hws
    induction hws with
    | nil => intro i; simp [prepareFromX]
    | cons hw hws ih =>
      intro i
      have e1 := filter_eq_share hw h1
      have e2 := filter_eq_share hw h2
      obtain ⟨ih1, ih2⟩ := ih (i + 1)
      constructor
      · simp only [prepareFromX, e1, e2]
        constructor
        · intro hy
          cases hr : reply i (share hw start) (share hw stop) with
          | threw => simp [hr] at hy
          | no => simp [hr] at hy
          | yes =>
            simp only [hr] at hy
            intro j hw' hj
            cases j with
            | zero => simp at hj; subst hj; simpa using hr
            | succ j =>
              have := ih1.1 hy j hw' (by simpa using hj)
              rwa [show i + (j + 1) = i + 1 + j by omega]
        · intro hall
          have hr : reply i (share hw start) (share hw stop) = .yes := by simpa using hall 0 hw (by simp)
          simp only [hr]
          refine ih1.2 ?_
          intro j hw' hj
          have := hall (j + 1) hw' (by simpa using hj)
          rwa [show i + (j + 1) = i + 1 + j by omega] at this
      · intro k hw' hk hne hbef
        cases k with
        | zero =>
          simp at hk
          subst hk
          simp only [prepareFromX, e1, e2]
          cases hr : reply i (share hw start) (share hw stop) with
          | yes => exact absurd (by simpa using hr) hne
          | no => simp [hr]
          | threw => simp [hr]
        | succ k =>
          have hr : reply i (share hw start) (share hw stop) = .yes := by simpa using hbef 0 (by omega) hw (by simp)
          have h3 := ih2 k hw' (by simpa using hk) (by rwa [show i + 1 + k = i + (k + 1) by omega]) (by
            intro j hj hw'' hj'
            have := hbef (j + 1) (by omega) hw'' (by simpa using hj')
            rwa [show i + 1 + j = i + (j + 1) by omega])
          simp only [prepareFromX, e1, e2, hr, h3]
          rw [show i + (k + 1) = i + 1 + k by omega, List.take_succ_cons, List.mapIdx_cons]
          refine Prod.ext rfl ?_
          simp only [Nat.add_zero, Nat.zero_lt_succ, decide_true]
          congr 1
          apply List.ext_getElem?
          intro j
          simp only [List.getElem?_mapIdx]
          congr 1
          funext x
          rw [show i + (j + 1) = i + 1 + j by omega]
          simp
  have := key hws 0
  simp only [Nat.zero_add] at this
  exact this

/-- **C101, retries.** The manager calls `doSwitch` again in every update until it returns. When it has returned, every
sub-hardware has been called at least once, always with the same lists: its shares. A sub-hardware further down the
list is called at most as often. Missing for the full statement (`SwitchesOnce`): it may be more than once. -/
theorem c101_retry_partial (hws : List IMan) (start stop : List ControllerInfo) (h1 : SetClaims start) (h2 : SetClaims stop)
    (attempts : List (Nat → Bool)) (hok : (switchAttempts hws start stop attempts).1 = true) (i : Nat) (hw : IMan)
    (hi : hws[i]? = some hw) :
    ∃ n ≥ 1, callsOn i (switchAttempts hws start stop attempts).2 =
        List.replicate n (Event.doSwitch i (share hw start) (share hw stop)) ∧
      ∀ j hw', hws[j]? = some hw' → i ≤ j → (callsOn j (switchAttempts hws start stop attempts).2).length ≤ n := by
  have hlt : i < hws.length := (List.getElem?_eq_some_iff.1 hi).1
  induction attempts with
  | nil => simp [switchAttempts] at hok
  | cons throws rest ih =>
    obtain ⟨k, hk0, hk1, hk2⟩ := exists_first throws hws.length
    have hev := doSwitchX_events hws throws start stop k hk1 hk2
    have hcall : ∀ i hw, hws[i]? = some hw → callsOn i (doSwitchX hws throws start stop).2 =
        if i < k + 1 then [Event.doSwitch i (share hw start) (share hw stop)] else [] := by
      intro i hw hi
      rw [hev, callsOn_doSwitch, hi, Option.map_some, filter_eq_share hw h1, filter_eq_share hw h2]
      rfl
    have hlen : ∀ i j hw hw', hws[i]? = some hw → hws[j]? = some hw' → i ≤ j →
        (callsOn j (doSwitchX hws throws start stop).2).length ≤ (callsOn i (doSwitchX hws throws start stop).2).length := by
      intro i j hw hw' hi hj hij
      rw [hcall i hw hi, hcall j hw' hj]
      by_cases hj' : j < k + 1
      · rw [if_pos hj', if_pos (by omega)]; simp
      · rw [if_neg hj']; simp
    cases hx : doSwitchX hws throws start stop with
    | mk t es =>
      rw [hx] at hcall hlen
      simp only at hcall hlen
      cases t
      · -- it returns
        have hall : ∀ j < hws.length, throws j = false := by
          intro j hj
          by_contra hc
          have := (doSwitchX_threw hws throws start stop).2 ⟨j, hj, by simpa using hc⟩
          rw [hx] at this; cases this
        have hkl : k = hws.length := by
          by_contra hc
          have hlt' : k < hws.length := by omega
          rw [hall k hlt'] at hk2
          exact absurd (hk2 hlt') (by simp)
        simp only [switchAttempts, hx]
        refine ⟨1, le_refl _, ?_, ?_⟩
        · rw [hcall i hw hi, if_pos (by omega)]; rfl
        · intro j hw' hj hij
          have := hlen i j hw hw' hi hj hij
          rw [hcall i hw hi, if_pos (by omega)] at this
          simpa using this
      · simp only [switchAttempts, hx] at hok ⊢
        obtain ⟨n, hn, e, hj⟩ := ih hok
        rw [callsOn_append, e, hcall i hw hi]
        by_cases hik : i < k + 1
        · refine ⟨n + 1, by omega, ?_, ?_⟩
          · rw [if_pos hik]; rfl
          · intro j hw' hj' hij
            rw [callsOn_append, List.length_append]
            have a1 := hj j hw' hj' hij
            have a2 := hlen i j hw hw' hi hj' hij
            rw [hcall i hw hi, if_pos hik] at a2
            simp at a2
            omega
        · refine ⟨n, hn, ?_, ?_⟩
          · rw [if_neg hik]; rfl
          · intro j hw' hj' hij
            rw [callsOn_append, List.length_append]
            have a1 := hj j hw' hj' hij
            have a2 := hlen i j hw hw' hi hj' hij
            rw [hcall i hw hi, if_neg hik] at a2
            simp at a2
            rw [a2]
            simpa using a1

/-- The attempts that are made: all up to the first in which none of `n` sub-hardwares throws. -/
def made (n : Nat) : List (Nat → Bool) → List (Nat → Bool)
  | [] => []
  | t :: rest => if ∃ j < n, t j = true then t :: made n rest else [t]

/-- **C101, how often exactly.** Whether the call returns in the end or not, a sub-hardware is called once in each attempt that is made in
which none before it in the list throws, always with its shares. So it is called exactly once if and only if there is exactly one such
attempt. -/
theorem c101_count (hws : List IMan) (start stop : List ControllerInfo) (h1 : SetClaims start) (h2 : SetClaims stop)
    (attempts : List (Nat → Bool)) (i : Nat) (hw : IMan) (hi : hws[i]? = some hw) :
    callsOn i (switchAttempts hws start stop attempts).2 =
      List.replicate ((made hws.length attempts).countP fun t => decide (∀ j < i, t j = false))
        (Event.doSwitch i (share hw start) (share hw stop)) := by
  have hlt : i < hws.length := (List.getElem?_eq_some_iff.1 hi).1
  induction attempts with
  | nil => rfl
  | cons throws rest ih =>
    obtain ⟨k, hk0, hk1, hk2⟩ := exists_first throws hws.length
    have hiff : i < k + 1 ↔ ∀ j < i, throws j = false := by
      constructor
      · exact fun h j hj => hk1 j (by omega)
      · intro h
        by_contra hc
        have hk : k < i := by omega
        have := h k hk
        rw [hk2 (by omega)] at this
        cases this
    have hcall : callsOn i (doSwitchX hws throws start stop).2 =
        if ∀ j < i, throws j = false then [Event.doSwitch i (share hw start) (share hw stop)] else [] := by
      rw [doSwitchX_events hws throws start stop k hk1 hk2, callsOn_doSwitch, hi, Option.map_some, filter_eq_share hw h1,
        filter_eq_share hw h2]
      simp only [← hiff]
      rfl
    have hp := doSwitchX_threw hws throws start stop
    cases hx : doSwitchX hws throws start stop with
    | mk t es =>
      rw [hx] at hcall hp
      simp only at hcall hp
      cases t
      · have hno : ¬ ∃ j < hws.length, throws j = true := fun h => by cases hp.2 h
        simp only [switchAttempts, hx, made]
        rw [if_neg hno, hcall]
        by_cases hh : ∀ j < i, throws j = false
        · simp only [if_pos hh, List.countP_cons, List.countP_nil, decide_eq_true hh, if_true]
          rfl
        · simp only [if_neg hh, List.countP_cons, List.countP_nil, decide_eq_false hh]
          rfl
      · have hyes : ∃ j < hws.length, throws j = true := hp.1 rfl
        simp only [switchAttempts, hx, made]
        rw [if_pos hyes, callsOn_append, hcall, ih]
        by_cases hh : ∀ j < i, throws j = false
        · simp only [if_pos hh, List.countP_cons, decide_eq_true hh, if_true, List.replicate_succ]
          rfl
        · simp only [if_neg hh, List.countP_cons, decide_eq_false hh]
          rfl

/-- Three attempts: the second sub-hardware throws, the first throws, none throws. The first is called three times, the second twice. -/
example : (made 2 [fun i => i = 1, fun i => i = 0, fun _ => false, fun _ => false]).length = 3 ∧
    (callsOn 0 (switchAttempts [exHw1, exHw2] exList [] [fun i => i = 1, fun i => i = 0, fun _ => false, fun _ => false]).2).length = 3 ∧
    (callsOn 1 (switchAttempts [exHw1, exHw2] exList [] [fun i => i = 1, fun i => i = 0, fun _ => false, fun _ => false]).2).length = 2 := by
  decide

example := c101_count [exHw1, exHw2] exList [] (by unfold SetClaims; decide) (by unfold SetClaims; decide)
  [fun i => i = 1, fun i => i = 0, fun _ => false, fun _ => false] 1 exHw2 rfl

/-- **C101, no progress.** The call never returns iff in every update some sub-hardware throws; sub-hardwares behind one
that always throws are never called. -/
theorem c101_stuck (hws : List IMan) (start stop : List ControllerInfo) (attempts : List (Nat → Bool)) :
    ((switchAttempts hws start stop attempts).1 = false ↔ ∀ t ∈ attempts, ∃ j < hws.length, t j = true) ∧
    ∀ k, (∀ t ∈ attempts, t k = true) → k < hws.length → ∀ i > k, callsOn i (switchAttempts hws start stop attempts).2 = [] := by
  constructor
  · induction attempts with
    | nil => simp [switchAttempts]
    | cons throws rest ih =>
      have hp := doSwitchX_threw hws throws start stop
      cases hx : doSwitchX hws throws start stop with
      | mk t es =>
        rw [hx] at hp
        cases t
        · simp only [switchAttempts, hx]
          constructor
          · intro h; cases h
          · intro h
            have := hp.2 (h throws (by simp))
            cases this
        · simp only [switchAttempts, hx, ih, List.mem_cons, forall_eq_or_imp]
          exact ⟨fun h => ⟨hp.1 rfl, h⟩, fun h => h.2⟩
  · intro k hk hlt i hi
    induction attempts with
    | nil => rfl
    | cons throws rest ih =>
      have ih := ih fun t ht => hk t (by simp [ht])
      have htk := hk throws (by simp)
      obtain ⟨k', hk0, hk1, hk2⟩ := exists_first throws hws.length
      have hle : k' ≤ k := by
        by_contra hc
        rw [hk1 k (by omega)] at htk; cases htk
      have hev := doSwitchX_events hws throws start stop k' hk1 hk2
      have he : callsOn i (doSwitchX hws throws start stop).2 = [] := by
        rw [hev, callsOn_doSwitch, if_neg (by omega)]
      have hp := (doSwitchX_threw hws throws start stop).2 ⟨k, hlt, htk⟩
      cases hx : doSwitchX hws throws start stop with
      | mk t es =>
        rw [hx] at hp he
        cases hp
        simp only [switchAttempts, hx, callsOn_append, ih, List.append_nil]
        exact he

/-- **C101 does not hold in full.** If the second sub-hardware throws in the first update, the first one is switched twice. -/
theorem c101_twice_negation : ¬ SwitchesOnce := by
  intro h
  have := h [exHw1, exHw2] exList [] [fun i => i = 1, fun _ => false] (by decide) 0 (by decide)
  revert this
  decide

example : FirstThrow (fun i => i = 1) [exHw1, exHw2, exHw1].length 1 ∧ SetClaims exList ∧
    doSwitchX [exHw1, exHw2, exHw1] (fun i => i = 1) exList [] =
      (true, [.doSwitch 0 (share exHw1 exList) [], .doSwitch 1 (share exHw2 exList) []]) := by
  refine ⟨⟨by decide, ?_, fun _ => by decide⟩, by unfold SetClaims; decide, by decide⟩
  intro j hj
  have : j = 0 := by omega
  subst this; rfl

example : prepareSwitchX [exHw1, exHw2, exHw1] (fun i _ _ => if i = 1 then .threw else .yes) exList [] =
    (.threw, [.prepareSwitch 0 (share exHw1 exList) [] true, .prepareSwitch 1 (share exHw2 exList) [] false]) := by decide

example : (switchAttempts [exHw1, exHw2] exList [] [fun i => i = 1, fun i => i = 0, fun _ => false]).1 = true ∧
    callsOn 0 (switchAttempts [exHw1, exHw2] exList [] [fun i => i = 1, fun i => i = 0, fun _ => false]).2 =
      List.replicate 3 (.doSwitch 0 (share exHw1 exList) []) ∧
    callsOn 1 (switchAttempts [exHw1, exHw2] exList [] [fun i => i = 1, fun i => i = 0, fun _ => false]).2 =
      List.replicate 2 (.doSwitch 1 (share exHw2 exList) []) := by decide

end Verif.Combined
