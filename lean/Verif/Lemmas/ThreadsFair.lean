import Verif.Lemmas.ThreadsProgress
import Mathlib.Data.Nat.Find

/-!
Helper lemmas for calls by several threads: infinite executions.
-/

namespace Verif

namespace Thr

open Mgr Spec

theorem stateAt_succ (conf : List ControllerInfo → Bool) (σ : Nat → ThrOp) (n : Nat) :
    stateAt conf σ (n + 1) = (stateAt conf σ n).step conf (σ n) := by
  unfold stateAt after
  rw [List.range_succ, List.map_append, List.map_cons, List.map_nil]
  exact run_concat conf {} _ _

theorem sound_at {conf σ} (h : Fair conf σ) (n : Nat) : Sound (stateAt conf σ n) := by
  refine sound_after conf _ fun op hop => ?_
  obtain ⟨k, _, rfl⟩ := List.mem_map.1 hop
  exact h.up k

theorem leaves_update {P} {m : Mgr} (h : Safe P m) (time : Int) (reset : Bool) {hw : HwReply} (hs : Settled hw) :
    (m.update time reset hw).Leaves := by
  rcases h with h | ⟨⟨k, t, h1⟩, h2, _⟩
  · exact leaves_settled h time reset hs
  · have e := svc_update m time reset hw
    refine ⟨fun k t _ => ?_, fun f r e' => ?_⟩
    · rw [update_idle m h2]; exact h2
    · rw [e, h1] at e'; cases e'

/-- Further updates do not make a call wait again. -/
theorem leaves_keep {P} {m : Mgr} (h : Safe P m) (hl : m.Leaves) (time : Int) (reset : Bool) (hw : HwReply) :
    (m.update time reset hw).Leaves := by
  have e := svc_update m time reset hw
  refine ⟨fun k t hk => ?_, fun f r hf => ?_⟩
  · rw [e] at hk
    have hd := hl.1 k t hk
    rw [update_idle m hd]
    exact hd
  · rw [e] at hf
    rcases h with h | ⟨⟨k, t, h1⟩, _⟩
    · have hu : (m.update time reset hw).used = some m.current := by
        cases hd : m.params.doSwitch
        · rw [update_idle m hd]
        · obtain ⟨st, es, d, h0, he, ho⟩ := update_switch m h.sane hd time reset hw
          rw [he]
      rw [hu, h.former f r hf]
      simp
    · rw [h1] at hf; cases hf

theorem poll_leaves_up {m : Mgr} (hpl : Plain m.svc) (h : m.Leaves) (ok : RosOk) (el : Int) : (m.poll ok el).svc = .idle := by
  unfold Mgr.poll
  split
  · rename_i e; exact e
  · rename_i k t e
    rw [e] at hpl
    obtain rfl : k = .ret := hpl
    rw [h.1 _ _ e]
    simp [Mgr.finish, Mgr.emit]
  · rename_i f r e
    rw [e] at hpl
    rw [if_neg (by simpa using fun _ => h.2 f r e)]
    cases r with
    | load n => rfl
    | unload n k =>
      obtain rfl : k = .ret := hpl
      rfl
  · rename_i e; rw [e] at hpl; cases hpl
  · rename_i e; rw [e] at hpl; cases hpl

/-- What the step of another thread does to the manager while one thread waits for the realtime thread. -/
theorem go_while {conf} {s s' : St} (h : Locks s) {t t' : Tid} (hc : s.controllers = some t) (hne : t' ≠ t) {ok : RosOk} {el : Int}
    (hg : s.go conf t' ok el = some s') :
    s'.mgr = s.mgr ∨ s'.mgr = { s.mgr with params := {} } ∨ ∃ es, s'.mgr = s.mgr.emit es := by
  have hin : Inside (s.pos t') = false := by
    by_contra hh
    have := (h.ctrl t').2 (by simpa using hh)
    rw [hc] at this
    cases this
    exact hne rfl
  unfold St.go at hg
  rw [hc] at hg
  simp only [ne_eq, reduceCtorEq, not_false_eq_true, if_true] at hg
  split at hg <;> (try cases hg)
  · split at hg <;> cases hg
    exact Or.inl rfl
  · exact Or.inl rfl
  · exact Or.inr (Or.inl rfl)
  · exact Or.inr (Or.inr ⟨_, rfl⟩)
  · rename_i hpos
    rw [hpos] at hin
    cases hin

/-- While a thread waits for the realtime thread and could leave, steps of others keep it so. -/
theorem leaves_step {conf} {s : St} (h : Sound s) {t : Tid} (hc : s.controllers = some t) (hl : s.mgr.Leaves) (op : ThrOp)
    (hop : ∀ ok el, op ≠ .go t ok el) : (s.step conf op).mgr.Leaves := by
  cases op with
  | call t' srv c =>
    show (s.call t' srv c).mgr.Leaves
    rcases call_cases s t' srv c with e | ⟨_, _, e⟩ | ⟨_, _, _, e⟩ <;> (rw [e]; exact hl)
  | go t' ok el =>
    show ((s.go conf t' ok el).getD s).mgr.Leaves
    cases hg : s.go conf t' ok el with
    | none => exact hl
    | some s' =>
      show s'.mgr.Leaves
      have hne : t' ≠ t := fun e => hop ok el (by rw [e])
      rcases go_while h.locks hc hne hg with e | e | ⟨es, e⟩ <;> rw [e]
      · exact hl
      · exact ⟨fun _ _ _ => rfl, hl.2⟩
      · exact hl
  | update time reset hw => exact leaves_keep h.safe hl time reset hw

/-- A busy thread stays where it is until its own next step. -/
theorem pos_step {conf} {s : St} {t : Tid} (hb : Busy s t) (op : ThrOp) (hop : ∀ ok el, op ≠ .go t ok el) :
    (s.step conf op).pos t = s.pos t := by
  cases op with
  | call t' srv c =>
    show (s.call t' srv c).pos t = _
    rcases call_cases s t' srv c with e | ⟨hi, _, e⟩ | ⟨hi, _, _, e⟩ <;> rw [e]
    · have : t ≠ t' := fun e => hb (e ▸ hi)
      simp [St.at, this]
    · have : t ≠ t' := fun e => hb (e ▸ hi)
      simp [St.at, this]
  | go t' ok el =>
    show ((s.go conf t' ok el).getD s).pos t = _
    cases hg : s.go conf t' ok el with
    | none => rfl
    | some s' => exact go_others hg t fun e => hop ok el (by rw [e])
  | update time reset hw => rfl

/-- A busy thread comes to its next step, and finds itself where it was; a property that others keep still holds. -/
theorem comes {conf σ} (h : Fair conf σ) {n : Nat} {t : Tid} (hb : Busy (stateAt conf σ n) t) (Q : St → Prop) (hq : Q (stateAt conf σ n))
    (hstep : ∀ j, (stateAt conf σ j).pos t = (stateAt conf σ n).pos t → (∀ ok el, σ j ≠ .go t ok el) → Q (stateAt conf σ j) →
      Q (stateAt conf σ (j + 1))) :
    ∃ m ok el, n ≤ m ∧ σ m = .go t ok el ∧ (stateAt conf σ m).pos t = (stateAt conf σ n).pos t ∧ Q (stateAt conf σ m) := by
  classical
  have hex : ∃ d, ∃ ok el, σ (n + d) = .go t ok el := by
    obtain ⟨m, hm, ok, el, e⟩ := h.threads n t hb
    exact ⟨m - n, ok, el, by rw [Nat.add_sub_cancel' hm]; exact e⟩
  obtain ⟨ok, el, e⟩ := Nat.find_spec hex
  have key : ∀ d, d ≤ Nat.find hex → (stateAt conf σ (n + d)).pos t = (stateAt conf σ n).pos t ∧ Q (stateAt conf σ (n + d)) := by
    intro d
    induction d with
    | zero => exact fun _ => ⟨rfl, hq⟩
    | succ d ih =>
      intro hd
      obtain ⟨h1, h2⟩ := ih (by omega)
      have hn : ∀ ok el, σ (n + d) ≠ .go t ok el := fun ok el e' => Nat.find_min hex (show d < Nat.find hex by omega) ⟨ok, el, e'⟩
      refine ⟨?_, hstep _ h1 hn h2⟩
      show (stateAt conf σ ((n + d) + 1)).pos t = _
      rw [stateAt_succ, pos_step (by show _ ≠ _; rw [h1]; exact hb) _ hn, h1]
  obtain ⟨h1, h2⟩ := key _ le_rfl
  exact ⟨n + Nat.find hex, ok, el, by omega, e, h1, h2⟩

theorem comes' {conf σ} (h : Fair conf σ) {n : Nat} {t : Tid} (hb : Busy (stateAt conf σ n) t) :
    ∃ m ok el, n ≤ m ∧ σ m = .go t ok el ∧ (stateAt conf σ m).pos t = (stateAt conf σ n).pos t := by
  obtain ⟨m, ok, el, h1, h2, h3, _⟩ := comes h hb (fun _ => True) trivial (fun _ _ _ _ => trivial)
  exact ⟨m, ok, el, h1, h2, h3⟩

/-- In step `m` the thread stops waiting for the realtime thread. -/
def Out (conf : List ControllerInfo → Bool) (σ : Nat → ThrOp) (m : Nat) (t : Tid) (srv : Bool) (k : Option (List String)) : Prop :=
  (stateAt conf σ m).pos t = .inside srv k ∧ ∃ s3 e, stateAt conf σ (m + 1) = St.back s3 t srv k e ∧
    s3.answers = (stateAt conf σ m).answers

theorem step_go {conf σ} {m : Nat} {t : Tid} {ok : RosOk} {el : Int} (e : σ m = .go t ok el) {s' : St}
    (hg : (stateAt conf σ m).go conf t ok el = some s') : stateAt conf σ (m + 1) = s' := by
  rw [stateAt_succ, e]
  show ((stateAt conf σ m).go conf t ok el).getD _ = _
  rw [hg]
  rfl

/-- A step of a thread that waits: it stops waiting, or waits on. -/
theorem out_or {conf σ} {m : Nat} {t : Tid} {ok : RosOk} {el : Int} (e : σ m = .go t ok el) {srv : Bool} {k : Option (List String)}
    (hp : (stateAt conf σ m).pos t = .inside srv k) :
    Out conf σ m t srv k ∨ ((stateAt conf σ (m + 1)).pos t = .inside srv k ∧ ((stateAt conf σ m).mgr.poll ok el).svc ≠ .idle) := by
  by_cases hi : ((stateAt conf σ m).mgr.poll ok el).svc = .idle
  · refine Or.inl ⟨hp, { (stateAt conf σ m) with mgr := (stateAt conf σ m).mgr.poll ok el, controllers := none },
      last ((stateAt conf σ m).mgr.poll ok el), ?_, rfl⟩
    apply step_go e
    unfold St.go
    rw [hp]
    dsimp only
    rw [if_pos hi]
  · refine Or.inr ⟨?_, hi⟩
    rw [step_go e (s' := { (stateAt conf σ m) with mgr := (stateAt conf σ m).mgr.poll ok el }) ?_]
    · exact hp
    · unfold St.go
      rw [hp]
      dsimp only
      rw [if_neg hi]

/-- No thread waits for the realtime thread forever. -/
theorem out_of_inside {conf σ} (h : Fair conf σ) {n : Nat} {t : Tid} {srv : Bool} {k : Option (List String)}
    (hp : (stateAt conf σ n).pos t = .inside srv k) : ∃ m, n ≤ m ∧ Out conf σ m t srv k := by
  obtain ⟨u, hu, time, reset, hw, e, hs⟩ := h.updates n
  by_contra hno
  push Not at hno
  have stay : ∀ j, n ≤ j → (stateAt conf σ j).pos t = .inside srv k := by
    intro j hj
    induction j, hj using Nat.le_induction with
    | base => exact hp
    | succ j hj ih =>
      by_cases hg : ∃ ok el, σ j = .go t ok el
      · obtain ⟨ok, el, e⟩ := hg
        rcases out_or e ih with h1 | ⟨h1, _⟩
        · exact absurd h1 (hno j hj)
        · exact h1
      · rw [stateAt_succ, pos_step (by show _ ≠ _; rw [ih]; exact fun hh => by cases hh) _ (fun ok el e => hg ⟨ok, el, e⟩), ih]
  have hl : (stateAt conf σ (u + 1)).mgr.Leaves := by
    rw [stateAt_succ, e]
    exact leaves_update (sound_at h u).safe time reset hs
  have hp1 := stay (u + 1) (by omega)
  obtain ⟨v, ok, el, hv, ev, pv, qv⟩ := comes h (n := u + 1) (t := t) (by show _ ≠ _; rw [hp1]; exact fun hh => by cases hh)
    (fun s => s.mgr.Leaves) hl (by
      intro j hj hn hq
      show (stateAt conf σ (j + 1)).mgr.Leaves
      rw [stateAt_succ]
      refine leaves_step (sound_at h j) (((sound_at h j).locks.ctrl t).2 ?_) hq _ hn
      rw [hj, hp1]; rfl)
  rcases out_or ev (pv.trans hp1) with h1 | ⟨_, h1⟩
  · exact hno v (by omega) h1
  · exact h1 (poll_leaves_up (sound_at h v).locks.plain qv ok el)

/-- Some call returns later. -/
def Later (conf : List ControllerInfo → Bool) (σ : Nat → ThrOp) (n : Nat) : Prop := ∃ m, n ≤ m ∧ Returns conf σ m

theorem Later.mono {conf σ} {n n' : Nat} (h : Later conf σ n') (hn : n ≤ n') : Later conf σ n := by
  obtain ⟨m, h1, h2⟩ := h
  exact ⟨m, hn.trans h1, h2⟩

theorem returns_of {conf σ} {m : Nat} {t : Tid} (hb : Busy (stateAt conf σ m) t) {s3 : St} {srv : Bool} {a : Answer}
    (e : stateAt conf σ (m + 1) = s3.answer t srv a) (ha : s3.answers = (stateAt conf σ m).answers) : Later conf σ m := by
  refine ⟨m, le_rfl, t, a, hb, ?_, ?_⟩
  · rw [e]; simp [Busy, St.answer, St.at]
  · rw [e, ← ha]; rfl

/-- A function has returned: its caller does, or a reload goes on. -/
theorem later_back {conf σ} {m : Nat} {t : Tid} (hb : Busy (stateAt conf σ m) t) {s3 : St} {srv : Bool} {k : Option (List String)} {ev : Event}
    (e : stateAt conf σ (m + 1) = s3.back t srv k ev) (ha : s3.answers = (stateAt conf σ m).answers)
    (hr : ∀ rest, k = some rest → ∀ n, (stateAt conf σ n).pos t = next rest → Later conf σ n) : Later conf σ m := by
  unfold St.back at e
  split at e
  · exact returns_of hb e ha
  · split at e
    · exact (hr _ rfl (m + 1) (by rw [e]; simp [St.at])).mono (by omega)
    · exact returns_of hb e ha

theorem later_inside {conf σ} (h : Fair conf σ) {n : Nat} {t : Tid} {srv : Bool} {k : Option (List String)}
    (hp : (stateAt conf σ n).pos t = .inside srv k)
    (hr : ∀ rest, k = some rest → ∀ n, (stateAt conf σ n).pos t = next rest → Later conf σ n) : Later conf σ n := by
  obtain ⟨m, hm, h1, s3, ev, h2, h3⟩ := out_of_inside h hp
  refine (later_back (by show _ ≠ _; rw [h1]; exact fun hh => by cases hh) h2 h3 hr).mono hm

/-- A thread has got the lock. -/
theorem later_locked {conf σ} (h : Fair conf σ) {m : Nat} {t : Tid} (hb : Busy (stateAt conf σ m) t) {s1 : St} {srv : Bool}
    {k : Option (List String)} {x : Mgr} (e : stateAt conf σ (m + 1) = s1.locked t srv k x)
    (ha : s1.answers = (stateAt conf σ m).answers)
    (hr : ∀ rest, k = some rest → ∀ n, (stateAt conf σ n).pos t = next rest → Later conf σ n) : Later conf σ m := by
  unfold St.locked at e
  split at e
  · exact later_back hb e ha hr
  · exact (later_inside h (n := m + 1) (t := t) (srv := srv) (k := k) (by rw [e]; simp [St.at]) hr).mono (by omega)

theorem later_loaders {conf σ} (h : Fair conf σ) {n : Nat} {t : Tid} {k : Bool} (hp : (stateAt conf σ n).pos t = .atLoaders k) :
    Later conf σ n := by
  obtain ⟨m, ok, el, hm, e, pm⟩ := comes' h (n := n) (t := t) (by show _ ≠ _; rw [hp]; exact fun hh => by cases hh)
  rw [hp] at pm
  refine Later.mono (n' := m) ?_ hm
  have hs := step_go e (s' := { (stateAt conf σ m) with generation := (stateAt conf σ m).generation + 1 }.endReload t true)
    (by unfold St.go; rw [pm])
  exact returns_of (by show _ ≠ _; rw [pm]; exact fun hh => by cases hh) hs rfl

/-- A reload that meets another call inside the manager: that one returns. -/
theorem later_other {conf σ} (h : Fair conf σ) {m : Nat} {t t' : Tid} (ht : InService ((stateAt conf σ m).pos t) = true)
    (hni : Inside ((stateAt conf σ m).pos t) = false) (hc : (stateAt conf σ m).controllers = some t') : Later conf σ m := by
  have hl := (sound_at h m).locks
  have hin := (hl.ctrl t').1 hc
  cases hp : (stateAt conf σ m).pos t' with
  | inside srv k =>
    refine later_inside h hp fun rest hk => ?_
    exfalso
    subst hk
    have hw := hl.wf t'
    rw [hp] at hw
    have hw : srv = true := hw
    have h1 := hl.services_of ht
    have h2 := hl.services_of (t := t') (by rw [hp]; exact hw)
    rw [h1] at h2
    cases h2
    rw [hp] at hni
    cases hni
  | _ => rw [hp] at hin; cases hin

theorem later_rest {conf σ} (h : Fair conf σ) (t : Tid) (rest : List String) :
    ∀ n, (stateAt conf σ n).pos t = next rest → Later conf σ n := by
  induction rest with
  | nil =>
    intro n hp
    have hp : (stateAt conf σ n).pos t = .atEnd := hp
    obtain ⟨m, ok, el, hm, e, pm⟩ := comes' h (n := n) (t := t) (by show _ ≠ _; rw [hp]; exact fun hh => by cases hh)
    rw [hp] at pm
    refine Later.mono (n' := m) ?_ hm
    cases hc : (stateAt conf σ m).controllers with
    | some t' => exact later_other h (t := t) (by rw [pm]; rfl) (by rw [pm]; rfl) hc
    | none =>
      refine (later_loaders h (n := m + 1) (t := t) (k := true) ?_).mono (by omega)
      rw [step_go e (by unfold St.go; rw [pm]; dsimp only; rw [if_neg (by simp [hc])])]
      simp [St.at]
  | cons x xs ih =>
    intro n hp
    have hp : (stateAt conf σ n).pos t = .atUnload x xs := hp
    obtain ⟨m, ok, el, hm, e, pm⟩ := comes' h (n := n) (t := t) (by show _ ≠ _; rw [hp]; exact fun hh => by cases hh)
    rw [hp] at pm
    refine Later.mono (n' := m) ?_ hm
    cases hc : (stateAt conf σ m).controllers with
    | some t' => exact later_other h (t := t) (by rw [pm]; rfl) (by rw [pm]; rfl) hc
    | none =>
      have hs := step_go e (s' := (stateAt conf σ m).locked t true (some xs) ((stateAt conf σ m).mgr.unload x))
        (by unfold St.go; rw [pm]; dsimp only; rw [if_neg (by simp [hc]), if_neg (used_of_sound (sound_at h m) hc)])
      exact later_locked h (by show _ ≠ _; rw [pm]; exact fun hh => by cases hh) hs rfl fun rest hk => by cases hk; exact ih

/-- Somebody waits for the realtime thread. -/
theorem later_held {conf σ} (h : Fair conf σ) {m : Nat} {t : Tid} (hc : (stateAt conf σ m).controllers = some t) : Later conf σ m := by
  have hin := ((sound_at h m).locks.ctrl t).1 hc
  cases hp : (stateAt conf σ m).pos t with
  | inside srv k => exact later_inside h hp fun rest _ => later_rest h t rest
  | _ => rw [hp] at hin; cases hin

theorem later_atSwitch {conf σ} (h : Fair conf σ) {n : Nat} {t : Tid} {srv r now p k}
    (hp : (stateAt conf σ n).pos t = .atSwitch srv r now p k) : Later conf σ n := by
  obtain ⟨m, ok, el, hm, e, pm⟩ := comes' h (n := n) (t := t) (by show _ ≠ _; rw [hp]; exact fun hh => by cases hh)
  rw [hp] at pm
  refine Later.mono (n' := m) ?_ hm
  cases hc : (stateAt conf σ m).controllers with
  | some t' => exact later_held h hc
  | none =>
    have hs := step_go e (s' := (stateAt conf σ m).locked t srv k (switchLocked conf (stateAt conf σ m).mgr r now p).2)
      (by unfold St.go; rw [pm]; dsimp only; rw [if_neg (by simp [hc])])
    exact later_locked h (by show _ ≠ _; rw [pm]; exact fun hh => by cases hh) hs rfl fun rest _ => later_rest h t rest

theorem later_beforeSwitch {conf σ} (h : Fair conf σ) {n : Nat} {t : Tid} {srv r now p k}
    (hp : (stateAt conf σ n).pos t = .beforeSwitch srv r now p k) : Later conf σ n := by
  obtain ⟨m, ok, el, hm, e, pm⟩ := comes' h (n := n) (t := t) (by show _ ≠ _; rw [hp]; exact fun hh => by cases hh)
  rw [hp] at pm
  refine Later.mono (n' := m) ?_ hm
  refine (later_atSwitch h (n := m + 1) (t := t) (srv := srv) (r := r) (now := now) (p := p) (k := k) ?_).mono (by omega)
  rw [step_go e (by unfold St.go; rw [pm])]
  simp [St.at]

theorem later_entered {conf σ} (h : Fair conf σ) {n : Nat} {t : Tid} {srv c}
    (hp : (stateAt conf σ n).pos t = .entered srv c) : Later conf σ n := by
  obtain ⟨m, ok, el, hm, e, pm⟩ := comes' h (n := n) (t := t) (by show _ ≠ _; rw [hp]; exact fun hh => by cases hh)
  rw [hp] at pm
  refine Later.mono (n' := m) ?_ hm
  have hb : Busy (stateAt conf σ m) t := by show _ ≠ _; rw [pm]; exact fun hh => by cases hh
  cases hc : (stateAt conf σ m).controllers with
  | some t' => exact later_held h hc
  | none =>
    have hu := used_of_sound (sound_at h m) hc
    cases c with
    | load n env =>
      have hs := step_go e (by unfold St.go; rw [pm]; dsimp only; rw [if_neg (by simp [hc]), if_neg hu])
      exact later_locked h hb hs rfl fun rest hk => by cases hk
    | unload n =>
      have hs := step_go e (by unfold St.go; rw [pm]; dsimp only; rw [if_neg (by simp [hc]), if_neg hu])
      exact later_locked h hb hs rfl fun rest hk => by cases hk
    | names =>
      have hs := step_go e (by unfold St.go; rw [pm]; dsimp only; rw [if_neg (by simp [hc])])
      exact returns_of hb hs rfl
    | switch r now p =>
      have hs := step_go e (by unfold St.go; rw [pm])
      exact (later_beforeSwitch h (n := m + 1) (t := t) (srv := srv) (r := r) (now := now) (p := p) (k := none)
        (by rw [hs]; simp [St.at])).mono (by omega)
    | reload f now p =>
      by_cases h1 : (!(stateAt conf σ m).mgr.getControllerNames.isEmpty && !f) = true
      · have hs := step_go e (by unfold St.go; rw [pm]; dsimp only; rw [if_neg (by simp [hc]), if_pos h1])
        exact returns_of hb hs rfl
      · by_cases h2 : (!(stateAt conf σ m).mgr.getControllerNames.isEmpty) = true
        · have hs := step_go e (by unfold St.go; rw [pm]; dsimp only; rw [if_neg (by simp [hc]), if_neg h1, if_pos h2])
          exact (later_beforeSwitch h (n := m + 1) (t := t) (srv := srv) (now := now) (p := p)
            (by rw [hs]; simp [St.at]; exact ⟨rfl, rfl⟩)).mono (by omega)
        · have hs := step_go e (by unfold St.go; rw [pm]; dsimp only; rw [if_neg (by simp [hc]), if_neg h1, if_neg h2])
          exact (later_loaders h (n := m + 1) (t := t) (k := false) (by rw [hs]; simp [St.at])).mono (by omega)

/-- While a thread is busy, some call returns later. -/
theorem later_busy {conf σ} (h : Fair conf σ) {n : Nat} {t : Tid} (hb : Busy (stateAt conf σ n) t) : Later conf σ n := by
  have most : ∀ n t, Busy (stateAt conf σ n) t → (∀ c, (stateAt conf σ n).pos t ≠ .atServices c) → Later conf σ n := by
    intro n t hb hn
    cases hp : (stateAt conf σ n).pos t with
    | idle => exact absurd hp hb
    | atServices c => exact absurd hp (hn c)
    | entered srv c => exact later_entered h hp
    | beforeSwitch srv r now p k => exact later_beforeSwitch h hp
    | atSwitch srv r now p k => exact later_atSwitch h hp
    | atUnload x xs => exact later_rest h t (x :: xs) n hp
    | atEnd => exact later_rest h t [] n hp
    | atLoaders k => exact later_loaders h hp
    | inside srv k => exact later_inside h hp fun rest _ => later_rest h t rest
  cases hp : (stateAt conf σ n).pos t with
  | atServices c =>
    obtain ⟨m, ok, el, hm, e, pm⟩ := comes' h hb
    rw [hp] at pm
    refine Later.mono (n' := m) ?_ hm
    cases hc : (stateAt conf σ m).services with
    | some t' =>
      have hs := ((sound_at h m).locks.srv t').1 hc
      refine most m t' (fun e => ?_) (fun c e => ?_) <;> (rw [e] at hs; cases hs)
    | none =>
      have hs := step_go e (by unfold St.go; rw [pm]; dsimp only; rw [if_pos hc])
      exact (later_entered h (n := m + 1) (t := t) (srv := true) (c := c) (by rw [hs]; simp [St.at])).mono (by omega)
  | _ => exact most n t hb (fun c e => by rw [hp] at e; cases e)

/-- If calls come to an end, so do the threads. -/
theorem all_return {conf σ} (h : Fair conf σ) {N : Nat} (hN : ∀ n, N ≤ n → ∀ t srv c, σ n ≠ .call t srv c) :
    ∃ M, N ≤ M ∧ ∀ n, M ≤ n → ∀ t, ¬ Busy (stateAt conf σ n) t := by
  -- an idle thread stays idle
  have stay : ∀ t n, N ≤ n → ¬ Busy (stateAt conf σ n) t → ¬ Busy (stateAt conf σ (n + 1)) t := by
    intro t n hn hi
    rw [stateAt_succ]
    have hi : (stateAt conf σ n).pos t = .idle := by simpa [Busy] using hi
    intro hb
    apply hb
    cases e : σ n with
    | call t' srv c => exact absurd e (hN n hn t' srv c)
    | go t' ok el =>
      show (((stateAt conf σ n).go conf t' ok el).getD _).pos t = _
      cases hg : (stateAt conf σ n).go conf t' ok el with
      | none => exact hi
      | some s' =>
        by_cases ht : t' = t
        · subst ht
          unfold St.go at hg
          rw [hi] at hg
          cases hg
        · show s'.pos t = _
          rw [go_others hg t (fun e => ht e.symm)]
          exact hi
    | update time reset hw => exact hi
  have stays : ∀ t n, N ≤ n → ¬ Busy (stateAt conf σ n) t → ∀ m, n ≤ m → ¬ Busy (stateAt conf σ m) t := by
    intro t n hn hi m hm
    induction m, hm using Nat.le_induction with
    | base => exact hi
    | succ m hm ih => exact stay t m (hn.trans hm) ih
  have key : ∀ L : List Tid, ∀ n, N ≤ n → (∀ t, t ∉ L → ¬ Busy (stateAt conf σ n) t) →
      ∃ M, N ≤ M ∧ ∀ m, M ≤ m → ∀ t, ¬ Busy (stateAt conf σ m) t := by
    intro L
    induction hk : L.length using Nat.strong_induction_on generalizing L with
    | _ k ih =>
      intro n hn hL
      by_cases hb : ∃ t, Busy (stateAt conf σ n) t
      · obtain ⟨t, hb⟩ := hb
        obtain ⟨m, hm, t', a, h1, h2, _⟩ := later_busy h hb
        have ht : t' ∈ L := by
          by_contra hh
          exact stays t' n hn (hL t' hh) m hm h1
        refine ih (L.filter (· ≠ t')).length ?_ (L.filter (· ≠ t')) rfl (m + 1) (by omega) fun x hx => ?_
        · rw [← hk]
          exact List.length_filter_lt_length_iff_exists.2 ⟨t', ht, by simp⟩
        · by_cases e : x = t'
          · rw [e]; exact h2
          · refine stays x n hn (hL x fun hh => hx ?_) (m + 1) (by omega)
            simp [hh, e]
      · push Not at hb
        exact ⟨n, hn, fun m hm t => stays t n hn (hb t) m hm⟩
  obtain ⟨L, hL⟩ := finite_after conf ((List.range N).map σ)
  exact key L N le_rfl fun t ht hb => hb (hL t ht)

end Thr

end Verif
