import Verif.Lemmas.Threads
import Verif.Lemmas.ClientProgress

/-!
Helper lemmas for calls by several threads: from every state all calls can be brought to an end.
-/

namespace Verif

namespace Thr

open Mgr Spec

/-- What holds in every history. -/
structure Sound (s : St) : Prop where
  locks : Locks s
  safe : Safe (fun _ => True) s.mgr

theorem sound_step {conf} {s : St} (h : Sound s) (op : ThrOp) (hop : op.rosUp) : Sound (s.step conf op) := by
  refine ⟨locks_step h.locks op, ?_⟩
  cases op with
  | call t srv c =>
    show Safe _ (s.call t srv c).mgr
    rcases call_cases s t srv c with e | ⟨hpos, _, e⟩ | ⟨hpos, _, hnr, e⟩ <;> (rw [e]; exact h.safe)
  | go t ok el =>
    show Safe _ ((s.go conf t ok el).getD s).mgr
    cases e : s.go conf t ok el with
    | none => exact h.safe
    | some s' =>
      obtain ⟨m, es, h1, h2, _⟩ := (go_stepOf h.locks t ok el e).mgr
      show Safe _ s'.mgr
      rw [h2]
      exact safe_emit (safe_effect (checkOk_true conf) h.safe h.locks.plain hop h1) es
  | update time reset hw => exact safe_update (fun _ _ _ _ => trivial) h.safe time reset hw

theorem sound_after (conf : List ControllerInfo → Bool) (ops : List ThrOp) (hup : ∀ op ∈ ops, op.rosUp) :
    Sound (after conf ops) :=
  ⟨locks_after conf ops, safe_after (checkOk_true conf) ops hup⟩

/-- The thread can be brought to the end of its call; nobody else moves. -/
def Fin (conf : List ControllerInfo → Bool) (hw : HwReply) (s : St) (t : Tid) : Prop :=
  ∃ more : List ThrOp, (∀ op ∈ more, (∃ t', op = .go t' {} 0) ∨ op = .update 0 false hw) ∧
    (s.run conf more).pos t = .idle ∧ (∀ t' ≠ t, (s.run conf more).pos t' = s.pos t') ∧
    (s.run conf more).controllers = none ∧ Sound (s.run conf more)

theorem fin_now {conf hw} {s : St} (h : Sound s) {t : Tid} (hp : s.pos t = .idle) (hc : s.controllers = none) : Fin conf hw s t :=
  ⟨[], by simp, hp, fun _ _ => rfl, hc, h⟩

theorem fin_go {conf hw} {s s' : St} {t : Tid} (hg : s.go conf t {} 0 = some s') (hp : ∀ t' ≠ t, s'.pos t' = s.pos t')
    (h : Fin conf hw s' t) : Fin conf hw s t := by
  obtain ⟨more, h1, h2, h3, h4, h5⟩ := h
  have e : s.run conf (.go t {} 0 :: more) = s'.run conf more := by
    show ((s.go conf t {} 0).getD s).run conf more = _
    rw [hg]
    rfl
  refine ⟨.go t {} 0 :: more, ?_, ?_, ?_, ?_, ?_⟩
  · intro op hop
    rcases List.mem_cons.1 hop with h | h
    · exact Or.inl ⟨t, h⟩
    · exact h1 op h
  · rw [e]; exact h2
  · intro t' ht
    rw [e, h3 t' ht, hp t' ht]
  · rw [e]; exact h4
  · rw [e]; exact h5

theorem fin_update {conf hw} {s : St} {t : Tid} (h : Fin conf hw { s with mgr := s.mgr.update 0 false hw } t) : Fin conf hw s t := by
  obtain ⟨more, h1, h2, h3, h4, h5⟩ := h
  refine ⟨.update 0 false hw :: more, ?_, h2, h3, h4, h5⟩
  intro op hop
  rcases List.mem_cons.1 hop with h | h
  · exact Or.inr h
  · exact h1 op h

theorem sound_go {conf} {s s' : St} (h : Sound s) {t : Tid} (hg : s.go conf t {} 0 = some s') : Sound s' := by
  have := sound_step (conf := conf) h (.go t {} 0) ⟨rfl, rfl⟩
  rw [show s.step conf (.go t {} 0) = s' by show (s.go conf t {} 0).getD s = s'; rw [hg]; rfl] at this
  exact this

theorem leaves_safe {P} {m : Mgr} (h : Safe P m) {hw : HwReply} (hs : Settled hw) : (m.update 0 false hw).Leaves := by
  rcases h with h | ⟨⟨k, t, h1⟩, h2, _⟩
  · exact leaves_settled h 0 false hs
  · have e := svc_update m 0 false hw
    refine ⟨fun k t _ => ?_, fun f r e' => ?_⟩
    · rw [update_idle m h2]; exact h2
    · rw [e, h1] at e'; cases e'

theorem poll_leaves {m : Mgr} (hpl : Plain m.svc) (h : m.Leaves) : (m.poll {} 0).svc = .idle := by
  unfold Mgr.poll
  split
  · rename_i e; exact e
  · rename_i k t e
    rw [e] at hpl
    obtain rfl : k = .ret := hpl
    rw [h.1 _ _ e]
    rfl
  · rename_i f r e
    rw [e] at hpl
    rw [if_neg (by simpa using h.2 f r e)]
    cases r with
    | load n => rfl
    | unload n k =>
      obtain rfl : k = .ret := hpl
      rfl
  · rename_i e; rw [e] at hpl; cases hpl
  · rename_i e; rw [e] at hpl; cases hpl

theorem back_pos {s : St} {t : Tid} (srv : Bool) (k : Option (List String)) (e : Event) :
    ((s.back t srv k e).pos t = .idle ∨ ∃ rest, k = some rest ∧ (s.back t srv k e).pos t = next rest) ∧
    (∀ t' ≠ t, (s.back t srv k e).pos t' = s.pos t') ∧ (s.back t srv k e).controllers = s.controllers := by
  unfold St.back
  split
  · exact ⟨Or.inl (by simp [St.answer, St.at]), fun t' ht => by simp [St.answer, St.at, ht], rfl⟩
  · split
    · exact ⟨Or.inr ⟨_, rfl, by simp [St.at]⟩, fun t' ht => by simp [St.at, ht], rfl⟩
    · exact ⟨Or.inl (by simp [St.endReload, St.answer, St.at]), fun t' ht => by simp [St.endReload, St.answer, St.at, ht], rfl⟩

theorem locked_others {s : St} {t : Tid} (srv : Bool) (k : Option (List String)) (m : Mgr) :
    ∀ t' ≠ t, (s.locked t srv k m).pos t' = s.pos t' := by
  intro t' ht
  unfold St.locked
  split
  · exact (back_pos (s := { s with mgr := m }) (t := t) srv k (last m)).2.1 t' ht
  · show (if t' = t then _ else s.pos t') = _
    rw [if_neg ht]

theorem go_others {conf} {s s' : St} {t : Tid} {ok : RosOk} {el : Int} (hg : s.go conf t ok el = some s') :
    ∀ t' ≠ t, s'.pos t' = s.pos t' := by
  intro t' ht
  unfold St.go at hg
  simp only at hg
  repeat' split at hg
  all_goals first | cases hg
  all_goals first
    | rfl
    | exact locked_others _ _ _ t' ht
    | exact (back_pos _ _ _).2.1 t' ht
    | simp [St.at, St.answer, St.endReload, ht]

/-- The rest of a reload can be done. -/
def Rest (conf : List ControllerInfo → Bool) (hw : HwReply) (t : Tid) (rest : List String) : Prop :=
  ∀ s, Sound s → s.controllers = none → s.pos t = next rest → Fin conf hw s t

theorem fin_inside {conf hw} (hs : Settled hw) {s : St} (h : Sound s) {t : Tid} {srv : Bool} {k : Option (List String)}
    (hp : s.pos t = .inside srv k) (hr : ∀ rest, k = some rest → Rest conf hw t rest) : Fin conf hw s t := by
  apply fin_update
  have h1 : Sound { s with mgr := s.mgr.update 0 false hw } := sound_step (conf := conf) h (.update 0 false hw) trivial
  have hi : ((s.mgr.update 0 false hw).poll {} 0).svc = .idle := poll_leaves h1.locks.plain (leaves_safe h.safe hs)
  obtain ⟨s2, hg⟩ : ∃ s2, ({ s with mgr := s.mgr.update 0 false hw } : St).go conf t {} 0 = some s2 ∧
      ∃ s3 e, s2 = St.back s3 t srv k e ∧ s3.pos = s.pos ∧ s3.controllers = none := by
    refine ⟨_, ?_, { s with mgr := (s.mgr.update 0 false hw).poll {} 0, controllers := none }, last ((s.mgr.update 0 false hw).poll {} 0), rfl, rfl, rfl⟩
    unfold St.go
    dsimp only
    rw [hp]
    dsimp only
    rw [if_pos hi]
  obtain ⟨hg, s3, e, rfl, hp3, hc3⟩ := hg
  obtain ⟨b1, b2, b3⟩ := back_pos (s := s3) (t := t) srv k e
  have h2 := sound_go h1 hg
  refine fin_go hg (fun t' ht => by rw [b2 t' ht, hp3]) ?_
  rcases b1 with b1 | ⟨rest, rfl, b1⟩
  · exact fin_now h2 b1 (b3.trans hc3)
  · exact hr rest rfl _ h2 (b3.trans hc3) b1

/-- A thread that has got the lock can finish its call. -/
theorem fin_locked {conf hw} (hs : Settled hw) {s s1 : St} (h : Sound s) {t : Tid} {srv : Bool} {k : Option (List String)} {m : Mgr}
    (hg : s.go conf t {} 0 = some (s1.locked t srv k m)) (hp : s1.pos = s.pos) (hc : s1.controllers = none)
    (hr : ∀ rest, k = some rest → Rest conf hw t rest) : Fin conf hw s t := by
  have h2 := sound_go h hg
  have hq : ∀ t' ≠ t, (s1.locked t srv k m).pos t' = s.pos t' := by
    intro t' ht
    unfold St.locked
    split
    · rw [(back_pos (s := { s1 with mgr := m }) (t := t) srv k (last m)).2.1 t' ht]
      exact congrFun hp t'
    · show (if t' = t then _ else s1.pos t') = _
      rw [if_neg ht, hp]
  refine fin_go hg hq ?_
  revert h2
  unfold St.locked
  split
  · intro h2
    obtain ⟨b1, _, b3⟩ := back_pos (s := { s1 with mgr := m }) (t := t) srv k (last m)
    rcases b1 with b1 | ⟨rest, rfl, b1⟩
    · exact fin_now h2 b1 (b3.trans hc)
    · exact hr rest rfl _ h2 (b3.trans hc) b1
  · intro h2
    exact fin_inside hs h2 (srv := srv) (k := k) (by simp [St.at]) hr

theorem used_of_sound {s : St} (h : Sound s) (hc : s.controllers = none) : s.mgr.used ≠ some (!s.mgr.current) := by
  have hi := h.locks.svc.1 hc
  refine (h.safe.inv ?_).used ?_
  · rintro ⟨k, t, e⟩; rw [hi] at e; cases e
  · rintro ⟨f, r, e⟩; rw [hi] at e; cases e

theorem fin_loaders {conf hw} {s : St} (h : Sound s) {t : Tid} {k : Bool} (hc : s.controllers = none)
    (hp : s.pos t = .atLoaders k) : Fin conf hw s t := by
  have hg : s.go conf t {} 0 = some ({ s with generation := s.generation + 1 }.endReload t true) := by
    unfold St.go; rw [hp]
  refine fin_go hg (fun t' ht => by simp [St.endReload, St.answer, St.at, ht]) ?_
  exact fin_now (sound_go h hg) (by simp [St.endReload, St.answer, St.at]) hc

theorem rest_done {conf hw} (hs : Settled hw) (t : Tid) (rest : List String) : Rest conf hw t rest := by
  induction rest with
  | nil =>
    intro s h hc hp
    have hp : s.pos t = .atEnd := hp
    have hg : s.go conf t {} 0 = some { (s.at t (.atLoaders true)) with
        assertFailed := s.assertFailed || !s.mgr.getControllerNames.isEmpty } := by
      unfold St.go; rw [hp]; dsimp only; rw [if_neg (by simp [hc])]
    refine fin_go hg (fun t' ht => by simp [St.at, ht]) ?_
    exact fin_loaders (sound_go h hg) (k := true) hc (by simp [St.at])
  | cons n ns ih =>
    intro s h hc hp
    have hp : s.pos t = .atUnload n ns := hp
    have hg : s.go conf t {} 0 = some (s.locked t true (some ns) (s.mgr.unload n)) := by
      unfold St.go; rw [hp]; dsimp only; rw [if_neg (by simp [hc]), if_neg (used_of_sound h hc)]
    exact fin_locked hs h hg rfl hc fun rest e => by cases e; exact ih

theorem fin_atSwitch {conf hw} (hs : Settled hw) {s : St} (h : Sound s) {t : Tid} (hc : s.controllers = none)
    {srv r now p k} (hp : s.pos t = .atSwitch srv r now p k) : Fin conf hw s t := by
  have hg : s.go conf t {} 0 = some (s.locked t srv k (switchLocked conf s.mgr r now p).2) := by
    unfold St.go; rw [hp]; dsimp only; rw [if_neg (by simp [hc])]
  exact fin_locked hs h hg rfl hc fun rest _ => rest_done hs t rest

theorem fin_beforeSwitch {conf hw} (hs : Settled hw) {s : St} (h : Sound s) {t : Tid} (hc : s.controllers = none)
    {srv r now p k} (hp : s.pos t = .beforeSwitch srv r now p k) : Fin conf hw s t := by
  have hg : s.go conf t {} 0 = some ({ s with mgr := { s.mgr with params := {} } }.at t (.atSwitch srv r now p k)) := by
    unfold St.go; rw [hp]
  refine fin_go hg (fun t' ht => by simp [St.at, ht]) ?_
  exact fin_atSwitch hs (sound_go h hg) hc (srv := srv) (r := r) (now := now) (p := p) (k := k) (by simp [St.at])

theorem fin_entered {conf hw} (hs : Settled hw) {s : St} (h : Sound s) {t : Tid} (hc : s.controllers = none)
    {srv c} (hp : s.pos t = .entered srv c) : Fin conf hw s t := by
  have hu := used_of_sound h hc
  cases c with
  | load n env =>
    have hg : s.go conf t {} 0 = some ({ s with made := fun c => if c = s.mgr.nextId then s.generation else s.made c }.locked t srv none
        (s.mgr.load n env)) := by
      unfold St.go; rw [hp]; dsimp only; rw [if_neg (by simp [hc]), if_neg hu]
    exact fin_locked hs h hg rfl hc fun rest e => by cases e
  | unload n =>
    have hg : s.go conf t {} 0 = some (s.locked t srv none (s.mgr.unload n)) := by
      unfold St.go; rw [hp]; dsimp only; rw [if_neg (by simp [hc]), if_neg hu]
    exact fin_locked hs h hg rfl hc fun rest e => by cases e
  | names =>
    have hg : s.go conf t {} 0 = some (s.answer t srv (.names s.mgr.getControllerNames)) := by
      unfold St.go; rw [hp]; dsimp only; rw [if_neg (by simp [hc])]
    refine fin_go hg (fun t' ht => by simp [St.answer, St.at, ht]) ?_
    exact fin_now (sound_go h hg) (by simp [St.answer, St.at]) hc
  | switch r now p =>
    have hg : s.go conf t {} 0 = some (s.at t (.beforeSwitch srv r now p none)) := by
      unfold St.go; rw [hp]
    refine fin_go hg (fun t' ht => by simp [St.at, ht]) ?_
    exact fin_beforeSwitch hs (sound_go h hg) hc (srv := srv) (r := r) (now := now) (p := p) (k := none) (by simp [St.at])
  | reload f now p =>
    obtain ⟨s', hg⟩ : ∃ s', s.go conf t {} 0 = some s' ∧ (s' = s.endReload t false ∨
        (∃ r k, s' = s.at t (.beforeSwitch srv r now p k)) ∨ s' = s.at t (.atLoaders false)) := by
      unfold St.go
      rw [hp]
      dsimp only
      rw [if_neg (by simp [hc])]
      repeat' split
      · exact ⟨_, rfl, Or.inl rfl⟩
      · exact ⟨_, rfl, Or.inr (Or.inl ⟨_, _, rfl⟩)⟩
      · exact ⟨_, rfl, Or.inr (Or.inr rfl)⟩
    obtain ⟨hg, rfl | ⟨r, k, rfl⟩ | rfl⟩ := hg
    · refine fin_go hg (fun t' ht => by simp [St.endReload, St.answer, St.at, ht]) ?_
      exact fin_now (sound_go h hg) (by simp [St.endReload, St.answer, St.at]) hc
    · refine fin_go hg (fun t' ht => by simp [St.at, ht]) ?_
      exact fin_beforeSwitch hs (sound_go h hg) hc (srv := srv) (r := r) (now := now) (p := p) (k := k) (by simp [St.at])
    · refine fin_go hg (fun t' ht => by simp [St.at, ht]) ?_
      exact fin_loaders (sound_go h hg) hc (k := false) (by simp [St.at])

/-- If nobody holds a lock that the thread needs, it can finish its call. -/
theorem fin_alone {conf hw} (hs : Settled hw) {s : St} (h : Sound s) {t : Tid}
    (hc : s.controllers = none ∨ s.controllers = some t) (hv : s.services = none ∨ s.services = some t) : Fin conf hw s t := by
  have free : Inside (s.pos t) = false → s.controllers = none := by
    intro hi
    rcases hc with h1 | h1
    · exact h1
    · rw [(h.locks.ctrl t).1 h1] at hi; cases hi
  cases hp : s.pos t with
  | idle => exact fin_now h hp (free (by rw [hp]; rfl))
  | atServices c =>
    have hc := free (by rw [hp]; rfl)
    have hv : s.services = none := by
      rcases hv with h1 | h1
      · exact h1
      · have := (h.locks.srv t).1 h1
        rw [hp] at this; cases this
    have hg : s.go conf t {} 0 = some { (s.at t (.entered true c)) with services := some t } := by
      unfold St.go; rw [hp]; dsimp only; rw [if_pos hv]
    refine fin_go hg (fun t' ht => by simp [St.at, ht]) ?_
    exact fin_entered hs (sound_go h hg) hc (srv := true) (c := c) (by simp [St.at])
  | entered srv c => exact fin_entered hs h (free (by rw [hp]; rfl)) hp
  | beforeSwitch srv r now p k => exact fin_beforeSwitch hs h (free (by rw [hp]; rfl)) hp
  | atSwitch srv r now p k => exact fin_atSwitch hs h (free (by rw [hp]; rfl)) hp
  | atUnload n ns => exact rest_done hs t (n :: ns) s h (free (by rw [hp]; rfl)) hp
  | atEnd => exact rest_done hs t [] s h (free (by rw [hp]; rfl)) hp
  | atLoaders k => exact fin_loaders h (free (by rw [hp]; rfl)) hp
  | inside srv k => exact fin_inside hs h hp fun rest _ => rest_done hs t rest

/-- All of these threads can be brought to the end of their calls. -/
def FinAll (conf : List ControllerInfo → Bool) (hw : HwReply) (s : St) : Prop :=
  ∃ more : List ThrOp, (∀ op ∈ more, (∃ t', op = .go t' {} 0) ∨ op = .update 0 false hw) ∧ ∀ t, (s.run conf more).pos t = .idle

theorem finAll_of_fin {conf hw} {s : St} {t : Tid} (h : Fin conf hw s t)
    (hall : ∀ s', Sound s' → s'.pos t = .idle → (∀ t' ≠ t, s'.pos t' = s.pos t') → s'.controllers = none → FinAll conf hw s') :
    FinAll conf hw s := by
  obtain ⟨more, h1, h2, h3, h4, h5⟩ := h
  obtain ⟨more', g1, g2⟩ := hall _ h5 h2 h3 h4
  refine ⟨more ++ more', ?_, fun t' => ?_⟩
  · intro op hop
    rcases List.mem_append.1 hop with h | h
    · exact h1 op h
    · exact g1 op h
  · rw [show s.run conf (more ++ more') = (s.run conf more).run conf more' by simp [St.run, List.foldl_append]]
    exact g2 t'

theorem services_none {s : St} (h : Sound s) (hs : ∀ t, InService (s.pos t) = false) : s.services = none := by
  cases e : s.services with
  | none => rfl
  | some t =>
    have := (h.locks.srv t).1 e
    rw [hs t] at this
    cases this

theorem finAll_list {conf hw} (hs : Settled hw) (L : List Tid) : ∀ s, Sound s → s.controllers = none →
    (∀ t, InService (s.pos t) = false) → (∀ t, t ∉ L → s.pos t = .idle) → FinAll conf hw s := by
  induction L with
  | nil => exact fun s h _ _ hl => ⟨[], by simp, fun t => hl t (by simp)⟩
  | cons t L ih =>
    intro s h hc hv hl
    refine finAll_of_fin (t := t) (fin_alone hs h (Or.inl hc) (Or.inl (services_none h hv))) fun s' h' hp ho hc' => ?_
    refine ih s' h' hc' (fun t' => ?_) (fun t' ht => ?_)
    · by_cases e : t' = t
      · rw [e, hp]; rfl
      · rw [ho t' e]; exact hv t'
    · by_cases e : t' = t
      · rw [e, hp]
      · rw [ho t' e]
        exact hl t' (by simp [e, ht])

theorem finAll {conf hw} (hs : Settled hw) (L : List Tid) {s : St} (h : Sound s) (hl : ∀ t, t ∉ L → s.pos t = .idle) :
    FinAll conf hw s := by
  -- first the thread that holds the lock of the services
  have second : ∀ s, Sound s → s.controllers = none → (∀ t, t ∉ L → s.pos t = .idle) → FinAll conf hw s := by
    intro s h hc hl
    by_cases hv : ∀ t, InService (s.pos t) = false
    · exact finAll_list hs L s h hc hv hl
    · obtain ⟨t, ht⟩ := not_forall.1 hv
      have ht : InService (s.pos t) = true := by simpa using ht
      have hst := h.locks.services_of ht
      refine finAll_of_fin (t := t) (fin_alone hs h (Or.inl hc) (Or.inr hst)) fun s' h' hp ho hc' => ?_
      refine finAll_list hs L s' h' hc' (fun t' => ?_) (fun t' ht' => ?_)
      · by_cases e : t' = t
        · rw [e, hp]; rfl
        · rw [ho t' e]
          by_contra hh
          have hh : InService (s.pos t') = true := by simpa using hh
          have := h.locks.services_of hh
          rw [hst] at this
          cases this
          exact e rfl
      · by_cases e : t' = t
        · rw [e, hp]
        · rw [ho t' e]
          exact hl t' ht'
  cases hc : s.controllers with
  | none => exact second s h hc hl
  | some t =>
    have hin := (h.locks.ctrl t).1 hc
    have hf : Fin conf hw s t := by
      cases hp : s.pos t with
      | inside srv k => exact fin_inside hs h hp fun rest _ => rest_done hs t rest
      | _ => rw [hp] at hin; cases hin
    refine finAll_of_fin hf fun s' h' hp ho hc' => second s' h' hc' fun t' ht' => ?_
    by_cases e : t' = t
    · rw [e, hp]
    · rw [ho t' e]
      exact hl t' ht'

/-- Only threads that have made a call are busy. -/
theorem finite_after (conf : List ControllerInfo → Bool) (ops : List ThrOp) :
    ∃ L : List Tid, ∀ t, t ∉ L → (after conf ops).pos t = .idle := by
  induction ops using List.reverseRecOn with
  | nil => exact ⟨[], fun _ _ => rfl⟩
  | append_singleton ops op ih =>
    obtain ⟨L, ih⟩ := ih
    have hl := locks_after conf ops
    unfold after at ih hl ⊢
    rw [run_concat]
    generalize ({} : St).run conf ops = s at ih hl
    cases op with
    | call t srv c =>
      refine ⟨t :: L, fun t' ht => ?_⟩
      show (s.call t srv c).pos t' = .idle
      simp only [List.mem_cons, not_or] at ht
      rcases call_cases s t srv c with e | ⟨hpos, _, e⟩ | ⟨hpos, _, hnr, e⟩ <;> rw [e]
      · exact ih t' ht.2
      · simp [St.at, ht.1, ih t' ht.2]
      · simp [St.at, ht.1, ih t' ht.2]
    | go t ok el =>
      refine ⟨t :: L, fun t' ht => ?_⟩
      simp only [List.mem_cons, not_or] at ht
      show ((s.go conf t ok el).getD s).pos t' = .idle
      cases e : s.go conf t ok el with
      | none => exact ih t' ht.2
      | some s' =>
        show s'.pos t' = .idle
        rw [go_others e t' ht.1]
        exact ih t' ht.2
    | update time reset hw => exact ⟨L, ih⟩

end Thr

end Verif
