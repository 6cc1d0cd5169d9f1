import Verif.Spec.Alternation
import Verif.Lemmas.ManagerRelease

/-!
Helper lemmas: the callbacks of every controller follow its life.
-/

namespace Verif

namespace Mgr

theorem lifeFrom_append (lax : Bool) (c : CId) (p : Life) (a b : List Event) :
    lifeFrom lax c p (a ++ b) = (lifeFrom lax c p a).bind fun q => lifeFrom lax c q b := by
  induction a generalizing p with
  | nil => rfl
  | cons e a ih =>
    rw [List.cons_append, lifeFrom, lifeFrom]
    cases p.see lax c e with
    | none => rfl
    | some q => exact ih q

/-- Events that no observer of a controller notices. -/
def Unseen (es : List Event) : Prop := ∀ c, (∀ k, .cb c k ∉ es) ∧ .destroyed c ∉ es

theorem lifeFrom_unseen {lax : Bool} {c : CId} {p : Life} {es : List Event} (h : Unseen es) :
    lifeFrom lax c p es = some p := by
  induction es generalizing p with
  | nil => rfl
  | cons e es ih =>
    have he : p.see lax c e = some p := by
      cases e with
      | cb c' k => exact absurd (List.mem_cons_self) ((h c').1 k)
      | destroyed c' => exact absurd (List.mem_cons_self) (h c').2
      | _ => rfl
    rw [lifeFrom, he]
    exact ih fun x => ⟨fun k hk => (h x).1 k (List.mem_cons_of_mem _ hk), fun hk => (h x).2 (List.mem_cons_of_mem _ hk)⟩

/-- The observers agree with the manager. -/
def Track (lax : Bool) (m : Mgr) : Prop :=
  ∀ c, ∃ p, life lax c m.trace = some p ∧ (p = .running ↔ m.state c = .running) ∧
    (p = .destroyed → c < m.nextId ∧ m.alive c = false)

theorem track_init (lax : Bool) : Track lax Mgr.init := fun _ =>
  ⟨.idle, rfl, by simp [Mgr.init], by simp⟩

/-- Changes that observers do not notice. -/
theorem track_unseen {lax : Bool} {m m' : Mgr} (h : Track lax m) {es : List Event} (he : Unseen es)
    (h1 : m'.trace = m.trace ++ es) (h2 : ∀ c, m'.state c = .running ↔ m.state c = .running)
    (h3 : m.nextId ≤ m'.nextId) (h4 : ∀ c, c < m.nextId → m.alive c = false → m'.alive c = false) : Track lax m' := by
  intro c
  obtain ⟨p, a1, a2, a3⟩ := h c
  refine ⟨p, ?_, a2.trans (h2 c).symm, fun e => ⟨(a3 e).1.trans_le h3, h4 c (a3 e).1 (a3 e).2⟩⟩
  unfold life at *
  rw [h1, lifeFrom_append, a1]
  exact lifeFrom_unseen he

/-- The same lists of controllers and requests. -/
structure Frame (m m' : Mgr) : Prop where
  cur : m'.cur = m.cur
  oth : m'.oth = m.oth
  nextId : m'.nextId = m.nextId
  startReq : m'.startReq = m.startReq
  stopReq : m'.stopReq = m.stopReq
  params : m'.params = m.params

theorem Frame.refl (m : Mgr) : Frame m m := ⟨rfl, rfl, rfl, rfl, rfl, rfl⟩

theorem Frame.trans {a b c : Mgr} (h : Frame a b) (k : Frame b c) : Frame a c :=
  ⟨k.1.trans h.1, k.2.trans h.2, k.3.trans h.3, k.4.trans h.4, k.5.trans h.5, k.6.trans h.6⟩

theorem Frame.alive {m m' : Mgr} (h : Frame m m') (c : CId) : m'.alive c = m.alive c := by
  unfold Mgr.alive
  rw [h.cur, h.oth]

theorem frame_req (m : Mgr) (r : Request) (c : CId) : Frame m (m.req r c) := by
  unfold req
  split <;> exact ⟨rfl, rfl, rfl, rfl, rfl, rfl⟩

theorem req_other {m : Mgr} {r : Request} {c x : CId} (h : x ≠ c) : (m.req r c).state x = m.state x := by
  unfold req
  split
  · simp [h]
  · rfl

/-- When a request may be made. -/
def Fits (lax : Bool) (r : Request) (s : CState) : Prop :=
  match r with
  | .init _ => False
  | .update => True
  | .stop => s = .running
  | _ => lax = true ∨ s ≠ .running

theorem track_req {lax : Bool} {m : Mgr} (h : Track lax m) {r : Request} {c : CId} (ha : m.alive c = true)
    (hf : Fits lax r (m.state c)) : Track lax (m.req r c) := by
  intro x
  obtain ⟨p, a1, a2, a3⟩ := h x
  have fr := frame_req m r c
  rw [req_alive ha] at fr ⊢
  have key : ∃ q, lifeFrom lax x p ((r.run (m.state c)).calls.map (.cb c)) = some q ∧
      (q = .running ↔ (if x = c then (r.run (m.state c)).state else m.state x) = .running) ∧
      (q = .destroyed → p = .destroyed) := by
    by_cases hx : x = c
    · subst hx
      have hd : p ≠ .destroyed := fun e => by rw [(a3 e).2] at ha; cases ha
      rw [if_pos rfl]
      generalize hs : m.state x = s at *
      cases r <;> cases s <;> cases p <;> cases lax <;>
        simp_all [Fits, Request.run, startRequest, stopRequest, waitRequest, abortRequest, updateRequest, lifeFrom,
          Life.see, Life.next]
    · rw [if_neg hx]
      refine ⟨p, ?_, a2, id⟩
      induction (r.run (m.state c)).calls with
      | nil => rfl
      | cons k ks ih =>
        rw [List.map_cons, lifeFrom, show p.see lax x (.cb c k) = some p from if_neg (fun e => hx e.symm)]
        exact ih
  obtain ⟨q, b1, b2, b3⟩ := key
  refine ⟨q, ?_, b2, fun e => a3 (b3 e)⟩
  unfold life at *
  rw [upd_trace, lifeFrom_append, a1]
  exact b1

/-- Going through a list, doing nothing but requests that fit. -/
theorem track_foldl {α : Type} {lax : Bool} (f : Mgr → α → Mgr) (l : List α) (I : List α → Mgr → Prop)
    (step : ∀ a l m, I (a :: l) m → Track lax m → Track lax (f m a) ∧ Frame m (f m a) ∧ I l (f m a))
    {m : Mgr} (h : Track lax m) (hi : I l m) :
    Track lax (l.foldl f m) ∧ Frame m (l.foldl f m) ∧ I [] (l.foldl f m) := by
  induction l generalizing m with
  | nil => exact ⟨h, .refl m, hi⟩
  | cons a l ih =>
    obtain ⟨h1, h2, h3⟩ := step a l m hi h
    obtain ⟨k1, k2, k3⟩ := ih h1 h3
    exact ⟨k1, h2.trans k2, k3⟩

theorem alive_of_id {m : Mgr} {c : CId} (h : c ∈ m.cur.map (·.c)) : m.alive c = true := by
  obtain ⟨s, hs, rfl⟩ := List.mem_map.1 h
  exact alive_of_mem hs

theorem track_reset {lax : Bool} {m : Mgr} (h : Track lax m) : Track lax m.resetControllers ∧ Frame m m.resetControllers := by
  obtain ⟨h1, h2, _⟩ := track_foldl (lax := lax)
    (fun (m : Mgr) (s : CtrlSpec) => if m.isRunning s.c then (m.req .stop s.c).req .start s.c else m) m.cur
    (fun l m => ∀ s ∈ l, m.alive s.c = true) (by
      intro s l m hi ht
      have ha := hi s List.mem_cons_self
      split
      · rename_i hr
        have f1 := frame_req m .stop s.c
        have f2 := frame_req (m.req .stop s.c) .start s.c
        have hr' := isRunning_iff.1 hr
        refine ⟨track_req (track_req (r := .stop) ht ha hr') (by rw [f1.alive]; exact ha) (Or.inr ?_), f1.trans f2, fun t hs => ?_⟩
        · rw [req_alive ha]
          simp [hr', Request.run, stopRequest]
        · rw [(f1.trans f2).alive]
          exact hi t (List.mem_cons_of_mem _ hs)
      · exact ⟨ht, .refl m, fun t hs => hi t (List.mem_cons_of_mem _ hs)⟩) h
    (fun s hs => alive_of_mem hs)
  exact ⟨h1, h2⟩

theorem track_updates {lax : Bool} {m : Mgr} (h : Track lax m) :
    Track lax m.updateControllers ∧ Frame m m.updateControllers := by
  obtain ⟨h1, h2, _⟩ := track_foldl (lax := lax) (fun (m : Mgr) (s : CtrlSpec) => m.req .update s.c) m.cur
    (fun l m => ∀ s ∈ l, m.alive s.c = true) (by
      intro s l m hi ht
      have f1 := frame_req m .update s.c
      refine ⟨track_req ht (hi s List.mem_cons_self) trivial, f1, fun t hs => ?_⟩
      rw [f1.alive]
      exact hi t (List.mem_cons_of_mem _ hs)) h
    (fun s hs => alive_of_mem hs)
  exact ⟨h1, h2⟩

theorem track_stop {lax : Bool} {m : Mgr} (h : Track lax m) (hs : ∀ c ∈ m.stopReq, m.alive c = true) :
    Track lax m.stopControllers ∧ Frame m m.stopControllers ∧
      ∀ c, m.state c ≠ .running → m.stopControllers.state c = m.state c := by
  obtain ⟨h1, h2, h3⟩ := track_foldl (lax := lax)
    (fun (m : Mgr) (c : CId) => if m.isRunning c then m.req .stop c else m) m.stopReq
    (fun l m' => (∀ c ∈ l, m'.alive c = true) ∧ ∀ c, m.state c ≠ .running → m'.state c = m.state c) (by
      intro c l m' ⟨hi, hn⟩ ht
      split
      · rename_i hr
        have f1 := frame_req m' .stop c
        refine ⟨track_req ht (hi c List.mem_cons_self) (isRunning_iff.1 hr), f1, fun t hs => ?_, fun t hs => ?_⟩
        · rw [f1.alive]
          exact hi t (List.mem_cons_of_mem _ hs)
        · rw [req_other, hn t hs]
          rintro rfl
          exact hs ((hn _ hs).symm.trans (isRunning_iff.1 hr))
      · exact ⟨ht, .refl m', fun t hs => hi t (List.mem_cons_of_mem _ hs), hn⟩) h
    ⟨hs, fun _ _ => rfl⟩
  exact ⟨h1, h2, h3.2⟩

/-- The same request for all controllers of a list. -/
theorem track_all {lax : Bool} {r : Request} (hr : r = .start ∨ r = .wait ∨ r = .abort) {m : Mgr} (h : Track lax m)
    (cs : List CId) (hs : ∀ c ∈ cs, m.alive c = true)
    (hn : lax = true ∨ (cs.Nodup ∧ ∀ c ∈ cs, m.state c ≠ .running)) :
    Track lax (cs.foldl (fun m c => m.req r c) m) ∧ Frame m (cs.foldl (fun m c => m.req r c) m) ∧
      (r ≠ .start → ∀ c, m.state c ≠ .running → (cs.foldl (fun m c => m.req r c) m).state c ≠ .running) := by
  obtain ⟨h1, h2, _, _, h3⟩ := track_foldl (lax := lax) (fun (m : Mgr) (c : CId) => m.req r c) cs
    (fun l m' => (∀ c ∈ l, m'.alive c = true) ∧ (lax = true ∨ (l.Nodup ∧ ∀ c ∈ l, m'.state c ≠ .running)) ∧
      (r ≠ .start → ∀ c, m.state c ≠ .running → m'.state c ≠ .running)) (by
      intro c l m' ⟨hi, hl, hk⟩ ht
      have f1 := frame_req m' r c
      have ha := hi c List.mem_cons_self
      refine ⟨track_req ht ha ?_, f1, fun t hs => ?_, ?_, fun e x hx => ?_⟩
      · have : lax = true ∨ m'.state c ≠ .running := hl.imp id fun hl => hl.2 c List.mem_cons_self
        rcases hr with rfl | rfl | rfl <;> exact this
      · rw [f1.alive]
        exact hi t (List.mem_cons_of_mem _ hs)
      · refine hl.imp id fun ⟨hd, hl⟩ => ⟨(List.nodup_cons.1 hd).2, fun t ht => ?_⟩
        rw [req_other]
        · exact hl t (List.mem_cons_of_mem _ ht)
        · rintro rfl
          exact (List.nodup_cons.1 hd).1 ht
      · by_cases hxc : x = c
        · subst hxc
          have h0 := hk e x hx
          rw [req_alive ha, upd_state, if_pos rfl]
          rcases hr with rfl | rfl | rfl
          · exact absurd rfl e
          · simp only [Request.run, waitRequest]
            split <;> simp_all
          · simp only [Request.run, abortRequest]
            split <;> simp_all
        · rw [req_other hxc]
          exact hk e x hx) h ⟨hs, hn, fun _ _ hx => hx⟩
  exact ⟨h1, h2, h3⟩

theorem track_asapEntry {lax : Bool} {m : Mgr} (h : Track lax m) {n : Nat} {c : CId} {time : Int} {hw : HwReply}
    {s : CtrlSpec} (ha : m.alive c = true) (hr : m.state c ≠ .running) :
    Track lax (asapEntry n c time hw m s) ∧ Frame m (asapEntry n c time hw m s) ∧
      ∀ x, x ≠ c → (asapEntry n c time hw m s).state x = m.state x := by
  unfold asapEntry
  split
  · split
    · exact ⟨track_req h ha (Or.inr hr), frame_req _ _ _, fun x hx => req_other hx⟩
    · split
      · exact ⟨track_req h ha (Or.inr hr), frame_req _ _ _, fun x hx => req_other hx⟩
      · exact ⟨track_req h ha (Or.inr hr), frame_req _ _ _, fun x hx => req_other hx⟩
  · exact ⟨h, .refl m, fun _ _ => rfl⟩

theorem track_asapFold {lax : Bool} (l : List CtrlSpec) (hn : (l.map (·.c)).Nodup) {m : Mgr} (h : Track lax m) {n : Nat}
    {c : CId} {time : Int} {hw : HwReply} (ha : m.alive c = true) (hr : m.state c ≠ .running) :
    Track lax (l.foldl (asapEntry n c time hw) m) ∧ Frame m (l.foldl (asapEntry n c time hw) m) := by
  induction l generalizing m with
  | nil => exact ⟨h, .refl m⟩
  | cons s l ih =>
    rw [List.map_cons, List.nodup_cons] at hn
    rw [List.foldl_cons]
    obtain ⟨h1, h2, h3⟩ := track_asapEntry (n := n) (time := time) (hw := hw) (s := s) h ha hr
    by_cases e : c = s.c
    · rw [foldl_asapEntry_absent l n c time hw _ (e ▸ hn.1)]
      exact ⟨h1, h2⟩
    · have : asapEntry n c time hw m s = m := if_neg e
      rw [this]
      exact ih hn.2 h ha hr

theorem track_asapLoop {lax : Bool} {time : Int} {hw : HwReply} (cs : List CId) (n : Nat) {m : Mgr} (h : Track lax m)
    (hn : (m.cur.map (·.c)).Nodup) (ha : ∀ c ∈ cs, m.alive c = true) :
    Track lax (asapLoop time hw n cs m) ∧ Frame m (asapLoop time hw n cs m) := by
  induction cs generalizing n m with
  | nil => exact ⟨h, .refl m⟩
  | cons c cs ih =>
    rw [asapLoop]
    split
    · rename_i hr
      have hr' : m.state c ≠ .running := by
        intro e
        rw [isRunning_iff.2 e] at hr
        cases hr
      obtain ⟨h1, h2⟩ := track_asapFold m.cur hn (n := n) (time := time) (hw := hw) h (ha c List.mem_cons_self) hr'
      obtain ⟨k1, k2⟩ := ih (n + 1) h1 (by rw [h2.cur]; exact hn) fun x hx => by
        rw [h2.alive]
        exact ha x (List.mem_cons_of_mem _ hx)
      exact ⟨k1, h2.trans k2⟩
    · exact ih (n + 1) h hn fun x hx => ha x (List.mem_cons_of_mem _ hx)

/-- What the pending requests are like if the switch requests were careful. -/
def Mild (m : Mgr) : Prop :=
  m.params.doSwitch = true → m.params.asap = false → m.startReq.Nodup ∧ ∀ c ∈ m.startReq, m.state c ≠ .running

theorem mild_of_frame {m m' : Mgr} (hf : Frame m m') (hs : m'.state = m.state) (h : Mild m) : Mild m' := by
  unfold Mild
  rw [hf.params, hf.startReq, hs]
  exact h

theorem Mild.off {m : Mgr} (h : m.params.doSwitch = false) : Mild m := fun e => by rw [h] at e; cases e

/-- Only the parameters change. -/
theorem track_params {lax : Bool} {m : Mgr} (h : Track lax m) (p : SwitchParams) : Track lax { m with params := p } :=
  track_unseen h (es := []) (fun _ => ⟨fun _ => by simp, by simp⟩) (by simp) (fun _ => Iff.rfl) le_rfl fun _ _ ha => ha

theorem track_startControllers {lax : Bool} {m : Mgr} (h : Track lax m) (ha : ∀ c ∈ m.startReq, m.alive c = true)
    (hn : lax = true ∨ (m.startReq.Nodup ∧ ∀ c ∈ m.startReq, m.state c ≠ .running)) (time : Int) (hw : HwReply) :
    Track lax (m.startControllers time hw) ∧ ((m.startReq.Nodup ∧ ∀ c ∈ m.startReq, m.state c ≠ .running) →
      Mild (m.startControllers time hw)) := by
  unfold startControllers
  split
  · obtain ⟨h1, h2, _⟩ := track_all (r := .start) (Or.inl rfl) h m.startReq ha hn
    exact ⟨track_params h1 _, fun _ => .off rfl⟩
  · split
    · obtain ⟨h1, h2, _⟩ := track_all (r := .abort) (Or.inr (Or.inr rfl)) h m.startReq ha hn
      exact ⟨track_params h1 _, fun _ => .off rfl⟩
    · obtain ⟨h1, h2, h3⟩ := track_all (r := .wait) (Or.inr (Or.inl rfl)) h m.startReq ha hn
      refine ⟨h1, fun hm _ _ => ?_⟩
      rw [h2.startReq]
      exact ⟨hm.1, fun c hc => h3 (by simp) c (hm.2 c hc)⟩

theorem track_startAsap {lax : Bool} {m : Mgr} (h : Track lax m) (ha : ∀ c ∈ m.startReq, m.alive c = true)
    (hn : (m.cur.map (·.c)).Nodup) (hp : m.params.asap = true) (time : Int) (hw : HwReply) :
    Track lax (m.startControllersAsap time hw) ∧ Mild (m.startControllersAsap time hw) := by
  obtain ⟨h1, h2⟩ := track_asapLoop (time := time) (hw := hw) m.startReq 0 h hn ha
  unfold startControllersAsap
  simp only
  split
  · exact ⟨track_params h1 _, .off rfl⟩
  · exact ⟨h1, fun _ e => by rw [h2.params, hp] at e; cases e⟩

theorem track_manageSwitch {lax : Bool} {m : Mgr} (h : Track lax m) (ha : ∀ c ∈ m.startReq ++ m.stopReq, m.alive c = true)
    (hn : (m.cur.map (·.c)).Nodup) (hd : m.params.doSwitch = true) (hm : lax = true ∨ Mild m) (time : Int) (hw : HwReply) :
    Track lax (m.manageSwitch time hw) ∧ (Mild m → Mild (m.manageSwitch time hw)) := by
  unfold manageSwitch
  simp only
  generalize hm1 : (if (!m.params.started) = true then
      ({ m.emit [.doSwitch m.swStart m.swStop] with params := { m.params with started := true } } : Mgr) else m) = m1
  have e : Track lax m1 ∧ m1.cur = m.cur ∧ m1.oth = m.oth ∧ m1.startReq = m.startReq ∧ m1.stopReq = m.stopReq ∧
      m1.state = m.state ∧ m1.params.asap = m.params.asap := by
    rw [← hm1]
    split
    · exact ⟨track_unseen h (es := [.doSwitch m.swStart m.swStop]) (fun _ => ⟨fun _ => by simp, by simp⟩) rfl
        (fun _ => Iff.rfl) le_rfl fun _ _ ha => ha, rfl, rfl, rfl, rfl, rfl, rfl⟩
    · exact ⟨h, rfl, rfl, rfl, rfl, rfl, rfl⟩
  obtain ⟨t1, c1, o1, s1, p1, st1, as1⟩ := e
  have al : ∀ c, m1.alive c = m.alive c := fun c => by unfold Mgr.alive; rw [c1, o1]
  obtain ⟨t2, f2, k2⟩ := track_stop t1 fun c hc => by
    rw [p1] at hc
    rw [al]
    exact ha c (List.mem_append_right _ hc)
  have ha2 : ∀ c ∈ m1.stopControllers.startReq, m1.stopControllers.alive c = true := fun c hc => by
    rw [f2.startReq, s1] at hc
    rw [f2.alive, al]
    exact ha c (List.mem_append_left _ hc)
  have carry : m.params.asap = false → Mild m →
      m1.stopControllers.startReq.Nodup ∧ ∀ c ∈ m1.stopControllers.startReq, m1.stopControllers.state c ≠ .running := by
    intro hp hm
    obtain ⟨b1, b2⟩ := hm hd hp
    rw [f2.startReq, s1]
    refine ⟨b1, fun c hc => ?_⟩
    have : m1.state c ≠ .running := by rw [st1]; exact b2 c hc
    rw [k2 c this]
    exact this
  split
  · rename_i hp
    have hp' : m.params.asap = false := by
      rw [f2.params, as1] at hp
      simpa using hp
    obtain ⟨r1, r2⟩ := track_startControllers t2 ha2 (hm.imp id (carry hp')) time hw
    exact ⟨r1, fun hm => r2 (carry hp' hm)⟩
  · rename_i hp
    obtain ⟨r1, r2⟩ := track_startAsap t2 ha2 (by rw [f2.cur, c1]; exact hn) (by simpa using hp) time hw
    exact ⟨r1, fun _ => r2⟩

theorem track_update {lax : Bool} {P} {m : Mgr} (hv : Inv P m) (h : Track lax m) (hm : lax = true ∨ Mild m) (time : Int)
    (reset : Bool) (hw : HwReply) :
    Track lax (m.update time reset hw) ∧ (Mild m → Mild (m.update time reset hw)) := by
  unfold update
  simp only
  have h0 : Track lax { m with used := some m.current } :=
    track_unseen h (es := []) (fun _ => ⟨fun _ => by simp, by simp⟩) (by simp) (fun _ => Iff.rfl) le_rfl fun _ _ ha => ha
  generalize hm1 : (if reset = true then ({ m with used := some m.current } : Mgr).resetControllers
    else ({ m with used := some m.current } : Mgr)) = m1
  have e : Track lax m1 ∧ Frame m m1 ∧ m1.state = m.state := by
    rw [← hm1]
    split
    · obtain ⟨a1, a2⟩ := track_reset h0
      refine ⟨a1, (⟨rfl, rfl, rfl, rfl, rfl, rfl⟩ : Frame m { m with used := some m.current }).trans a2, ?_⟩
      rw [resetControllers_eq]
      rfl
    · exact ⟨h0, ⟨rfl, rfl, rfl, rfl, rfl, rfl⟩, rfl⟩
  obtain ⟨t1, f1, s1⟩ := e
  obtain ⟨t2, f2⟩ := track_updates t1
  have f3 := f1.trans f2
  have s3 : m1.updateControllers.state = m.state := by
    rw [updateControllers_eq, upd_state, s1]
  split
  · rename_i hd
    have hal : ∀ c ∈ m1.updateControllers.startReq ++ m1.updateControllers.stopReq, m1.updateControllers.alive c = true := by
      intro c hc
      rw [f3.startReq, f3.stopReq] at hc
      rw [f3.alive]
      rcases List.mem_append.1 hc with hc | hc
      · exact alive_of_id (hv.start c hc)
      · exact alive_of_id (hv.stop c hc)
    obtain ⟨r1, r2⟩ := track_manageSwitch t2 hal (by rw [f3.cur]; exact hv.objs) hd
      (hm.imp id (mild_of_frame f3 s3)) time hw
    exact ⟨r1, fun hm => r2 (mild_of_frame f3 s3 hm)⟩
  · exact ⟨t2, mild_of_frame f3 s3⟩

theorem nodup_resolved {P} {m : Mgr} (hv : Inv P m) {l : List String} (h : l.Nodup) :
    (l.filterMap m.getControllerByName).Nodup := by
  refine List.Nodup.filterMap ?_ h
  intro a b c ha hb
  obtain ⟨s, hs, e1, e2⟩ := getControllerByName_mem ha
  obtain ⟨t, ht, e3, e4⟩ := getControllerByName_mem hb
  rw [← e1, ← e3, List.inj_on_of_nodup_map hv.objs hs ht (e2.trans e4.symm)]

theorem mild_nil {m : Mgr} (h : m.startReq = []) : Mild m := fun _ _ => by rw [h]; simp

/-- The invariant. -/
structure Alt (lax : Bool) (m : Mgr) : Prop where
  inv : Inv (fun _ => True) m
  track : Track lax m
  oth : (m.oth.map (·.c)).Nodup
  mild : lax = true ∨ Mild m

theorem alt_init (lax : Bool) : Alt lax Mgr.init :=
  ⟨inv_init trivial, track_init lax, List.nodup_nil, Or.inr (mild_nil rfl)⟩

theorem unseen_of {es : List Event} (h : ∀ e ∈ es, (∀ c k, e ≠ .cb c k) ∧ ∀ c, e ≠ .destroyed c) : Unseen es :=
  fun c => ⟨fun k hk => (h _ hk).1 c k rfl, fun hk => (h _ hk).2 c rfl⟩

theorem alive_false {m : Mgr} {c : CId} : m.alive c = false ↔ ∀ s, s ∈ m.cur ∨ s ∈ m.oth → s.c ≠ c := by
  unfold Mgr.alive
  rw [List.any_eq_false]
  simp

theorem track_switch {lax : Bool} {conf} {m : Mgr} (h : Alt lax m) (hns : ¬ m.Switching) (r : SwitchReq) (now : Int)
    (prepOk : Bool) (k : Kont) (hc : lax = true ∨ r.Careful m) :
    Track lax (m.switchCore conf r now prepOk k).2 ∧ ((m.switchCore conf r now prepOk k).2.oth.map (·.c)).Nodup ∧
      (lax = true ∨ Mild (m.switchCore conf r now prepOk k).2) := by
  obtain ⟨hq1, hq2⟩ := h.inv.reqs hns
  by_cases ha : m.okRequest conf r prepOk
  · rw [switchCore_accept conf m r now prepOk k hq1 hq2 ha]
    refine ⟨track_unseen h.track (es := [_, _]) (unseen_of ?_) rfl (fun _ => Iff.rfl) le_rfl fun _ _ ha => ha, h.oth,
      hc.imp id fun hc _ hp => ?_⟩
    · intro e he
      simp only [List.mem_cons, List.not_mem_nil, or_false] at he
      rcases he with rfl | rfl <;> simp
    · rcases hc with hc | ⟨hc1, hc2⟩
      · have : r.asap = false := hp
        rw [hc] at this
        cases this
      · refine ⟨nodup_resolved h.inv hc1, fun c hcm => ?_⟩
        show m.state c ≠ .running
        intro hrun
        have hcm : c ∈ r.start.filterMap m.getControllerByName := hcm
        obtain ⟨n, hn, e⟩ := List.mem_filterMap.1 hcm
        obtain ⟨s, hs, e1, rfl⟩ := getControllerByName_mem e
        rcases hc2 with hc2 | hc2
        · have := ha.2.1 s hs
          unfold badEntry at this
          have hst : strictOf r = true := by simp [strictOf, hc2]
          have hr' := isRunning_iff.2 hrun
          by_cases hst' : s.c ∈ r.stop.filterMap m.getControllerByName
          · exact this (Or.inr (Or.inr ⟨hr', hst', hcm⟩))
          · exact this (Or.inr (Or.inl ⟨hst, hr', hst', hcm⟩))
        · refine hc2 n hn ?_
          unfold Spec.Runs Mgr.running
          rw [List.mem_map]
          exact ⟨s, List.mem_filter.2 ⟨hs, by simpa using hrun⟩, e1⟩
  · obtain ⟨a, b, es, e, he⟩ := switchCore_refuse conf m r now prepOk k hq1 hq2 ha
    rw [e]
    refine ⟨track_unseen h.track (es := es ++ [.switchRet false]) (unseen_of ?_) (by simp) (fun _ => Iff.rfl) le_rfl
      fun _ _ ha => ha, h.oth, Or.inr (.off rfl)⟩
    intro e he'
    rcases List.mem_append.1 he' with he' | he'
    · rcases he with rfl | ⟨_, rfl⟩
      · cases he'
      · rw [List.mem_singleton.1 he']
        simp
    · rw [List.mem_singleton.1 he']
      simp

theorem lifeFrom_destroyed {lax : Bool} {x : CId} {p : Life} {l : List CId} (hn : l.Nodup) (hp : x ∈ l → p = .idle) :
    lifeFrom lax x p (l.map .destroyed) = some (if x ∈ l then .destroyed else p) := by
  induction l generalizing p with
  | nil => simp [lifeFrom]
  | cons c l ih =>
    rw [List.nodup_cons] at hn
    rw [List.map_cons, lifeFrom]
    by_cases hx : c = x
    · subst hx
      have : p = .idle := hp List.mem_cons_self
      subst this
      rw [show Life.idle.see lax c (.destroyed c) = some .destroyed by simp [Life.see]]
      dsimp only
      rw [ih hn.2 fun h => absurd h hn.1, if_neg hn.1, if_pos List.mem_cons_self]
    · rw [show p.see lax x (.destroyed c) = some p by simp [Life.see, hx]]
      dsimp only
      rw [ih hn.2 fun h => hp (List.mem_cons_of_mem _ h)]
      simp [List.mem_cons, Ne.symm hx]

/-- The old list is dropped. -/
theorem track_clear {lax : Bool} {m : Mgr} (h : Alt lax m) : Track lax m.clearOld := by
  have hd : m.dropped.Nodup := (h.oth.sublist ((List.filter_sublist).map _))
  intro x
  obtain ⟨p, a1, a2, a3⟩ := h.track x
  have mem : x ∈ m.dropped → m.alive x = true ∧ x ∉ m.cur.map (·.c) := by
    intro hx
    obtain ⟨s, hs, rfl⟩ := List.mem_map.1 hx
    rw [List.mem_filter] at hs
    refine ⟨?_, fun hc => ?_⟩
    · by_contra hh
      exact (alive_false.1 (by simpa using hh)) s (Or.inr hs.1) rfl
    · obtain ⟨t, ht, e⟩ := List.mem_map.1 hc
      have := hs.2
      rw [Bool.not_eq_true', List.any_eq_false] at this
      exact this t ht (by simpa using e)
  have hp : x ∈ m.dropped → p = .idle := by
    intro hx
    obtain ⟨m1, m2⟩ := mem hx
    cases p with
    | idle => rfl
    | running => exact absurd (h.inv.running x (a2.1 rfl)) m2
    | destroyed => rw [(a3 rfl).2] at m1; cases m1
  refine ⟨if x ∈ m.dropped then .destroyed else p, ?_, ?_, ?_⟩
  · unfold life at *
    show lifeFrom lax x .idle (m.trace ++ m.dropped.map .destroyed) = _
    rw [lifeFrom_append, a1]
    exact lifeFrom_destroyed hd hp
  · show _ ↔ m.state x = .running
    rw [← a2]
    split
    · rename_i hx
      rw [hp hx]
      simp
    · exact Iff.rfl
  · intro e
    show x < m.nextId ∧ _
    have al : (m.clearOld).alive x = false ↔ x ∉ m.cur.map (·.c) := by
      rw [alive_false]
      constructor
      · intro hh hc
        obtain ⟨t, ht, e⟩ := List.mem_map.1 hc
        exact hh t (Or.inl ht) e
      · rintro hh s (hs | hs) rfl
        · exact hh (List.mem_map_of_mem hs)
        · cases hs
    rw [al]
    split at e
    · rename_i hx
      obtain ⟨m1, m2⟩ := mem hx
      refine ⟨?_, m2⟩
      obtain ⟨s, hs, rfl⟩ := List.mem_map.1 hx
      exact h.inv.fresh s (Or.inr (List.mem_filter.1 hs).1)
    · obtain ⟨b1, b2⟩ := a3 e
      refine ⟨b1, fun hc => ?_⟩
      obtain ⟨t, ht, e⟩ := List.mem_map.1 hc
      exact alive_false.1 b2 t (Or.inl ht) e

/-- Changes of the service thread outside a switch: the requests stay empty. -/
theorem alt_quiet {lax : Bool} {m m' : Mgr} (h : Alt lax m) (hi : Inv (fun _ => True) m') (es : List Event) (he : Unseen es)
    (h1 : m'.trace = m.trace ++ es) (h2 : ∀ c, m'.state c = .running ↔ m.state c = .running)
    (h3 : m.nextId ≤ m'.nextId) (h4 : ∀ s, s ∈ m'.cur ∨ s ∈ m'.oth → (s ∈ m.cur ∨ s ∈ m.oth) ∨ s.c = m.nextId)
    (h5 : (m'.oth.map (·.c)).Nodup) (h6 : m'.startReq = []) : Alt lax m' := by
  refine ⟨hi, track_unseen h.track he h1 h2 h3 fun c hc ha => ?_, h5, Or.inr (mild_nil h6)⟩
  rw [alive_false] at ha ⊢
  rintro s hs rfl
  rcases h4 s hs with hs | hs
  · exact ha s hs rfl
  · exact absurd hs (Nat.ne_of_lt hc)

theorem not_switching {m : Mgr} (h : m.svc = .idle) : ¬ m.Switching := by
  rintro ⟨k, t, e⟩
  rw [h] at e
  cases e

theorem alt_unload {lax : Bool} {m : Mgr} (h : Alt lax m) (hns : ¬ m.Switching) (hnr : ¬ m.ReleasingList) (name : String)
    (k : Kont) (onFail : Mgr → Mgr) (hf : ∀ m', ∃ es, Unseen es ∧ (onFail m').trace = m'.trace ++ es ∧
      (onFail m').state = m'.state ∧ (onFail m').nextId = m'.nextId ∧ (onFail m').cur = m'.cur ∧
      (onFail m').oth = m'.oth ∧ (onFail m').startReq = m'.startReq)
    (hi : Inv (fun _ => True) (m.unloadCore name k onFail)) : Alt lax (m.unloadCore name k onFail) := by
  obtain ⟨hq1, hq2⟩ := h.inv.reqs hns
  rcases unloadCore_cases m name k onFail (h.inv.used hnr) with ⟨_, h2, e⟩ | ⟨_, e⟩
  · rw [e] at hi ⊢
    refine alt_quiet h hi [] (fun _ => ⟨fun _ => by simp, by simp⟩) (by simp [unloaded]) (fun _ => Iff.rfl) le_rfl ?_
      h.inv.objs hq1
    rintro s (hs | hs)
    · exact Or.inl (Or.inl (List.mem_filter.1 hs).1)
    · exact Or.inl (Or.inl hs)
  · rw [e] at hi ⊢
    obtain ⟨es, u, t1, t2, t3, t4, t5, t6⟩ := hf { m with oth := [], trace := m.trace ++ [.unloadRet name false] }
    refine alt_quiet h hi (.unloadRet name false :: es) ?_ ?_ (fun c => by rw [t2]) (by rw [t3]) ?_ ?_ ?_
    · intro c
      exact ⟨fun k hk => (u c).1 k (by simpa using hk), fun hk => (u c).2 (by simpa using hk)⟩
    · rw [t1]
      simp
    · rw [t4, t5]
      rintro s (hs | hs)
      · exact Or.inl (Or.inl hs)
      · cases hs
    · rw [t5]
      exact List.nodup_nil
    · rw [t6]
      exact hq1

theorem alt_poll {lax : Bool} {m : Mgr} (h : Alt lax m) (ok : RosOk) (hok : ok.cond = true ∧ ok.body = true) (elapsed : Int)
    (hi : Inv (fun _ => True) (m.poll ok elapsed)) : Alt lax (m.poll ok elapsed) := by
  revert hi
  unfold poll
  split
  · exact fun _ => h
  · rename_i k timeout hsvc
    simp only [hok.1, hok.2, Bool.true_and, Bool.not_true, Bool.false_eq_true, if_false]
    have fin : ∀ b b', Inv (fun _ => True) (({ m with startReq := [], stopReq := [] }.emit [.switchRet b]).finish k b') →
        Alt lax (({ m with startReq := [], stopReq := [] }.emit [.switchRet b]).finish k b') := by
      intro b b' hi
      cases k with
      | ret =>
        exact alt_quiet h hi [.switchRet b] (unseen_of (by simp)) rfl (fun _ => Iff.rfl) le_rfl (fun _ hs => Or.inl hs) h.oth rfl
      | reload rest =>
        cases b' with
        | true =>
          exact alt_quiet h hi [.switchRet b] (unseen_of (by simp)) rfl (fun _ => Iff.rfl) le_rfl (fun _ hs => Or.inl hs) h.oth rfl
        | false =>
          exact alt_quiet h hi [.switchRet b, .reloadRet false] (unseen_of (by simp)) (by simp [finish, emit]) (fun _ => Iff.rfl)
            le_rfl (fun _ hs => Or.inl hs) h.oth rfl
    split
    · split
      · exact fun _ => h
      · exact fin _ _
    · exact fin _ _
  · rename_i former r hsvc
    have hns : ¬ m.Switching := by rintro ⟨f, r, e⟩; rw [hsvc] at e; cases e
    obtain ⟨hq1, _⟩ := h.inv.reqs hns
    simp only [hok.1, hok.2, Bool.true_and, Bool.not_true, Bool.false_eq_true, if_false]
    have ht := track_clear h
    have fin : ∀ (m' : Mgr) (es : List Event), Unseen es → m'.trace = m.clearOld.trace ++ es → m'.state = m.state →
        m'.nextId = m.nextId → m'.cur = m.cur → m'.oth = [] → m'.startReq = m.startReq → Inv (fun _ => True) m' → Alt lax m' := by
      intro m' es u t1 t2 t3 t4 t5 t6 hi
      refine ⟨hi, track_unseen ht u t1 (fun c => by rw [t2]; rfl) (by rw [t3]; exact le_rfl) ?_, by rw [t5]; exact List.nodup_nil,
        Or.inr (mild_nil (t6.trans hq1))⟩
      intro c _ ha
      unfold Mgr.alive at ha ⊢
      rw [t4, t5]
      exact ha
    split
    · exact fun _ => h
    · cases r with
      | load name => exact fin _ [.loadRet name true] (unseen_of (by simp)) rfl rfl rfl rfl rfl rfl
      | unload name k =>
        cases k with
        | ret => exact fin _ [.unloadRet name true] (unseen_of (by simp)) rfl rfl rfl rfl rfl rfl
        | reload rest => exact fin _ [.unloadRet name true] (unseen_of (by simp)) rfl rfl rfl rfl rfl rfl
  · rename_i hsvc
    have hns : ¬ m.Switching := by rintro ⟨f, r, e⟩; rw [hsvc] at e; cases e
    intro hi
    exact alt_quiet h hi [.reloadRet true] (unseen_of (by simp)) rfl (fun _ => Iff.rfl) le_rfl (fun _ hs => Or.inl hs) h.oth
      (h.inv.reqs hns).1
  · rename_i n ns hsvc
    have hns : ¬ m.Switching := by rintro ⟨f, r, e⟩; rw [hsvc] at e; cases e
    have hnr : ¬ m.ReleasingList := by rintro ⟨f, r, e⟩; rw [hsvc] at e; cases e
    exact alt_unload h hns hnr n _ _ fun m' => ⟨[.reloadRet false], unseen_of (by simp), rfl, rfl, rfl, rfl, rfl, rfl⟩

theorem alt_step {lax : Bool} {conf} {m : Mgr} (h : Alt lax m) (op : Op) (hop : op.rosUp)
    (hc : lax = true ∨ ∀ r now p, op = .switch r now p → m.svc = .idle → r.Careful m) : Alt lax (m.step conf op) := by
  have hi := inv_step (checkOk_true conf) h.inv op hop
  cases op with
  | update t r hw =>
    obtain ⟨h1, h2⟩ := track_update h.inv h.track h.mild t r hw
    exact ⟨hi, h1, by show ((m.update t r hw).oth.map _).Nodup; rw [(update_lists h.inv t r hw).1]; exact h.oth, h.mild.imp id h2⟩
  | load n e =>
    revert hi
    show Inv _ (m.load n e) → Alt lax (m.load n e)
    by_cases hs : m.svc = .idle
    swap
    · simp [load, hs]
      exact fun _ => h
    have hnr : ¬ m.ReleasingList := by rintro ⟨k, t, e⟩; rw [hs] at e; cases e
    have hq := (h.inv.reqs (not_switching hs)).1
    intro hi
    rcases load_cases m n e hs (h.inv.used hnr) with ⟨type, i, claimed, h1, _, _, _, _, eq⟩ | ⟨_, o, ho, eq⟩
    · rw [eq] at hi ⊢
      refine alt_quiet h hi [] (fun _ => ⟨fun _ => by simp, by simp⟩) (by simp [loaded]) ?_ (Nat.le_succ _) ?_ h.inv.objs hq
      · intro c
        show (if c = m.nextId then CState.initialized else m.state c) = .running ↔ _
        split
        · rename_i hc
          rw [hc, h.inv.unborn _ le_rfl]
          simp
        · exact Iff.rfl
      · rintro s (hs | hs)
        · rcases List.mem_append.1 hs with hs | hs
          · exact Or.inl (Or.inl hs)
          · rw [List.mem_singleton.1 hs]
            exact Or.inr rfl
        · exact Or.inl (Or.inl hs)
    · rw [eq] at hi ⊢
      have ho' : ∀ s ∈ o, s ∈ m.cur := by rcases ho with rfl | rfl <;> simp
      have ho2 : (o.map (·.c)).Nodup := by
        rcases ho with rfl | rfl
        · exact List.nodup_nil
        · exact h.inv.objs
      refine alt_quiet h hi [.loadRet n false] (unseen_of (by simp)) rfl (fun _ => Iff.rfl) le_rfl ?_ ho2 hq
      rintro s (hs | hs)
      · exact Or.inl (Or.inl hs)
      · exact Or.inl (Or.inl (ho' s hs))
  | unload n =>
    revert hi
    show Inv _ (m.unload n) → Alt lax (m.unload n)
    unfold unload
    split
    · exact fun _ => h
    · rename_i hs
      have hs : m.svc = .idle := by simpa using hs
      exact alt_unload h (not_switching hs) (by rintro ⟨k, t, e⟩; rw [hs] at e; cases e) n _ _
        fun m' => ⟨[], fun _ => ⟨fun _ => by simp, by simp⟩, by simp, rfl, rfl, rfl, rfl, rfl⟩
  | switch r now p =>
    revert hi
    show Inv _ (m.switch conf r now p) → Alt lax (m.switch conf r now p)
    unfold switch
    split
    · exact fun _ => h
    · rename_i hs
      have hs : m.svc = .idle := by simpa using hs
      intro hi
      obtain ⟨h1, h2, h3⟩ := track_switch (conf := conf) h (not_switching hs) r now p .ret (hc.imp id fun hc => hc r now p rfl hs)
      exact ⟨hi, h1, h2, h3⟩
  | reload f now p =>
    revert hi
    show Inv _ (m.reload conf f now p) → Alt lax (m.reload conf f now p)
    unfold reload
    split
    · exact fun _ => h
    · rename_i hs
      have hs : m.svc = .idle := by simpa using hs
      have hq := (h.inv.reqs (not_switching hs)).1
      simp only
      split
      · intro hi
        exact alt_quiet h hi [.reloadRet false] (unseen_of (by simp)) rfl (fun _ => Iff.rfl) le_rfl (fun _ hs => Or.inl hs) h.oth hq
      · split
        · obtain ⟨h1, h2, h3⟩ := track_switch (conf := conf) h (not_switching hs)
            ⟨[], m.getControllerNames, strictnessBestEffort, false, 0⟩ now p (.reload m.getControllerNames)
            (Or.inr (Or.inr ⟨List.nodup_nil, Or.inr (by simp)⟩))
          have hi' := inv_switchCore (checkOk_true conf) h.inv (not_switching hs)
            (by rintro ⟨k, t, e⟩; rw [hs] at e; cases e) ⟨[], m.getControllerNames, strictnessBestEffort, false, 0⟩ now p
            (.reload m.getControllerNames)
          split
          · rename_i m' e
            rw [e] at h1 h2 h3 hi'
            intro hi
            refine ⟨hi, track_unseen h1 (es := [.reloadRet false]) (unseen_of (by simp)) rfl (fun _ => Iff.rfl) le_rfl
              (fun _ _ ha => ha), h2, h3⟩
          · rename_i m' e
            rw [e] at h1 h2 h3 hi'
            exact fun hi => ⟨hi, h1, h2, h3⟩
        · intro hi
          exact alt_quiet h hi [.reloadRet true] (unseen_of (by simp)) rfl (fun _ => Iff.rfl) le_rfl (fun _ hs => Or.inl hs) h.oth hq
  | poll ok e => exact alt_poll h ok hop e hi

theorem alt_run {lax : Bool} {conf} (ops : List Op) (hops : ∀ op ∈ ops, op.rosUp) {m : Mgr} (h : Alt lax m)
    (hc : lax = true ∨ CarefulRun conf m ops) : Alt lax (m.run conf ops) := by
  induction ops generalizing m with
  | nil => exact h
  | cons op ops ih =>
    exact ih (fun o ho => hops o (List.mem_cons_of_mem _ ho))
      (alt_step h op (hops op List.mem_cons_self) (hc.imp id fun hc => hc.1)) (hc.imp id fun hc => hc.2)

end Mgr

end Verif
