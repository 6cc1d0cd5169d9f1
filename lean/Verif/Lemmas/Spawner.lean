import Verif.Spec.Spawner
import Mathlib.Tactic.SplitIfs
import Mathlib.Data.List.Induction

/-!
Lemmas about the spawner.
-/

namespace Verif.Spawner

variable {a : Args} {cs : List String}

theorem after_snoc (now : Int) (is : List In) (i : In) : after a cs now (is ++ [i]) = (after a cs now is).step a cs i := by
  simp [after, St.steps, List.foldl_append]

theorem after_append (now : Int) (is js : List In) : after a cs now (is ++ js) = (after a cs now is).steps a cs js := by
  simp [after, St.steps, List.foldl_append]

theorem Contacted.mono {is js : List In} {n : String} (h : Contacted is n) (hs : ∀ i ∈ is, i ∈ js) : Contacted js n := by
  obtain ⟨w, hw, h⟩ := h
  exact ⟨w, hs _ hw, h⟩

theorem Contacted.snoc {is : List In} {n : String} (h : Contacted is n) (i : In) : Contacted (is ++ [i]) n :=
  h.mono fun j hj => by simp [hj]

theorem lastMessage_snoc (is : List In) (i : In) :
    lastMessage (is ++ [i]) = match i with | .message b => some b | _ => lastMessage is := by
  unfold lastMessage
  rw [List.foldl_append]
  cases i <;> rfl

/-- The main thread is before line 180. -/
def Phase.waiting : Phase → Bool
  | .service _ _ => true
  | .topic _ _ => true
  | .data => true
  | _ => false

/-- Which services have been found. -/
structure Found (a : Args) (is : List In) (p : Phase) : Prop where
  switch : ∀ t, p = .service .switch t → Contacted is (a.serviceName .load)
  unload : ∀ t, p = .service .unload t → Contacted is (a.serviceName .load) ∧ Contacted is (a.serviceName .switch)
  all : (∀ v t, p ≠ .service v t) → p ≠ .gone → p ≠ .crashed → ∀ s, Contacted is (a.serviceName s)
  topic : p = .data ∨ (∃ t w, p = .topic t w) → a.waits = true

/-- The invariant of the start. -/
structure Inv (a : Args) (cs : List String) (now : Int) (is : List In) (s : St) : Prop where
  found : Found a is s.phase
  heard : ∀ b, s.heard = some b → lastMessage is = some b
  fresh : (∃ v t, s.phase = .service v t) ∨ a.waits = false → s.heard = .none
  none : s.phase.waiting = true → s.requests = []
  ready : (s.requests ≠ [] ∨ (∃ l, s.phase = .loading l) ∨ s.phase = .starting ∨ s.phase = .spinning) →
    ∃ p q, is = p ++ q ∧ Ready a p ∧ (after a cs now p).requests = []

theorem Found.snoc {is : List In} {p : Phase} (h : Found a is p) (i : In) : Found a (is ++ [i]) p :=
  ⟨fun t e => (h.switch t e).snoc i, fun t e => ⟨(h.unload t e).1.snoc i, (h.unload t e).2.snoc i⟩,
    fun e1 e2 e3 s => (h.all e1 e2 e3 s).snoc i, h.topic⟩

theorem Inv.keep {now : Int} {is : List In} {s : St} (h : Inv a cs now is s) (w : World) : Inv a cs now (is ++ [.run w]) s := by
  refine ⟨h.found.snoc _, ?_, h.fresh, h.none, ?_⟩
  · intro b hb; rw [lastMessage_snoc]; exact h.heard b hb
  · intro hr
    obtain ⟨p, q, e, h1, h2⟩ := h.ready hr
    exact ⟨p, q ++ [.run w], by rw [e, List.append_assoc], h1, h2⟩

theorem Inv.end {now : Int} {is : List In} {s : St} (h : Inv a cs now is s) {p : Phase} (hp : p = .gone ∨ p = .crashed) :
    Inv a cs now is { s with phase := p } := by
  have hw : p.waiting = false := by rcases hp with rfl | rfl <;> rfl
  refine ⟨⟨?_, ?_, ?_, ?_⟩, h.heard, ?_, ?_, ?_⟩
  · intro t e; rcases hp with rfl | rfl <;> cases e
  · intro t e; rcases hp with rfl | rfl <;> cases e
  · intro _ e2 e3; rcases hp with rfl | rfl
    · exact absurd rfl e2
    · exact absurd rfl e3
  · rintro (e | ⟨t, w, e⟩) <;> rcases hp with rfl | rfl <;> cases e
  · rintro (⟨v, t, e⟩ | e)
    · simp only at e
      rcases hp with rfl | rfl <;> cases e
    · exact h.fresh (Or.inr e)
  · intro e
    simp only at e
    rw [hw] at e; cases e
  · rintro (e | ⟨l, e⟩ | e | e)
    · exact h.ready (Or.inl e)
    all_goals (simp only at e; rcases hp with rfl | rfl <;> cases e)

theorem inv_init (now : Int) : Inv a cs now [] (init now) := by
  refine ⟨⟨?_, ?_, ?_, ?_⟩, ?_, fun _ => rfl, fun _ => rfl, ?_⟩ <;> simp [init]

theorem inv_go {now : Int} {is : List In} {s : St} (hs : s = after a cs now is) (h : Inv a cs now is s) (w : World) :
    Inv a cs now (is ++ [.run w]) (s.go a cs w) := by
  have hk := h.keep w
  have hheard := hk.heard
  have hfresh : ∀ {p : Phase}, (∀ v t, p ≠ .service v t) → (∃ v t, p = .service v t) ∨ a.waits = false → s.heard = .none :=
    fun hp e => h.fresh (e.elim (fun ⟨v, t, e⟩ => absurd e (hp v t)) Or.inr)
  -- leaving line 180
  have hwork : s.phase.waiting = true → (∀ v, Contacted (is ++ [.run w]) (a.serviceName v)) →
      (a.waits = true → s.heard = some true) → Inv a cs now (is ++ [.run w]) (s.work cs) := by
    intro hw hc hm
    refine ⟨⟨?_, ?_, ?_, ?_⟩, hheard, hfresh (by simp [St.work]), (fun e => by cases e), ?_⟩
    · intro t e; cases e
    · intro t e; cases e
    · intro _ _ _; exact hc
    · rintro (e | ⟨t, w, e⟩) <;> cases e
    · intro _
      refine ⟨is ++ [.run w], [], by simp, ⟨hc, fun hw => hheard true (hm hw)⟩, ?_⟩
      rw [after_snoc, ← hs]
      show (s.go a cs w).requests = []
      have hn := h.none hw
      unfold St.go
      cases hp : s.phase with
      | service v since =>
        simp only
        split_ifs <;> first | exact hn | (unfold St.handle; split_ifs <;> exact hn) | skip
        cases v <;> simp only [St.found] <;> first | exact hn | (split_ifs <;> exact hn)
      | topic st wd =>
        simp only
        split_ifs <;> first | exact hn | skip
        cases a.limit <;> simp only <;> first | exact hn | (split_ifs <;> exact hn)
      | data => simp only; split_ifs <;> exact hn
      | _ => simp [hp, Phase.waiting] at hw
  have hhandle : (∃ v t, s.phase = .service v t) → Inv a cs now (is ++ [.run w]) (s.handle w) := by
    intro hw'
    have hw : s.phase.waiting = true := by obtain ⟨v, t, e⟩ := hw'; rw [e]; rfl
    unfold St.handle
    split_ifs
    · refine ⟨⟨?_, ?_, ?_, ?_⟩, hheard, fun _ => h.fresh (Or.inl hw'), fun _ => h.none hw, ?_⟩
      · intro t e; cases e
      · intro t e; cases e
      · intro e; exact absurd rfl (e .load w.now)
      · rintro (e | ⟨t, w, e⟩) <;> cases e
      · rintro (e | ⟨l, e⟩ | e | e)
        · exact absurd (h.none hw) e
        all_goals cases e
    · exact hk.end (Or.inl rfl)
  unfold St.go
  cases hp : s.phase with
  | service v since =>
    have hw : s.phase.waiting = true := by rw [hp]; rfl
    simp only
    split_ifs with h1 h2 h3
    · exact hhandle ⟨_, _, hp⟩
    · exact hhandle ⟨_, _, hp⟩
    · have hc : Contacted (is ++ [.run w]) (a.serviceName v) := ⟨w, by simp, h3⟩
      cases v with
      | load =>
        refine ⟨⟨?_, ?_, ?_, ?_⟩, hheard, fun _ => h.fresh (Or.inl ⟨_, _, hp⟩), fun _ => h.none hw, ?_⟩
        · intro _ _; exact hc
        · intro t e; cases e
        · intro e; exact absurd rfl (e .switch w.now)
        · rintro (e | ⟨t, w, e⟩) <;> cases e
        · rintro (e | ⟨l, e⟩ | e | e)
          · exact absurd (h.none hw) e
          all_goals cases e
      | switch =>
        refine ⟨⟨?_, ?_, ?_, ?_⟩, hheard, fun _ => h.fresh (Or.inl ⟨_, _, hp⟩), fun _ => h.none hw, ?_⟩
        · intro t e; cases e
        · intro _ _; exact ⟨(h.found.switch _ hp).snoc _, hc⟩
        · intro e; exact absurd rfl (e .unload w.now)
        · rintro (e | ⟨t, w, e⟩) <;> cases e
        · rintro (e | ⟨l, e⟩ | e | e)
          · exact absurd (h.none hw) e
          all_goals cases e
      | unload =>
        have hall : ∀ v, Contacted (is ++ [.run w]) (a.serviceName v) := by
          obtain ⟨e1, e2⟩ := h.found.unload _ hp
          intro v
          cases v
          · exact e1.snoc _
          · exact hc
          · exact e2.snoc _
        simp only [St.found]
        split_ifs with h4
        · refine ⟨⟨?_, ?_, fun _ _ _ => hall, fun _ => h4⟩, by simp, fun _ => rfl, fun _ => h.none hw, ?_⟩
          · intro t e; cases e
          · intro t e; cases e
          · rintro (e | ⟨l, e⟩ | e | e)
            · exact absurd (h.none hw) e
            all_goals cases e
        · exact hwork hw hall fun e => absurd e h4
    · exact hk
  | topic started warned =>
    have hw : s.phase.waiting = true := by rw [hp]; rfl
    have hall := hk.found.all (by simp [hp]) (by simp [hp]) (by simp [hp])
    have hwt := h.found.topic (Or.inr ⟨_, _, hp⟩)
    simp only
    split_ifs with h1 h2 h3
    · refine ⟨⟨?_, ?_, fun _ _ _ => hall, fun _ => hwt⟩, hheard, hfresh (by simp), fun _ => h.none hw, ?_⟩
      · intro t e; cases e
      · intro t e; cases e
      · rintro (e | ⟨l, e⟩ | e | e)
        · exact absurd (h.none hw) e
        all_goals cases e
    · exact hk.end (Or.inl rfl)
    · exact hk
    · cases a.limit with
      | none => exact hk.end (Or.inr rfl)
      | some t =>
        simp only
        split_ifs
        · refine ⟨⟨?_, ?_, fun _ _ _ => hall, fun _ => hwt⟩, hheard, hfresh (by simp), fun _ => h.none hw, ?_⟩
          · intro t e; cases e
          · intro t e; cases e
          · rintro (e | ⟨l, e⟩ | e | e)
            · exact absurd (h.none hw) e
            all_goals cases e
        · exact hk
  | data =>
    have hw : s.phase.waiting = true := by rw [hp]; rfl
    have hall := hk.found.all (by simp [hp]) (by simp [hp]) (by simp [hp])
    simp only
    split_ifs with h1 h2
    · exact hwork hw hall fun _ => h1
    · exact hk.end (Or.inl rfl)
    · exact hk
  | loading l =>
    have hr := hk.ready (Or.inr (Or.inl ⟨l, hp⟩))
    have hall := hk.found.all (by simp [hp]) (by simp [hp]) (by simp [hp])
    have gen : ∀ (s' : St), s'.phase.waiting = false → (s'.phase = .gone ∨ s'.phase = .spinning ∨ s'.phase = .starting ∨
        ∃ l, s'.phase = .loading l) → s'.heard = s.heard → Inv a cs now (is ++ [.run w]) s' := by
      intro s' e1 e2 e3
      refine ⟨⟨?_, ?_, fun _ _ _ => hall, ?_⟩, ?_, ?_, ?_, fun _ => hr⟩
      · intro t e; rw [e] at e1; cases e1
      · intro t e; rw [e] at e1; cases e1
      · rintro (e | ⟨t, w, e⟩) <;> (rw [e] at e1; cases e1)
      · rw [e3]; exact hheard
      · rw [e3]
        rintro (⟨v, t, e⟩ | e)
        · rw [e] at e1; cases e1
        · exact h.fresh (Or.inr e)
      · intro e; rw [e1] at e; cases e
    cases l with
    | nil =>
      simp only
      split_ifs <;> refine gen _ rfl ?_ rfl <;> simp
    | cons n ns => exact gen _ rfl (by simp) rfl
  | starting =>
    have hr := hk.ready (Or.inr (Or.inr (Or.inl hp)))
    have hall := hk.found.all (by simp [hp]) (by simp [hp]) (by simp [hp])
    refine ⟨⟨?_, ?_, fun _ _ _ => hall, ?_⟩, hheard, hfresh (by simp), (fun e => by cases e), fun _ => hr⟩
    · intro t e; cases e
    · intro t e; cases e
    · rintro (e | ⟨t, w, e⟩) <;> cases e
  | spinning =>
    simp only
    split_ifs
    · exact hk.end (Or.inl rfl)
    · exact hk
  | gone => exact hk
  | crashed => exact hk

theorem step_message (s : St) (b : Bool) :
    (s.step a cs (.message b) = s ∧ ((∃ v t, s.phase = .service v t) ∨ a.waits = false)) ∨
    (s.step a cs (.message b) = { s with heard := some b } ∧ (∀ v t, s.phase ≠ .service v t) ∧ a.waits = true) := by
  have key : (∀ v t, s.phase ≠ .service v t) → s.step a cs (.message b) = if a.waits then { s with heard := some b } else s := by
    intro h
    simp only [St.step]
  by_cases h : ∃ v t, s.phase = .service v t
  · obtain ⟨v, t, e⟩ := h
    refine Or.inl ⟨?_, Or.inl ⟨v, t, e⟩⟩
    simp only [St.step, e]
  · have h' : ∀ v t, s.phase ≠ .service v t := fun v t e => h ⟨v, t, e⟩
    rw [key h']
    cases hw : a.waits
    · exact Or.inl ⟨rfl, Or.inr rfl⟩
    · exact Or.inr ⟨rfl, h', rfl⟩

theorem inv_after (now : Int) (is : List In) : Inv a cs now is (after a cs now is) := by
  induction is using List.reverseRecOn with
  | nil => exact inv_init now
  | append_singleton is i ih =>
    rw [after_snoc]
    cases i with
    | run w => exact inv_go rfl ih w
    | shutdown =>
      refine ⟨ih.found.snoc _, ?_, ih.fresh, ih.none, ?_⟩
      · intro b hb; rw [lastMessage_snoc]; exact ih.heard b hb
      · intro hr
        obtain ⟨p, q, e, h1, h2⟩ := ih.ready hr
        exact ⟨p, q ++ [.shutdown], by rw [e, List.append_assoc], h1, h2⟩
    | message b =>
      have hrd : ∀ s' : St, s'.requests = (after a cs now is).requests → s'.phase = (after a cs now is).phase →
          (s'.requests ≠ [] ∨ (∃ l, s'.phase = .loading l) ∨ s'.phase = .starting ∨ s'.phase = .spinning) →
          ∃ p q, is ++ [In.message b] = p ++ q ∧ Ready a p ∧ (after a cs now p).requests = [] := by
        intro s' e1 e2 hr
        rw [e1, e2] at hr
        obtain ⟨p, q, e, h1, h2⟩ := ih.ready hr
        exact ⟨p, q ++ [.message b], by rw [e, List.append_assoc], h1, h2⟩
      rcases step_message (a := a) (cs := cs) (after a cs now is) b with ⟨e, hh⟩ | ⟨e, hh, hw⟩
      · rw [e]
        refine ⟨ih.found.snoc _, ?_, ih.fresh, ih.none, hrd _ rfl rfl⟩
        intro b' hb
        rw [ih.fresh hh] at hb; cases hb
      · rw [e]
        refine ⟨ih.found.snoc _, ?_, ?_, ih.none, hrd _ rfl rfl⟩
        · intro b' hb; rw [lastMessage_snoc]; exact hb
        · rintro (⟨v, t, e⟩ | e)
          · exact absurd e (hh v t)
          · rw [hw] at e; cases e

theorem down_go (s : St) (w : World) : (s.go a cs w).down = s.down := by
  unfold St.go
  cases s.phase with
  | service v since =>
    simp only
    split_ifs <;> first | rfl | (unfold St.handle; split_ifs <;> rfl) | skip
    cases v <;> simp only [St.found] <;> first | rfl | (split_ifs <;> rfl)
  | topic st wd =>
    simp only
    split_ifs <;> first | rfl | skip
    cases a.limit <;> simp only <;> first | rfl | (split_ifs <;> rfl)
  | data => simp only; split_ifs <;> rfl
  | loading l => cases l <;> rfl
  | starting => rfl
  | spinning => simp only; split_ifs <;> rfl
  | gone => rfl
  | crashed => rfl

/-- Without a shutdown the program does not notice one. -/
theorem up_after (now : Int) (is : List In) (h : NoShutdown is) : (after a cs now is).down = false := by
  induction is using List.reverseRecOn with
  | nil => rfl
  | append_singleton is i ih =>
    have ih := ih fun j hj => h j (by simp [hj])
    rw [after_snoc]
    cases i with
    | shutdown => exact absurd rfl (h .shutdown (by simp))
    | message b => rcases step_message (a := a) (cs := cs) (after a cs now is) b with ⟨e, _⟩ | ⟨e, _⟩ <;> rw [e] <;> exact ih
    | run w => simp only [St.step, down_go, ih]

/-- The requests so far: loads of a part of the names in order, then perhaps the switch. -/
structure Reqs (a : Args) (cs : List String) (s : St) : Prop where
  all : ∃ l, l.map (·.1) <+: cs ∧ s.loaded = accepted l ∧
    (s.requests = loadRequests a l ∨ l.map (·.1) = cs ∧ a.stopped = false ∧
      s.requests = loadRequests a l ++ [.switch (a.serviceName .switch) (accepted l)])
  waiting : s.phase.waiting = true → s.requests = [] ∧ s.loaded = []
  loading : ∀ rest, s.phase = .loading rest → ∃ l, cs = l.map (·.1) ++ rest ∧ s.requests = loadRequests a l ∧
    s.loaded = accepted l
  starting : s.phase = .starting → a.stopped = false ∧ ∃ l, cs = l.map (·.1) ∧ s.requests = loadRequests a l ∧
    s.loaded = accepted l
  spinning : s.phase = .spinning → ∃ l, cs = l.map (·.1) ∧ s.requests = loadRequests a l ++
    (if a.stopped then [] else [.switch (a.serviceName .switch) (accepted l)])

theorem Reqs.congr {s s' : St} (h : Reqs a cs s) (h1 : s'.requests = s.requests) (h2 : s'.loaded = s.loaded)
    (h3 : s'.phase = s.phase ∨ s'.phase = .gone ∨ s'.phase = .crashed ∨ s.phase.waiting = true ∧ s'.phase.waiting = true) :
    Reqs a cs s' := by
  obtain ⟨hall, hw, hl, hs, hp⟩ := h
  rw [← h1, ← h2] at hall hw
  have hl' : ∀ rest, s'.phase = .loading rest → s.phase = .loading rest := by
    intro r e
    rcases h3 with h | h | h | ⟨_, h⟩
    · rw [← h]; exact e
    all_goals (rw [e] at h; cases h)
  have hs' : s'.phase = .starting → s.phase = .starting := by
    intro e
    rcases h3 with h | h | h | ⟨_, h⟩
    · rw [← h]; exact e
    all_goals (rw [e] at h; cases h)
  have hp' : s'.phase = .spinning → s.phase = .spinning := by
    intro e
    rcases h3 with h | h | h | ⟨_, h⟩
    · rw [← h]; exact e
    all_goals (rw [e] at h; cases h)
  refine ⟨hall, ?_, ?_, ?_, ?_⟩
  · intro e
    rcases h3 with h | h | h | ⟨h, _⟩
    · exact hw (by rw [← h]; exact e)
    · rw [h] at e; cases e
    · rw [h] at e; cases e
    · exact hw h
  · intro r e; rw [h1, h2]; exact hl r (hl' r e)
  · intro e; rw [h1, h2]; exact hs (hs' e)
  · intro e; rw [h1]; exact hp (hp' e)

theorem Reqs.work {s : St} (h : Reqs a cs s) (hw : s.phase.waiting = true) : Reqs a cs (s.work cs) := by
  obtain ⟨e1, e2⟩ := h.waiting hw
  refine ⟨h.all, (fun e => by cases e), ?_, (fun e => by cases e), (fun e => by cases e)⟩
  intro rest e
  cases e
  exact ⟨[], rfl, e1, e2⟩

theorem loadRequests_snoc (l : List (String × Bool)) (n : String) (b : Bool) :
    loadRequests a (l ++ [(n, b)]) = loadRequests a l ++ [.load (a.serviceName .load) n b] := by
  simp [loadRequests]

theorem accepted_snoc (l : List (String × Bool)) (n : String) (b : Bool) :
    accepted (l ++ [(n, b)]) = if b then accepted l ++ [n] else accepted l := by
  cases b <;> simp [accepted, List.filter_append]

theorem reqs_go {s : St} (h : Reqs a cs s) (w : World) : Reqs a cs (s.go a cs w) := by
  have hhandle : s.phase.waiting = true → Reqs a cs (s.handle w) := by
    intro hw
    unfold St.handle
    split_ifs
    · exact h.congr rfl rfl (Or.inr (Or.inr (Or.inr ⟨hw, rfl⟩)))
    · exact h.congr rfl rfl (Or.inr (Or.inl rfl))
  unfold St.go
  cases hp : s.phase with
  | service v since =>
    have hw : s.phase.waiting = true := by rw [hp]; rfl
    simp only
    split_ifs
    · exact hhandle hw
    · exact hhandle hw
    · cases v <;> simp only [St.found]
      · exact h.congr rfl rfl (Or.inr (Or.inr (Or.inr ⟨hw, rfl⟩)))
      · split_ifs
        · exact h.congr rfl rfl (Or.inr (Or.inr (Or.inr ⟨hw, rfl⟩)))
        · exact h.work hw
      · exact h.congr rfl rfl (Or.inr (Or.inr (Or.inr ⟨hw, rfl⟩)))
    · exact h
  | topic st wd =>
    have hw : s.phase.waiting = true := by rw [hp]; rfl
    simp only
    split_ifs
    · exact h.congr rfl rfl (Or.inr (Or.inr (Or.inr ⟨hw, rfl⟩)))
    · exact h.congr rfl rfl (Or.inr (Or.inl rfl))
    · exact h
    · cases a.limit <;> simp only
      · exact h.congr rfl rfl (Or.inr (Or.inr (Or.inl rfl)))
      · split_ifs
        · exact h.congr rfl rfl (Or.inr (Or.inr (Or.inr ⟨hw, rfl⟩)))
        · exact h
  | data =>
    have hw : s.phase.waiting = true := by rw [hp]; rfl
    simp only
    split_ifs
    · exact h.work hw
    · exact h.congr rfl rfl (Or.inr (Or.inl rfl))
    · exact h
  | loading r =>
    obtain ⟨l, e1, e2, e3⟩ := h.loading r hp
    cases r with
    | nil =>
      have e1 : cs = l.map (·.1) := by simpa using e1
      simp only
      split_ifs with h1 h2
      · exact h.congr rfl rfl (Or.inr (Or.inl rfl))
      · refine ⟨h.all, (fun e => by cases e), (fun _ e => by cases e), (fun e => by cases e), fun _ => ⟨l, e1, ?_⟩⟩
        simp [h2, e2]
      · exact ⟨h.all, (fun e => by cases e), (fun _ e => by cases e), fun _ => ⟨by simpa using h2, l, e1, e2, e3⟩,
          (fun e => by cases e)⟩
    | cons n ns =>
      have hd : cs = (l ++ [(n, w.answer)]).map (·.1) ++ ns := by rw [e1]; simp
      have hr : s.requests ++ [.load (a.serviceName .load) n w.answer] = loadRequests a (l ++ [(n, w.answer)]) := by
        rw [loadRequests_snoc, e2]
      have ha : (if w.answer then s.loaded ++ [n] else s.loaded) = accepted (l ++ [(n, w.answer)]) := by
        rw [accepted_snoc, e3]
      refine ⟨⟨_, ⟨ns, hd.symm⟩, ha, Or.inl hr⟩, (fun e => by cases e), ?_, (fun e => by cases e), (fun e => by cases e)⟩
      intro rest e
      cases e
      exact ⟨_, hd, hr, ha⟩
  | starting =>
    obtain ⟨e1, l, e2, e3, e4⟩ := h.starting hp
    refine ⟨⟨l, e2 ▸ List.prefix_refl _, e4, Or.inr ⟨e2.symm, e1, ?_⟩⟩, (fun e => by cases e), (fun _ e => by cases e),
      (fun e => by cases e), fun _ => ⟨l, e2, ?_⟩⟩
    · simp only [e3, e4]
    · simp [e1, e3, e4]
  | spinning =>
    simp only
    split_ifs
    · exact h.congr rfl rfl (Or.inr (Or.inl rfl))
    · exact h
  | gone => exact h
  | crashed => exact h

theorem reqs_after (now : Int) (is : List In) : Reqs a cs (after a cs now is) := by
  induction is using List.reverseRecOn with
  | nil =>
    exact ⟨⟨[], List.nil_prefix, rfl, Or.inl rfl⟩, fun _ => ⟨rfl, rfl⟩, (fun _ e => by cases e), (fun e => by cases e),
      (fun e => by cases e)⟩
  | append_singleton is i ih =>
    rw [after_snoc]
    cases i with
    | shutdown => exact ih.congr rfl rfl (Or.inl rfl)
    | message b =>
      rcases step_message (a := a) (cs := cs) (after a cs now is) b with ⟨e, _⟩ | ⟨e, _⟩ <;> rw [e]
      · exact ih
      · exact ih.congr rfl rfl (Or.inl rfl)
    | run w => exact reqs_go ih w

/-! ### Patience -/

/-- Why the program is where it is, as long as ROS has not been shut down. -/
structure Patient (a : Args) (now : Int) (is : List In) (s : St) : Prop where
  service : ∀ v since, s.phase = .service v since → ∃ p q, is = p ++ q ∧ since = clock now p ∧
    ∀ w, In.run w ∈ q → w.available (a.serviceName v) = false
  gone : s.phase = .gone → GaveUp a now is
  crashed : s.phase = .crashed → a.waits = true ∧ a.limit = none

theorem clock_snoc (now : Int) (is : List In) (w : World) : clock now (is ++ [.run w]) = w.now := by
  simp [clock, List.foldl_append]

theorem GaveUp.snoc {now : Int} {is : List In} (h : GaveUp a now is) (i : In) : GaveUp a now (is ++ [i]) := by
  obtain ⟨v, t, p, q, w, r, h1, h2, h3, h4⟩ := h
  exact ⟨v, t, p, q, w, r ++ [i], h1, by rw [h2]; simp, h3, h4⟩

theorem Patient.keep {now : Int} {is : List In} {s : St} (h : Patient a now is s) {i : In}
    (hi : ∀ v since, s.phase = .service v since → ∀ w, i = .run w → w.available (a.serviceName v) = false) :
    Patient a now (is ++ [i]) s := by
  refine ⟨fun v since e => ?_, fun e => (h.gone e).snoc i, h.crashed⟩
  obtain ⟨p, q, e1, e2, e3⟩ := h.service v since e
  refine ⟨p, q ++ [i], by rw [e1, List.append_assoc], e2, fun w hw => ?_⟩
  rcases List.mem_append.1 hw with hw | hw
  · exact e3 w hw
  · exact hi v since e w (List.mem_singleton.1 hw).symm

theorem Patient.fresh {now : Int} {is : List In} {w : World} {s' : St} {v : Service} (h : s'.phase = .service v w.now) :
    Patient a now (is ++ [.run w]) s' := by
  refine ⟨fun v' since e => ?_, fun e => ?_, fun e => ?_⟩
  · rw [h] at e; cases e
    exact ⟨is ++ [.run w], [], by simp, (clock_snoc now is w).symm, by simp⟩
  · rw [h] at e; cases e
  · rw [h] at e; cases e

theorem Patient.other {now : Int} {is : List In} {s' : St} (h1 : ∀ v t, s'.phase ≠ .service v t) (h2 : s'.phase ≠ .gone)
    (h3 : s'.phase ≠ .crashed) : Patient a now is s' :=
  ⟨fun v t e => absurd e (h1 v t), fun e => absurd e h2, fun e => absurd e h3⟩

theorem patient_go {now : Int} {is : List In} {s : St} (hi : Inv a cs now is s) (h : Patient a now is s) (hd : s.down = false)
    (w : World) : Patient a now (is ++ [.run w]) (s.go a cs w) := by
  unfold St.go
  cases hp : s.phase with
  | service v since =>
    simp only [hd, Bool.false_eq_true, if_false]
    split_ifs with h1 h2
    · unfold St.handle
      split_ifs
      · exact .fresh rfl
      · refine ⟨(fun _ _ e => by cases e), fun _ => ?_, (fun e => by cases e)⟩
        obtain ⟨p, q, e1, e2, e3⟩ := h.service v since hp
        unfold Args.expired at h1
        cases hl : a.limit with
        | none => rw [hl] at h1; cases h1
        | some t =>
          rw [hl] at h1
          exact ⟨v, t, p, q, w, [], hl, by rw [e1], by rw [← e2]; simpa using h1, e3⟩
    · cases v with
      | load => exact .fresh rfl
      | switch => exact .fresh rfl
      | unload =>
        simp only [St.found]
        split_ifs <;> exact .other (by simp [St.work]) (by simp [St.work]) (by simp [St.work])
    · refine h.keep fun v' since' e w' hw => ?_
      rw [hp] at e; cases e
      cases hw
      simpa using h2
  | topic st wd =>
    have hwt := hi.found.topic (Or.inr ⟨_, _, hp⟩)
    have hkeep : Patient a now (is ++ [.run w]) s := h.keep fun v t e => by rw [hp] at e; cases e
    simp only [hd, Bool.false_eq_true, if_false]
    split_ifs
    · exact .other (by simp) (by simp) (by simp)
    · exact hkeep
    · cases hl : a.limit with
      | none => exact ⟨(fun _ _ e => by cases e), (fun e => by cases e), fun _ => ⟨hwt, hl⟩⟩
      | some t =>
        simp only
        split_ifs
        · exact .other (by simp) (by simp) (by simp)
        · exact hkeep
  | data =>
    simp only [hd, Bool.false_eq_true, if_false]
    split_ifs
    · exact .other (by simp [St.work]) (by simp [St.work]) (by simp [St.work])
    · exact h.keep fun v t e => by rw [hp] at e; cases e
  | loading l =>
    cases l with
    | nil =>
      simp only [hd, Bool.false_eq_true, if_false]
      split_ifs <;> exact .other (by simp) (by simp) (by simp)
    | cons n ns => exact .other (by simp) (by simp) (by simp)
  | starting => exact .other (by simp) (by simp) (by simp)
  | spinning =>
    simp only [hd, Bool.false_eq_true, if_false]
    exact h.keep fun v t e => by rw [hp] at e; cases e
  | gone => exact h.keep fun v t e => by rw [hp] at e; cases e
  | crashed => exact h.keep fun v t e => by rw [hp] at e; cases e

theorem patient_after (now : Int) (is : List In) (h : NoShutdown is) : Patient a now is (after a cs now is) := by
  induction is using List.reverseRecOn with
  | nil =>
    refine ⟨fun v t e => ⟨[], [], rfl, ?_, by simp⟩, (fun e => by cases e), (fun e => by cases e)⟩
    cases e; rfl
  | append_singleton is i ih =>
    have h' : NoShutdown is := fun j hj => h j (by simp [hj])
    have ih := ih h'
    rw [after_snoc]
    cases i with
    | shutdown => exact absurd rfl (h .shutdown (by simp))
    | message b =>
      have hk : Patient a now (is ++ [.message b]) (after a cs now is) := ih.keep fun _ _ _ _ e => by cases e
      rcases step_message (a := a) (cs := cs) (after a cs now is) b with ⟨e, _⟩ | ⟨e, _⟩ <;> rw [e]
      · exact hk
      · exact ⟨hk.service, hk.gone, hk.crashed⟩
    | run w => exact patient_go (inv_after now is) ih (up_after now is h') w

/-! ### Progress -/

/-- How many steps the program may still take until it waits for its end; `n` is the number of controllers. -/
def rank (n : Nat) : Phase → Nat
  | .service .load _ => n + 5
  | .service .switch _ => n + 4
  | .service .unload _ => n + 3
  | .topic _ _ => n + 4
  | .data => n + 3
  | .loading l => l.length + 2
  | .starting => 1
  | .spinning => 0
  | .gone => 0
  | .crashed => 0

/-- The program is on its way. -/
structure Going (a : Args) (now : Int) (s : St) : Prop where
  up : s.down = false
  service : ∀ v t, s.phase = .service v t → a.waits = false ∧ now ≤ t
  heard : a.waits = true → s.heard = some true
  gone : s.phase ≠ .gone
  crashed : s.phase ≠ .crashed

theorem in_time {now since : Int} {w : World} (hw : Good a now w) (hs : now ≤ since) :
    a.expired w since = false := by
  unfold Args.expired
  cases hl : a.limit with
  | none => rfl
  | some t => have := hw.2.2 t hl; simp only [decide_eq_false_iff_not]; omega

theorem going_go {now : Int} {is : List In} {s : St} (hi : Inv a cs now is s) (h : Going a now s) {w : World} (hw : Good a now w) :
    Going a now (s.go a cs w) ∧ rank cs.length (s.go a cs w).phase ≤ rank cs.length s.phase - 1 := by
  obtain ⟨hu, hs, hh, hg, hc⟩ := h
  unfold St.go
  cases hp : s.phase with
  | service v since =>
    obtain ⟨hwt, hsn⟩ := hs v since hp
    simp only [hu, Bool.false_eq_true, if_false, in_time hw hsn, hw.1 v, if_true]
    cases v with
    | load => exact ⟨⟨hu, fun _ _ e => by cases e; exact ⟨hwt, hw.2.1⟩, (fun e => by rw [hwt] at e; cases e), by simp [St.found],
        by simp [St.found]⟩, by simp [St.found, rank]⟩
    | switch => exact ⟨⟨hu, fun _ _ e => by cases e; exact ⟨hwt, hw.2.1⟩, (fun e => by rw [hwt] at e; cases e), by simp [St.found],
        by simp [St.found]⟩, by simp [St.found, rank]⟩
    | unload =>
      simp only [St.found, hwt, Bool.false_eq_true, if_false]
      exact ⟨⟨hu, (fun _ _ e => by cases e), (fun e => by rw [hwt] at e; cases e), by simp [St.work], by simp [St.work]⟩,
        by simp [St.work, rank]⟩
  | topic st wd =>
    have hwt := hi.found.topic (Or.inr ⟨_, _, hp⟩)
    simp only [hh hwt, Option.isSome_some, if_true]
    exact ⟨⟨hu, (fun _ _ e => by cases e), fun _ => rfl, by simp, by simp⟩, by simp [rank]⟩
  | data =>
    have hwt := hi.found.topic (Or.inl hp)
    simp only [hh hwt, if_true]
    exact ⟨⟨hu, (fun _ _ e => by cases e), fun _ => hh hwt, by simp [St.work], by simp [St.work]⟩, by simp [rank, St.work]⟩
  | loading l =>
    cases l with
    | nil =>
      simp only [hu, Bool.false_eq_true, if_false]
      split_ifs <;> exact ⟨⟨rfl, (fun _ _ e => by cases e), hh, by simp, by simp⟩, by simp [rank]⟩
    | cons n ns => exact ⟨⟨hu, (fun _ _ e => by cases e), hh, by simp, by simp⟩, by simp [rank]⟩
  | starting => exact ⟨⟨hu, (fun _ _ e => by cases e), hh, by simp, by simp⟩, by simp [rank]⟩
  | spinning =>
    simp only [hu, Bool.false_eq_true, if_false]
    exact ⟨⟨hu, (fun _ _ e => by rw [hp] at e; cases e), hh, by simp [hp], by simp [hp]⟩, by simp [rank, hp]⟩
  | gone => exact absurd hp hg
  | crashed => exact absurd hp hc

theorem runs_snoc (is : List In) (i : In) :
    runs (is ++ [i]) = runs is + (match i with | .run _ => 1 | _ => 0) := by
  unfold runs
  rw [List.countP_append]
  cases i <;> simp

theorem going_after {now : Int} {is : List In} (h : Going a now (after a cs now is)) (js : List In)
    (hp : ∀ w, In.run w ∈ js → Good a now w) (hn : NoShutdown js) (hm : a.waits = true → In.message false ∉ js) :
    Going a now (after a cs now (is ++ js)) ∧
    rank cs.length (after a cs now (is ++ js)).phase ≤ rank cs.length (after a cs now is).phase - runs js := by
  induction js using List.reverseRecOn with
  | nil => simp only [List.append_nil]; exact ⟨h, by simp [runs]⟩
  | append_singleton js i ih =>
    obtain ⟨g, r⟩ := ih (fun w hw => hp w (by simp [hw])) (fun j hj => hn j (by simp [hj])) fun e hj => hm e (by simp [hj])
    rw [← List.append_assoc, after_snoc, runs_snoc]
    cases i with
    | shutdown => exact absurd rfl (hn .shutdown (by simp))
    | message b =>
      rcases step_message (a := a) (cs := cs) (after a cs now (is ++ js)) b with ⟨e, _⟩ | ⟨e, _, hw⟩ <;> rw [e]
      · exact ⟨g, r⟩
      · have hb : b = true := by
          cases b
          · exact absurd (by simp) (hm hw)
          · rfl
        exact ⟨⟨g.up, g.service, fun _ => by rw [hb], g.gone, g.crashed⟩, r⟩
    | run w =>
      obtain ⟨g', r'⟩ := going_go (inv_after now (is ++ js)) g (hp w (by simp))
      exact ⟨g', by simp only [St.step]; omega⟩

theorem rank_zero {n : Nat} {p : Phase} (h : rank n p = 0) (h1 : p ≠ .gone) (h2 : p ≠ .crashed) : p = .spinning := by
  cases p with
  | service v t => cases v <;> simp [rank] at h
  | spinning => rfl
  | gone => exact absurd rfl h1
  | crashed => exact absurd rfl h2
  | _ => simp [rank] at h

/-- The waits for the services. -/
def serviceRank : Service → Nat
  | .load => 3
  | .switch => 2
  | .unload => 1

/-- The program is at the services, and not too far behind; or past them. -/
structure Early (a : Args) (now : Int) (n : Nat) (s : St) : Prop where
  service : ∀ v t, s.phase = .service v t → now ≤ t ∧ serviceRank v + n ≤ 3
  gone : s.phase ≠ .gone
  crashed : s.phase ≠ .crashed

theorem early_go {now : Int} {n : Nat} {s : St} (hd : s.down = false) (hl : a.waits = true → a.limit ≠ none)
    {is : List In} (hi : Inv a cs now is s) (h : Early a now n s) {w : World} (hw : Good a now w) :
    Early a now (n + 1) (s.go a cs w) := by
  have other : ∀ s' : St, (∀ v t, s'.phase ≠ .service v t) → s'.phase ≠ .gone → s'.phase ≠ .crashed →
      Early a now (n + 1) s' := fun s' h1 h2 h3 => ⟨fun v t e => absurd e (h1 v t), h2, h3⟩
  unfold St.go
  cases hp : s.phase with
  | service v since =>
    obtain ⟨hsn, hr⟩ := h.service v since hp
    simp only [hd, Bool.false_eq_true, if_false, in_time hw hsn, hw.1 v, if_true]
    cases v with
    | load =>
      refine ⟨fun v t e => ?_, by simp [St.found], by simp [St.found]⟩
      cases e
      simp only [serviceRank] at hr ⊢
      exact ⟨hw.2.1, by omega⟩
    | switch =>
      refine ⟨fun v t e => ?_, by simp [St.found], by simp [St.found]⟩
      cases e
      simp only [serviceRank] at hr ⊢
      exact ⟨hw.2.1, by omega⟩
    | unload =>
      simp only [St.found]
      split_ifs <;> exact other _ (by simp [St.work]) (by simp [St.work]) (by simp [St.work])
  | topic st wd =>
    have hwt := hi.found.topic (Or.inr ⟨_, _, hp⟩)
    simp only [hd, Bool.false_eq_true, if_false]
    split_ifs
    · exact other _ (by simp) (by simp) (by simp)
    · exact other _ (by simp [hp]) (by simp [hp]) (by simp [hp])
    · cases hlm : a.limit with
      | none => exact absurd hlm (hl hwt)
      | some t =>
        simp only
        split_ifs
        · exact other _ (by simp) (by simp) (by simp)
        · exact other _ (by simp [hp]) (by simp [hp]) (by simp [hp])
  | data =>
    simp only [hd, Bool.false_eq_true, if_false]
    split_ifs
    · exact other _ (by simp [St.work]) (by simp [St.work]) (by simp [St.work])
    · exact other _ (by simp [hp]) (by simp [hp]) (by simp [hp])
  | loading l =>
    cases l with
    | nil =>
      simp only [hd, Bool.false_eq_true, if_false]
      split_ifs <;> exact other _ (by simp) (by simp) (by simp)
    | cons n ns => exact other _ (by simp) (by simp) (by simp)
  | starting => exact other _ (by simp) (by simp) (by simp)
  | spinning =>
    simp only [hd, Bool.false_eq_true, if_false]
    exact other _ (by simp [hp]) (by simp [hp]) (by simp [hp])
  | gone => exact absurd hp h.gone
  | crashed => exact absurd hp h.crashed

theorem early_after (now : Int) (is : List In) (hl : a.waits = true → a.limit ≠ none)
    (hp : ∀ w, In.run w ∈ is → Good a now w) (hn : NoShutdown is) : Early a now (runs is) (after a cs now is) := by
  induction is using List.reverseRecOn with
  | nil =>
    refine ⟨fun v t e => ?_, (fun e => by cases e), (fun e => by cases e)⟩
    cases e
    exact ⟨Int.le_refl _, by simp [serviceRank, runs]⟩
  | append_singleton is i ih =>
    have hn' : NoShutdown is := fun j hj => hn j (by simp [hj])
    have ih := ih (fun w hw => hp w (by simp [hw])) hn'
    rw [after_snoc, runs_snoc]
    cases i with
    | shutdown => exact absurd rfl (hn .shutdown (by simp))
    | message b =>
      rcases step_message (a := a) (cs := cs) (after a cs now is) b with ⟨e, _⟩ | ⟨e, _⟩ <;> rw [e]
      · exact ih
      · exact ⟨ih.service, ih.gone, ih.crashed⟩
    | run w => exact early_go (up_after now is hn') hl (inv_after now is) ih (hp w (by simp))

/-! ### The end -/

/-- How many steps the program may still take once ROS has been shut down. -/
def endRank (n : Nat) : Phase → Nat
  | .service _ _ => 1
  | .topic _ _ => n + 3
  | .data => n + 2
  | .loading l => l.length + 1
  | .starting => 2
  | .spinning => 1
  | .gone => 0
  | .crashed => 0

theorem end_go {s : St} (hd : s.down = true) {w : World} (hw : (w.simTime && w.clockZero) = false) :
    endRank cs.length (s.go a cs w).phase ≤ endRank cs.length s.phase - 1 := by
  unfold St.go
  cases hp : s.phase with
  | service v since => simp [hd, St.handle, hw, endRank]
  | topic st wd =>
    simp only [hd, if_true]
    split_ifs <;> simp [endRank]
  | data =>
    simp only [hd, if_true]
    split_ifs <;> simp [endRank, St.work]
  | loading l => cases l <;> simp [hd, endRank]
  | starting => simp [endRank]
  | spinning => simp [hd, endRank]
  | gone => simp [hp, endRank]
  | crashed => simp [hp, endRank]

theorem end_steps (ws : List World) (hw : ∀ w ∈ ws, (w.simTime && w.clockZero) = false) :
    ∀ s : St, s.down = true → endRank cs.length (s.steps a cs (ws.map .run)).phase ≤ endRank cs.length s.phase - ws.length := by
  induction ws with
  | nil => intro s _; simp [St.steps]
  | cons w ws ih =>
    intro s hd
    have h1 := end_go (a := a) (cs := cs) hd (hw w (by simp))
    have h2 := ih (fun w hw' => hw w (by simp [hw'])) (s.go a cs w) (by rw [down_go]; exact hd)
    have e : s.steps a cs ((w :: ws).map .run) = (s.go a cs w).steps a cs (ws.map .run) := rfl
    rw [e, List.length_cons]
    omega

theorem endRank_zero {n : Nat} {p : Phase} (h : endRank n p = 0) : p = .gone ∨ p = .crashed := by
  cases p <;> simp [endRank] at h <;> simp

theorem endRank_le (n : Nat) (p : Phase) (h : ∀ l, p = .loading l → l.length ≤ n) : endRank n p ≤ n + 3 := by
  cases p <;> simp only [endRank] <;> first | omega | skip
  rename_i l
  have := h l rfl
  omega

end Verif.Spawner
