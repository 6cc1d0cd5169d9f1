import Verif.Model.SpawnerLife
import Verif.Lemmas.ClientPrograms
import Verif.Props.Clients

/-!
Lemmas for C105: the whole life of the spawner.
-/

namespace Verif.Spawner

open Mgr Spec Clients

variable {conf : List ControllerInfo → Bool} {errors : Bool} {env : String → LoadEnv} {a : Args} {cs : List String}
  {prepOk prepOk' : Bool}

theorem loads_snoc {pre : List String} {n : String} {m0 m1 m2 : Mgr} {loaded : List String} {ok : Bool}
    (hl : Loads conf errors env pre m0 loaded m1) (hs : Served conf errors m1 (.load n (env n)) ok m2) :
    Loads conf errors env (pre ++ [n]) m0 (if ok then loaded ++ [n] else loaded) m2 := by
  induction hl with
  | nil m =>
    cases ok with
    | true => exact .ok hs (.nil _)
    | false => exact .failed hs (.nil _)
  | ok h _ ih =>
    have := Loads.ok h (ih hs)
    cases ok <;> exact this
  | failed h _ ih =>
    have := Loads.failed h (ih hs)
    cases ok <;> exact this

/-- What has happened while the hook waits. -/
def Stage (conf : List ControllerInfo → Bool) (errors : Bool) (env : String → LoadEnv) (a : Args) (cs : List String)
    (prepOk : Bool) (m0 : Mgr) (s : St) (m : Mgr) (pending : Option Bool) : Prop :=
  (s.phase.registered = true → s.down = false) ∧
  match s.phase with
  | .loading rest => ∃ pre, cs = pre ++ rest ∧ ∃ m1, Loads conf errors env pre m0 s.loaded m1 ∧
      match pending with
      | none => m = m1
      | some ok => ∃ n ns, rest = n :: ns ∧ Served conf errors m1 (.load n (env n)) ok m
  | .starting => a.stopped = false ∧ ∃ m1, Loads conf errors env cs m0 s.loaded m1 ∧
      match pending with
      | none => m = m1
      | some ok => ∃ now, Served conf errors m1 (.switch ⟨s.loaded, [], strictnessStrict, false, 0⟩ now prepOk) ok m
  | .spinning => Spawns conf errors env a.stopped prepOk cs m0 s.loaded m ∧ pending = none
  | _ => m = m0 ∧ s.loaded = [] ∧ pending = none

theorem served_idle {conf errors c ok} {m m' : Mgr} (hs : Served conf errors m c ok m') : m'.svc = .idle := by
  obtain ⟨_, _, _, _, _, _, hh, _⟩ := hs; exact hh

/-- The main thread goes on without a request. -/
theorem stage_main {m0 s m} {w : World} (ha : s.phase.asks = false)
    (hd : (s.step a cs (.run w)).phase.registered = true → s.phase.registered = false → s.down = false)
    (hst : Stage conf errors env a cs prepOk m0 s m none) :
    Stage conf errors env a cs prepOk m0 (s.step a cs (.run w)) m none := by
  obtain ⟨phase, heard, down, loaded, requests⟩ := s
  have nr : ∀ {s : St}, s.phase.registered = false → (s.phase.registered = true → s.down = false) :=
    fun h1 h2 => absurd (h1.symm.trans h2) (by simp)
  cases phase with
  | service v t =>
    obtain ⟨_, rfl, rfl, _⟩ := hst
    simp only [St.step, St.go] at hd ⊢
    split
    · unfold St.handle; split <;> exact ⟨nr rfl, rfl, rfl, rfl⟩
    · split
      · unfold St.handle; split <;> exact ⟨nr rfl, rfl, rfl, rfl⟩
      · split
        · rename_i h1 h2 h3
          cases v with
          | load => exact ⟨nr rfl, rfl, rfl, rfl⟩
          | switch => exact ⟨nr rfl, rfl, rfl, rfl⟩
          | unload =>
            unfold St.found
            dsimp only
            split
            · exact ⟨nr rfl, rfl, rfl, rfl⟩
            · exact ⟨fun _ => (Bool.eq_false_iff.2 h1), [], rfl, _, .nil _, rfl⟩
        · exact ⟨nr rfl, rfl, rfl, rfl⟩
  | topic t b =>
    obtain ⟨_, rfl, rfl, _⟩ := hst
    simp only [St.step, St.go]
    split
    · exact ⟨nr rfl, rfl, rfl, rfl⟩
    · split
      · exact ⟨nr rfl, rfl, rfl, rfl⟩
      · split
        · exact ⟨nr rfl, rfl, rfl, rfl⟩
        · split
          · exact ⟨nr rfl, rfl, rfl, rfl⟩
          · split <;> exact ⟨nr rfl, rfl, rfl, rfl⟩
  | data =>
    obtain ⟨_, rfl, rfl, _⟩ := hst
    simp only [St.step, St.go] at hd ⊢
    split
    · rename_i hh
      rw [if_pos hh] at hd
      exact ⟨fun _ => hd rfl rfl, [], rfl, _, .nil _, rfl⟩
    · split <;> exact ⟨nr rfl, rfl, rfl, rfl⟩
  | loading l =>
    cases l with
    | cons _ _ => cases ha
    | nil =>
      obtain ⟨hdn, pre, e, m1, hl, rfl⟩ := hst
      rw [List.append_nil] at e
      subst e
      have hdn : down = false := hdn rfl
      subst hdn
      simp only [St.step, St.go]
      unfold Stage
      dsimp only at hl ⊢
      refine ⟨fun _ => rfl, ?_⟩
      cases hs : a.stopped
      · exact ⟨rfl, _, hl, rfl⟩
      · simp only [Bool.false_eq_true, if_false, if_true]
        exact ⟨⟨_, hl, rfl⟩, trivial⟩
  | starting => cases ha
  | spinning =>
    have hdn : down = false := hst.1 rfl
    subst hdn
    exact hst
  | gone => exact hst
  | crashed => exact hst

/-- The main thread goes on with an answer. -/
theorem stage_answer {m0 s m} {w : World} (hst : Stage conf errors env a cs prepOk m0 s m (some w.answer)) :
    Stage conf errors env a cs prepOk m0 (s.step a cs (.run w)) m none := by
  obtain ⟨phase, heard, down, loaded, requests⟩ := s
  cases phase with
  | loading l =>
    obtain ⟨hd, pre, e, m1, hl, n, ns, rfl, hs⟩ := hst
    exact ⟨fun _ => hd rfl, pre ++ [n], by rw [e, List.append_assoc, List.singleton_append], m, loads_snoc hl hs, rfl⟩
  | starting =>
    obtain ⟨hd, h1, m1, hl, now, hs⟩ := hst
    refine ⟨fun _ => hd rfl, ⟨m1, hl, ?_⟩, rfl⟩
    rw [h1]
    exact ⟨now, _, hs⟩
  | spinning => exact absurd hst.2.2 (by simp)
  | _ => exact absurd hst.2.2.2 (by simp)

theorem stage_heard {m0 s m p b} (hst : Stage conf errors env a cs prepOk m0 s m p) :
    Stage conf errors env a cs prepOk m0 { s with heard := b } m p := hst

theorem stage_down {m0 s m p} (hr : s.phase.registered = false) (hst : Stage conf errors env a cs prepOk m0 s m p) :
    Stage conf errors env a cs prepOk m0 (s.step a cs .shutdown) m p :=
  ⟨fun h => absurd (hr.symm.trans h) (by simp), hst.2⟩

theorem stage_crashed {m0 s m p} (hd : s.down = true) (hst : Stage conf errors env a cs prepOk m0 s m p) :
    Stage conf errors env a cs prepOk m0 { s with phase := .crashed } m none := by
  obtain ⟨phase, heard, down, loaded, requests⟩ := s
  refine ⟨fun e => (by cases e), ?_⟩
  have hd : down = true := hd
  subst hd
  cases phase with
  | loading l => exact absurd (hst.1 rfl) (by simp)
  | starting => exact absurd (hst.1 rfl) (by simp)
  | spinning => exact absurd (hst.1 rfl) (by simp)
  | _ => exact ⟨hst.2.1, hst.2.2.1, rfl⟩

theorem step_message_eq (s : St) (b : Bool) : ∃ h, s.step a cs (.message b) = { s with heard := h } := by
  obtain ⟨phase, heard, down, loaded, requests⟩ := s
  cases phase <;> simp only [St.step]
  case service v t => exact ⟨heard, rfl⟩
  all_goals
    split
    · exact ⟨some b, rfl⟩
    · exact ⟨heard, rfl⟩

/-- Everything while the hook waits. -/
theorem run_stage {m0 : Mgr} (h : Reachable conf m0) (hi : m0.svc = .idle) {now ls L}
    (hr : Life.Run conf errors env a cs prepOk prepOk' ls (.init now m0) L) :
    Reachable conf L.m ∧ L.m.svc = .idle ∧ (L.hook = .waiting → Stage conf errors env a cs prepOk m0 L.s L.m L.pending) := by
  generalize hL0 : Life.init now m0 = L0 at hr
  induction hr with
  | nil l => subst hL0; exact ⟨h, hi, fun _ => ⟨fun e => (by cases e), rfl, rfl, rfl⟩⟩
  | snoc _ hs ih =>
    obtain ⟨r, i, st⟩ := ih hL0
    cases hs with
    | load hp hs =>
      refine ⟨hs.reachable r, served_idle hs, fun hw => ?_⟩
      have := st hw
      unfold Stage at this ⊢
      dsimp only at this ⊢
      rw [hp] at this ⊢
      obtain ⟨hd, pre, e, m1, hl, rfl⟩ := this
      exact ⟨hd, pre, e, _, hl, _, _, rfl, hs⟩
    | start hp hs =>
      refine ⟨hs.reachable r, served_idle hs, fun hw => ?_⟩
      have := st hw
      unfold Stage at this ⊢
      dsimp only at this ⊢
      rw [hp] at this ⊢
      obtain ⟨hd, e, m1, hl, rfl⟩ := this
      exact ⟨hd, e, _, hl, _, hs⟩
    | answer => exact ⟨r, i, fun hw => stage_answer (st hw)⟩
    | main ha hd => exact ⟨r, i, fun hw => stage_main ha hd (st hw)⟩
    | late _ _ _ _ hs => exact ⟨hs.reachable r, served_idle hs, fun hw => (by cases hw)⟩
    | message =>
      refine ⟨r, i, fun hw => ?_⟩
      obtain ⟨x, e⟩ := step_message_eq (a := a) (cs := cs) _ _
      dsimp only
      rw [e]
      exact stage_heard (st hw)
    | shutdown hr => exact ⟨r, i, fun hw => stage_down hr (st hw)⟩
    | kill _ _ => exact ⟨r, i, fun hw => (by cases hw)⟩
    | stop hs => exact ⟨hs.reachable r, served_idle hs, fun hw => (by cases hw)⟩
    | reversed => exact ⟨r, i, fun hw => (by cases hw)⟩
    | unload hs => exact ⟨hs.reachable r, served_idle hs, fun hw => (by cases hw)⟩
    | done => exact ⟨r, i, fun hw => (by cases hw)⟩
    | interrupt hd => exact ⟨r, i, fun hw => stage_crashed hd (st hw)⟩

/-- At the moment when the hook begins and no request is under way, the program has done as much as a spawner that was
told so. -/
theorem killed_spawns {m0 : Mgr} {s : St} {m : Mgr} (hr : s.phase.registered = true)
    (hst : Stage conf errors env a cs prepOk m0 s m none) :
    ∃ st names, names <+: cs ∧ Spawns conf errors env st prepOk names m0 s.loaded m := by
  obtain ⟨phase, heard, down, loaded, requests⟩ := s
  cases phase with
  | loading l =>
    obtain ⟨_, pre, e, m1, hl, rfl⟩ := hst
    exact ⟨true, pre, ⟨l, e.symm⟩, _, hl, rfl⟩
  | starting =>
    obtain ⟨_, _, m1, hl, rfl⟩ := hst
    exact ⟨true, cs, List.prefix_refl _, _, hl, rfl⟩
  | spinning => exact ⟨a.stopped, cs, List.prefix_refl _, hst.2.1⟩
  | _ => cases hr

/-- What the hook has done, if the main thread makes no request: `loaded` is the list and `m1` the manager at its
beginning. -/
def Hooked (conf : List ControllerInfo → Bool) (errors : Bool) (prepOk' : Bool) (loaded : List String) (m1 : Mgr)
    (L : Life) : Prop :=
  L.s.loaded = loaded ∧ L.pending = none ∧
  match L.hook with
  | .waiting => False
  | .stopping => L.m = m1
  | .stopped => ∃ now ok, Served conf errors m1 (.switch ⟨[], loaded, strictnessStrict, false, 0⟩ now prepOk') ok L.m
  | .unloading rest => ∃ now ok m2 gone, Served conf errors m1 (.switch ⟨[], loaded, strictnessStrict, false, 0⟩ now prepOk')
      ok m2 ∧ loaded.reverse = gone ++ rest ∧ Unloads conf errors gone m2 L.m
  | .done => Shutdown conf errors loaded prepOk' m1 L.m

theorem unloads_snoc {names : List String} {n : String} {m0 m1 m2 : Mgr} {ok : Bool}
    (hl : Unloads conf errors names m0 m1) (hs : Served conf errors m1 (.unload n) ok m2) :
    Unloads conf errors (names ++ [n]) m0 m2 := by
  induction hl with
  | nil m => exact .cons hs (.nil _)
  | cons h _ ih => exact .cons h (ih hs)

theorem step_loaded {s : St} {w : World} (ha : s.phase.asks = false) : (s.step a cs (.run w)).loaded = s.loaded := by
  obtain ⟨phase, heard, down, loaded, requests⟩ := s
  cases phase with
  | service v t =>
    simp only [St.step, St.go, St.handle]
    split
    · split <;> rfl
    · split
      · split <;> rfl
      · split
        · cases v with
          | load => rfl
          | switch => rfl
          | unload => unfold St.found; dsimp only; split <;> rfl
        · rfl
  | topic t b =>
    simp only [St.step, St.go]
    split
    · rfl
    · split
      · rfl
      · split
        · rfl
        · split
          · rfl
          · split <;> rfl
  | data =>
    simp only [St.step, St.go]
    split
    · rfl
    · split <;> rfl
  | loading l =>
    cases l with
    | cons _ _ => cases ha
    | nil => rfl
  | starting => cases ha
  | spinning => simp only [St.step, St.go]; split <;> rfl
  | gone => rfl
  | crashed => rfl

/-- A registered hook stays so, until the main thread ends. -/
theorem step_registered {s : St} {w : World} (hr : s.phase.registered = true ∨ s.phase = .gone ∨ s.phase = .crashed) :
    (s.step a cs (.run w)).phase.registered = true ∨ (s.step a cs (.run w)).phase = .gone ∨
      (s.step a cs (.run w)).phase = .crashed := by
  obtain ⟨phase, heard, down, loaded, requests⟩ := s
  cases phase with
  | loading l =>
    cases l with
    | nil =>
      simp only [St.step, St.go]
      cases down <;> cases a.stopped <;> simp [Phase.registered]
    | cons _ _ => left; rfl
  | starting => left; rfl
  | spinning =>
    simp only [St.step, St.go]
    split
    · right; left; rfl
    · left; rfl
  | gone => right; left; rfl
  | crashed => right; right; rfl
  | _ => simp [Phase.registered] at hr

theorem run_hooked {loaded m1 ls L0 L} (h0 : Hooked conf errors prepOk' loaded m1 L0)
    (hreg : L0.s.phase.registered = true ∨ L0.s.phase = .gone ∨ L0.s.phase = .crashed)
    (hr : Life.Run conf errors env a cs prepOk prepOk' ls L0 L) (hn : Label.ask ∉ ls) :
    Hooked conf errors prepOk' loaded m1 L ∧
      (L.s.phase.registered = true ∨ L.s.phase = .gone ∨ L.s.phase = .crashed) := by
  induction hr with
  | nil l => exact ⟨h0, hreg⟩
  | snoc _ hs ih =>
    simp only [List.mem_append, List.mem_singleton, not_or] at hn
    obtain ⟨⟨h1, h2, h3⟩, hg⟩ := ih h0 hreg hn.1
    cases hs with
    | load hp hs => exact absurd rfl hn.2
    | start hp hs => exact absurd rfl hn.2
    | answer => cases h2
    | main ha _ => exact ⟨⟨(step_loaded ha).trans h1, rfl, h3⟩, step_registered hg⟩
    | late _ hr hr' _ hs =>
      rcases hg with hg | hg | hg
      · exact absurd (hr'.symm.trans hg) (by simp)
      · simp only at hg
        simp [St.step, St.go, hg, Phase.registered] at hr
      · simp only at hg
        simp [St.step, St.go, hg, Phase.registered] at hr
    | message =>
      obtain ⟨x, e⟩ := step_message_eq (a := a) (cs := cs) _ _
      rw [e]
      exact ⟨⟨h1, h2, h3⟩, hg⟩
    | shutdown _ => exact h3.elim
    | kill _ _ => exact h3.elim
    | stop hs =>
      refine ⟨⟨h1, h2, ?_⟩, hg⟩
      dsimp only at h1 h3 ⊢
      rw [h1, h3] at hs
      exact ⟨_, _, hs⟩
    | reversed =>
      refine ⟨⟨h1, h2, ?_⟩, hg⟩
      dsimp only at h1 h3 ⊢
      obtain ⟨now, ok, hs⟩ := h3
      exact ⟨now, ok, _, [], hs, by rw [h1]; rfl, .nil _⟩
    | @unload s m p n ns ok m' hs =>
      refine ⟨⟨h1, h2, ?_⟩, hg⟩
      dsimp only at h1 h3 ⊢
      obtain ⟨now, ok, m2, g, hs1, e, hu⟩ := h3
      exact ⟨now, ok, m2, g ++ [n], hs1, by rw [e]; simp, unloads_snoc hu hs⟩
    | done =>
      refine ⟨⟨h1, h2, ?_⟩, hg⟩
      dsimp only at h1 h3 ⊢
      obtain ⟨now, ok, m2, g, hs1, e, hu⟩ := h3
      rw [List.append_nil] at e
      exact ⟨now, ok, m2, hs1, by rw [e]; exact hu⟩
    | interrupt _ => exact ⟨⟨h1, rfl, h3⟩, Or.inr (Or.inr rfl)⟩

/-- Once it waits for its end, the main thread makes no request. -/
theorem spinning_no_ask {ls L0 L} (hp : L0.pending = none)
    (h : L0.s.phase = .spinning ∨ L0.s.phase = .gone ∨ L0.s.phase = .crashed)
    (hr : Life.Run conf errors env a cs prepOk prepOk' ls L0 L) : Label.ask ∉ ls ∧ L.pending = none ∧
    (L.s.phase = .spinning ∨ L.s.phase = .gone ∨ L.s.phase = .crashed) := by
  induction hr with
  | nil l => exact ⟨by simp, hp, h⟩
  | @snoc ls x l l1 l2 _ hs ih =>
    obtain ⟨i1, i2, i3⟩ := ih hp h
    have step : ∀ (s : St) (w : World), (s.phase = .spinning ∨ s.phase = .gone ∨ s.phase = .crashed) →
        ((s.step a cs (.run w)).phase = .spinning ∨ (s.step a cs (.run w)).phase = .gone ∨
          (s.step a cs (.run w)).phase = .crashed) := by
      rintro ⟨phase, heard, down, loaded, requests⟩ w (rfl | rfl | rfl)
      · cases down
        · left; rfl
        · right; left; rfl
      · right; left; rfl
      · right; right; rfl
    have na : x ≠ .ask := by
      rintro rfl
      cases hs with
      | load hp' _ => dsimp only at i3; rw [hp'] at i3; rcases i3 with i3 | i3 | i3 <;> cases i3
      | start hp' _ => dsimp only at i3; rw [hp'] at i3; rcases i3 with i3 | i3 | i3 <;> cases i3
    refine ⟨by simp [i1, Ne.symm na], ?_⟩
    cases hs with
    | load hp' _ => exact absurd rfl na
    | start hp' _ => exact absurd rfl na
    | answer => cases i2
    | main ha _ => exact ⟨rfl, step _ _ i3⟩
    | late _ hr hr' _ hs => exact ⟨rfl, step _ _ i3⟩
    | message =>
      obtain ⟨x, e⟩ := step_message_eq (a := a) (cs := cs) _ _
      rw [e]
      exact ⟨i2, i3⟩
    | shutdown _ => exact ⟨i2, i3⟩
    | kill _ _ => exact ⟨i2, i3⟩
    | stop hs => exact ⟨i2, i3⟩
    | reversed => exact ⟨i2, i3⟩
    | unload hs => exact ⟨i2, i3⟩
    | done => exact ⟨i2, i3⟩
    | interrupt _ => exact ⟨rfl, Or.inr (Or.inr rfl)⟩

/-! ### Controllers of others -/

theorem serves_ours {l0 es l' : List Entry} {c : Call} {ok : Bool} (hs : Serves conf errors (l0 ++ es) c ok l')
    (hc : (∃ n, n ∈ cs ∧ c = .load n (env n)) ∨ (∃ n, ¬ Listed l0 n ∧ c = .unload n) ∨
      ∃ start stop now prepOk, c = .switch ⟨start, stop, strictnessStrict, false, 0⟩ now prepOk ∧
        ∀ n, n ∈ start ∨ n ∈ stop → ¬ Listed l0 n) (hes : ∀ e ∈ es, e.name ∈ cs) :
    (∃ es', l' = l0 ++ es' ∧ ∀ e ∈ es', e.name ∈ cs) ∧ (∀ n, c = .load n (env n) → ok = true → ¬ Listed l0 n) := by
  rcases hc with ⟨n, hn, rfl⟩ | ⟨n, hn, rfl⟩ | ⟨start, stop, now, prepOk, rfl, hn⟩
  · generalize hl : l0 ++ es = l at hs
    cases hs with
    | load hh =>
      subst hl
      refine ⟨⟨es ++ [_], List.append_assoc _ _ _, ?_⟩, ?_⟩
      · intro e he
        rcases List.mem_append.1 he with he | he
        · exact hes e he
        · rw [List.mem_singleton.1 he]; exact hn
      · intro n' e _
        obtain ⟨rfl, _⟩ := Call.load.inj e
        rintro ⟨x, hx, rfl⟩
        exact hh.1 ⟨x, List.mem_append_left _ hx, rfl⟩
    | notLoaded _ => exact ⟨⟨es, hl.symm, hes⟩, fun _ _ e => (by cases e)⟩
  · generalize hl : l0 ++ es = l at hs
    cases hs with
    | unload _ _ =>
      subst hl
      refine ⟨⟨es.filter (·.name ≠ n), ?_, fun e he => hes e (List.mem_filter.1 he).1⟩, fun _ e => (by cases e)⟩
      rw [List.filter_append]
      congr 1
      rw [List.filter_eq_self]
      intro e he
      have : e.name ≠ n := fun hh => hn ⟨e, he, hh⟩
      simpa using this
    | notUnloaded _ => exact ⟨⟨es, hl.symm, hes⟩, fun _ e => (by cases e)⟩
  · refine ⟨?_, fun _ e => (by cases e)⟩
    rcases switch_listing rfl hs with ⟨_, _, e⟩ | ⟨_, _, out, e, _⟩
    · exact ⟨es, e, hes⟩
    · refine ⟨es.map (switchedEntry ⟨start, stop, strictnessStrict, false, 0⟩ out), ?_, ?_⟩
      · rw [e, List.map_append]
        congr 1
        conv_rhs => rw [← List.map_id l0]
        apply List.map_congr_left
        intro x hx
        have h1 : x.name ∉ start := fun hh => hn _ (Or.inl hh) ⟨x, hx, rfl⟩
        have h2 : x.name ∉ stop := fun hh => hn _ (Or.inr hh) ⟨x, hx, rfl⟩
        simp [switchedEntry, h1, h2]
      · intro x hx
        obtain ⟨y, hy, rfl⟩ := List.mem_map.1 hx
        rw [switchedEntry_name]
        exact hes y hy

/-- The names still to be loaded. -/
def Phase.rest : Phase → List String
  | .loading rest => rest
  | _ => []

theorem step_rest {s : St} {w : World} (h : ∀ n ∈ s.phase.rest, n ∈ cs) :
    ∀ n ∈ (s.step a cs (.run w)).phase.rest, n ∈ cs := by
  obtain ⟨phase, heard, down, loaded, requests⟩ := s
  cases phase with
  | service v t =>
    simp only [St.step, St.go, St.handle]
    split
    · split <;> exact fun n hn => (by cases hn)
    · split
      · split <;> exact fun n hn => (by cases hn)
      · split
        · cases v with
          | load => exact fun n hn => (by cases hn)
          | switch => exact fun n hn => (by cases hn)
          | unload =>
            unfold St.found; dsimp only; split
            · exact fun n hn => (by cases hn)
            · exact fun n hn => hn
        · exact fun n hn => (by cases hn)
  | topic t b =>
    simp only [St.step, St.go]
    split
    · exact fun n hn => (by cases hn)
    · split
      · exact fun n hn => (by cases hn)
      · split
        · exact fun n hn => (by cases hn)
        · split
          · exact fun n hn => (by cases hn)
          · split <;> exact fun n hn => (by cases hn)
  | data =>
    simp only [St.step, St.go]
    split
    · exact fun n hn => hn
    · split <;> exact fun n hn => (by cases hn)
  | loading l =>
    cases l with
    | nil =>
      simp only [St.step, St.go]
      cases down <;> cases a.stopped <;> exact fun n hn => (by cases hn)
    | cons x xs => exact fun n hn => h n (List.mem_cons_of_mem _ hn)
  | starting => exact fun n hn => (by cases hn)
  | spinning => simp only [St.step, St.go]; split <;> exact fun n hn => (by cases hn)
  | gone => exact h
  | crashed => exact h

/-- The invariant: nothing of what the manager had before is touched. -/
structure Ours (l0 : List Entry) (cs : List String) (L : Life) : Prop where
  listing : ∃ es, L.m.listControllers = l0 ++ es ∧ ∀ e ∈ es, e.name ∈ cs
  loaded : ∀ n ∈ L.s.loaded, ¬ Listed l0 n
  rest : ∀ n ∈ L.s.phase.rest, n ∈ cs
  pending : L.pending = some true → ∀ n ns, L.s.phase = .loading (n :: ns) → ¬ Listed l0 n
  asks : L.pending ≠ none → L.s.phase.asks = true
  hook : ∀ rest, L.hook = .unloading rest → ∀ n ∈ rest, ¬ Listed l0 n

theorem run_ours {m0 : Mgr} (h : Reachable conf m0) (hi : m0.svc = .idle) {now ls L}
    (hr : Life.Run conf errors env a cs prepOk prepOk' ls (.init now m0) L) : Ours m0.listControllers cs L := by
  generalize hL0 : Life.init now m0 = L0 at hr
  have hr' := hr
  induction hr with
  | nil l =>
    subst hL0
    exact ⟨⟨[], by simp [Life.init], by simp⟩, fun n hn => (by cases hn), fun n hn => (by cases hn), fun e => (by cases e),
      fun e => absurd rfl e, fun _ e => (by cases e)⟩
  | snoc hr0 hs ih =>
    have o := ih hL0 hr0
    subst hL0
    obtain ⟨r, i, _⟩ := run_stage h hi hr0
    obtain ⟨⟨es, e0, hes⟩, o2, o3, o4, o5, o6⟩ := o
    cases hs with
    | @load s hk m n ns ok m' hp hs =>
      have hsv := hs.serves r
      dsimp only at e0 o3
      rw [e0] at hsv
      obtain ⟨k1, k2⟩ := serves_ours hsv (Or.inl ⟨n, o3 n (by rw [hp]; exact List.mem_cons_self), rfl⟩) hes
      refine ⟨k1, o2, o3, ?_, fun _ => by rw [hp]; rfl, o6⟩
      intro e n' ns' hp'
      dsimp only at hp' e
      rw [hp] at hp'
      cases hp'
      exact k2 n rfl (Option.some.inj e)
    | start hp hs =>
      have hsv := hs.serves r
      dsimp only at e0
      rw [e0] at hsv
      obtain ⟨k1, _⟩ := serves_ours (env := env) hsv (Or.inr (Or.inr ⟨_, _, _, _, rfl, fun n hn => o2 n (by simpa using hn)⟩)) hes
      exact ⟨k1, o2, o3, fun _ n ns e => (by dsimp only at e; rw [hp] at e; cases e), fun _ => by rw [hp]; rfl, o6⟩
    | @answer s hk m w =>
      refine ⟨⟨es, e0, hes⟩, ?_, step_rest o3, fun e => (by cases e), fun e => absurd rfl e, o6⟩
      obtain ⟨phase, heard, down, loaded, requests⟩ := s
      have ha := o5 (by simp)
      dsimp only at ha o4 o2 ⊢
      cases phase with
      | loading l =>
        cases l with
        | nil => cases ha
        | cons n ns =>
          intro x hx
          simp only [St.step, St.go] at hx
          split at hx
          · rename_i hw
            rcases List.mem_append.1 hx with hx | hx
            · exact o2 x hx
            · rw [List.mem_singleton.1 hx]
              exact o4 (by rw [hw]) n ns rfl
          · exact o2 x hx
      | starting => exact o2
      | _ => cases ha
    | main ha _ =>
      exact ⟨⟨es, e0, hes⟩, by dsimp only; rw [step_loaded ha]; exact o2, step_rest o3, fun e => (by cases e),
        fun e => absurd rfl e, o6⟩
    | late ha _ _ _ hs =>
      have hsv := hs.serves r
      dsimp only at e0
      rw [e0] at hsv
      obtain ⟨k1, _⟩ := serves_ours (env := env) hsv (Or.inr (Or.inr ⟨_, _, _, _, rfl, fun n hn => by simp at hn⟩)) hes
      exact ⟨k1, by dsimp only; rw [step_loaded ha]; exact o2, step_rest o3, fun e => (by cases e),
        fun e => absurd rfl e, fun _ e => (by cases e)⟩
    | message =>
      obtain ⟨x, e⟩ := step_message_eq (a := a) (cs := cs) _ _
      rw [e]
      exact ⟨⟨es, e0, hes⟩, o2, o3, o4, o5, o6⟩
    | shutdown _ => exact ⟨⟨es, e0, hes⟩, o2, o3, o4, o5, o6⟩
    | kill _ _ => exact ⟨⟨es, e0, hes⟩, o2, o3, o4, o5, fun _ e => (by cases e)⟩
    | stop hs =>
      have hsv := hs.serves r
      dsimp only at e0
      rw [e0] at hsv
      obtain ⟨k1, _⟩ := serves_ours (env := env) hsv (Or.inr (Or.inr ⟨_, _, _, _, rfl, fun n hn => o2 n (by simpa using hn)⟩)) hes
      exact ⟨k1, o2, o3, o4, o5, fun _ e => (by cases e)⟩
    | reversed =>
      refine ⟨⟨es, e0, hes⟩, o2, o3, o4, o5, fun rest e n hn => ?_⟩
      cases e
      exact o2 n (by simpa using hn)
    | @unload s m p n ns ok m' hs =>
      have hsv := hs.serves r
      dsimp only at e0
      rw [e0] at hsv
      obtain ⟨k1, _⟩ := serves_ours (env := env) hsv (Or.inr (Or.inl ⟨n, o6 _ rfl n List.mem_cons_self, rfl⟩)) hes
      refine ⟨k1, o2, o3, o4, o5, fun rest e x hx => ?_⟩
      cases e
      exact o6 _ rfl x (List.mem_cons_of_mem _ hx)
    | done => exact ⟨⟨es, e0, hes⟩, o2, o3, o4, o5, fun _ e => (by cases e)⟩
    | interrupt _ =>
      exact ⟨⟨es, e0, hes⟩, o2, fun n hn => (by cases hn), fun e => (by cases e), fun e => absurd rfl e, o6⟩

end Verif.Spawner
