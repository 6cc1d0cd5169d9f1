import Verif.Lemmas.ClientPrograms

/-!
Properties of the services as clients see them, and of the client programs.
-/

namespace Verif

open Mgr Spec Clients

/-! ### C73 -/

/-- **C73.** Every answered call is a step of the sequential specification `Spec.Serves`: the
answer and the new listing are determined by the request and the listing before it, whatever
realtime updates happen before and during the call. -/
theorem c73_call {conf errors} {m m' : Mgr} (h : Reachable conf m) {c : Call} {ok : Bool}
    (hs : Served conf errors m c ok m') :
    Serves conf errors m.listControllers c ok m'.listControllers := hs.serves h

/-- **C73, histories.** A history of calls of a fresh manager, with all their answers, is a history
of the sequential specification. -/
theorem c73_history {conf errors} {cs : List (Call × Bool)} {m : Mgr}
    (hs : History conf errors cs Mgr.init m) : SpecHistory conf errors cs [] m.listControllers := by
  have key : ∀ {cs m m'}, History conf errors cs m m' → Reachable conf m →
      SpecHistory conf errors cs m.listControllers m'.listControllers := by
    intro cs m m' hs
    induction hs with
    | nil m => intro _; exact SpecHistory.nil _
    | cons h1 _ ih => intro h; exact SpecHistory.cons (h1.serves h) (ih (h1.reachable h))
  exact key hs ⟨[], by simp, rfl⟩

/-- **C73, the specification leaves no freedom** except for the outcome of the start: a call on a
listing has one answer, and one resulting listing, unless it is a switch that starts controllers
while the hardware may report errors, or a switch with a timeout. -/
theorem c73_deterministic {conf errors} {l : Listing} {c : Call} {ok ok' : Bool} {l1 l2 : Listing}
    (h1 : Serves conf errors l c ok l1) (h2 : Serves conf errors l c ok' l2)
    (hc : ∀ r now prepOk, c = .switch r now prepOk → r.timeout = 0 ∧ (errors = false ∨ r.start = [])) :
    ok = ok' ∧ l1 = l2 := by
  cases c with
  | load n e =>
    cases h1 with
    | load a1 =>
      cases h2 with
      | load a2 =>
        have e1 := a1.2.2.1.symm.trans a2.2.2.1
        have e2 := a1.2.2.2.2.symm.trans a2.2.2.2.2
        cases e1; cases e2; exact ⟨rfl, rfl⟩
      | notLoaded a2 => exact absurd a1 (a2 _ _)
    | notLoaded a1 =>
      cases h2 with
      | load a2 => exact absurd a2 (a1 _ _)
      | notLoaded a2 => exact ⟨rfl, rfl⟩
  | unload n =>
    cases h1 with
    | unload a1 b1 =>
      cases h2 with
      | unload a2 b2 => exact ⟨rfl, rfl⟩
      | notUnloaded a2 => exact absurd (a2 a1) b1
    | notUnloaded a1 =>
      cases h2 with
      | unload a2 b2 => exact absurd (a1 a2) b2
      | notUnloaded a2 => exact ⟨rfl, rfl⟩
  | switch r now p =>
    obtain ⟨ht, hst⟩ := hc r now p rfl
    rcases switch_listing ht h1 with ⟨n1, rfl, rfl⟩ | ⟨a1, rfl, o1, rfl, _, s1⟩ <;>
      rcases switch_listing ht h2 with ⟨n2, rfl, rfl⟩ | ⟨a2, rfl, o2, rfl, _, s2⟩
    · exact ⟨rfl, rfl⟩
    · exact absurd a2 n1
    · exact absurd a1 n2
    · refine ⟨rfl, ?_⟩
      apply List.map_congr_left
      intro e _
      rcases hst with hst | hst
      · unfold switchedEntry; rw [s1 hst, s2 hst]
      · unfold switchedEntry; simp [hst]
  | reload f now p =>
    cases h1 with
    | reload a1 =>
      cases h2 with
      | reload a2 => exact ⟨rfl, rfl⟩
      | notReloaded a2 b2 =>
        exfalso
        rcases a1 with a1 | ⟨x, y, z⟩
        · exact a2 a1
        · rw [x, y, z] at b2; simp at b2
    | notReloaded a1 b1 =>
      cases h2 with
      | reload a2 =>
        exfalso
        rcases a2 with a2 | ⟨x, y, z⟩
        · exact a1 a2
        · rw [x, y, z] at b1; simp at b1
      | notReloaded a2 b2 => exact ⟨rfl, rfl⟩

/-- A call in the model, for the examples below: `before` and `during` are what the realtime
thread and the service thread do. -/
theorem served_of {conf errors} {m : Mgr} {c : Call} {ok : Bool} (during : List Op)
    (hi : m.svc = .idle) (hd : ∀ op ∈ during, op.background errors)
    (he : ((m.step conf c.op).run conf during).svc = .idle)
    (hl : ((m.step conf c.op).run conf during).trace.getLast? = some (c.answer ok)) :
    Served conf errors m c ok ((m.step conf c.op).run conf during) :=
  ⟨hi, [], during, by simp, hd, rfl, he, hl⟩

/-- One realtime cycle in which the hardware is ready, and the end of the wait loop. -/
def Ex.cycle : List Op := [Ex.tick, Ex.wait]

theorem Ex.background_cycle (errors : Bool) : ∀ op ∈ Ex.cycle, op.background errors := by
  intro op ho
  simp only [Ex.cycle, List.mem_cons, List.not_mem_nil, or_false] at ho
  rcases ho with rfl | rfl
  · intro _; exact ⟨by decide, fun _ _ => by simp [Ex.hw]⟩
  · exact ⟨rfl, rfl⟩

/-- Four calls of a fresh manager: load, start, an unload that is refused because the controller
runs, and a forced reload of the libraries. -/
example : ∃ m, History checkForConflict false
    [(.load "a" (Ex.env ["j1"]), true), (.switch ⟨["a"], [], 2, false, 0⟩ 0 true, true),
      (.unload "a", false), (.reload true 0 true, true)] Mgr.init m ∧ m.listControllers = [] := by
  refine ⟨_, .cons (served_of Ex.cycle (by decide) (Ex.background_cycle _) (by decide) (by decide))
    (.cons (served_of Ex.cycle (by decide) (Ex.background_cycle _) (by decide) (by decide))
    (.cons (served_of [] (by decide) (by simp) (by decide) (by decide))
    (.cons (served_of (Ex.cycle ++ [Ex.wait] ++ Ex.cycle ++ [Ex.wait]) (by decide) ?_ (by decide)
      (by decide)) (.nil _)))), by decide⟩
  intro op ho
  refine Ex.background_cycle _ op ?_
  simp only [Ex.cycle, List.mem_append, List.mem_cons, List.not_mem_nil, or_false] at ho ⊢
  tauto

/-! ### C54 -/

/-- **C54, what holds.** The exact effect of the shutdown of the spawner when no other client
interferes with it. If all controllers the spawner loaded are running, and the hardware lets them
be stopped, then they are no longer listed, and everything else is as before. If not, then only
those that are not running are unloaded. Missing for the full statement (`Spec.SpawnerCleansUp`):
the running ones in the second case; the full statement is false, see
`c54_cleanup_negation`. -/
theorem c54_shutdown_partial {conf errors} (hc : Hereditary conf) {m m' : Mgr} (h : Reachable conf m)
    {loaded : List String} {prepOk : Bool} (hs : Shutdown conf errors loaded prepOk m m') :
    ((prepOk = true ∧ ∀ n ∈ loaded, ListedRunning m.listControllers n) →
      m'.listControllers = m.listControllers.filter fun e => e.name ∉ loaded) ∧
    (¬ (prepOk = true ∧ ∀ n ∈ loaded, ListedRunning m.listControllers n) →
      m'.listControllers = m.listControllers.filter fun e => e.name ∉ loaded ∨ e.state = "running") := by
  obtain ⟨now, ok, m1, hsw, hu⟩ := hs
  obtain ⟨_, e2⟩ := unloads_listing hu (hsw.reachable h)
  simp only [List.mem_reverse] at e2
  have hacc : Acceptable conf m.listControllers ⟨[], loaded, strictnessStrict, false, 0⟩ prepOk ↔
      prepOk = true ∧ ∀ n ∈ loaded, ListedRunning m.listControllers n := by
    unfold Acceptable
    have := listedTarget_stop hc h loaded
    simp [this]; tauto
  rcases switch_listing rfl (hsw.serves h) with ⟨n1, _, e1⟩ | ⟨a1, _, out, e1, _⟩
  · rw [hacc] at n1
    exact ⟨fun hh => absurd hh n1, fun _ => by rw [e2, e1]⟩
  · rw [hacc] at a1
    refine ⟨fun _ => ?_, fun hh => absurd a1 hh⟩
    rw [e2, e1, List.filter_map]
    have hid : ∀ e ∈ m.listControllers.filter (fun e => e.name ∉ loaded),
        switchedEntry ⟨[], loaded, strictnessStrict, false, 0⟩ out e = e := by
      intro e he
      have hn := (List.mem_filter.1 he).2
      simp only [decide_eq_true_eq] at hn
      simp [switchedEntry, hn]
    have hf : m.listControllers.filter ((fun e => decide (e.name ∉ loaded ∨ e.state = "running")) ∘
        switchedEntry ⟨[], loaded, strictnessStrict, false, 0⟩ out) =
        m.listControllers.filter (fun e => e.name ∉ loaded) := by
      apply List.filter_congr
      intro e he
      simp only [Function.comp, switchedEntry, List.not_mem_nil, if_false]
      by_cases hn : e.name ∈ loaded
      · by_cases hr : e.state = "running" <;> simp [hn, hr]
      · simp [hn]
    rw [hf]
    conv_rhs => rw [← List.map_id (m.listControllers.filter _)]
    exact List.map_congr_left hid

/-- **C54, undisturbed.** If between the start and the end of the shutdown of the spawner no other
client calls the manager, and the hardware lets controllers be stopped, then afterwards the
listing is exactly what it was before the spawner was started, whether controllers could be loaded
or started or not, and also if `--stopped` was given. -/
theorem c54_undisturbed {conf errors} (hc : Hereditary conf) {m0 m1 m2 : Mgr} (h : Reachable conf m0)
    {env stopped prepOk controllers loaded} (hsp : Spawns conf errors env stopped prepOk controllers m0 loaded m1)
    (hsd : Shutdown conf errors loaded true m1 m2) : m2.listControllers = m0.listControllers := by
  obtain ⟨ml, hl, hsw⟩ := hsp
  obtain ⟨hrl, _, es, e1, e2, e3⟩ := loads_listing hl h
  have hnames : ∀ e ∈ m0.listControllers, e.name ∉ loaded := by
    have hnd := c15_names_unique hrl
    rw [e1, List.map_append, e2] at hnd
    intro e he hn
    exact (List.nodup_append.1 hnd).2.2 e.name (List.mem_map_of_mem he) e.name hn rfl
  have hess : ∀ e ∈ es, e.name ∈ loaded := fun e he => by
    rw [← e2]; exact List.mem_map_of_mem he
  -- the listing after the start
  have key : Reachable conf m1 ∧ ∃ s, s ∈ ["initialized", "running", "aborted"] ∧
      m1.listControllers = m0.listControllers ++ es.map fun e => { e with state := s } := by
    have hinit : ml.listControllers =
        m0.listControllers ++ es.map fun e => { e with state := "initialized" } := by
      rw [e1]
      congr 1
      conv_lhs => rw [← List.map_id es]
      apply List.map_congr_left
      intro e he
      show e = _
      rw [← e3 e he]
    cases stopped with
    | true =>
      simp only [if_true] at hsw
      subst hsw
      exact ⟨hrl, "initialized", by simp, hinit⟩
    | false =>
      simp only [Bool.false_eq_true, if_false] at hsw
      obtain ⟨now, ok, hsw⟩ := hsw
      refine ⟨hsw.reachable hrl, ?_⟩
      rcases switch_listing rfl (hsw.serves hrl) with ⟨_, _, e⟩ | ⟨_, _, out, e, ho, _⟩
      · exact ⟨"initialized", by simp, by rw [e, hinit]⟩
      · have : ∃ s, s ∈ ["initialized", "running", "aborted"] ∧
            ∀ n : String, (if out n = true then "running" else "aborted") = s := by
          rcases ho rfl with ho | ho
          · exact ⟨"running", by simp, fun n => by simp [ho]⟩
          · exact ⟨"aborted", by simp, fun n => by simp [ho]⟩
        obtain ⟨s, hs1, hs2⟩ := this
        refine ⟨s, hs1, ?_⟩
        rw [e, e1, List.map_append]
        congr 1
        · conv_rhs => rw [← List.map_id m0.listControllers]
          apply List.map_congr_left
          intro e he
          simp [switchedEntry, hnames e he]
        · apply List.map_congr_left
          intro e he
          simp only [switchedEntry, hess e he, if_true, hs2]
  obtain ⟨hr1, s, hs, e4⟩ := key
  have hfin : ∀ p : Entry → Bool, (∀ e ∈ m0.listControllers, p e = true) →
      (∀ e ∈ es, p { e with state := s } = false) → m1.listControllers.filter p = m0.listControllers := by
    intro p p1 p2
    rw [e4, List.filter_append, List.filter_eq_self.2 p1]
    rw [List.filter_eq_nil_iff.2, List.append_nil]
    intro e he
    obtain ⟨e', he', rfl⟩ := List.mem_map.1 he
    simp [p2 e' he']
  obtain ⟨a1, a2⟩ := c54_shutdown_partial hc hr1 hsd
  by_cases hcase : ∀ n ∈ loaded, ListedRunning m1.listControllers n
  · rw [a1 ⟨rfl, hcase⟩]
    exact hfin _ (fun e he => by simp [hnames e he]) (fun e he => by simp [hess e he])
  · rw [a2 (fun hh => hcase hh.2)]
    have hsr : s ≠ "running" := by
      intro hsr
      apply hcase
      intro n hn
      rw [← e2] at hn
      obtain ⟨e, he, rfl⟩ := List.mem_map.1 hn
      refine ⟨{ e with state := s }, ?_, rfl, hsr⟩
      rw [e4]
      exact List.mem_append_right _ (List.mem_map_of_mem (f := fun e : Entry => { e with state := s }) he)
    exact hfin _ (fun e he => by simp [hnames e he]) (fun e he => by simp [hess e he, hsr])

/-- The claims of the controllers of the examples. -/
def Ex.envOf (n : String) : LoadEnv := if n = "c" then Ex.env ["j2"] else Ex.env ["j1"]

/-- The spawner has loaded and started "a" and "c". -/
theorem Ex.spawned (errors : Bool) : ∃ m1, Spawns checkForConflict errors Ex.envOf false true ["a", "c"] Mgr.init ["a", "c"] m1 ∧
    m1 = Ex.after (Ex.loadOf "a" ["j1"] ++ Ex.loadOf "c" ["j2"] ++ Ex.switchOf ["a", "c"] []) := by
  refine ⟨_, ⟨_, .ok (served_of Ex.cycle (by decide) (Ex.background_cycle _) (by decide) (by decide))
      (.ok (served_of Ex.cycle (by decide) (Ex.background_cycle _) (by decide) (by decide)) (.nil _)), ?_⟩, rfl⟩
  rw [if_neg (by decide)]
  exact ⟨0, true, served_of Ex.cycle (by decide) (Ex.background_cycle _) (by decide) (by decide)⟩

/-- If nobody interferes, the shutdown removes them again. -/
example : ∃ m1 m2, Spawns checkForConflict false Ex.envOf false true ["a", "c"] Mgr.init ["a", "c"] m1 ∧
    ListedRunning m1.listControllers "a" ∧ ListedRunning m1.listControllers "c" ∧
    Shutdown checkForConflict false ["a", "c"] true m1 m2 ∧ m2.listControllers = [] := by
  obtain ⟨m1, h, rfl⟩ := Ex.spawned false
  refine ⟨_, _, h, ?_, ?_, ⟨0, true, _, served_of Ex.cycle (by decide) (Ex.background_cycle _) (by decide)
    (by decide), .cons (served_of Ex.cycle (ok := true) (by decide) (Ex.background_cycle _) (by decide)
    (by decide)) (.cons (served_of Ex.cycle (ok := true) (by decide) (Ex.background_cycle _) (by decide)
    (by decide)) (.nil _))⟩, by decide⟩
  · exact listedRunning_iff.2 (by unfold Runs; decide)
  · exact listedRunning_iff.2 (by unfold Runs; decide)

/-- **C54 in full is false.** The spawner loads and starts "a" and "c"; another client stops "c". At
its shutdown the STRICT request to stop both is refused, the answer is ignored, "c" is unloaded,
and "a" goes on running. -/
theorem c54_cleanup_negation : ¬ SpawnerCleansUp checkForConflict := by
  intro hall
  obtain ⟨m1, h, rfl⟩ := Ex.spawned true
  obtain ⟨m3, hsd, e3⟩ : ∃ m3, Shutdown checkForConflict true ["a", "c"] true
      (Mgr.run checkForConflict (Ex.after (Ex.loadOf "a" ["j1"] ++ Ex.loadOf "c" ["j2"] ++
        Ex.switchOf ["a", "c"] [])) (Ex.switchOf [] ["c"])) m3 ∧
      m3.listControllers.map (fun e => (e.name, e.state)) = [("a", "running")] :=
    ⟨_, ⟨0, false, _, served_of [] (by decide) (by simp) (by decide) (by decide),
      .cons (served_of Ex.cycle (ok := true) (by decide) (Ex.background_cycle _) (by decide) (by decide))
      (.cons (served_of [] (ok := false) (by decide) (by simp) (by decide) (by decide)) (.nil _))⟩,
      by decide⟩
  refine hall Ex.envOf false true ["a", "c"] Mgr.init ["a", "c"] _ (Ex.switchOf [] ["c"]) _ ⟨[], by simp, rfl⟩ h
    (by simp [Ex.switchOf, Op.rosUp, Ex.tick, Ex.wait]) hsd "a" (by simp) ?_
  have hm : ("a", "running") ∈ m3.listControllers.map (fun e => (e.name, e.state)) := by rw [e3]; simp
  obtain ⟨e, he, h2⟩ := List.mem_map.1 hm
  exact ⟨e, he, (Prod.mk.inj h2).1⟩

end Verif
