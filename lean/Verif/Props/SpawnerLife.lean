import Verif.Lemmas.SpawnerLife
import Verif.Props.ClientTools
import Verif.Examples.ManagerWorld

/-!
C105: the spawner is ended, at any moment.
-/

namespace Verif.Spawner

open Mgr Spec Clients

variable {conf : List ControllerInfo → Bool} {errors : Bool} {env : String → LoadEnv} {a : Args} {cs : List String}
  {prepOk prepOk' : Bool}

/-- C105 in full: when the spawner has ended, with the hardware in order and nobody else making requests, the listing is as
it was before it began. -/
def CleansUpAlways (conf : List ControllerInfo → Bool) : Prop :=
  ∀ (env : String → LoadEnv) (a : Args) (cs : List String) (m0 : Mgr) (now : Int) (ls : List Label) (L : Life),
    Reachable conf m0 → m0.svc = .idle → Life.Run conf false env a cs true true ls (.init now m0) L →
    L.hook = .waiting ∨ L.hook = .done → L.s.phase = .gone ∨ L.s.phase = .crashed →
    L.m.listControllers = m0.listControllers

/-- **C105, the controllers of others.** Whatever happens, also if the hardware refuses or reports errors and whenever the
program is ended: what the manager had before the spawner began is listed as before, and everything else has been asked
for. -/
theorem c105_others {m0 : Mgr} (h : Reachable conf m0) (hi : m0.svc = .idle) {now ls L}
    (hr : Life.Run conf errors env a cs prepOk prepOk' ls (.init now m0) L) :
    ∃ es, L.m.listControllers = m0.listControllers ++ es ∧ ∀ e ∈ es, e.name ∈ cs ∧ ¬ Listed m0.listControllers e.name := by
  obtain ⟨⟨es, e, hes⟩, _⟩ := run_ours h hi hr
  refine ⟨es, e, fun x hx => ⟨hes x hx, ?_⟩⟩
  rintro ⟨y, hy, hn⟩
  have hnd := c15_names_unique (run_stage h hi hr).1
  rw [e, List.map_append] at hnd
  exact (List.nodup_append.1 hnd).2.2 y.name (List.mem_map_of_mem hy) x.name (List.mem_map_of_mem hx) hn

/-- **C105, an end without the hook.** If the program has ended and the hook has not been called, the manager has not been
asked for anything. -/
theorem c105_nothing {m0 : Mgr} (h : Reachable conf m0) (hi : m0.svc = .idle) {now ls L}
    (hr : Life.Run conf errors env a cs prepOk prepOk' ls (.init now m0) L) (hw : L.hook = .waiting)
    (he : L.s.phase = .gone ∨ L.s.phase = .crashed) : L.m = m0 := by
  have hst := (run_stage h hi hr).2.2 hw
  unfold Stage at hst
  rcases he with he | he <;> rw [he] at hst <;> exact hst.2.1

/-- **C105, what holds.** The program is ended while no request of the main thread is under way, and the main thread makes
none from then on. When the hook has returned, the listing is as it was before the program began. -/
theorem c105_clean_partial (hc : Hereditary conf) {m0 : Mgr} (h : Reachable conf m0) (hi : m0.svc = .idle)
    {now ls ls' L1 L2 L3} (h1 : Life.Run conf errors env a cs prepOk true ls (.init now m0) L1) (hp : L1.pending = none)
    (h2 : Life.Step conf errors env a cs prepOk true .kill L1 L2)
    (h3 : Life.Run conf errors env a cs prepOk true ls' L2 L3) (hn : Label.ask ∉ ls') (hd : L3.hook = .done) :
    L3.m.listControllers = m0.listControllers := by
  obtain ⟨r, i, st⟩ := run_stage h hi h1
  cases h2 with
  | @kill s m p hreg hdn =>
    have hp : p = none := hp
    subst hp
    obtain ⟨stp, names, _, hsp⟩ := killed_spawns hreg (st rfl)
    obtain ⟨⟨_, _, hh⟩, _⟩ := run_hooked (prepOk' := true) (loaded := s.loaded) (m1 := m) (L0 := ⟨s, .stopping, m, none⟩)
      ⟨rfl, rfl, rfl⟩ (Or.inl hreg) h3 hn
    rw [hd] at hh
    exact c54_undisturbed hc h hsp hh

/-- **C105, the usual end.** The program is ended while it waits for its end. When the hook has returned, the listing is as
it was before the program began, and it stays so. -/
theorem c105_spinning (hc : Hereditary conf) {m0 : Mgr} (h : Reachable conf m0) (hi : m0.svc = .idle)
    {now ls ls' L1 L2 L3} (h1 : Life.Run conf errors env a cs prepOk true ls (.init now m0) L1) (hp : L1.s.phase = .spinning)
    (h2 : Life.Step conf errors env a cs prepOk true .kill L1 L2)
    (h3 : Life.Run conf errors env a cs prepOk true ls' L2 L3) (hd : L3.hook = .done) :
    L3.m.listControllers = m0.listControllers := by
  obtain ⟨_, _, st⟩ := run_stage h hi h1
  have hpe : L1.pending = none := by
    cases h2 with
    | kill _ _ =>
      have := st rfl
      unfold Stage at this
      rw [hp] at this
      exact this.2.2
  refine c105_clean_partial hc h hi h1 hpe h2 h3 ?_ hd
  cases h2 with
  | kill _ _ => exact (spinning_no_ask (L0 := ⟨_, .stopping, _, _⟩) (by exact hpe) (Or.inl hp) h3).1

/-! ### Examples, and ends that leave something behind -/

/-- A moment at which all services are there. -/
def Ex.here : World := { now := 0, available := fun _ => true }

/-- `spawner a c`. -/
def Ex.ac : Args := { controllers := ["a", "c"] }

theorem Ex.working (m : Mgr) : ∃ ls, Life.Run checkForConflict false Verif.Ex.envOf Ex.ac ["a", "c"] true true ls
    (.init 0 m) ⟨{ phase := .loading ["a", "c"] }, .waiting, m, none⟩ :=
  ⟨_, .snoc (.snoc (.snoc (.nil _) (.main (w := Ex.here) rfl (fun _ _ => rfl)))
    (.main (w := Ex.here) rfl (fun _ _ => rfl))) (.main (w := Ex.here) rfl (fun _ _ => rfl))⟩

/-- A request that is served after `ops`, while `during` happens. -/
theorem Ex.serve {c : Call} {ok : Bool} (ops during : List Op) (hd : ∀ op ∈ during, op.background false)
    (hi : (Verif.Ex.after ops).svc = .idle) (he : (Verif.Ex.after (ops ++ c.op :: during)).svc = .idle)
    (hl : (Verif.Ex.after (ops ++ c.op :: during)).trace.getLast? = some (c.answer ok)) :
    Served checkForConflict false (Verif.Ex.after ops) c ok (Verif.Ex.after (ops ++ c.op :: during)) := by
  have e : Verif.Ex.after (ops ++ c.op :: during) =
      ((Verif.Ex.after ops).step checkForConflict c.op).run checkForConflict during := by
    simp only [Verif.Ex.after, Mgr.run_append, Mgr.run_cons]
  rw [e] at he hl ⊢
  exact served_of during hi hd he hl

/-- What has happened in the witnesses. -/
def Ex.l1 : List Op := .load "a" (Verif.Ex.envOf "a") :: Verif.Ex.cycle
def Ex.l2 : List Op := Ex.l1 ++ .load "c" (Verif.Ex.envOf "c") :: Verif.Ex.cycle
def Ex.l3 : List Op := Ex.l2 ++ .switch ⟨["a", "c"], [], 2, false, 0⟩ 0 true :: Verif.Ex.cycle
def Ex.l4 : List Op := Ex.l3 ++ .switch ⟨[], ["a", "c"], 2, false, 0⟩ 0 true :: Verif.Ex.cycle
def Ex.l5 : List Op := Ex.l4 ++ .unload "c" :: Verif.Ex.cycle
def Ex.l6 : List Op := Ex.l5 ++ .unload "a" :: Verif.Ex.cycle
def Ex.k2 : List Op := Ex.l1 ++ .switch ⟨[], ["a"], 2, false, 0⟩ 0 true :: []
def Ex.k3 : List Op := Ex.k2 ++ .unload "a" :: Verif.Ex.cycle
def Ex.k4 : List Op := Ex.k3 ++ .load "c" (Verif.Ex.envOf "c") :: Verif.Ex.cycle
def Ex.s3 : List Op := Ex.l2 ++ .switch ⟨[], ["a", "c"], 2, false, 0⟩ 0 true :: []
def Ex.s4 : List Op := Ex.s3 ++ .switch ⟨["a", "c"], [], 2, false, 0⟩ 0 true :: Verif.Ex.cycle
def Ex.s5 : List Op := Ex.s4 ++ .unload "c" :: []
def Ex.s6 : List Op := Ex.s5 ++ .unload "a" :: []
def Ex.d1 : List Op := [] ++ .switch ⟨[], [], 2, false, 0⟩ 0 true :: Verif.Ex.cycle
def Ex.d2 : List Op := Ex.d1 ++ .load "a" (Verif.Ex.envOf "a") :: Verif.Ex.cycle

theorem Ex.sl1 : Served checkForConflict false (Verif.Ex.after []) (.load "a" (Verif.Ex.envOf "a")) true (Verif.Ex.after Ex.l1) :=
  Ex.serve [] Verif.Ex.cycle (Verif.Ex.background_cycle false) (by decide +kernel) (by decide +kernel) (by decide +kernel)

theorem Ex.sl2 : Served checkForConflict false (Verif.Ex.after Ex.l1) (.load "c" (Verif.Ex.envOf "c")) true (Verif.Ex.after Ex.l2) :=
  Ex.serve Ex.l1 Verif.Ex.cycle (Verif.Ex.background_cycle false) (by decide +kernel) (by decide +kernel) (by decide +kernel)

theorem Ex.sl3 : Served checkForConflict false (Verif.Ex.after Ex.l2) (.switch ⟨["a", "c"], [], strictnessStrict, false, 0⟩ 0 true) true (Verif.Ex.after Ex.l3) :=
  Ex.serve Ex.l2 Verif.Ex.cycle (Verif.Ex.background_cycle false) (by decide +kernel) (by decide +kernel) (by decide +kernel)

theorem Ex.sl4 : Served checkForConflict false (Verif.Ex.after Ex.l3) (.switch ⟨[], ["a", "c"], strictnessStrict, false, 0⟩ 0 true) true (Verif.Ex.after Ex.l4) :=
  Ex.serve Ex.l3 Verif.Ex.cycle (Verif.Ex.background_cycle false) (by decide +kernel) (by decide +kernel) (by decide +kernel)

theorem Ex.sl5 : Served checkForConflict false (Verif.Ex.after Ex.l4) (.unload "c") true (Verif.Ex.after Ex.l5) :=
  Ex.serve Ex.l4 Verif.Ex.cycle (Verif.Ex.background_cycle false) (by decide +kernel) (by decide +kernel) (by decide +kernel)

theorem Ex.sl6 : Served checkForConflict false (Verif.Ex.after Ex.l5) (.unload "a") true (Verif.Ex.after Ex.l6) :=
  Ex.serve Ex.l5 Verif.Ex.cycle (Verif.Ex.background_cycle false) (by decide +kernel) (by decide +kernel) (by decide +kernel)

theorem Ex.sk2 : Served checkForConflict false (Verif.Ex.after Ex.l1) (.switch ⟨[], ["a"], strictnessStrict, false, 0⟩ 0 true) false (Verif.Ex.after Ex.k2) :=
  Ex.serve Ex.l1 [] (by simp) (by decide +kernel) (by decide +kernel) (by decide +kernel)

theorem Ex.sk3 : Served checkForConflict false (Verif.Ex.after Ex.k2) (.unload "a") true (Verif.Ex.after Ex.k3) :=
  Ex.serve Ex.k2 Verif.Ex.cycle (Verif.Ex.background_cycle false) (by decide +kernel) (by decide +kernel) (by decide +kernel)

theorem Ex.sk4 : Served checkForConflict false (Verif.Ex.after Ex.k3) (.load "c" (Verif.Ex.envOf "c")) true (Verif.Ex.after Ex.k4) :=
  Ex.serve Ex.k3 Verif.Ex.cycle (Verif.Ex.background_cycle false) (by decide +kernel) (by decide +kernel) (by decide +kernel)

theorem Ex.ss3 : Served checkForConflict false (Verif.Ex.after Ex.l2) (.switch ⟨[], ["a", "c"], strictnessStrict, false, 0⟩ 0 true) false (Verif.Ex.after Ex.s3) :=
  Ex.serve Ex.l2 [] (by simp) (by decide +kernel) (by decide +kernel) (by decide +kernel)

theorem Ex.ss4 : Served checkForConflict false (Verif.Ex.after Ex.s3) (.switch ⟨["a", "c"], [], strictnessStrict, false, 0⟩ 0 true) true (Verif.Ex.after Ex.s4) :=
  Ex.serve Ex.s3 Verif.Ex.cycle (Verif.Ex.background_cycle false) (by decide +kernel) (by decide +kernel) (by decide +kernel)

theorem Ex.ss5 : Served checkForConflict false (Verif.Ex.after Ex.s4) (.unload "c") false (Verif.Ex.after Ex.s5) :=
  Ex.serve Ex.s4 [] (by simp) (by decide +kernel) (by decide +kernel) (by decide +kernel)

theorem Ex.ss6 : Served checkForConflict false (Verif.Ex.after Ex.s5) (.unload "a") false (Verif.Ex.after Ex.s6) :=
  Ex.serve Ex.s5 [] (by simp) (by decide +kernel) (by decide +kernel) (by decide +kernel)

theorem Ex.sd1 : Served checkForConflict false (Verif.Ex.after []) (.switch ⟨[], [], strictnessStrict, false, 0⟩ 0 true) true (Verif.Ex.after Ex.d1) :=
  Ex.serve [] Verif.Ex.cycle (Verif.Ex.background_cycle false) (by decide +kernel) (by decide +kernel) (by decide +kernel)

theorem Ex.sd2 : Served checkForConflict false (Verif.Ex.after Ex.d1) (.load "a" (Verif.Ex.envOf "a")) true (Verif.Ex.after Ex.d2) :=
  Ex.serve Ex.d1 Verif.Ex.cycle (Verif.Ex.background_cycle false) (by decide +kernel) (by decide +kernel) (by decide +kernel)

/-- **C105, an end while controllers are loaded.** `rosnode kill` after "a" has been loaded: the hook unloads "a", but the
main thread goes on and loads "c", which stays. -/
theorem c105_loading_negation : ¬ CleansUpAlways checkForConflict := by
  intro hall
  obtain ⟨ls, h0⟩ := Ex.working (Verif.Ex.after [])
  have h1 := (h0.snoc (.load rfl Ex.sl1)).snoc (.answer (w := Ex.here))
  have h2 := (((h1.snoc (.kill rfl rfl)).snoc (.stop Ex.sk2)).snoc .reversed).snoc (.unload Ex.sk3)
  have h3 := (((h2.snoc (.load rfl Ex.sk4)).snoc (.answer (w := Ex.here))).snoc .done).snoc
    (.main (w := Ex.here) rfl (fun h => by cases h))
  have := hall _ _ _ _ _ _ _ (Verif.Ex.reachable_after (ops := []) (by simp)) rfl h3 (Or.inr rfl) (Or.inl rfl)
  exact absurd (congrArg (List.map (·.name)) this) (by decide +kernel)

/-- **C105, an end while controllers are started.** `rosnode kill` at the moment when the main thread is about to start the
controllers: the hook cannot stop them as they do not run yet, then they are started, and the hook cannot unload them as
they run. They run on when the program has ended. -/
theorem c105_starting_negation : ∃ ls L, Life.Run checkForConflict false Verif.Ex.envOf Ex.ac ["a", "c"] true true ls
      (.init 0 (Verif.Ex.after [])) L ∧ L.hook = .done ∧ L.s.phase = .gone ∧
    L.m.listControllers.map (fun e => (e.name, e.state)) = [("a", "running"), ("c", "running")] := by
  obtain ⟨ls, h0⟩ := Ex.working (Verif.Ex.after [])
  have h1 := (h0.snoc (.load rfl Ex.sl1)).snoc (.answer (w := Ex.here))
  have h2 := (h1.snoc (.load rfl Ex.sl2)).snoc (.answer (w := Ex.here))
  have h3 := ((h2.snoc (.main (w := Ex.here) rfl (fun _ h => by cases h))).snoc (.kill rfl rfl)).snoc (.stop Ex.ss3)
  have h4 := ((h3.snoc (.start rfl Ex.ss4)).snoc (.answer (w := Ex.here))).snoc .reversed
  have h5 := (h4.snoc (.unload Ex.ss5)).snoc (.unload Ex.ss6)
  exact ⟨_, _, (h5.snoc .done).snoc (.main (w := Ex.here) rfl (fun h => by cases h)), rfl, rfl, by decide +kernel⟩

/-- **C105, a late registration.** With `--wait-for`, if ROS is shut down after "False" has been heard and "True" is heard
before the main thread has seen it: the hook is called as soon as it is registered, when nothing is loaded yet, and
the request to load that follows is served though its answer is not waited for. -/
theorem c105_late_negation : ∃ ls L, Life.Run checkForConflict false Verif.Ex.envOf
      { controllers := ["a"], waitFor := some "ready" } ["a"] true true ls (.init 0 (Verif.Ex.after [])) L ∧ L.hook = .done ∧
    L.s.phase = .crashed ∧ L.m.listControllers.map (fun e => (e.name, e.state)) = [("a", "initialized")] := by
  have h0 : ∃ ls, Life.Run checkForConflict false Verif.Ex.envOf { controllers := ["a"], waitFor := some "ready" } ["a"]
      true true ls (.init 0 (Verif.Ex.after [])) ⟨{ phase := .data, heard := some false }, .waiting, Verif.Ex.after [], none⟩ :=
    ⟨_, .snoc (.snoc (.snoc (.snoc (.snoc (.nil _) (.main (w := Ex.here) rfl (fun _ _ => rfl)))
      (.main (w := Ex.here) rfl (fun _ _ => rfl))) (.main (w := Ex.here) rfl (fun _ _ => rfl))) (.message (b := false)))
      (.main (w := Ex.here) rfl (fun _ _ => rfl))⟩
  obtain ⟨ls, h0⟩ := h0
  have h1 := ((h0.snoc (.shutdown rfl)).snoc (.message (b := true))).snoc (.late (w := Ex.here) rfl rfl rfl rfl Ex.sd1)
  exact ⟨_, _, (h1.snoc (.load rfl Ex.sd2)).snoc (.interrupt rfl), rfl, rfl, by decide +kernel⟩

/-- The usual end: "a" and "c" are spawned, the program is ended, and nothing is left. -/
example : ∃ ls L1 L2 ls' L3, Life.Run checkForConflict false Verif.Ex.envOf Ex.ac ["a", "c"] true true ls
      (.init 0 (Verif.Ex.after [])) L1 ∧ L1.s.phase = .spinning ∧
    L1.m.listControllers.map (fun e => (e.name, e.state)) = [("a", "running"), ("c", "running")] ∧
    Life.Step checkForConflict false Verif.Ex.envOf Ex.ac ["a", "c"] true true .kill L1 L2 ∧
    Life.Run checkForConflict false Verif.Ex.envOf Ex.ac ["a", "c"] true true ls' L2 L3 ∧ L3.hook = .done ∧
    L3.m.listControllers = [] := by
  obtain ⟨ls, h0⟩ := Ex.working (Verif.Ex.after [])
  have h1 := (h0.snoc (.load rfl Ex.sl1)).snoc (.answer (w := Ex.here))
  have h2 := (h1.snoc (.load rfl Ex.sl2)).snoc (.answer (w := Ex.here))
  have h3 := ((h2.snoc (.main (w := Ex.here) rfl (fun _ h => by cases h))).snoc (.start rfl Ex.sl3)).snoc
    (.answer (w := Ex.here))
  exact ⟨_, _, _, _, _, h3, rfl, by decide +kernel, .kill rfl rfl, (((((Life.Run.nil _).snoc (.stop Ex.sl4)).snoc
    .reversed).snoc (.unload Ex.sl5)).snoc (.unload Ex.sl6)).snoc .done, rfl, by decide +kernel⟩

end Verif.Spawner
