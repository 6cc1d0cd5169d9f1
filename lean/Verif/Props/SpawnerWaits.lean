import Verif.Lemmas.Spawner

/-!
C102: the spawner waits until it may load controllers, does what it was asked to do, and goes.
-/

namespace Verif.Spawner

variable {a : Args} {cs : List String}

/-! ### Names -/

/-- The names of the services: with and without a namespace, and it makes no difference whether the namespace ends with a
slash. -/
theorem c102_names (a : Args) (ns : String) (hne : ns ≠ "") (hs : ns.toList.getLast? ≠ some '/') :
    (a.ns = none ∨ a.ns = some "" → a.serviceName .load = "controller_manager/load_controller" ∧
      a.serviceName .unload = "controller_manager/unload_controller" ∧
      a.serviceName .switch = "controller_manager/switch_controller") ∧
    (a.ns = some ns → a.serviceName .load = ns ++ "/" ++ "controller_manager/load_controller" ∧
      a.serviceName .unload = ns ++ "/" ++ "controller_manager/unload_controller" ∧
      a.serviceName .switch = ns ++ "/" ++ "controller_manager/switch_controller") ∧
    ∀ b : Args, a.ns = some ns → b.ns = some (ns ++ "/") → b.serviceName = a.serviceName := by
  have e0 : robotNamespace none = "" := rfl
  have e1 : robotNamespace (some "") = "" := rfl
  have hem : ns.isEmpty = false := by
    rw [Bool.eq_false_iff]; intro h; exact hne (String.isEmpty_iff.1 h)
  have e2 : robotNamespace (some ns) = ns ++ "/" := by simp [robotNamespace, hem, hs]
  have e3 : robotNamespace (some (ns ++ "/")) = ns ++ "/" := by
    have : (ns ++ "/").toList.getLast? = some '/' := by
      rw [String.toList_append]; simp
    simp [robotNamespace, this]
  refine ⟨?_, ?_, ?_⟩
  · rintro (h | h) <;> simp [Args.serviceName, h, e0, e1]
  · intro h; simp [Args.serviceName, h, e2]
  · intro b h h'
    funext v
    cases v <;> simp [Args.serviceName, h, h', e2, e3]

/-! ### What it asks for, and when -/

/-- Before the first request all three services have been contacted, and with `--wait-for` the last message on the topic
was "True". -/
theorem c102_first (now : Int) (is : List In) (h : (after a cs now is).requests ≠ []) :
    ∃ p q, is = p ++ q ∧ Ready a p ∧ (after a cs now p).requests = [] :=
  (inv_after now is).ready (Or.inl h)

/-- At any time the requests are: one to load for each of the first controllers, in order; then, unless `--stopped` was
given, one to start those whose request was successful. -/
theorem c102_requests (now : Int) (is : List In) :
    ∃ l, l.map (·.1) <+: cs ∧ ((after a cs now is).requests = loadRequests a l ∨
      l.map (·.1) = cs ∧ a.stopped = false ∧
        (after a cs now is).requests = loadRequests a l ++ [.switch (a.serviceName .switch) (accepted l)]) := by
  obtain ⟨l, h1, _, h2⟩ := (reqs_after (a := a) (cs := cs) now is).all
  exact ⟨l, h1, h2⟩

/-- When the program waits for its end, all requests have been made. -/
theorem c102_done (now : Int) (is : List In) (h : (after a cs now is).phase = .spinning) :
    ∃ l, cs = l.map (·.1) ∧ (after a cs now is).requests =
      loadRequests a l ++ (if a.stopped then [] else [.switch (a.serviceName .switch) (accepted l)]) :=
  (reqs_after now is).spinning h

/-! ### Patience -/

/-- The program ends by itself only if there is a limit and one of the services could not be contacted for that long. -/
theorem c102_patience (now : Int) (is : List In) (hn : NoShutdown is) (h : (after a cs now is).phase = .gone) :
    GaveUp a now is :=
  (patient_after now is hn).gone h

/-- Without a limit, and without a topic to wait for, the program does not end before ROS is shut down. (With a topic it can
be ended by an exception, see `c102_crash_negation`.) -/
theorem c102_waits_partial (now : Int) (is : List In) (hl : a.noTimeout = true ∨ a.timeout ≤ 0) (hw : a.waits = false)
    (hn : NoShutdown is) : (after a cs now is).phase ≠ .gone ∧ (after a cs now is).phase ≠ .crashed := by
  have hp := patient_after (a := a) (cs := cs) now is hn
  have hlim : a.limit = none := by unfold Args.limit; rw [if_pos (by simpa using hl)]
  constructor
  · intro e
    obtain ⟨v, t, p, q, w, r, h, _⟩ := hp.gone e
    rw [hlim] at h; cases h
  · intro e
    rw [(hp.crashed e).1] at hw; cases hw

/-- The exception needs both `--wait-for` and no limit. -/
theorem c102_crash_only (now : Int) (is : List In) (hn : NoShutdown is) (h : (after a cs now is).phase = .crashed) :
    a.waits = true ∧ a.limit = none :=
  (patient_after now is hn).crashed h

/-- With `--wait-for` and without a limit, the program is ended by an exception unless a message arrives at once: whatever
the options besides, and although all services are there. -/
theorem c102_crash (a : Args) (cs : List String) (now : Int) (hl : a.noTimeout = true ∨ a.timeout ≤ 0) (hw : a.waits = true)
    (ws : List World) (hs : ∀ w ∈ ws, ∀ v, w.available (a.serviceName v) = true) (h4 : 4 ≤ ws.length) :
    (after a cs now (ws.map .run)).phase = .crashed := by
  have hlim : a.limit = none := by unfold Args.limit; rw [if_pos (by simpa using hl)]
  obtain ⟨w1, w2, w3, w4, r, rfl⟩ : ∃ w1 w2 w3 w4 r, ws = w1 :: w2 :: w3 :: w4 :: r := by
    match ws, h4 with
    | w1 :: w2 :: w3 :: w4 :: r, _ => exact ⟨w1, w2, w3, w4, r, rfl⟩
  have stay : ∀ (r : List World) (s : St), s.phase = .crashed → (s.steps a cs (r.map .run)).phase = .crashed := by
    intro r
    induction r with
    | nil => intro s h; exact h
    | cons w r ih => intro s h; exact ih (s.step a cs (.run w)) (by simp [St.step, St.go, h])
  have e1 := hs w1 (by simp) .load
  have e2 := hs w2 (by simp) .switch
  have e3 := hs w3 (by simp) .unload
  have hx : ∀ w since, a.expired w since = false := by intro w since; simp [Args.expired, hlim]
  have : after a cs now ((w1 :: w2 :: w3 :: w4 :: r).map .run) =
      ((((init now).step a cs (.run w1)).step a cs (.run w2)).step a cs (.run w3) |>.step a cs (.run w4)).steps a cs (r.map .run) := rfl
  rw [this]
  apply stay
  simp [init, St.step, St.go, St.found, hx, e1, e2, e3, hw, hlim]

/-- So "waits indefinitely" is not what `--no-timeout` and `--timeout 0` do. -/
theorem c102_crash_negation : ¬ WaitsForever := by
  intro h
  let a : Args := { controllers := ["c"], waitFor := some "ready", noTimeout := true }
  let w : World := { now := 0, available := fun _ => true }
  have h1 := h a ["c"] 0 ([w, w, w, w].map .run) (Or.inl rfl) (by
    intro i hi
    obtain ⟨_, _, rfl⟩ := List.mem_map.1 hi
    simp)
  exact h1.2 (c102_crash a ["c"] 0 (Or.inl rfl) (by decide) [w, w, w, w] (fun w' hw' v => by
    simp only [List.mem_cons, List.not_mem_nil, or_false, or_self] at hw'
    subst hw'; rfl) (by simp))

/-! ### Progress -/

/-- If the services are there in time, and without `--wait-for`, the program has made all its requests after one step for
each controller and five more. -/
theorem c102_progress (now : Int) (is : List In) (hp : Prompt a now is) (hn : NoShutdown is) (hw : a.waits = false)
    (hr : cs.length + 5 ≤ runs is) : (after a cs now is).phase = .spinning := by
  have h0 : Going a now (after a cs now []) :=
    ⟨rfl, fun v t e => by cases e; exact ⟨hw, Int.le_refl _⟩, (fun e => by rw [hw] at e; cases e), by simp [after, St.steps, init],
      by simp [after, St.steps, init]⟩
  obtain ⟨g, r⟩ := going_after h0 is hp hn (fun e => by rw [hw] at e; cases e)
  rw [List.nil_append] at g r
  have e : rank cs.length (after a cs now []).phase = cs.length + 5 := rfl
  exact rank_zero (n := cs.length) (by omega) g.gone g.crashed

/-- With `--wait-for` and a limit, the same once "True" has been heard, after the three services were found. The limit does
not apply to the wait for the topic. -/
theorem c102_progress_topic_partial (now : Int) (is js : List In) (hp : Prompt a now (is ++ js)) (hn : NoShutdown (is ++ js))
    (hw : a.waits = true) (hl : ∃ t, a.limit = some t) (hi : 3 ≤ runs is) (hm : In.message false ∉ js)
    (hr : cs.length + 4 ≤ runs js) : (after a cs now (is ++ In.message true :: js)).phase = .spinning := by
  obtain ⟨t, hl⟩ := hl
  have hlim : a.waits = true → a.limit ≠ none := fun _ => by rw [hl]; simp
  have hni : NoShutdown is := fun i h => hn i (by simp [h])
  have he := early_after (cs := cs) now is hlim (fun w h => hp w (by simp [h])) hni
  have hps : ∀ v t, (after a cs now is).phase ≠ .service v t := by
    intro v t e
    have := (he.service v t e).2
    cases v <;> simp only [serviceRank] at this <;> omega
  have hst : after a cs now (is ++ [In.message true]) = { after a cs now is with heard := some true } := by
    rw [after_snoc]
    rcases step_message (a := a) (cs := cs) (after a cs now is) true with ⟨_, ⟨v, t, e⟩ | e⟩ | ⟨e, _⟩
    · exact absurd e (hps v t)
    · rw [hw] at e; cases e
    · exact e
  have h0 : Going a now (after a cs now (is ++ [In.message true])) := by
    rw [hst]
    exact ⟨up_after now is hni, fun v t e => absurd e (hps v t), fun _ => rfl, he.gone, he.crashed⟩
  obtain ⟨g, r⟩ := going_after h0 js (fun w h => hp w (by simp [h])) (fun i h => hn i (by simp [h])) fun _ => hm
  have e : is ++ In.message true :: js = is ++ [In.message true] ++ js := by simp
  rw [e]
  refine rank_zero (n := cs.length) ?_ g.gone g.crashed
  have hle : rank cs.length (after a cs now (is ++ [In.message true])).phase ≤ cs.length + 4 := by
    rw [hst]
    show rank cs.length (after a cs now is).phase ≤ _
    have hload := (reqs_after (a := a) (cs := cs) now is).loading
    cases h : (after a cs now is).phase with
    | service v t => exact absurd h (hps v t)
    | loading l =>
      obtain ⟨l', e, _⟩ := hload l h
      have : cs.length = l'.length + l.length := by rw [e]; simp
      simp only [rank]; omega
    | _ => simp only [rank]; omega
  omega

/-! ### The end -/

/-- When ROS is shut down the program ends: after one step for each controller and five more at most. Required is that at no
step the time is simulated and the clock shows zero (see `c102_interrupt_negation`). -/
theorem c102_shutdown_partial (now : Int) (is : List In) (ws : List World)
    (hw : ∀ w ∈ ws, (w.simTime && w.clockZero) = false) (hl : cs.length + 5 ≤ ws.length) :
    (after a cs now (is ++ In.shutdown :: ws.map .run)).phase = .gone ∨
    (after a cs now (is ++ In.shutdown :: ws.map .run)).phase = .crashed := by
  have e : is ++ In.shutdown :: ws.map In.run = is ++ [In.shutdown] ++ ws.map In.run := by simp
  rw [e, after_append, after_snoc]
  refine endRank_zero (n := cs.length) ?_
  have h1 := end_steps (a := a) (cs := cs) ws hw ((after a cs now is).step a cs .shutdown) rfl
  have h2 : endRank cs.length ((after a cs now is).step a cs .shutdown).phase ≤ cs.length + 3 := by
    refine endRank_le _ _ fun l hl => ?_
    obtain ⟨l', e, _⟩ := (reqs_after (a := a) (cs := cs) now is).loading l hl
    rw [e]; simp
  omega

/-- While it waits for a service, with simulated time and before the first message on `/clock`, the program cannot be ended
by shutting ROS down: the exception with which the wait ends is taken for one that the time was over. -/
theorem c102_interrupt (a : Args) (cs : List String) (now : Int) (ws : List World)
    (hw : ∀ w ∈ ws, w.simTime = true ∧ w.clockZero = true) :
    ∃ t, (after a cs now (In.shutdown :: ws.map .run)).phase = .service .load t := by
  have key : ∀ (ws : List World) (s : St), (∀ w ∈ ws, w.simTime = true ∧ w.clockZero = true) → s.down = true →
      (∃ v t, s.phase = .service v t) → (ws = [] → ∃ t, s.phase = .service .load t) →
      ∃ t, (s.steps a cs (ws.map .run)).phase = .service .load t := by
    intro ws
    induction ws with
    | nil => intro s _ _ _ h; exact h rfl
    | cons w ws ih =>
      rintro s hw hd ⟨v, t, hp⟩ _
      obtain ⟨h1, h2⟩ := hw w (by simp)
      have e : (s.step a cs (.run w)) = { s with phase := .service .load w.now } := by
        simp [St.step, St.go, hp, hd, St.handle, h1, h2]
      show ∃ t, ((s.step a cs (.run w)).steps a cs (ws.map .run)).phase = _
      rw [e]
      exact ih _ (fun w h => hw w (by simp [h])) hd ⟨_, _, rfl⟩ fun _ => ⟨_, rfl⟩
  exact key ws _ hw rfl ⟨_, _, rfl⟩ fun _ => ⟨_, rfl⟩

/-- So the program does not always end when it is asked to. -/
theorem c102_interrupt_negation : ¬ EndsWhenAsked := by
  intro h
  let a : Args := { controllers := ["c"] }
  let w : World := { now := 0, available := fun _ => false, simTime := true, clockZero := true }
  have h1 := h a ["c"] 0 [] ((List.replicate 6 w).map .run) (by
    intro i hi
    obtain ⟨w', _, rfl⟩ := List.mem_map.1 hi
    exact ⟨w', rfl⟩) (by simp)
  obtain ⟨t, e⟩ := c102_interrupt a ["c"] 0 (List.replicate 6 w) (by
    intro w' hw'
    obtain rfl := List.eq_of_mem_replicate hw'
    exact ⟨rfl, rfl⟩)
  rw [List.nil_append, e] at h1
  rcases h1 with h1 | h1 <;> cases h1

/-! ### Examples -/

namespace Example

/-- All services of the namespace `robot` are there. -/
def w (now : Int) (ok : Bool := true) : World :=
  { now
    available := fun n => n ∈ ["robot/controller_manager/load_controller", "robot/controller_manager/unload_controller",
      "robot/controller_manager/switch_controller"]
    answer := ok }

def args : Args := { controllers := ["arm", "leg"], ns := some "robot", waitFor := some "ready" }

/-- Two controllers, the second of which cannot be loaded. "False" is heard first, "True" later. -/
def history : List In :=
  [.message true, .run (w 1), .run (w 2), .run (w 3), .run (w 40), .message false, .run (w 41), .run (w 42), .message true,
    .run (w 43), .run (w 44), .run (w 45 false), .run (w 46), .run (w 47)]

/-- The controllers are loaded, and the one that could be loaded is started. The message that came before the program had
subscribed to the topic does not count. -/
example : (after args ["arm", "leg"] 0 history).requests =
    [.load "robot/controller_manager/load_controller" "arm" true, .load "robot/controller_manager/load_controller" "leg" false,
      .switch "robot/controller_manager/switch_controller" ["arm"]] ∧
    (after args ["arm", "leg"] 0 history).phase = .spinning ∧
    (after args ["arm", "leg"] 0 (history.take 10)).requests = [] := by decide +kernel

example : ∃ p q, history = p ++ q ∧ Ready args p ∧ (after args ["arm", "leg"] 0 p).requests = [] :=
  c102_first 0 history (by decide +kernel)

/-- Without namespace, the services are not there: the program gives up. -/
example : GaveUp { controllers := ["arm"] } 0 [.run (w 1), .run (w 20), .run (w 31)] :=
  c102_patience (cs := ["arm"]) 0 _ (by simp [NoShutdown]) (by decide +kernel)

/-- With `--timeout 0` it does not. -/
example : (after { controllers := ["arm"], timeout := 0 } ["arm"] 0 [.run (w 1), .run (w 20), .run (w 31)]).phase =
    .service .load 0 := by decide +kernel

/-- An example for `c102_names`. -/
example : "robot" ≠ "" ∧ "robot".toList.getLast? ≠ some '/' := by decide +kernel

/-- Hypotheses of the progress theorems. -/
example : Prompt { args with waitFor := none } 0 ((List.replicate 7 (w 5)).map .run) := by
  intro w' hw
  obtain ⟨w'', h, e⟩ := List.mem_map.1 hw
  cases e
  obtain rfl := List.eq_of_mem_replicate h
  refine ⟨?_, by decide, ?_⟩
  · intro v; cases v <;> decide +kernel
  · intro t e
    have : (30 : Int) = t := Option.some.inj e
    subst this; decide

end Example

end Verif.Spawner
