import Verif.Props.Clients

/-!
Properties of the client programs: unspawner, reload_libraries, controller_group and
start_stop_controllers.
-/

namespace Verif

open Mgr Spec Clients

/-! ### Helper lemmas -/

theorem not_listedRunning_map {r : SwitchReq} {out : String → Bool} {l : Listing} {n : String}
    (hs : n ∈ r.stop) (hn : n ∉ r.start) : ¬ ListedRunning (l.map (switchedEntry r out)) n := by
  rintro ⟨e, he, h1, h2⟩
  obtain ⟨e', _, rfl⟩ := List.mem_map.1 he
  rw [switchedEntry_name] at h1
  unfold switchedEntry at h2
  rw [if_neg (by rw [h1]; exact hn)] at h2
  split at h2
  · exact absurd h2 (by show ¬ ("stopped" = "running"); decide)
  · rename_i hh
    exact hh ⟨by rw [h1]; exact hs, h2⟩

theorem listedRunning_map {r : SwitchReq} {out : String → Bool} {l : Listing} {n : String}
    (hs : n ∈ r.start) (hl : Listed l n) (ho : out n = true) :
    ListedRunning (l.map (switchedEntry r out)) n := by
  obtain ⟨e, he, rfl⟩ := hl
  refine ⟨_, List.mem_map_of_mem he, switchedEntry_name _ _ _, ?_⟩
  unfold switchedEntry
  rw [if_pos hs, ho]; rfl

theorem switchedEntry_other {r : SwitchReq} {out : String → Bool} {e : Entry}
    (h1 : e.name ∉ r.start) (h2 : e.name ∉ r.stop) : switchedEntry r out e = e := by
  unfold switchedEntry
  rw [if_neg h1, if_neg (fun hh => h2 hh.1)]

theorem map_eq_self {l : Listing} {f : Entry → Entry} (h : ∀ e ∈ l, f e = e) : l.map f = l := by
  conv_rhs => rw [← List.map_id l]
  exact List.map_congr_left h

/-! ### C77 -/

/-- **C77.** If `start_stop_controllers` returns False, nothing has changed at all. If it
returns True, then every controller to start was loaded and not running, every one to stop was
running and is not running afterwards, those to start all run, or all were aborted (which needs an
error of the hardware), and no other controller changes its state. -/
theorem c77_start_stop {conf errors} {m m' : Mgr} (h : Reachable conf m) {start stop : List String}
    {prepOk ok : Bool} (hs : StartStop conf errors start stop prepOk m ok m') :
    (ok = false → m'.listControllers = m.listControllers) ∧
    (ok = true →
      (∀ n ∈ start, Listed m.listControllers n ∧ ¬ ListedRunning m.listControllers n) ∧
      (∀ n ∈ stop, ListedRunning m.listControllers n ∧ ¬ ListedRunning m'.listControllers n) ∧
      ((∀ n ∈ start, ListedRunning m'.listControllers n) ∨
        errors = true ∧ ∀ n ∈ start, ∃ e ∈ m'.listControllers, e.name = n ∧ e.state = "aborted") ∧
      ∀ e, e.name ∉ start → e.name ∉ stop →
        (e ∈ m'.listControllers ↔ e ∈ m.listControllers)) := by
  obtain ⟨now, hs⟩ := hs
  rcases switch_listing rfl (hs.serves h) with ⟨_, rfl, e⟩ | ⟨ha, rfl, out, e, ho, he⟩
  · exact ⟨fun _ => e, fun hh => by cases hh⟩
  refine ⟨fun hh => (by cases hh), fun _ => ?_⟩
  obtain ⟨⟨a1, a2, a3⟩, _⟩ := ha
  have a1 : ∀ n ∈ stop, ListedRunning m.listControllers n := a1
  have a2 : ∀ n ∈ start, Listed m.listControllers n ∧ ¬ ListedRunning m.listControllers n := a2
  have a3 : ∀ n ∈ start, n ∉ stop := a3
  refine ⟨a2, fun n hn => ⟨a1 n hn, ?_⟩, ?_, ?_⟩
  · rw [e]; exact not_listedRunning_map hn (fun hh => a3 n hh hn)
  · rcases ho rfl with ho | ho
    · left; intro n hn; rw [e]; exact listedRunning_map hn (a2 n hn).1 (ho n)
    · by_cases her : errors = true
      · right
        refine ⟨her, ?_⟩
        intro n hn
        obtain ⟨x, hx, rfl⟩ := (a2 n hn).1
        rw [e]
        refine ⟨_, List.mem_map_of_mem hx, switchedEntry_name _ _ _, ?_⟩
        unfold switchedEntry
        rw [if_pos hn, ho]; rfl
      · left; intro n _
        have := he (by simpa using her) n
        rw [ho n] at this; cases this
  · intro x h1 h2
    rw [e]
    constructor
    · intro hx
      obtain ⟨y, hy, rfl⟩ := List.mem_map.1 hx
      rw [switchedEntry_name] at h1 h2
      rwa [switchedEntry_other h1 h2]
    · intro hx
      rw [← switchedEntry_other (r := ⟨start, stop, strictnessStrict, false, 0⟩) (out := out) h1 h2]
      exact List.mem_map_of_mem hx

/-- A call that succeeds, with both lists non-empty, and one that does not. -/
example : (∃ m', StartStop checkForConflict false ["b"] ["a"] true (Ex.after Ex.running) true m' ∧
      m'.listControllers.map (fun e => (e.name, e.state)) =
        [("a", "stopped"), ("b", "running"), ("c", "running")]) ∧
    ∃ m', StartStop checkForConflict false ["b"] [] true (Ex.after Ex.running) false m' := by
  refine ⟨⟨_, ⟨0, served_of Ex.cycle (by decide) (Ex.background_cycle _) (by decide) (by decide)⟩,
    by decide⟩, _, 0, served_of [] (by decide) (by simp) (by decide) (by decide)⟩

/-- **C77, the answer.** `start_stop_controllers` returns True exactly if every controller to stop
is running, every one to start is loaded and not running, the controllers that would then run do
not conflict, and the hardware accepts the switch. -/
theorem c77_answer {conf errors} {m m' : Mgr} (h : Reachable conf m) {start stop : List String}
    {prepOk ok : Bool} (hs : StartStop conf errors start stop prepOk m ok m') :
    ok = true ↔ (∀ n ∈ stop, ListedRunning m.listControllers n) ∧
      (∀ n ∈ start, Listed m.listControllers n ∧ ¬ ListedRunning m.listControllers n) ∧
      conf ((m.listControllers.filter fun e => (e.state = "running" ∧ e.name ∉ stop) ∨ e.name ∈ start).map
        fun e => ⟨e.name, e.type, e.claimed⟩) = false ∧ prepOk = true := by
  obtain ⟨now, hs⟩ := hs
  rcases switch_listing rfl (hs.serves h) with ⟨ha, rfl, e⟩ | ⟨ha, rfl, out, e, ho, he⟩
  · refine ⟨fun hh => (by cases hh), fun ⟨p1, p2, p3, p4⟩ => absurd ?_ ha⟩
    exact ⟨by rw [if_pos rfl]; exact ⟨p1, p2, fun n hn hn' => (p2 n hn).2 (p1 n hn')⟩, p3, p4⟩
  · obtain ⟨a1, a2, a3⟩ := ha
    rw [if_pos rfl] at a1
    exact ⟨fun _ => ⟨a1.1, a1.2.1, a2, a3⟩, fun _ => rfl⟩

/-! ### C74 -/

/-- **C74, stopping.** If the hardware lets controllers be stopped, then after each round of the
unspawner none of its controllers runs, nothing else has changed, and the controllers it will
restart are exactly those it has stopped. -/
theorem c74_stops {conf errors} (hc : Hereditary conf) {m m' : Mgr} (h : Reachable conf m)
    (hi : m.svc = .idle) {toInhibit inhibited inhibited' : List String}
    (hs : StopRound conf errors toInhibit true inhibited m inhibited' m') :
    (∀ n ∈ toInhibit, ¬ ListedRunning m'.listControllers n) ∧
    m'.listControllers = (m.listControllers.map fun e =>
      if e.name ∈ toInhibit ∧ e.state = "running" then { e with state := "stopped" } else e) ∧
    ∀ n, n ∈ inhibited' ↔ n ∈ inhibited ∨ n ∈ toInhibit ∧ ListedRunning m.listControllers n := by
  obtain ⟨before, hb, toStop, _, hts, hs⟩ := hs
  obtain ⟨h1, hi1, e1⟩ := background_listing h hi hb
  have hts' : ∀ n, n ∈ toStop ↔ n ∈ toInhibit ∧ ListedRunning m.listControllers n := by
    intro n; rw [hts n, e1]; rfl
  have hent : ∀ e ∈ m.listControllers, (e.name ∈ toStop ↔ e.name ∈ toInhibit ∧ e.state = "running") := by
    intro e he; rw [hts' e.name, listedRunning_entry h he]
  have hlist : m'.listControllers = m.listControllers.map fun e =>
      if e.name ∈ toInhibit ∧ e.state = "running" then { e with state := "stopped" } else e := by
    by_cases hn : toStop = []
    · rw [if_pos hn] at hs
      rw [hs.2, e1]
      symm
      apply map_eq_self
      intro e he
      rw [if_neg]
      rw [← hent e he, hn]; simp
    · rw [if_neg hn] at hs
      obtain ⟨_, _, now, ok, hs⟩ := hs
      have hacc : Acceptable conf (m.run conf before).listControllers
          ⟨[], toStop, strictnessBestEffort, false, 0⟩ true := by
        refine ⟨?_, listedTarget_stop hc h1 toStop, rfl⟩
        rw [if_neg (by show strictnessBestEffort ≠ strictnessStrict; decide)]
        intro n _ _; simp
      rcases switch_listing rfl (hs.serves h1) with ⟨hna, _⟩ | ⟨_, _, out, e, _⟩
      · exact absurd hacc hna
      · rw [e, e1]
        apply List.map_congr_left
        intro x hx
        unfold switchedEntry
        simp only [List.not_mem_nil, if_false]
        have := hent x hx
        by_cases hin : x.name ∈ toInhibit ∧ x.state = "running"
        · rw [if_pos ⟨this.2 hin, hin.2⟩, if_pos hin]
        · rw [if_neg (fun hh => hin (this.1 hh.1)), if_neg hin]
  refine ⟨?_, hlist, ?_⟩
  · rintro n hn ⟨e, he, h1, h2⟩
    rw [hlist] at he
    obtain ⟨x, hx, rfl⟩ := List.mem_map.1 he
    split at h2
    · exact absurd h2 (by show ¬ ("stopped" = "running"); decide)
    · rename_i hh
      rw [if_neg hh] at h1
      exact hh ⟨h1 ▸ hn, h2⟩
  · intro n
    by_cases hn : toStop = []
    · rw [if_pos hn] at hs
      rw [hs.1, ← hts' n, hn]; simp
    · rw [if_neg hn] at hs
      rw [hs.1 n, hts' n]

/-- **C74, restarting.** If no other client interferes, and the hardware reports no error and lets
controllers be switched, then after the unspawner is shut down the listing is exactly what it was
before it was started. -/
theorem c74_restores {conf} (hc : Hereditary conf) {m m1 m2 : Mgr} (h : Reachable conf m)
    (hi : m.svc = .idle) {toInhibit inhibited : List String}
    (hs : StopRound conf false toInhibit true [] m inhibited m1)
    (hr : Restart conf false inhibited true m1 m2) : m2.listControllers = m.listControllers := by
  obtain ⟨_, e1, e2⟩ := c74_stops hc h hi hs
  have h1 : Reachable conf m1 := by
    obtain ⟨before, hb, toStop, _, _, hs⟩ := hs
    have hr0 := (background_listing h hi hb).1
    split at hs
    · rw [hs.2]; exact hr0
    · obtain ⟨_, _, _, _, hs⟩ := hs; exact hs.reachable hr0
  have hinh : ∀ e ∈ m.listControllers, (e.name ∈ inhibited ↔ e.name ∈ toInhibit ∧ e.state = "running") := by
    intro e he
    rw [e2 e.name, listedRunning_entry h he]; simp
  obtain ⟨now, ok, hr⟩ := hr
  have htgt : listedTarget m1.listControllers inhibited [] = listedTarget m.listControllers [] [] := by
    rw [e1]
    unfold listedTarget
    rw [List.filter_map, List.map_map]
    have hf : m.listControllers.filter ((fun e : Entry =>
          decide ((e.state = "running" ∧ e.name ∉ ([] : List String)) ∨ e.name ∈ inhibited)) ∘
        fun e => if e.name ∈ toInhibit ∧ e.state = "running" then { e with state := "stopped" } else e) =
        m.listControllers.filter (fun e : Entry =>
          decide ((e.state = "running" ∧ e.name ∉ ([] : List String)) ∨ e.name ∈ ([] : List String))) := by
      apply List.filter_congr
      intro e he
      have := hinh e he
      by_cases hin : e.name ∈ toInhibit ∧ e.state = "running"
      · simp [hin, this.2 hin]
      · have hn : e.name ∉ inhibited := fun hh => hin (this.1 hh)
        simp [hin, hn]
    rw [hf]
    apply List.map_congr_left
    intro e _
    simp only [Function.comp]
    split <;> rfl
  have hacc : Acceptable conf m1.listControllers ⟨inhibited, [], strictnessBestEffort, false, 0⟩ true := by
    refine ⟨?_, ?_, rfl⟩
    · rw [if_neg (by show strictnessBestEffort ≠ strictnessStrict; decide)]
      intro n _ hh; cases hh
    · rw [htgt]; exact listedTarget_running hc h
  rcases switch_listing rfl (hr.serves h1) with ⟨hna, _⟩ | ⟨_, _, out, e, _, ho⟩
  · exact absurd hacc hna
  rw [e, e1, List.map_map]
  apply map_eq_self
  intro x hx
  have := hinh x hx
  have ht := ho rfl
  by_cases hin : x.name ∈ toInhibit ∧ x.state = "running"
  · simp only [Function.comp, if_pos hin]
    unfold switchedEntry
    rw [if_pos (this.2 hin), ht]
    show ({ x with state := "running" } : Entry) = x
    rw [← hin.2]
  · simp only [Function.comp, if_neg hin]
    unfold switchedEntry
    rw [if_neg (fun hh => hin (this.1 hh)), if_neg (by simp)]

/-- The unspawner for "a" and a controller that does not run stops "a", and starts it again. -/
example : ∃ m1 m2, StopRound checkForConflict false ["b", "a", "x"] true [] (Ex.after Ex.running) ["a"] m1 ∧
    m1.listControllers.map (fun e => (e.name, e.state)) =
      [("a", "stopped"), ("b", "initialized"), ("c", "running")] ∧
    Restart checkForConflict false ["a"] true m1 m2 ∧
    m2.listControllers.map (fun e => (e.name, e.state)) =
      [("a", "running"), ("b", "initialized"), ("c", "running")] := by
  refine ⟨Ex.after (Ex.running ++ [.switch ⟨[], ["a"], 1, false, 0⟩ 0 true, Ex.tick, Ex.wait]), _,
    ⟨[], by simp, ["a"], by simp, ?_, ?_⟩, ?_, ⟨0, true, served_of Ex.cycle (by decide) (Ex.background_cycle _) (by decide) (by decide)⟩, by decide⟩
  rotate_left
  · rw [if_neg (by simp)]
    exact ⟨by simp, by simp, 0, true,
      served_of Ex.cycle (by decide) (Ex.background_cycle _) (by decide) (by decide)⟩
  · decide
  · intro n
    have : (Mgr.run checkForConflict (Ex.after Ex.running) []).listControllers =
        [⟨"a", "T", "running", [⟨"Pos", ["j1"]⟩]⟩, ⟨"b", "T", "initialized", [⟨"Pos", ["j1"]⟩]⟩,
          ⟨"c", "T", "running", [⟨"Pos", ["j2"]⟩]⟩] := by decide
    rw [this]
    simp only [List.mem_cons, List.not_mem_nil, or_false, exists_eq_or_imp, exists_eq_left]
    constructor
    · rintro rfl; simp
    · rintro ⟨h1, h2⟩
      rcases h2 with ⟨h2, _⟩ | ⟨_, h2⟩ | ⟨h2, _⟩
      · exact h2.symm
      · exact absurd h2 (by decide)
      · subst h2; simp at h1

/-- **C74, interference.** The restart is one request for all stopped controllers. If meanwhile
another client has started a controller that conflicts with one of them, none is restarted, also
none of those without any conflict. -/
theorem c74_restart_negation : ¬ RestartsWithoutConflict checkForConflict := by
  intro hall
  obtain ⟨m', hr, e⟩ : ∃ m', Restart checkForConflict false ["a", "c"] true
      (Ex.after (Ex.running ++ Ex.switchOf [] ["a", "c"] ++ Ex.switchOf ["b"] [])) m' ∧
      m'.listControllers.map (fun e => (e.name, e.state)) =
        [("a", "stopped"), ("b", "running"), ("c", "stopped")] :=
    ⟨_, ⟨0, false, served_of [] (by decide) (by simp) (by decide) (by decide)⟩, by decide⟩
  have := hall _ (Ex.reachable_after (by
      simp [Ex.running, Ex.switchOf, Ex.three, Ex.loadOf, Op.rosUp, Ex.tick, Ex.wait])) (by decide)
    _ _ hr "c" (by simp) (listed_iff.2 (by unfold Loaded; decide)) (by decide)
  obtain ⟨x, hx, h1, h2⟩ := this
  have hm : ("c", "running") ∈ m'.listControllers.map (fun e => (e.name, e.state)) :=
    List.mem_map.2 ⟨x, hx, by rw [h1, h2]⟩
  rw [e] at hm
  exact absurd hm (by decide)

/-! ### C75 -/

theorem loadAll_exact {conf errors env} {es : List Entry} {m m' : Mgr} (h : Reachable conf m)
    (henv : ∀ e ∈ es, (env e.name).nodeHandleOk = true ∧ (env e.name).type = some e.type ∧
      (∃ i, Provides (env e.name).loaders e.type i) ∧ (env e.name).init = some e.claimed)
    (hn : (m.listControllers.map (·.name) ++ es.map (·.name)).Nodup)
    (hl : LoadAll conf errors env (es.map (·.name)) m m') :
    Reachable conf m' ∧ m'.listControllers =
      m.listControllers ++ es.map fun e => { e with state := "initialized" } := by
  induction es generalizing m with
  | nil => cases hl; exact ⟨h, by simp⟩
  | cons e es ih =>
    cases hl with
    | cons hs hl =>
      have hnot : ¬ Listed m.listControllers e.name := by
        rintro ⟨x, hx, hxe⟩
        have := (List.nodup_append.1 hn).2.2 x.name (List.mem_map_of_mem hx) e.name (by simp)
        exact this hxe
      have hL : ListedLoadable m.listControllers e.name (env e.name) e.type e.claimed :=
        ⟨hnot, henv e (by simp)⟩
      have hsv := hs.serves h
      have e1 := (c73_deterministic hsv (Serves.load hL) (by intro _ _ _ hh; cases hh)).2
      obtain ⟨h1, e2⟩ := ih (hs.reachable h) (fun x hx => henv x (by simp [hx])) (by
        rw [e1]
        simpa using hn) hl
      refine ⟨h1, ?_⟩
      rw [e2, e1]
      simp

/-- **C75.** `reload_libraries(force_kill=True, restore=True)`: if no other client interferes, the
hardware agrees and reports no error, and every controller can be loaded again with its type and
claims, then the call returns True, and the same controllers are listed in the same order;
those that were running are running, all others are initialized. -/
theorem c75_restore {conf} (hc : Hereditary conf) {m m' : Mgr} (h : Reachable conf m)
    (hi : m.svc = .idle) {env : String → LoadEnv} {result : Bool}
    (henv : ∀ e ∈ m.listControllers, (env e.name).nodeHandleOk = true ∧
      (env e.name).type = some e.type ∧ (∃ i, Provides (env e.name).loaders e.type i) ∧
      (env e.name).init = some e.claimed)
    (hr : ReloadLibraries conf false env true true true true m result m') :
    result = true ∧ m'.listControllers = m.listControllers.map fun e =>
      { e with state := if e.state = "running" then "running" else "initialized" } := by
  obtain ⟨before, hb, orig, rfl, now, m1, hs, hr⟩ := hr
  obtain ⟨h0, hi0, e0⟩ := background_listing h hi hb
  rw [if_pos rfl] at hr
  obtain ⟨m2, hla, now', ok', hsw⟩ := hr
  rw [e0] at hla hsw
  have hd := c73_deterministic (hs.serves h0) (Serves.reload (Or.inr ⟨rfl, rfl, hc.1⟩))
    (by intro _ _ _ hh; cases hh)
  obtain ⟨rfl, e1⟩ := hd
  refine ⟨rfl, ?_⟩
  obtain ⟨h2, e2⟩ := loadAll_exact (hs.reachable h0) henv (by rw [e1]; simpa using c15_names_unique h) hla
  rw [e1, List.nil_append] at e2
  have hstart : ∀ e ∈ m.listControllers,
      (e.name ∈ (m.listControllers.filter (·.state = "running")).map (·.name) ↔ e.state = "running") := by
    intro e he
    rw [← listedRunning_entry h he]
    unfold ListedRunning
    simp only [List.mem_map, List.mem_filter, decide_eq_true_eq]
    constructor
    · rintro ⟨x, ⟨h1, h2⟩, h3⟩; exact ⟨x, h1, h3, h2⟩
    · rintro ⟨x, h1, h3, h2⟩; exact ⟨x, ⟨h1, h2⟩, h3⟩
  generalize (m.listControllers.filter (·.state = "running")).map (·.name) = start at hstart hsw
  have htgt : listedTarget m2.listControllers start [] = listedTarget m.listControllers [] [] := by
    rw [e2]
    unfold listedTarget
    rw [List.filter_map, List.map_map]
    congr 1
    apply List.filter_congr
    intro e he
    simp [hstart e he]
  have hacc : Acceptable conf m2.listControllers ⟨start, [], strictnessBestEffort, false, 0⟩ true := by
    refine ⟨?_, ?_, rfl⟩
    · rw [if_neg (by show strictnessBestEffort ≠ strictnessStrict; decide)]
      intro n _ hh; cases hh
    · rw [htgt]; exact listedTarget_running hc h
  rcases switch_listing rfl (hsw.serves h2) with ⟨hna, _⟩ | ⟨_, _, out, e, _, ho⟩
  · exact absurd hacc hna
  rw [e, e2, List.map_map]
  apply List.map_congr_left
  intro x hx
  simp only [Function.comp, switchedEntry, List.not_mem_nil, false_and, if_false]
  by_cases hr : x.state = "running"
  · rw [if_pos ((hstart x hx).2 hr), ho rfl, if_pos hr]; rfl
  · rw [if_neg (fun hh => hr ((hstart x hx).1 hh)), if_neg hr]

/-- **C75, without restore.** `reload_libraries(force_kill=True)` with a hardware that agrees returns True
and leaves no controller. -/
theorem c75_forced {conf errors} (hc : Hereditary conf) {m m' : Mgr} (h : Reachable conf m) (hi : m.svc = .idle)
    {env : String → LoadEnv} {result prepOk' : Bool}
    (hr : ReloadLibraries conf errors env true false true prepOk' m result m') :
    result = true ∧ m'.listControllers = [] := by
  obtain ⟨before, hb, orig, rfl, now, m1, hs, hr⟩ := hr
  obtain ⟨h0, hi0, e0⟩ := background_listing h hi hb
  rw [if_neg (by simp)] at hr
  obtain ⟨rfl, e1⟩ := c73_deterministic (hs.serves h0) (Serves.reload (Or.inr ⟨rfl, rfl, hc.1⟩))
    (by intro _ _ _ hh; cases hh)
  exact ⟨rfl, by rw [hr, e1]⟩

/-- **C75, without force.** If controllers are loaded and `force_kill` is False, the reload is
refused; the restore then leaves the listing as it is if the hardware reports no error. -/
theorem c75_not_forced {conf} {m m' : Mgr} (h : Reachable conf m)
    (hi : m.svc = .idle) (hne : m.listControllers ≠ []) {env : String → LoadEnv}
    {restore prepOk prepOk' result : Bool}
    (hr : ReloadLibraries conf false env false restore prepOk prepOk' m result m') :
    result = false ∧ m'.listControllers = m.listControllers := by
  obtain ⟨before, hb, orig, rfl, now, m1, hs, hr⟩ := hr
  obtain ⟨h0, hi0, e0⟩ := background_listing h hi hb
  have hd := c73_deterministic (hs.serves h0) (Serves.notReloaded (by rw [e0]; exact hne) (Or.inl rfl))
    (by intro _ _ _ hh; cases hh)
  obtain ⟨rfl, e1⟩ := hd
  refine ⟨rfl, ?_⟩
  have h1 := hs.reachable h0
  rw [e0] at e1
  cases restore with
  | false => rw [if_neg (by simp)] at hr; rw [hr, e1]
  | true =>
    rw [if_pos rfl] at hr
    obtain ⟨m2, hla, now', ok', hsw⟩ := hr
    rw [e0] at hla hsw
    have key : ∀ ns : List String, (∀ n ∈ ns, Listed m.listControllers n) → ∀ a b : Mgr, Reachable conf a →
        a.listControllers = m.listControllers → LoadAll conf false env ns a b →
        Reachable conf b ∧ b.listControllers = m.listControllers := by
      intro ns
      induction ns with
      | nil => intro _ a b ha hae hl; cases hl; exact ⟨ha, hae⟩
      | cons n ns ih =>
        intro hns a b ha hae hl
        cases hl with
        | cons hs hl =>
          refine ih (fun x hx => hns x (by simp [hx])) _ b (hs.reachable ha) ?_ hl
          rcases load_listing (hs.serves ha) with ⟨_, e⟩ | ⟨_, hn, _⟩
          · rw [e, hae]
          · rw [hae] at hn; exact absurd (hns n (by simp)) hn
    obtain ⟨h2, e2⟩ := key _ (by
      intro n hn
      obtain ⟨e, he, rfl⟩ := List.mem_map.1 hn
      exact ⟨e, he, rfl⟩) m1 m2 h1 e1 hla
    rcases switch_listing rfl (hsw.serves h2) with ⟨_, _, e⟩ | ⟨_, _, out, e, _, ho⟩
    · rw [e, e2]
    · rw [e, e2]
      apply map_eq_self
      intro x hx
      simp only [switchedEntry, List.not_mem_nil, false_and, if_false]
      split
      · rename_i hh
        obtain ⟨y, hy, hyx⟩ := List.mem_map.1 hh
        obtain ⟨hy1, hy2⟩ := List.mem_filter.1 hy
        have : y = x := listing_entry_unique h hy1 hx hyx
        subst this
        have hy2 : y.state = "running" := by simpa using hy2
        rw [ho rfl]
        show ({ y with state := "running" } : Entry) = y
        rw [← hy2]
      · rfl

/-- A list of background operations of the examples. -/
theorem Ex.background_of (errors : Bool) {ops : List Op} (h : ∀ op ∈ ops, op = Ex.tick ∨ op = Ex.wait) :
    ∀ op ∈ ops, op.background errors := by
  intro op ho
  exact Ex.background_cycle _ op (by simpa [Ex.cycle] using h op ho)

/-- The whole of a forced reload with three controllers. -/
def Ex.reloading : List Op := Ex.cycle ++ (Ex.wait :: Ex.cycle) ++ (Ex.wait :: Ex.cycle) ++
  (Ex.wait :: Ex.cycle) ++ [Ex.wait]

/-- Two running controllers and one that is not are restored. -/
theorem Ex.restored : ∃ m', ReloadLibraries checkForConflict false Ex.envOf true true true true (Ex.after Ex.running)
      true m' ∧
    m'.listControllers.map (fun e => (e.name, e.state)) =
      [("a", "running"), ("b", "initialized"), ("c", "running")] := by
  have hc := Ex.background_cycle false
  refine ⟨Ex.after (Ex.running ++ .reload true 0 true :: Ex.reloading ++
      .load "a" (Ex.envOf "a") :: Ex.cycle ++ .load "b" (Ex.envOf "b") :: Ex.cycle ++
      .load "c" (Ex.envOf "c") :: Ex.cycle ++ .switch ⟨["a", "c"], [], 1, false, 0⟩ 0 true :: Ex.cycle),
    ⟨[], by simp, _, rfl, 0, _, served_of Ex.reloading (by decide)
    (Ex.background_of _ (by simp [Ex.reloading, Ex.cycle])) (by decide) (by decide), ?_⟩, by decide⟩
  rw [if_pos rfl]
  exact ⟨_, .cons (served_of Ex.cycle (ok := true) (by decide) hc (by decide) (by decide))
      (.cons (served_of Ex.cycle (ok := true) (by decide) hc (by decide) (by decide))
      (.cons (served_of Ex.cycle (ok := true) (by decide) hc (by decide) (by decide)) (.nil _))), 0, true,
      served_of Ex.cycle (by decide) hc (by decide) (by decide)⟩

/-- **C75, running controllers are started again.** If the reload is refused because controllers
are loaded, the restore nevertheless starts every running controller: its `starting()` is called
although it is running. -/
theorem c75_restart_negation : ¬ RestoreStartsOnlyStopped checkForConflict := by
  intro hall
  have hc := Ex.background_cycle false
  have hr : ReloadLibraries checkForConflict false Ex.envOf false true true true
      (Ex.after Ex.running) false (Ex.after (Ex.running ++ [.reload false 0 true,
        .load "a" (Ex.envOf "a"), .load "b" (Ex.envOf "b"), .load "c" (Ex.envOf "c"),
        .switch ⟨["a", "c"], [], 1, false, 0⟩ 0 true] ++ Ex.cycle)) := by
    refine ⟨[], by simp, _, rfl, 0, _, served_of [] (by decide) (by simp) (by decide) (by decide), ?_⟩
    rw [if_pos rfl]
    exact ⟨_, .cons (served_of [] (ok := false) (by decide) (by simp) (by decide) (by decide))
      (.cons (served_of [] (ok := false) (by decide) (by simp) (by decide) (by decide))
      (.cons (served_of [] (ok := false) (by decide) (by simp) (by decide) (by decide)) (.nil _))), 0, true,
      served_of Ex.cycle (by decide) hc (by decide) (by decide)⟩
  exact hall _ (Ex.reachable_after Ex.rosUp_running) (by decide) _ _ _ _ _ _ hr
    ⟨⟨"a", "T", [⟨"Pos", ["j1"]⟩]⟩, 0⟩ (by decide)
    ((Ex.after (Ex.running ++ [.reload false 0 true,
        .load "a" (Ex.envOf "a"), .load "b" (Ex.envOf "b"), .load "c" (Ex.envOf "c"),
        .switch ⟨["a", "c"], [], 1, false, 0⟩ 0 true] ++ Ex.cycle)).trace.drop
      (Ex.after Ex.running).trace.length) (by decide) (by decide) (by decide)

/-! ### C76 -/

theorem loadedControllers_eq {conf} {m : Mgr} (h : Reachable conf m) (n : String) :
    ((loadedControllers m.listControllers n).getD false = true ↔ ListedRunning m.listControllers n) := by
  unfold loadedControllers
  cases hf : m.listControllers.reverse.find? (·.name = n) with
  | none =>
    simp only [Option.map_none, Option.getD_none, Bool.false_eq_true, false_iff]
    rintro ⟨e, he, hn, _⟩
    rw [List.find?_eq_none] at hf
    exact hf e (List.mem_reverse.2 he) (by simpa using hn)
  | some e =>
    have he := List.mem_reverse.1 (List.mem_of_find?_eq_some hf)
    have hn : e.name = n := by simpa using List.find?_some hf
    subst hn
    rw [listedRunning_entry h he]
    simp

theorem loadMissing_listing {conf errors env known ns ok} {m m' : Mgr} (h : Reachable conf m)
    (hl : LoadMissing conf errors env known ns m ok m') :
    Reachable conf m' ∧ ∃ es : List Entry, m'.listControllers = m.listControllers ++ es ∧
      (∀ e ∈ es, e.name ∈ ns ∧ e.name ∉ known ∧ e.state = "initialized") ∧
      (ok = true → ∀ n ∈ ns, n ∈ known ∨ Listed m'.listControllers n) := by
  induction hl with
  | nil m => exact ⟨h, [], by simp, by simp, by simp⟩
  | known hk hl ih =>
    obtain ⟨h1, es, e1, e2, e3⟩ := ih h
    refine ⟨h1, es, e1, fun e he => ⟨by simp [(e2 e he).1], (e2 e he).2⟩, fun ho n hn => ?_⟩
    rcases List.mem_cons.1 hn with rfl | hn
    · exact Or.inl hk
    · exact e3 ho n hn
  | @loaded n₀ _ _ _ _ _ hk hs hl ih =>
    obtain ⟨h1, es, e1, e2, e3⟩ := ih (hs.reachable h)
    rcases load_listing (hs.serves h) with ⟨e, _⟩ | ⟨_, _, type, claimed, _, _, e⟩
    · cases e
    · refine ⟨h1, ⟨n₀, type, "initialized", claimed⟩ :: es, by rw [e1, e]; simp, ?_, fun ho n hn => ?_⟩
      · intro x hx
        rcases List.mem_cons.1 hx with rfl | hx
        · exact ⟨List.mem_cons_self, hk, rfl⟩
        · exact ⟨by simp [(e2 x hx).1], (e2 x hx).2⟩
      · rcases List.mem_cons.1 hn with hh | hn
        · right
          rw [e1, e, hh]
          exact ⟨_, List.mem_append_left _ (List.mem_append_right _ List.mem_cons_self), rfl⟩
        · exact e3 ho n hn
  | cancel hk hs =>
    rcases load_listing (hs.serves h) with ⟨_, e⟩ | ⟨e, _⟩
    · exact ⟨hs.reachable h, [], by rw [e]; simp, by simp, by simp⟩
    · cases e

/-- **C76.** `controller_group switch`: if the switch is made (the answer of the manager is true) and
the hardware reports no error, then all controllers of the group run, no other controller of any
group runs, and controllers that are in no group are as they were. If it is not made, nothing was
started or stopped: the listing is as before, except that controllers of the group may have been
loaded. -/
theorem c76_switch_group {conf} {m m' : Mgr} (h : Reachable conf m) (hi : m.svc = .idle)
    {groups : List (String × List String)} {group : String} {desired others : List String}
    (hg : ReadsGroup groups group desired others) {env : String → LoadEnv} {prepOk ok : Bool}
    (hs : SwitchGroup conf false env desired others prepOk m ok m') :
    (ok = true →
      (∀ n ∈ (groups.lookup group).getD [], ListedRunning m'.listControllers n) ∧
      (∀ g ∈ groups, ∀ n ∈ g.2, n ∉ (groups.lookup group).getD [] →
        ¬ ListedRunning m'.listControllers n) ∧
      ∀ e, (∀ g ∈ groups, e.name ∉ g.2) → e.name ∉ desired →
        (e ∈ m'.listControllers ↔ e ∈ m.listControllers)) ∧
    (ok = false → ∃ es : List Entry, m'.listControllers = m.listControllers ++ es ∧
      ∀ e ∈ es, e.name ∈ desired ∧ e.state = "initialized") := by
  obtain ⟨_, _, g1, g2⟩ := hg
  obtain ⟨before, hb, listing, rfl, loadsOk, m1, hl, hs⟩ := hs
  obtain ⟨h0, hi0, e0⟩ := background_listing h hi hb
  obtain ⟨h1, es, e1, e2, e3⟩ := loadMissing_listing h0 hl
  rw [e0] at e1
  cases loadsOk with
  | false =>
    rw [if_neg (by simp)] at hs
    obtain ⟨rfl, rfl⟩ := hs
    exact ⟨fun hh => (by cases hh), fun _ => ⟨es, e1, fun e he => ⟨(e2 e he).1, (e2 e he).2.2⟩⟩⟩
  | true =>
    rw [if_pos rfl] at hs
    have hrun := loadedControllers_eq h0
    simp only [e0] at hs hrun
    obtain ⟨c1, c2⟩ := c77_start_stop h1 hs
    refine ⟨fun ho => ?_, fun ho => ?_⟩
    · subst ho
      obtain ⟨p1, p2, p3, p4⟩ := c2 rfl
      have p3 := p3.resolve_right (by simp)
      have hdec : ∀ n, n ∉ desired → (ListedRunning m1.listControllers n ↔
          ListedRunning m.listControllers n) := by
        intro n hn
        rw [e1]
        constructor
        · rintro ⟨e, he, hh, hr⟩
          rcases List.mem_append.1 he with he | he
          · exact ⟨e, he, hh, hr⟩
          · rw [(e2 e he).2.2] at hr; exact absurd hr (by decide)
        · rintro ⟨e, he, hh⟩
          exact ⟨e, List.mem_append_left _ he, hh⟩
      refine ⟨?_, ?_, ?_⟩
      · intro n hn
        have hd := (g1 n).2 hn
        by_cases hr : ListedRunning m.listControllers n
        · -- already running: neither started nor stopped
          obtain ⟨e, he, rfl, hst⟩ := hr
          have hnst : e.name ∉ desired.filter fun n =>
              !((loadedControllers m.listControllers n).getD false) := by
            intro hh
            have := (List.mem_filter.1 hh).2
            rw [(hrun e.name).2 ⟨e, he, rfl, hst⟩] at this; cases this
          have hnsp : e.name ∉ others.filter fun n => (loadedControllers m.listControllers n).getD false := by
            intro hh
            exact ((g2 _).1 (List.mem_filter.1 hh).1).2 hd
          exact ⟨e, (p4 e hnst hnsp).2 (by rw [e1]; exact List.mem_append_left _ he), rfl, hst⟩
        · refine p3 n (List.mem_filter.2 ⟨hd, ?_⟩)
          have : (loadedControllers m.listControllers n).getD false ≠ true := fun hh => hr ((hrun n).1 hh)
          simpa using this
      · intro g hg n hn hnot
        have hnd : n ∉ desired := fun hh => hnot ((g1 n).1 hh)
        have hno : n ∈ others := (g2 n).2 ⟨⟨g, hg, hn⟩, hnd⟩
        by_cases hr : ListedRunning m.listControllers n
        · exact (p2 n (List.mem_filter.2 ⟨hno, (hrun n).2 hr⟩)).2
        · rintro ⟨e, he, rfl, hst⟩
          have hm1 : e ∈ m1.listControllers := by
            refine (p4 e ?_ ?_).1 he
            · intro hh; exact hnd (List.mem_filter.1 hh).1
            · intro hh; exact hr ((hrun _).1 (List.mem_filter.1 hh).2)
          exact hr ((hdec e.name hnd).1 ⟨e, hm1, rfl, hst⟩)
      · intro e hng hnd
        rw [p4 e (fun hh => hnd (List.mem_filter.1 hh).1) (fun hh => by
          obtain ⟨⟨g, hg, hgn⟩, _⟩ := (g2 _).1 (List.mem_filter.1 hh).1
          exact hng g hg hgn), e1, List.mem_append]
        constructor
        · rintro (he | he)
          · exact he
          · exact absurd (e2 e he).1 hnd
        · exact Or.inl
    · subst ho
      exact ⟨es, by rw [c1 rfl, e1], fun e he => ⟨(e2 e he).1, (e2 e he).2.2⟩⟩

theorem loadMissing_failed {conf errors env known ns ok} {m m' : Mgr} (h : Reachable conf m)
    (hl : LoadMissing conf errors env known ns m ok m') (hn : ns.Nodup)
    (hk : ∀ n ∈ ns, n ∈ known ∨ ¬ Listed m.listControllers n) (ho : ok = false) :
    ∃ n ∈ ns, ¬ Listed m'.listControllers n := by
  induction hl with
  | nil m => cases ho
  | known _ hl ih =>
    obtain ⟨n, h1, h2⟩ := ih h (List.nodup_cons.1 hn).2 (fun x hx => hk x (List.mem_cons_of_mem _ hx)) ho
    exact ⟨n, List.mem_cons_of_mem _ h1, h2⟩
  | @loaded n ns m m1 _ _ hnk hs hl ih =>
    rcases load_listing (hs.serves h) with ⟨e, _⟩ | ⟨_, _, type, claimed, _, _, e⟩
    · cases e
    · obtain ⟨x, h1, h2⟩ := ih (hs.reachable h) (List.nodup_cons.1 hn).2 (fun x hx => by
        rcases hk x (List.mem_cons_of_mem _ hx) with hh | hh
        · exact Or.inl hh
        · right
          rintro ⟨y, hy, rfl⟩
          rw [e] at hy
          rcases List.mem_append.1 hy with hy | hy
          · exact hh ⟨y, hy, rfl⟩
          · rw [List.mem_singleton.1 hy] at hx
            exact (List.nodup_cons.1 hn).1 hx) ho
      exact ⟨x, List.mem_cons_of_mem _ h1, h2⟩
  | @cancel n ns m m1 hnk hs =>
    rcases load_listing (hs.serves h) with ⟨_, e⟩ | ⟨e, _⟩
    · refine ⟨n, List.mem_cons_self, ?_⟩
      rw [e]
      exact (hk n List.mem_cons_self).resolve_left hnk
    · cases e

theorem group_target (A B C : Prop) : ((B ∧ ¬ ((¬ C ∧ ¬ A) ∧ B)) ∨ (A ∧ ¬ B)) ↔ (A ∨ B ∧ C) := by
  tauto

/-- **C76, the only reasons for failure.** `controller_group switch` fails only if a controller of
the group cannot be loaded, if the hardware refuses, or if the controllers of the group conflict
with each other or with running controllers that belong to no group. In particular the state of
the controllers of the other groups does not matter. -/
theorem c76_switch_fails {conf errors} {m m' : Mgr} (h : Reachable conf m) (hi : m.svc = .idle)
    {groups : List (String × List String)} {group : String} {desired others : List String}
    (hg : ReadsGroup groups group desired others) {env : String → LoadEnv} {prepOk : Bool}
    (hs : SwitchGroup conf errors env desired others prepOk m false m') :
    (∃ n ∈ (groups.lookup group).getD [], ¬ Listed m'.listControllers n) ∨ prepOk = false ∨
    conf ((m'.listControllers.filter fun e => e.name ∈ (groups.lookup group).getD [] ∨
        e.state = "running" ∧ ∀ g ∈ groups, e.name ∉ g.2).map
      fun e => ⟨e.name, e.type, e.claimed⟩) = true := by
  obtain ⟨hnd, _, g1, g2⟩ := hg
  obtain ⟨before, hb, listing, rfl, loadsOk, m1, hl, hs⟩ := hs
  obtain ⟨h0, hi0, e0⟩ := background_listing h hi hb
  obtain ⟨h1, es, e1, e2, e3⟩ := loadMissing_listing h0 hl
  cases hlo : loadsOk with
  | false =>
    rw [hlo, if_neg (by simp)] at hs
    obtain ⟨_, rfl⟩ := hs
    obtain ⟨n, hn, hh⟩ := loadMissing_failed h0 hl hnd (fun n _ => by
      by_cases hh : Listed (m.run conf before).listControllers n
      · obtain ⟨e, he, rfl⟩ := hh
        exact Or.inl (List.mem_map_of_mem he)
      · exact Or.inr hh) hlo
    exact Or.inl ⟨n, (g1 n).1 hn, hh⟩
  | true =>
    rw [hlo, if_pos rfl] at hs
    have hrun := loadedControllers_eq h0
    obtain ⟨now, hs⟩ := hs
    rcases switch_listing rfl (hs.serves h1) with ⟨ha, _, e⟩ | ⟨_, hh, _⟩
    swap
    · cases hh
    right
    by_contra hcon
    rw [not_or] at hcon
    refine ha ⟨?_, ?_, by simpa using hcon.1⟩
    · rw [if_pos rfl]
      have hsub : ∀ n, ListedRunning (m.run conf before).listControllers n →
          ListedRunning m1.listControllers n := by
        rintro n ⟨x, hx, hh⟩
        exact ⟨x, by rw [e1]; exact List.mem_append_left _ hx, hh⟩
      have hsup : ∀ n, ListedRunning m1.listControllers n →
          ListedRunning (m.run conf before).listControllers n := by
        rintro n ⟨x, hx, hh⟩
        rw [e1] at hx
        rcases List.mem_append.1 hx with hx | hx
        · exact ⟨x, hx, hh⟩
        · have := hh.2
          rw [(e2 x hx).2.2] at this; exact absurd this (by decide)
      refine ⟨fun n hn => hsub n ((hrun n).1 (List.mem_filter.1 hn).2), fun n hn => ?_, fun n hn hn' => ?_⟩
      · obtain ⟨hd, hr⟩ := List.mem_filter.1 hn
        refine ⟨?_, fun hh => ?_⟩
        · rcases e3 hlo n hd with hk | hk
          · obtain ⟨x, hx, rfl⟩ := List.mem_map.1 hk
            exact ⟨x, by rw [e1]; exact List.mem_append_left _ hx, rfl⟩
          · exact hk
        · rw [(hrun n).2 (hsup n hh)] at hr; cases hr
      · exact ((g2 n).1 (List.mem_filter.1 hn').1).2 (List.mem_filter.1 hn).1
    · have hc := hcon.2
      rw [e] at hc
      rw [Bool.not_eq_true] at hc
      refine Eq.trans (congrArg conf (congrArg (List.map _) ?_)) hc
      refine List.filter_congr fun x hx => ?_
      have hr : (loadedControllers (m.run conf before).listControllers x.name).getD false = true ↔
          x.state = "running" := by
        rw [hrun]
        rw [e1] at hx
        rcases List.mem_append.1 hx with hx | hx
        · exact listedRunning_entry h0 hx
        · constructor
          · rintro ⟨y, hy, hyx, _⟩
            exact absurd (hyx ▸ List.mem_map_of_mem (f := (·.name)) hy) (e2 x hx).2.1
          · intro hh; rw [(e2 x hx).2.2] at hh; exact absurd hh (by decide)
      have hgd := g1 x.name
      have hgo := g2 x.name
      rw [hgd] at hgo
      have hex : (∃ g ∈ groups, x.name ∈ g.2) ↔ ¬ ∀ g ∈ groups, x.name ∉ g.2 := by simp
      rw [hex] at hgo
      have hr' : (!(loadedControllers (m.run conf before).listControllers x.name).getD false) = true ↔
          ¬ x.state = "running" := by rw [← hr]; simp
      simp only [List.mem_filter, hgd, hgo, hr, hr', decide_eq_decide]
      exact group_target _ _ _

/-- The groups of the examples. -/
def Ex.groups : List (String × List String) := [("first", ["a", "c"]), ("second", ["b", "d"])]

/-- Switching to the second group: "d" is loaded, "a" and "c" are stopped. -/
example : ∃ m', ReadsGroup Ex.groups "second" ["b", "d"] ["a", "c"] ∧
    SwitchGroup checkForConflict false (fun _ => Ex.env ["j3"]) ["b", "d"] ["a", "c"] true
      (Ex.after Ex.running) true m' ∧
    m'.listControllers.map (fun e => (e.name, e.state)) =
      [("a", "stopped"), ("b", "running"), ("c", "stopped"), ("d", "running")] := by
  have hc := Ex.background_cycle false
  refine ⟨Ex.after (Ex.running ++ .load "d" (Ex.env ["j3"]) :: Ex.cycle ++
    .switch ⟨["b", "d"], ["a", "c"], 2, false, 0⟩ 0 true :: Ex.cycle),
    ⟨by decide, by decide, fun n => Iff.rfl, fun n => ?_⟩,
    ⟨[], by simp, _, rfl, true, _, .known (by decide) (.loaded (by decide)
      (served_of Ex.cycle (by decide) hc (by decide) (by decide)) (.nil _)), ?_⟩, by decide⟩
  · simp only [Ex.groups, List.mem_cons, List.not_mem_nil, or_false, exists_eq_or_imp, exists_eq_left]
    constructor
    · rintro (rfl | rfl) <;> decide
    · tauto
  · rw [if_pos rfl]
    exact ⟨0, served_of Ex.cycle (by decide) hc (by decide) (by decide)⟩

/-- And a switch that fails, for the two controllers of the group claim the same joint. -/
example : ∃ m', SwitchGroup checkForConflict false (fun _ => Ex.env ["j1"]) ["b", "d"] ["a", "c"] true
      (Ex.after Ex.running) false m' ∧
    m'.listControllers.map (fun e => (e.name, e.state)) =
      [("a", "running"), ("b", "initialized"), ("c", "running"), ("d", "initialized")] := by
  have hc := Ex.background_cycle false
  refine ⟨Ex.after (Ex.running ++ .load "d" (Ex.env ["j1"]) :: Ex.cycle ++
    [.switch ⟨["b", "d"], ["a", "c"], 2, false, 0⟩ 0 true]),
    ⟨[], by simp, _, rfl, true, _, .known (by decide) (.loaded (by decide)
      (served_of Ex.cycle (by decide) hc (by decide) (by decide)) (.nil _)), ?_⟩, by decide⟩
  rw [if_pos rfl]
  exact ⟨0, served_of [] (by decide) (by simp) (by decide) (by decide)⟩

theorem loadAll_listing {conf errors env ns} {m m' : Mgr} (hl : LoadAll conf errors env ns m m')
    (h : Reachable conf m) : Reachable conf m' ∧ ∃ es : List Entry,
      m'.listControllers = m.listControllers ++ es ∧
      ∀ e ∈ es, e.name ∈ ns ∧ e.state = "initialized" := by
  induction hl with
  | nil m => exact ⟨h, [], by simp, by simp⟩
  | @cons n ns m ok m1 m2 hs hl ih =>
    obtain ⟨h2, es, e1, e2⟩ := ih (hs.reachable h)
    rcases load_listing (hs.serves h) with ⟨_, e⟩ | ⟨_, _, type, claimed, _, _, e⟩
    · exact ⟨h2, es, by rw [e1, e], fun x hx => ⟨List.mem_cons_of_mem _ (e2 x hx).1, (e2 x hx).2⟩⟩
    · refine ⟨h2, ⟨n, type, "initialized", claimed⟩ :: es, by rw [e1, e]; simp, fun x hx => ?_⟩
      rcases List.mem_cons.1 hx with rfl | hx
      · exact ⟨List.mem_cons_self, rfl⟩
      · exact ⟨List.mem_cons_of_mem _ (e2 x hx).1, (e2 x hx).2⟩

theorem startEach_listing {conf ns} {m m' : Mgr} (hl : StartEach conf false ns m m')
    (h : Reachable conf m) : Reachable conf m' ∧
      (∀ e, e.name ∉ ns → (e ∈ m'.listControllers ↔ e ∈ m.listControllers)) ∧
      ∀ n, ListedRunning m.listControllers n → ListedRunning m'.listControllers n := by
  induction hl with
  | nil m => exact ⟨h, fun _ _ => Iff.rfl, fun _ hh => hh⟩
  | @cons n ns m prepOk ok m1 m2 hs hl ih =>
    have h1 : Reachable conf m1 := by
      obtain ⟨_, hs⟩ := hs
      exact hs.reachable h
    obtain ⟨h2, e1, e2⟩ := ih h1
    obtain ⟨c1, c2⟩ := c77_start_stop h hs
    have hkeep : (∀ e, e.name ≠ n → (e ∈ m1.listControllers ↔ e ∈ m.listControllers)) ∧
        ∀ x, ListedRunning m.listControllers x → ListedRunning m1.listControllers x := by
      cases ok with
      | false => rw [c1 rfl]; exact ⟨fun _ _ => Iff.rfl, fun _ hh => hh⟩
      | true =>
        obtain ⟨p1, _, p3, p4⟩ := c2 rfl
        refine ⟨fun e he => p4 e (by simpa using he) (by simp), ?_⟩
        rintro x ⟨e, he, rfl, hr⟩
        by_cases hx : e.name = n
        · exact absurd ⟨e, he, hx, hr⟩ (p1 n (by simp)).2
        · exact ⟨e, (p4 e (by simpa using hx) (by simp)).2 he, rfl, hr⟩
    refine ⟨h2, fun e he => ?_, fun x hx => e2 x (hkeep.2 x hx)⟩
    rw [List.mem_cons, not_or] at he
    rw [e1 e he.2, hkeep.1 e he.1]

/-- **C76, spawning.** `controller_group spawn` stops no controller, and does not touch any
controller outside the group; in particular it loads none. -/
theorem c76_spawn {conf} {m m' : Mgr} (h : Reachable conf m) {env : String → LoadEnv}
    {groups : List (String × List String)} {group : String} {desired others : List String}
    (hg : ReadsGroup groups group desired others) (hs : SpawnGroup conf false env desired m m') :
    (∀ n, ListedRunning m.listControllers n → ListedRunning m'.listControllers n) ∧
    ∀ e, e.name ∉ (groups.lookup group).getD [] →
      (e ∈ m'.listControllers ↔ e ∈ m.listControllers) := by
  obtain ⟨_, _, g1, _⟩ := hg
  obtain ⟨m1, hl, hs⟩ := hs
  obtain ⟨h1, es, e1, e2⟩ := loadAll_listing hl h
  obtain ⟨_, p1, p2⟩ := startEach_listing hs h1
  refine ⟨fun n hn => p2 n ?_, fun e he => ?_⟩
  · obtain ⟨e, he, hh⟩ := hn
    exact ⟨e, by rw [e1]; exact List.mem_append_left _ he, hh⟩
  · rw [← g1] at he
    rw [p1 e he, e1, List.mem_append]
    constructor
    · rintro (hh | hh)
      · exact hh
      · exact absurd (e2 e hh).1 he
    · exact Or.inl

/-- Spawning the second group of the examples beside the first. -/
example : ∃ m', SpawnGroup checkForConflict false (fun _ => Ex.env ["j3"]) ["b", "d"] (Ex.after Ex.running) m' ∧
    m'.listControllers.map (fun e => (e.name, e.state)) =
      [("a", "running"), ("b", "initialized"), ("c", "running"), ("d", "running")] := by
  have hc := Ex.background_cycle false
  refine ⟨Ex.after (Ex.running ++ .load "b" (Ex.env ["j3"]) :: .load "d" (Ex.env ["j3"]) :: Ex.cycle ++
    .switch ⟨["b"], [], 2, false, 0⟩ 0 true ::
    .switch ⟨["d"], [], 2, false, 0⟩ 0 true :: Ex.cycle),
    ⟨_, .cons (served_of [] (ok := false) (by decide) (by simp) (by decide) (by decide))
      (.cons (served_of Ex.cycle (ok := true) (by decide) hc (by decide) (by decide)) (.nil _)),
     .cons (prepOk := true) (ok := false) ⟨0, served_of [] (by decide) (by simp) (by decide) (by decide)⟩
      (.cons (prepOk := true) (ok := true) ⟨0, served_of Ex.cycle (by decide) hc (by decide) (by decide)⟩
        (.nil _))⟩, by decide⟩

/-- **C76, the help text is wrong.** It says that the controllers of all groups are loaded. -/
theorem c76_help_negation : ¬ SpawnLoadsAllGroups checkForConflict := by
  intro hall
  have hc := Ex.background_cycle false
  have hg : ReadsGroup [("first", ["a"]), ("second", ["c"])] "first" ["a"] ["c"] := by
    refine ⟨by decide, by decide, fun n => Iff.rfl, fun n => ?_⟩
    simp only [List.mem_cons, List.not_mem_nil, or_false, exists_eq_or_imp, exists_eq_left]
    constructor
    · rintro rfl; decide
    · tauto
  have hs : SpawnGroup checkForConflict false Ex.envOf ["a"] Mgr.init
      (Ex.after (.load "a" (Ex.envOf "a") :: Ex.cycle ++ .switch ⟨["a"], [], 2, false, 0⟩ 0 true :: Ex.cycle)) :=
    ⟨_, .cons (served_of Ex.cycle (ok := true) (by decide) hc (by decide) (by decide)) (.nil _),
      .cons (prepOk := true) (ok := true) ⟨0, served_of Ex.cycle (by decide) hc (by decide) (by decide)⟩ (.nil _)⟩
  obtain ⟨e, he, hn⟩ := hall Mgr.init ⟨[], by simp, rfl⟩ rfl _ _ _ _ hg _ _ hs ("second", ["c"]) (by simp) "c" (by simp)
    ⟨"T", [⟨"Pos", ["j2"]⟩], by
      refine ⟨?_, rfl, rfl, ?_, rfl⟩
      · rintro ⟨e, he, _⟩
        exact absurd he (List.not_mem_nil)
      · exact ⟨0, ⟨_, rfl, by decide, by decide⟩, by simp⟩⟩
  have : e.name ∈ (Ex.after (.load "a" (Ex.envOf "a") :: Ex.cycle ++
      .switch ⟨["a"], [], 2, false, 0⟩ 0 true :: Ex.cycle)).listControllers.map (·.name) := List.mem_map_of_mem he
  rw [hn] at this
  exact absurd this (by decide)

end Verif
