import Verif.Lemmas.CommandLine

/-!
Property C83: the command line tool of the controller manager.
-/

namespace Verif

open Mgr Spec Clients

/-- **C83, loading.** `controller_manager load` appends to the listing, in the order given, one
initialised controller for each name that can be loaded and is not loaded yet. A name that cannot
be loaded does not keep the others from being loaded. -/
theorem c83_load {conf errors env prep pa pb prog names code} {m m' : Mgr} (h : Reachable conf m)
    (ht : Tool conf errors env prep pa pb (prog :: "load" :: names) m code m') :
    ∃ es : List Entry, m'.listControllers = m.listControllers ++ es ∧ (es.map (·.name)).Sublist names ∧
      (∀ e ∈ es, e.state = "initialized" ∧ (env e.name).type = some e.type ∧ (env e.name).init = some e.claimed) ∧
      ∀ n ∈ names, Listed m'.listControllers n ↔ Listed m.listControllers n ∨
        ∃ type claimed, ListedLoadable m.listControllers n (env n) type claimed := by
  obtain ⟨_, es, e1, e2, e3, e4⟩ := loadAll_which (show LoadAll conf errors env names m m' from ht.2) h
  exact ⟨es, e1, e2, fun e he => ⟨(e3 e he).1, (e3 e he).2.2.2.1, (e3 e he).2.2.2.2.2⟩, e4⟩

/-- **C83, unloading.** `controller_manager unload` removes the named controllers that do not run,
and changes nothing else. -/
theorem c83_unload {conf errors env prep pa pb prog names code} {m m' : Mgr} (h : Reachable conf m)
    (ht : Tool conf errors env prep pa pb (prog :: "unload" :: names) m code m') :
    m'.listControllers = m.listControllers.filter fun e => e.name ∉ names ∨ e.state = "running" :=
  (unloads_listing (show Unloads conf errors names m m' from ht.2) h).2

/-- **C83, stopping.** `controller_manager stop` stops the named controllers that run, unless the
hardware refuses, and changes nothing else. -/
theorem c83_stop {conf errors env prep pa pb prog names code} (hc : Hereditary conf) {m m' : Mgr}
    (h : Reachable conf m) (ht : Tool conf errors env prep pa pb (prog :: "stop" :: names) m code m') :
    m'.listControllers = m.listControllers.map fun e =>
      if e.name ∈ names ∧ e.state = "running" ∧ prep e.name = true then { e with state := "stopped" } else e :=
  (stops_listing hc (show Stops conf errors prep names m m' from ht.2) h).2

/-- **C83, killing.** After `controller_manager kill` none of the named controllers is listed, whatever
state it was in, except running ones that the hardware refused to stop; nothing else changes. -/
theorem c83_kill {conf errors env prep pa pb prog cmd names code} (hc : Hereditary conf) {m m' : Mgr}
    (h : Reachable conf m) (hcmd : cmd = "kill" ∨ cmd = "kl")
    (ht : Tool conf errors env prep pa pb (prog :: cmd :: names) m code m') :
    m'.listControllers = m.listControllers.filter fun e =>
      e.name ∉ names ∨ e.state = "running" ∧ prep e.name = false := by
  have hk : KillNames conf errors prep names m m' := by
    rcases hcmd with rfl | rfl <;> exact ht.2
  obtain ⟨m1, hs, hu⟩ := hk
  obtain ⟨r1, e1⟩ := stops_listing hc hs h
  rw [(unloads_listing hu r1).2, e1]
  clear hs hu e1 h ht r1
  induction m.listControllers with
  | nil => rfl
  | cons e l ih =>
    rw [List.map_cons]
    by_cases hn : e.name ∈ names
    · by_cases hr : e.state = "running"
      · by_cases hp : prep e.name = true
        · rw [if_pos ⟨hn, hr, hp⟩, List.filter_cons_of_neg (by simp [hn]),
            List.filter_cons_of_neg (by simp [hn, hp]), ih]
        · rw [if_neg (fun hh => hp hh.2.2), List.filter_cons_of_pos (by simp [hr]),
            List.filter_cons_of_pos (by simp [hr, Bool.not_eq_true _ ▸ hp]), ih]
      · rw [if_neg (fun hh => hr hh.2.1), List.filter_cons_of_neg (by simp [hn, hr]),
          List.filter_cons_of_neg (by simp [hn, hr]), ih]
    · rw [if_neg (fun hh => hn hh.1), List.filter_cons_of_pos (by simp [hn]),
        List.filter_cons_of_pos (by simp [hn]), ih]

/-- **C83, starting.** `controller_manager start` starts some of the named controllers, in particular
only controllers that were loaded and did not run, and changes nothing else; and every loaded controller
it names runs afterwards, unless the hardware refuses it or it conflicts with the controllers running
afterwards. -/
theorem c83_start {conf env prep pa pb prog names code} (hc : Hereditary conf) {m m' : Mgr}
    (h : Reachable conf m) (ht : Tool conf false env prep pa pb (prog :: "start" :: names) m code m') :
    (∃ on : List String, on ⊆ names ∧
      (∀ n ∈ on, prep n = true ∧ Listed m.listControllers n ∧ ¬ ListedRunning m.listControllers n) ∧
      m'.listControllers = m.listControllers.map fun e =>
        if e.name ∈ on then { e with state := "running" } else e) ∧
    ∀ n ∈ names, Listed m.listControllers n → ListedRunning m'.listControllers n ∨ prep n = false ∨
      conf (listedTarget m'.listControllers [n] []) = true := by
  obtain ⟨_, on, o1, o2, o3, o4⟩ := starts_listing hc (show Starts conf false prep names m m' from ht.2) h
  exact ⟨⟨on, o1, o3, o2⟩, o4⟩

/-- **C83, spawning.** `controller_manager spawn` loads the named controllers that can be loaded. Every
named controller that is loaded then runs, unless the hardware refuses it or it conflicts with the
controllers running afterwards. No running controller is stopped, no other controller changes. -/
theorem c83_spawn {conf env prep pa pb prog cmd names code} (hc : Hereditary conf) {m m' : Mgr}
    (h : Reachable conf m) (hcmd : cmd = "spawn" ∨ cmd = "sp")
    (ht : Tool conf false env prep pa pb (prog :: cmd :: names) m code m') :
    (∀ n ∈ names, Listed m'.listControllers n ↔ Listed m.listControllers n ∨
        ∃ type claimed, ListedLoadable m.listControllers n (env n) type claimed) ∧
    (∀ n ∈ names, Listed m'.listControllers n → ListedRunning m'.listControllers n ∨ prep n = false ∨
      conf (listedTarget m'.listControllers [n] []) = true) ∧
    (∀ n, ListedRunning m.listControllers n → ListedRunning m'.listControllers n) ∧
    ∀ e, e.name ∉ names → (e ∈ m'.listControllers ↔ e ∈ m.listControllers) := by
  have hk : SpawnNames conf false env prep names m m' := by
    rcases hcmd with rfl | rfl <;> exact ht.2
  obtain ⟨m1, hl, hs⟩ := hk
  obtain ⟨r1, es, e1, e2, e3, e4⟩ := loadAll_which hl h
  obtain ⟨_, on, o1, o2, o3, o4⟩ := starts_listing hc hs r1
  have hlist : ∀ n, Listed m'.listControllers n ↔ Listed m1.listControllers n := by
    intro n; rw [o2]; exact listed_turnedOn
  refine ⟨fun n hn => by rw [hlist, e4 n hn], fun n hn hh => o4 n hn ((hlist n).1 hh), ?_, ?_⟩
  · rintro n ⟨e, he, hn, hr⟩
    rw [o2]
    refine listedRunning_turnedOn.2 (Or.inl ⟨e, ?_, hn, hr⟩)
    rw [e1]; exact List.mem_append_left _ he
  · intro e hn
    have hm1 : e ∈ m1.listControllers ↔ e ∈ m.listControllers := by
      rw [e1, List.mem_append]
      constructor
      · rintro (hh | hh)
        · exact hh
        · exact absurd (e2.subset (List.mem_map_of_mem (f := (·.name)) hh)) hn
      · exact Or.inl
    rw [← hm1, o2]
    unfold turnedOn
    constructor
    · intro hh
      obtain ⟨x, hx, rfl⟩ := List.mem_map.1 hh
      by_cases hon : x.name ∈ on
      · rw [if_pos hon] at hn
        exact absurd (o1 hon) hn
      · rwa [if_neg hon]
    · intro hh
      exact List.mem_map.2 ⟨e, hh, if_neg fun hon => hn (o1 hon)⟩

/-- **C83, reloading.** `controller_manager reload-libraries` unloads all controllers, running or not, if the
hardware lets them be stopped; with `--restore` they are loaded again in the same order if they can be, and
those that were running are started again. -/
theorem c83_reload {conf env prep prog rest code} (hc : Hereditary conf) {m m' : Mgr}
    (h : Reachable conf m) (hi : m.svc = .idle)
    (ht : Tool conf false env prep true true (prog :: "reload-libraries" :: rest) m code m') :
    ("--restore" ∉ rest → m'.listControllers = []) ∧
    ("--restore" ∈ rest → (∀ e ∈ m.listControllers, (env e.name).nodeHandleOk = true ∧
        (env e.name).type = some e.type ∧ (∃ i, Provides (env e.name).loaders e.type i) ∧
        (env e.name).init = some e.claimed) →
      m'.listControllers = m.listControllers.map fun e =>
        { e with state := if e.state = "running" then "running" else "initialized" }) := by
  obtain ⟨result, hr⟩ := (show code = 0 ∧ ∃ result, ReloadLibraries conf false env true
    (decide ("--restore" ∈ rest)) true true m result m' from ht).2
  constructor
  · intro hn
    rw [decide_eq_false hn] at hr
    exact (c75_forced hc h hi hr).2
  · intro hn henv
    rw [decide_eq_true hn] at hr
    exact (c75_restore hc h hi henv hr).2

/-- **C83, everything else.** Any other command, or none, changes no controller, except
`reload-libraries` (for which see C75); and the exit code is 1 exactly if there is a command and it is
not one of those in the help text or their abbreviations. -/
theorem c83_other {conf errors env prep pa pb args code} {m m' : Mgr} (h : Reachable conf m) (hi : m.svc = .idle)
    (ht : Tool conf errors env prep pa pb args m code m') :
    (code = 1 ↔ ∃ prog cmd rest, args = prog :: cmd :: rest ∧
      cmd ∉ ["load", "unload", "start", "stop", "spawn", "sp", "kill", "kl", "list", "lc", "list-types", "lt",
        "reload-libraries"]) ∧
    ((∀ cmd ∈ args[1]?, cmd ∉ ["load", "unload", "start", "stop", "spawn", "sp", "kill", "kl",
      "reload-libraries"]) → m'.listControllers = m.listControllers) := by
  match args with
  | [] => obtain ⟨rfl, rfl⟩ := ht; simp
  | [_] => obtain ⟨rfl, rfl⟩ := ht; simp
  | prog :: cmd :: rest =>
    have hex : ∀ P : String → Prop, (∃ p c r, prog :: cmd :: rest = p :: c :: r ∧ P c) ↔ P cmd := by
      intro P
      constructor
      · rintro ⟨p, c, r, hh, hp⟩
        cases hh; exact hp
      · intro hp; exact ⟨_, _, _, rfl, hp⟩
    rw [hex fun c => c ∉ _]
    simp only [List.getElem?_cons_succ, List.getElem?_cons_zero, Option.mem_some_iff, forall_eq']
    unfold Tool at ht
    dsimp only at ht
    split at ht
    · rename_i hh
      obtain ⟨rfl, before, hb, rfl⟩ := ht
      refine ⟨by rcases hh with rfl | rfl | rfl | rfl <;> simp, fun _ => ?_⟩
      exact (background_listing h hi hb).2.2
    split at ht
    · rename_i hh; subst hh; obtain ⟨rfl, _⟩ := ht; simp
    split at ht
    · rename_i hh; subst hh; obtain ⟨rfl, _⟩ := ht; simp
    split at ht
    · rename_i hh; subst hh; obtain ⟨rfl, _⟩ := ht; simp
    split at ht
    · rename_i hh; subst hh; obtain ⟨rfl, _⟩ := ht; simp
    split at ht
    · rename_i hh; subst hh; obtain ⟨rfl, _⟩ := ht; simp
    split at ht
    · rename_i hh; obtain ⟨rfl, _⟩ := ht; rcases hh with rfl | rfl <;> simp
    split at ht
    · rename_i hh; obtain ⟨rfl, _⟩ := ht; rcases hh with rfl | rfl <;> simp
    · rename_i h1 h2 h3 h4 h5 h6 h7 h8
      obtain ⟨rfl, rfl⟩ := ht
      refine ⟨?_, fun _ => rfl⟩
      simp only [true_iff]
      simp only [not_or] at h1 h7 h8
      simp [h1, h2, h3, h4, h5, h6, h7, h8]

/-- `kill a b` while "a" runs and "b" does not: both go, "c" goes on running. -/
example : ∃ m', Tool checkForConflict false Ex.envOf (fun _ => true) true true ["controller_manager", "kill", "a", "b"]
      (Ex.after Ex.running) 0 m' ∧
    m'.listControllers.map (fun e => (e.name, e.state)) = [("c", "running")] := by
  have hc := Ex.background_cycle false
  refine ⟨_, ⟨rfl, _, .cons (ok := true) ⟨0, served_of Ex.cycle (by decide) hc (by decide) (by decide)⟩
      (.cons (ok := false) ⟨0, served_of [] (by decide) (by simp) (by decide) (by decide)⟩ (.nil _)),
    .cons (served_of Ex.cycle (ok := true) (by decide) hc (by decide) (by decide))
      (.cons (served_of Ex.cycle (ok := true) (by decide) hc (by decide) (by decide)) (.nil _))⟩, by decide⟩

/-- `spawn b d`: "d" is loaded and runs; "b" claims the joint of "a" and does not run. -/
example : ∃ m', Tool checkForConflict false (fun _ => Ex.env ["j3"]) (fun _ => true) true true
      ["controller_manager", "spawn", "b", "d"] (Ex.after Ex.running) 0 m' ∧
    m'.listControllers.map (fun e => (e.name, e.state)) =
      [("a", "running"), ("b", "initialized"), ("c", "running"), ("d", "running")] := by
  have hc := Ex.background_cycle false
  refine ⟨Ex.after (Ex.running ++ .load "b" (Ex.env ["j3"]) :: .load "d" (Ex.env ["j3"]) :: Ex.cycle ++
    .switch ⟨["b"], [], 2, false, 0⟩ 0 true ::
    .switch ⟨["d"], [], 2, false, 0⟩ 0 true :: Ex.cycle),
    ⟨rfl, _, .cons (served_of [] (ok := false) (by decide) (by simp) (by decide) (by decide))
      (.cons (served_of Ex.cycle (ok := true) (by decide) hc (by decide) (by decide)) (.nil _)),
     .cons (ok := false) ⟨0, served_of [] (by decide) (by simp) (by decide) (by decide)⟩
      (.cons (ok := true) ⟨0, served_of Ex.cycle (by decide) hc (by decide) (by decide)⟩
        (.nil _))⟩, by decide⟩

/-- `load`, `unload`, `start` and `stop` with two controllers each; an unknown command. -/
example : (∃ m', Tool checkForConflict false (fun _ => Ex.env ["j3"]) (fun _ => true) true true
      ["controller_manager", "load", "b", "d"] (Ex.after Ex.running) 0 m' ∧
      m'.listControllers.map (fun e => (e.name, e.state)) =
        [("a", "running"), ("b", "initialized"), ("c", "running"), ("d", "initialized")]) ∧
    (∃ m', Tool checkForConflict false Ex.envOf (fun _ => true) true true ["controller_manager", "unload", "b", "c"]
      (Ex.after Ex.running) 0 m' ∧
      m'.listControllers.map (fun e => (e.name, e.state)) = [("a", "running"), ("c", "running")]) ∧
    (∃ m', Tool checkForConflict false Ex.envOf (fun _ => true) true true ["controller_manager", "stop", "b", "c"]
      (Ex.after Ex.running) 0 m' ∧
      m'.listControllers.map (fun e => (e.name, e.state)) =
        [("a", "running"), ("b", "initialized"), ("c", "stopped")]) ∧
    (∃ m', Tool checkForConflict false Ex.envOf (fun _ => true) true true ["controller_manager", "start", "a", "b", "c"]
      (Ex.after Ex.three) 0 m' ∧
      m'.listControllers.map (fun e => (e.name, e.state)) =
        [("a", "running"), ("b", "initialized"), ("c", "running")]) ∧
    Tool checkForConflict false Ex.envOf (fun _ => true) true true ["controller_manager", "restart", "a"]
      (Ex.after Ex.running) 1 (Ex.after Ex.running) := by
  have hc := Ex.background_cycle false
  refine ⟨⟨_, ⟨rfl, .cons (served_of [] (ok := false) (by decide) (by simp) (by decide) (by decide))
      (.cons (served_of Ex.cycle (ok := true) (by decide) hc (by decide) (by decide)) (.nil _))⟩, by decide⟩,
    ⟨_, ⟨rfl, .cons (served_of Ex.cycle (ok := true) (by decide) hc (by decide) (by decide))
      (.cons (served_of [] (ok := false) (by decide) (by simp) (by decide) (by decide)) (.nil _))⟩, by decide⟩,
    ⟨_, ⟨rfl, .cons (ok := false) ⟨0, served_of [] (by decide) (by simp) (by decide) (by decide)⟩
      (.cons (ok := true) ⟨0, served_of Ex.cycle (by decide) hc (by decide) (by decide)⟩ (.nil _))⟩, by decide⟩,
    ⟨_, ⟨rfl, .cons (ok := true) ⟨0, served_of Ex.cycle (by decide) hc (by decide) (by decide)⟩
      (.cons (ok := false) ⟨0, served_of [] (by decide) (by simp) (by decide) (by decide)⟩
      (.cons (ok := true) ⟨0, served_of Ex.cycle (by decide) hc (by decide) (by decide)⟩ (.nil _)))⟩, by decide⟩,
    ⟨rfl, rfl⟩⟩

/-- `reload-libraries`, with and without `--restore`. -/
example : (∃ m', Tool checkForConflict false Ex.envOf (fun _ => true) true true
      ["controller_manager", "reload-libraries"] (Ex.after Ex.running) 0 m') ∧
    ∃ m', Tool checkForConflict false Ex.envOf (fun _ => true) true true
      ["controller_manager", "reload-libraries", "--restore"] (Ex.after Ex.running) 0 m' := by
  obtain ⟨m', hr, _⟩ := Ex.restored
  have hr' := hr
  obtain ⟨before, hb, orig, ho, now, m1, h1, _⟩ := hr'
  exact ⟨⟨m1, rfl, true, before, hb, orig, ho, now, m1, h1, rfl⟩, m', rfl, true, hr⟩

end Verif
