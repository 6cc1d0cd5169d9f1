import Verif.Lemmas.CommandLine
import Verif.Props.Clients

/-!
Property C88: what the spawner loads and starts; and the shutdown of a spawner that is still loading (C54).
-/

namespace Verif

open Mgr Spec Clients

/-- A controller the spawner is asked for: an argument that is no file, or a key of a file among the arguments. -/
def Asked (file : String → Option (List String)) (args : List String) (n : String) : Prop :=
  (n ∈ args ∧ file n = none) ∨ ∃ f ∈ args, ∃ keys, file f = some keys ∧ n ∈ keys

theorem foldl_snoc (keys cs : List String) : keys.foldl (fun cs c => cs ++ [c]) cs = cs ++ keys := by
  induction keys generalizing cs with
  | nil => simp
  | cons k ks ih => rw [List.foldl_cons, ih]; simp

theorem expand_eq (file : String → Option (List String)) (args : List String) :
    expand file args = args.flatMap fun a => (file a).getD [a] := by
  unfold expand
  suffices h : ∀ cs, args.foldl (fun controllers name =>
      match file name with
      | some keys => keys.foldl (fun cs c => cs ++ [c]) controllers
      | none => controllers ++ [name]) cs = cs ++ args.flatMap fun a => (file a).getD [a] by
    exact (h []).trans (List.nil_append _)
  induction args with
  | nil => simp
  | cons a args ih =>
    intro cs
    rw [List.foldl_cons, ih, List.flatMap_cons, ← List.append_assoc]
    congr 1
    cases file a with
    | none => rfl
    | some keys => exact foldl_snoc keys cs

theorem mem_expand {file : String → Option (List String)} {args : List String} {n : String} :
    n ∈ expand file args ↔ Asked file args n := by
  rw [expand_eq, List.mem_flatMap]
  constructor
  · rintro ⟨a, ha, hn⟩
    cases hf : file a with
    | none => rw [hf] at hn; cases List.mem_singleton.1 hn; exact Or.inl ⟨ha, hf⟩
    | some keys => rw [hf] at hn; exact Or.inr ⟨a, ha, keys, hf, hn⟩
  · rintro (⟨ha, hf⟩ | ⟨a, ha, keys, hf, hn⟩)
    · exact ⟨n, ha, by rw [hf]; simp⟩
    · exact ⟨a, ha, by rw [hf]; exact hn⟩

theorem loads_all {conf errors env ns} {m m' : Mgr} {l : List String} (h : Loads conf errors env ns m l m') :
    LoadAll conf errors env ns m m' := by
  induction h with
  | nil m => exact .nil m
  | ok hs _ ih => exact .cons hs ih
  | failed hs _ ih => exact .cons hs ih

/-- What `Loads` does to the listing. -/
theorem loads_which {conf errors env ns} {m m' : Mgr} {loaded : List String}
    (hl : Loads conf errors env ns m loaded m') (h : Reachable conf m) :
    Reachable conf m' ∧ loaded.Sublist ns ∧ loaded.Nodup ∧
    (∀ n, n ∈ loaded ↔ n ∈ ns ∧ ∃ type claimed, ListedLoadable m.listControllers n (env n) type claimed) ∧
    ∃ es : List Entry, m'.listControllers = m.listControllers ++ es ∧ es.map (·.name) = loaded ∧
      ∀ e ∈ es, e.state = "initialized" ∧ ListedLoadable m.listControllers e.name (env e.name) e.type e.claimed := by
  obtain ⟨r, _, es, e1, e2, e3⟩ := loads_listing hl h
  obtain ⟨_, es', f1, f2, f3, f4⟩ := loadAll_which (loads_all hl) h
  have he : es' = es := List.append_cancel_left (f1.symm.trans e1)
  subst he
  rw [e2] at f2
  have hnd : loaded.Nodup := by
    have := c15_names_unique r
    rw [e1, List.map_append, e2] at this
    exact (List.nodup_append.1 this).2.1
  refine ⟨r, f2, hnd, fun n => ⟨fun hn => ⟨f2.subset hn, ?_⟩, ?_⟩, es', e1, e2, f3⟩
  · rw [← e2] at hn
    obtain ⟨e, he, rfl⟩ := List.mem_map.1 hn
    exact ⟨_, _, (f3 e he).2⟩
  · rintro ⟨hn, type, claimed, hload⟩
    obtain ⟨e, he, hen⟩ := (f4 n hn).2 (Or.inr ⟨type, claimed, hload⟩)
    rw [e1] at he
    rcases List.mem_append.1 he with he | he
    · exact absurd ⟨e, he, hen⟩ hload.1
    · rw [← e2, ← hen]
      exact List.mem_map_of_mem he

/-- **C88, what is loaded.** The spawner loads exactly those controllers it is asked for, directly or through a
file, that can be loaded and are not loaded yet, each once and in the order in which they are given; that one
cannot be loaded does not matter for the others. -/
theorem c88_loaded {conf errors env stopped prepOk file args} {m m' : Mgr} {loaded : List String}
    (h : Reachable conf m) (hs : Spawns conf errors env stopped prepOk (expand file args) m loaded m') :
    loaded.Nodup ∧ loaded.Sublist (args.flatMap fun a => (file a).getD [a]) ∧
    ∀ n, n ∈ loaded ↔ Asked file args n ∧ ∃ type claimed, ListedLoadable m.listControllers n (env n) type claimed := by
  obtain ⟨m1, hl, _⟩ := hs
  obtain ⟨_, h1, h2, h3, _⟩ := loads_which hl h
  refine ⟨h2, by rw [← expand_eq]; exact h1, fun n => ?_⟩
  rw [h3, mem_expand]

/-- **C88, what is started.** Controllers that were there before are not touched. The new ones are listed after
them. With `--stopped` none of them is started. Otherwise all of them run, if the hardware agrees and they do not
conflict with each other nor with those running; if not, none is started. -/
theorem c88_started {conf env stopped prepOk file args} {m m' : Mgr} {loaded : List String}
    (h : Reachable conf m) (hs : Spawns conf false env stopped prepOk (expand file args) m loaded m') :
    ∃ es : List Entry, m'.listControllers = m.listControllers ++ es ∧ es.map (·.name) = loaded ∧
      (∀ e ∈ es, (env e.name).type = some e.type ∧ (env e.name).init = some e.claimed) ∧
      if stopped = false ∧ prepOk = true ∧
          conf ((m.listControllers.filter (·.state = "running") ++ es).map fun e => ⟨e.name, e.type, e.claimed⟩) = false
      then ∀ e ∈ es, e.state = "running" else ∀ e ∈ es, e.state = "initialized" := by
  obtain ⟨m1, hl, hsw⟩ := hs
  obtain ⟨r1, _, hnd, hmem, es, e1, e2, e3⟩ := loads_which hl h
  have hold : ∀ e ∈ m.listControllers, e.name ∉ loaded := by
    intro e he hn
    obtain ⟨_, _, _, hload⟩ := (hmem e.name).1 hn
    exact hload.1 ⟨e, he, rfl⟩
  have hnew : ∀ e ∈ es, e.name ∈ loaded := fun e he => by rw [← e2]; exact List.mem_map_of_mem he
  cases stopped with
  | true =>
    simp only [if_true] at hsw
    subst hsw
    refine ⟨es, e1, e2, fun e he => ⟨(e3 e he).2.2.2.1, (e3 e he).2.2.2.2.2⟩, ?_⟩
    rw [if_neg (by simp)]
    exact fun e he => (e3 e he).1
  | false =>
    simp only [Bool.false_eq_true, if_false] at hsw
    obtain ⟨now, ok, hsw⟩ := hsw
    have htarget : listedTarget m1.listControllers loaded [] =
        (m.listControllers.filter (·.state = "running") ++ es).map fun e => ⟨e.name, e.type, e.claimed⟩ := by
      unfold listedTarget
      rw [e1, List.filter_append]
      congr 2
      · apply List.filter_congr
        intro e he
        simp [hold e he]
      · rw [List.filter_eq_self]
        intro e he
        simp [hnew e he]
    have hrun : ∀ n ∈ loaded, Listed m1.listControllers n ∧ ¬ ListedRunning m1.listControllers n := by
      intro n hn
      rw [← e2] at hn
      obtain ⟨e, he, rfl⟩ := List.mem_map.1 hn
      have hin : e ∈ m1.listControllers := by rw [e1]; exact List.mem_append_right _ he
      refine ⟨⟨e, hin, rfl⟩, ?_⟩
      rintro ⟨e', he', hn', hr⟩
      rw [e1] at he'
      rcases List.mem_append.1 he' with he' | he'
      · exact hold e' he' (by rw [hn']; exact hnew e he)
      · rw [(e3 e' he').1] at hr
        exact absurd hr (by decide)
    have hacc : Acceptable conf m1.listControllers ⟨loaded, [], strictnessStrict, false, 0⟩ prepOk ↔
        prepOk = true ∧
        conf ((m.listControllers.filter (·.state = "running") ++ es).map fun e => ⟨e.name, e.type, e.claimed⟩) = false := by
      unfold Acceptable
      dsimp only
      rw [if_pos rfl, htarget]
      constructor
      · rintro ⟨_, a, b⟩; exact ⟨b, a⟩
      · rintro ⟨b, a⟩; exact ⟨⟨by simp, hrun, by simp⟩, a, b⟩
    rcases switch_listing rfl (hsw.serves r1) with ⟨na, _, e⟩ | ⟨a, _, out, e, _, hout⟩
    · refine ⟨es, e.trans e1, e2, fun e he => ⟨(e3 e he).2.2.2.1, (e3 e he).2.2.2.2.2⟩, ?_⟩
      rw [hacc] at na
      rw [if_neg (fun hh => na hh.2)]
      exact fun e he => (e3 e he).1
    · rw [hacc] at a
      refine ⟨es.map fun e => { e with state := "running" }, ?_, ?_, ?_, ?_⟩
      · rw [e, e1, List.map_append]
        congr 1
        · conv_rhs => rw [← List.map_id m.listControllers]
          apply List.map_congr_left
          intro x hx
          simp [switchedEntry, hold x hx]
        · apply List.map_congr_left
          intro x hx
          simp [switchedEntry, hnew x hx, hout rfl]
      · rw [List.map_map, ← e2]; rfl
      · intro x hx
        obtain ⟨y, hy, rfl⟩ := List.mem_map.1 hx
        exact ⟨(e3 y hy).2.2.2.1, (e3 y hy).2.2.2.2.2⟩
      · have hsame : (m.listControllers.filter (·.state = "running") ++
            es.map fun e => ({ e with state := "running" } : Entry)).map (fun e => (⟨e.name, e.type, e.claimed⟩ : ControllerInfo)) =
            (m.listControllers.filter (·.state = "running") ++ es).map fun e => ⟨e.name, e.type, e.claimed⟩ := by
          simp [List.map_append, List.map_map, Function.comp_def]
        rw [hsame, if_pos ⟨rfl, a⟩]
        intro x hx
        obtain ⟨y, _, rfl⟩ := List.mem_map.1 hx
        rfl

/-- A file with the controllers "c" and "x"; "x" cannot be loaded. -/
def Ex.file (f : String) : Option (List String) := if f = "f.yaml" then some ["c", "x"] else none

def Ex.envX (n : String) : LoadEnv := if n = "x" then { Ex.env [] with type := none } else Ex.envOf n

/-- The spawner has loaded what it can. -/
def Ex.spawnLoaded : List Op :=
  .load "a" (Ex.envX "a") :: Ex.cycle ++ .load "c" (Ex.envX "c") :: Ex.cycle ++ [.load "x" (Ex.envX "x")] ++
    [.load "a" (Ex.envX "a")]

/-- The spawner is asked for "a" and for the controllers in the file. -/
example : ∃ m', Spawns checkForConflict false Ex.envX false true (expand Ex.file ["a", "f.yaml", "a"]) Mgr.init ["a", "c"] m' ∧
      m'.listControllers.map (fun e => (e.name, e.state)) = [("a", "running"), ("c", "running")] := by
  have hc := Ex.background_cycle false
  have hl : Loads checkForConflict false Ex.envX ["a", "c", "x", "a"] Mgr.init ["a", "c"] (Ex.after Ex.spawnLoaded) :=
    .ok (served_of Ex.cycle (by decide) hc (by decide) (by decide))
      (.ok (served_of Ex.cycle (by decide) hc (by decide) (by decide))
      (.failed (served_of [] (by decide) (by simp) (by decide) (by decide))
      (.failed (served_of [] (by decide) (by simp) (by decide) (by decide)) (.nil _))))
  have hs : Served checkForConflict false (Ex.after Ex.spawnLoaded)
      (.switch ⟨["a", "c"], [], strictnessStrict, false, 0⟩ 0 true) true
      (((Ex.after Ex.spawnLoaded).step checkForConflict (.switch ⟨["a", "c"], [], strictnessStrict, false, 0⟩ 0 true)).run
        checkForConflict Ex.cycle) :=
    served_of Ex.cycle (by decide) hc (by decide) (by decide)
  exact ⟨_, ⟨_, hl, ⟨0, true, hs⟩⟩, by decide⟩

/-! ### C54 while the spawner is loading -/

/-- **C54, a shutdown during the loading.** If the shutdown begins while a request to load is under way, and nobody
interferes, then at most the controller of that request is left; it is not running. -/
theorem c54_interrupted_partial {conf errors} (hc : Hereditary conf) {m0 m1 m2 : Mgr} (h : Reachable conf m0)
    {env controllers loaded prepOk} (hsp : SpawnsInterrupted conf errors env controllers m0 loaded m1)
    (hsd : Shutdown conf errors loaded prepOk m1 m2) :
    m2.listControllers = m0.listControllers ∨
    ∃ n ∈ controllers, ∃ type claimed, ListedLoadable m0.listControllers n (env n) type claimed ∧
      m2.listControllers = m0.listControllers ++ [⟨n, type, "initialized", claimed⟩] := by
  obtain ⟨pre, n, post, rfl, m', ok, hl, hs⟩ := hsp
  obtain ⟨r1, _, _, hmem, es, e1, e2, e3⟩ := loads_which hl h
  have r2 := hs.reachable r1
  have hold : ∀ e ∈ m0.listControllers, e.name ∉ loaded := by
    intro e he hn
    obtain ⟨_, _, _, hload⟩ := (hmem e.name).1 hn
    exact hload.1 ⟨e, he, rfl⟩
  have hnew : ∀ e ∈ es, e.name ∈ loaded := fun e he => by rw [← e2]; exact List.mem_map_of_mem he
  have hfin : ∀ l : List Entry, (∀ e ∈ l, e.name ∉ loaded) → m1.listControllers = m0.listControllers ++ es ++ l →
      m2.listControllers = m0.listControllers ++ l := by
    intro l hll hm1
    obtain ⟨a1, a2⟩ := c54_shutdown_partial hc r2 hsd
    have hesrun : ∀ e ∈ es, e.state ≠ "running" := fun e he hr => by
      rw [(e3 e he).1] at hr; exact absurd hr (by decide)
    have hfilter : ∀ q : Entry → Bool, (∀ e, e.name ∉ loaded → q e = true) → (∀ e ∈ es, q e = false) →
        m1.listControllers.filter q = m0.listControllers ++ l := by
      intro q q1 q2
      rw [hm1, List.filter_append, List.filter_append, List.filter_eq_self.2 fun e he => q1 e (hold e he),
        List.filter_eq_self.2 fun e he => q1 e (hll e he), List.filter_eq_nil_iff.2 fun e he => by simp [q2 e he],
        List.append_nil]
    by_cases hcase : prepOk = true ∧ ∀ n ∈ loaded, ListedRunning m1.listControllers n
    · rw [a1 hcase]
      exact hfilter _ (fun e he => by simp [he]) (fun e he => by simp [hnew e he])
    · rw [a2 hcase]
      exact hfilter _ (fun e he => by simp [he]) (fun e he => by simp [hnew e he, hesrun e he])
  have hsv := hs.serves r1
  generalize hL : m'.listControllers = L at hsv
  generalize hL1 : m1.listControllers = L1 at hsv
  cases hsv with
  | notLoaded _ =>
    left
    have := hfin [] (by simp) (by rw [hL1, List.append_nil, ← hL, e1])
    simpa using this
  | @load _ _ type claimed hload =>
    right
    have hnl : n ∉ loaded := by
      intro hn
      rw [← e2] at hn
      obtain ⟨e, he, hen⟩ := List.mem_map.1 hn
      exact hload.1 ⟨e, by rw [← hL, e1]; exact List.mem_append_right _ he, hen⟩
    refine ⟨n, by simp, type, claimed, ⟨?_, hload.2⟩, hfin [_] (by simpa using hnl) (by rw [hL1, ← hL, e1])⟩
    rintro ⟨e, he, hen⟩
    exact hload.1 ⟨e, by rw [← hL, e1]; exact List.mem_append_left _ he, hen⟩

/-- **C54, a shutdown during the loading, the negation.** The spawner loads "a" and is interrupted while it loads "c":
"c" stays loaded. -/
theorem c54_interrupted_negation : ∃ m1 m2, SpawnsInterrupted checkForConflict false Ex.envOf ["a", "c"] Mgr.init ["a"] m1 ∧
    Shutdown checkForConflict false ["a"] true m1 m2 ∧
    m2.listControllers.map (fun e => (e.name, e.state)) = [("c", "initialized")] := by
  have hc := Ex.background_cycle false
  refine ⟨Ex.after (.load "a" (Ex.envOf "a") :: Ex.cycle ++ .load "c" (Ex.envOf "c") :: Ex.cycle),
    Ex.after (.load "a" (Ex.envOf "a") :: Ex.cycle ++ .load "c" (Ex.envOf "c") :: Ex.cycle ++
      .switch ⟨[], ["a"], 2, false, 0⟩ 0 true :: [] ++ .unload "a" :: Ex.cycle),
    ⟨["a"], "c", [], rfl, Ex.after (.load "a" (Ex.envOf "a") :: Ex.cycle), true,
      .ok (served_of Ex.cycle (by decide) hc (by decide) (by decide)) (.nil _),
      served_of Ex.cycle (by decide) hc (by decide) (by decide)⟩,
    ⟨0, false, _, served_of [] (by decide) (by simp) (by decide) (by decide),
      .cons (ok := true) (served_of Ex.cycle (by decide) hc (by decide) (by decide)) (.nil _)⟩, by decide⟩

end Verif
