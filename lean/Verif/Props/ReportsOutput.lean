import Verif.Props.Reports
import Verif.Lemmas.Outcome

/-!
Property C104, continued: the output of the tools is a function of the listing, of what can be loaded, and of the
answers of the hardware.
-/

namespace Verif

open Mgr Spec Clients

/-- **C104, the output.** What `load`, `unload`, `start`, `stop`, `spawn` and `kill` print, and the listing afterwards,
are determined by the listing before, the controllers that can be loaded and the answers of the hardware, whatever the
realtime loop does meanwhile (missing: hardware that reports errors). The exit code is 0. -/
theorem c104_output_partial {conf env loads types prep pa pb prog cmd names code lines} {m m' : Mgr}
    (ht : Tells env loads) (h : Reachable conf m)
    (hc : cmd ∈ ["load", "unload", "start", "stop", "sp", "spawn", "kl", "kill"])
    (hp : ToolPrints conf false env types prep pa pb (prog :: cmd :: names) m code lines m') :
    code = 0 ∧ (lines, m'.listControllers) = outcomes conf loads prep (requestsOf cmd names) m.listControllers := by
  have key : code = 0 ∧ Performs conf false env prep (requestsOf cmd names) m lines m' := by
    simp only [List.mem_cons, List.not_mem_nil, or_false] at hc
    rcases hc with rfl | rfl | rfl | rfl | rfl | rfl | rfl | rfl <;> exact hp
  exact ⟨key.1, performs_outcomes ht h key.2⟩

/-- **C104, the output of `controller_group spawn`**: the controllers of the group are loaded and then started, in one
order. -/
theorem c104_group_spawn_partial {conf env loads groups prep prepOk g lines} {m m' : Mgr} (ht : Tells env loads)
    (h : Reachable conf m) (hp : GroupTool conf false env groups prep prepOk ["spawn", g] m lines m') :
    ∃ desired : List String, desired.Nodup ∧ (∀ n, n ∈ desired ↔ n ∈ (groups.lookup g).getD []) ∧
      (lines, m'.listControllers) =
        outcomes conf loads prep (desired.map .load ++ desired.map .start) m.listControllers := by
  obtain ⟨desired, others, ⟨h1, _, h2, _⟩, hp⟩ := hp
  refine ⟨desired, h1, h2, ?_⟩
  split at hp
  · rename_i he
    obtain ⟨rfl, rfl⟩ := hp
    rw [List.isEmpty_iff.1 he]; rfl
  · exact performs_outcomes ht h hp

/-- **C104, the output of `controller_group switch`** (missing: hardware that reports errors). If the group has no
controllers nothing is printed and nothing happens. -/
theorem c104_group_switch_partial {conf env loads groups prep prepOk g lines} {m m' : Mgr} (ht : Tells env loads)
    (h : Reachable conf m) (hi : m.svc = .idle)
    (hp : GroupTool conf false env groups prep prepOk ["switch", g] m lines m') :
    ∃ desired others : List String, desired.Nodup ∧ others.Nodup ∧
      (∀ n, n ∈ desired ↔ n ∈ (groups.lookup g).getD []) ∧
      (∀ n, n ∈ others ↔ (∃ k ∈ groups, n ∈ k.2) ∧ n ∉ (groups.lookup g).getD []) ∧
      (lines, m'.listControllers) = if desired = [] then ([], m.listControllers)
        else groupSwitch conf loads prepOk desired others m.listControllers := by
  obtain ⟨desired, others, ⟨h1, h2, h3, h4⟩, hp⟩ := hp
  refine ⟨desired, others, h1, h2, h3, fun n => by rw [h4 n, h3 n], ?_⟩
  split at hp
  · rename_i he
    obtain ⟨rfl, rfl⟩ := hp
    rw [if_pos (List.isEmpty_iff.1 he)]
  · rename_i he
    rw [if_neg (by simpa using he)]
    obtain ⟨ok, before, hb, listing, rfl, loadsOk, ls, m1, hm, hs⟩ := hp
    obtain ⟨h0, hi0, e0⟩ := background_listing h hi hb
    have e := loadMissing_groupLoads ht h0 hm
    have r1 := (loadMissing_lines hm h0).1
    have hrun : ∀ n, ((loadedControllers (m.run conf before).listControllers n).getD false) =
        decide (ListedRunning m.listControllers n) := by
      intro n
      rw [Bool.eq_iff_iff, loadedControllers_eq h0, e0]; simp
    simp only [hrun] at hs
    rw [e0] at e
    unfold groupSwitch
    simp only [← e]
    cases loadsOk with
    | false =>
      obtain ⟨_, rfl, rfl⟩ := hs
      simp
    | true =>
      rw [if_pos rfl] at hs
      obtain ⟨hs, rfl⟩ := hs
      have es := startStop_afterSwitch r1 hs
      simp only [if_true]
      have hn : (desired.filter fun n => !decide (ListedRunning m.listControllers n)) =
          desired.filter fun n => decide (¬ ListedRunning m.listControllers n) := by simp
      rw [hn] at es ⊢
      rw [← es]
      simp only [startStopLines, List.isEmpty_iff]

/-- **C104, the list of the groups.** The number of groups, and then each group once, sorted by name, with its controllers
in the order of the parameter. Nothing happens. -/
theorem c104_group_list {conf errors env groups prep prepOk lines} {m m' : Mgr}
    (hp : GroupTool conf errors env groups prep prepOk ["list"] m lines m') :
    m' = m ∧ ∃ sorted : List (String × List String), sorted.Perm groups ∧ sorted.Pairwise (fun a b => a.1 ≤ b.1) ∧
      lines = .groups groups.length :: (sorted.map fun g => Line.group g.1 :: g.2.map Line.member).flatten := by
  obtain ⟨rfl, rfl⟩ := hp
  refine ⟨rfl, _, List.mergeSort_perm groups fun a b => a.1 ≤ b.1, ?_, ?_⟩
  · have := List.pairwise_mergeSort (le := fun a b : String × List String => decide (a.1 ≤ b.1))
      (by intro a b c; simpa using fun h1 h2 => String.le_trans h1 h2)
      (by intro a b; simpa using String.le_total a.1 b.1) groups
    simpa using this
  · rw [groupLines, List.flatMap_def]

/-! ### Examples -/

/-- Every name can be loaded, with the type "T" and a claim of "j2". -/
theorem Ex.tells : Tells (fun _ => Ex.env ["j2"]) (fun _ => some ("T", [⟨"Pos", ["j2"]⟩])) := by
  intro n t c
  have h0 : ¬ Listed [] n := by rintro ⟨e, he, _⟩; cases he
  simp only [Option.some.injEq, Prod.mk.injEq]
  constructor
  · rintro ⟨rfl, rfl⟩
    exact ⟨h0, rfl, rfl, ⟨0, ⟨_, rfl, by simp [Gives, Ex.loader]⟩, fun j hj => (by omega)⟩, rfl⟩
  · rintro ⟨_, _, h1, _, h2⟩
    exact ⟨Option.some.inj h1, Option.some.inj h2⟩

/-- "a" and "c" run, "b" and "c" claim the same joints as "d": `controller_manager spawn d` loads "d" and cannot start
it. -/
example : ∃ m', ToolPrints checkForConflict false (fun _ => Ex.env ["j2"]) [] (fun _ => true) true true
      ["controller_manager", "spawn", "d"] (Ex.after Ex.running) 0 [.loaded "d", .switchError ["d"] []] m' ∧
    Reachable checkForConflict (Ex.after Ex.running) ∧
    m'.listControllers = (outcomes checkForConflict (fun _ => some ("T", [⟨"Pos", ["j2"]⟩])) (fun _ => true)
      [.load "d", .start "d"] (Ex.after Ex.running).listControllers).2 ∧
    m'.listControllers.map (fun e => (e.name, e.state)) =
      [("a", "running"), ("b", "initialized"), ("c", "running"), ("d", "initialized")] := by
  have hc := Ex.background_cycle false
  exact ⟨_, ⟨rfl, .cons (ok := true) (a := .load "d") (served_of Ex.cycle (by decide) hc (by decide) (by decide))
    (.cons (ok := false) ⟨0, served_of [] (by decide) (by simp) (by decide) (by decide)⟩ (.nil _))⟩,
    Ex.reachable_after Ex.rosUp_running, by decide +kernel, by decide⟩

/-- The groups of the examples. -/
def Ex.toolGroups : List (String × List String) := [("two", ["b", "d"]), ("one", ["a", "c"])]

example : groupLines Ex.toolGroups =
    [.groups 2, .group "one", .member "a", .member "c", .group "two", .member "b", .member "d"] := by
  have : Ex.toolGroups.mergeSort (fun a b => a.1 ≤ b.1) = [("one", ["a", "c"]), ("two", ["b", "d"])] := by
    refine List.Perm.eq_of_pairwise (le := fun a b : String × List String => a.1 ≤ b.1) ?_ ?_ (by decide +kernel)
      ((List.mergeSort_perm _ _).trans (List.Perm.swap _ _ _))
    · intro a b ha hb h1 h2
      have e := String.le_antisymm h1 h2
      simp only [List.mem_cons, List.not_mem_nil, or_false] at hb
      have ha := (List.mergeSort_perm _ _).mem_iff.1 ha
      simp only [Ex.toolGroups, List.mem_cons, List.not_mem_nil, or_false] at ha
      rcases ha with rfl | rfl <;> rcases hb with rfl | rfl <;> simp_all
    · simpa using List.pairwise_mergeSort (le := fun a b : String × List String => decide (a.1 ≤ b.1))
        (by intro a b c; simpa using fun h1 h2 => String.le_trans h1 h2)
        (by intro a b; simpa using String.le_total a.1 b.1) Ex.toolGroups
  rw [groupLines, this]
  rfl

theorem Ex.readsTwo : ReadsGroup Ex.toolGroups "two" ["b", "d"] ["a", "c"] := by
  refine ⟨by simp, by simp, fun n => Iff.rfl, fun n => ?_⟩
  constructor
  · intro hn
    simp only [List.mem_cons, List.not_mem_nil, or_false] at hn
    rcases hn with rfl | rfl
    · exact ⟨⟨("one", ["a", "c"]), by simp [Ex.toolGroups], by simp⟩, by simp⟩
    · exact ⟨⟨("one", ["a", "c"]), by simp [Ex.toolGroups], by simp⟩, by simp⟩
  · rintro ⟨⟨g, hg, hn⟩, hx⟩
    simp only [Ex.toolGroups, List.mem_cons, List.not_mem_nil, or_false] at hg
    rcases hg with rfl | rfl
    · exact absurd hn hx
    · exact hn

/-- A switch to the group "two". -/
example : ∃ m', GroupTool checkForConflict false (fun _ => Ex.env ["j2"]) Ex.toolGroups (fun _ => true) true
      ["switch", "two"] (Ex.after Ex.running) [.loaded "d", .started ["b", "d"], .stopped ["a", "c"]] m' ∧
    ([.loaded "d", .started ["b", "d"], .stopped ["a", "c"]], m'.listControllers) =
      groupSwitch checkForConflict (fun _ => some ("T", [⟨"Pos", ["j2"]⟩])) true ["b", "d"] ["a", "c"]
        (Ex.after Ex.running).listControllers := by
  have hc := Ex.background_cycle false
  refine ⟨_, ⟨_, _, Ex.readsTwo, true, [], by simp, _, rfl, true, _, _, .known (by decide) (.loaded (by decide)
    (served_of Ex.cycle (by decide) hc (by decide) (by decide)) (.nil _)), ⟨0,
    served_of Ex.cycle (by decide) hc (by decide) (by decide)⟩, by decide⟩, by decide +kernel⟩

/-- The group "two" is spawned while "a" and "c" run: "b" is loaded already and conflicts with "a", "d" conflicts with
"c". -/
example : ∃ m', GroupTool checkForConflict false (fun _ => Ex.env ["j2"]) Ex.toolGroups (fun _ => true) true
      ["spawn", "two"] (Ex.after Ex.running)
      [.loadError "b", .loaded "d", .switchError ["b"] [], .switchError ["d"] []] m' := by
  have hc := Ex.background_cycle false
  refine ⟨_, ⟨_, _, Ex.readsTwo,
    (.cons (ok := false) (a := .load "b") (served_of [] (by decide) (by simp) (by decide) (by decide))
    (.cons (ok := true) (a := .load "d") (served_of Ex.cycle (by decide) hc (by decide) (by decide))
    (.cons (ok := false) (a := .start "b") ⟨0, served_of [] (by decide) (by simp) (by decide) (by decide)⟩
    (.cons (ok := false) (a := .start "d") ⟨0, served_of [] (by decide) (by simp) (by decide) (by decide)⟩
    (.nil _)))))⟩⟩

end Verif
