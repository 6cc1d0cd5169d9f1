import Verif.Lemmas.Reports
import Mathlib.Data.List.Dedup

/-!
Property C104: what the tools print is true, and everything they do is told.
-/

namespace Verif

open Mgr Spec Clients

/-! ### The program with its output is the program -/

theorem performs_load {conf errors env prep ns} {m m' : Mgr} :
    (∃ ls, Performs conf errors env prep (ns.map .load) m ls m') ↔ LoadAll conf errors env ns m m' := by
  constructor
  · rintro ⟨ls, hp⟩
    induction ns generalizing m ls with
    | nil => cases hp; exact .nil _
    | cons n ns ih => cases hp with | cons hd hp => exact .cons hd (ih _ hp)
  · intro hl
    induction hl with
    | nil m => exact ⟨_, .nil _⟩
    | cons hs _ ih => obtain ⟨ls, hp⟩ := ih; exact ⟨_, .cons (a := .load _) hs hp⟩

theorem performs_unload {conf errors env prep ns} {m m' : Mgr} :
    (∃ ls, Performs conf errors env prep (ns.map .unload) m ls m') ↔ Unloads conf errors ns m m' := by
  constructor
  · rintro ⟨ls, hp⟩
    induction ns generalizing m ls with
    | nil => cases hp; exact .nil _
    | cons n ns ih => cases hp with | cons hd hp => exact .cons hd (ih _ hp)
  · intro hl
    induction hl with
    | nil m => exact ⟨_, .nil _⟩
    | cons hs _ ih => obtain ⟨ls, hp⟩ := ih; exact ⟨_, .cons (a := .unload _) hs hp⟩

theorem performs_start {conf errors env prep ns} {m m' : Mgr} :
    (∃ ls, Performs conf errors env prep (ns.map .start) m ls m') ↔ Starts conf errors prep ns m m' := by
  constructor
  · rintro ⟨ls, hp⟩
    induction ns generalizing m ls with
    | nil => cases hp; exact .nil _
    | cons n ns ih => cases hp with | cons hd hp => exact .cons hd (ih _ hp)
  · intro hl
    induction hl with
    | nil m => exact ⟨_, .nil _⟩
    | cons hs _ ih => obtain ⟨ls, hp⟩ := ih; exact ⟨_, .cons (a := .start _) hs hp⟩

theorem performs_stop {conf errors env prep ns} {m m' : Mgr} :
    (∃ ls, Performs conf errors env prep (ns.map .stop) m ls m') ↔ Stops conf errors prep ns m m' := by
  constructor
  · rintro ⟨ls, hp⟩
    induction ns generalizing m ls with
    | nil => cases hp; exact .nil _
    | cons n ns ih => cases hp with | cons hd hp => exact .cons hd (ih _ hp)
  · intro hl
    induction hl with
    | nil m => exact ⟨_, .nil _⟩
    | cons hs _ ih => obtain ⟨ls, hp⟩ := ih; exact ⟨_, .cons (a := .stop _) hs hp⟩

theorem performs_append {conf errors env prep as bs ls} {m m' : Mgr} :
    Performs conf errors env prep (as ++ bs) m ls m' ↔
      ∃ l1 m1 l2, Performs conf errors env prep as m l1 m1 ∧ Performs conf errors env prep bs m1 l2 m' ∧ ls = l1 ++ l2 := by
  constructor
  · intro hp
    induction as generalizing m ls with
    | nil => exact ⟨[], m, ls, .nil _, hp, rfl⟩
    | cons a as ih =>
      cases hp with
      | cons hd hp =>
        obtain ⟨l1, m1, l2, h1, h2, rfl⟩ := ih hp
        exact ⟨_, m1, l2, .cons hd h1, h2, by simp⟩
  · rintro ⟨l1, m1, l2, h1, h2, rfl⟩
    induction h1 with
    | nil m => exact h2
    | cons hd _ ih => rw [List.append_assoc]; exact .cons hd (ih h2)

/-- **C104, the same program.** The program described with its output does to the manager exactly what the
program of C83 does, with the same exit code. -/
theorem c104_same_program {conf errors env types prep pa pb args code} {m m' : Mgr} :
    (∃ lines, ToolPrints conf errors env types prep pa pb args m code lines m') ↔
      Tool conf errors env prep pa pb args m code m' := by
  unfold ToolPrints Tool
  rcases args with _ | ⟨prog, _ | ⟨cmd, rest⟩⟩
  · simp
  · simp
  dsimp only
  by_cases h1 : cmd = "lt" ∨ cmd = "list-types"
  · simp only [if_pos h1]
    rw [if_pos (h1.elim Or.inl fun h => Or.inr (Or.inl h))]
    constructor
    · rintro ⟨_, a, b, _⟩; exact ⟨a, b⟩
    · rintro ⟨a, b⟩; exact ⟨_, a, b, rfl⟩
  simp only [if_neg h1]
  by_cases h2 : cmd = "lc" ∨ cmd = "list"
  · simp only [if_pos h2]
    rw [if_pos (Or.inr (Or.inr h2))]
    constructor
    · rintro ⟨_, a, b, _⟩; exact ⟨a, b⟩
    · rintro ⟨a, b⟩
      suffices hl : ∃ lines, ListLines m'.listControllers lines by
        obtain ⟨lines, hl⟩ := hl; exact ⟨lines, a, b, hl⟩
      generalize m'.listControllers = l
      unfold ListLines
      by_cases hl : l.isEmpty
      · simp only [if_pos hl]; exact ⟨_, rfl⟩
      · simp only [if_neg hl]
        refine ⟨_, l.map fun e => (e.claimed.map (·.hardwareInterface)).dedup, by simp, rfl, ?_⟩
        intro p hp
        rw [List.zip_map_right] at hp
        obtain ⟨q, hq, rfl⟩ := List.mem_map.1 hp
        have hqq : q.1 = q.2 := by
          have := List.of_mem_zip hq
          clear hp a b h1 h2 hl
          induction l with
          | nil => cases hq
          | cons e l ih =>
            rw [List.zip_cons_cons] at hq
            rcases List.mem_cons.1 hq with rfl | hq
            · rfl
            · exact ih hq (List.of_mem_zip hq)
        simp [List.nodup_dedup, hqq]
  simp only [if_neg h2]
  have h12 : ¬ (cmd = "lt" ∨ cmd = "list-types" ∨ cmd = "lc" ∨ cmd = "list") := by
    rintro (h | h | h)
    · exact h1 (Or.inl h)
    · exact h1 (Or.inr h)
    · exact h2 h
  simp only [if_neg h12]
  by_cases h3 : cmd = "reload-libraries"
  · simp only [if_pos h3]
    constructor
    · rintro ⟨_, a, r, b, _⟩; exact ⟨a, r, b⟩
    · rintro ⟨a, r, b⟩; exact ⟨_, a, r, b, rfl⟩
  simp only [if_neg h3]
  unfold toolActs
  by_cases h4 : cmd = "load"
  · simp only [if_pos h4, exists_and_left]; rw [performs_load]
  by_cases h5 : cmd = "unload"
  · simp only [if_neg h4, if_pos h5, exists_and_left]; rw [performs_unload]
  by_cases h6 : cmd = "start"
  · simp only [if_neg h4, if_neg h5, if_pos h6, exists_and_left]; rw [performs_start]
  by_cases h7 : cmd = "stop"
  · simp only [if_neg h4, if_neg h5, if_neg h6, if_pos h7, exists_and_left]; rw [performs_stop]
  by_cases h8 : cmd = "sp" ∨ cmd = "spawn"
  · simp only [if_neg h4, if_neg h5, if_neg h6, if_neg h7, if_pos h8, exists_and_left]
    refine and_congr_right fun _ => ?_
    unfold SpawnNames
    simp only [performs_append, ← performs_load (prep := prep), ← performs_start (env := env)]
    constructor
    · rintro ⟨_, l1, m1, l2, a, b, _⟩; exact ⟨m1, ⟨l1, a⟩, l2, b⟩
    · rintro ⟨m1, ⟨l1, a⟩, l2, b⟩; exact ⟨_, l1, m1, l2, a, b, rfl⟩
  by_cases h9 : cmd = "kl" ∨ cmd = "kill"
  · simp only [if_neg h4, if_neg h5, if_neg h6, if_neg h7, if_neg h8, if_pos h9, exists_and_left]
    refine and_congr_right fun _ => ?_
    unfold KillNames
    simp only [performs_append, ← performs_stop (env := env), ← performs_unload (env := env) (prep := prep)]
    constructor
    · rintro ⟨_, l1, m1, l2, a, b, _⟩; exact ⟨m1, ⟨l1, a⟩, l2, b⟩
    · rintro ⟨m1, ⟨l1, a⟩, l2, b⟩; exact ⟨_, l1, m1, l2, a, b, rfl⟩
  · simp [if_neg h4, if_neg h5, if_neg h6, if_neg h7, if_neg h8, if_neg h9]

/-! ### The lines are true -/

theorem zipWith_eq_map_zip {α β γ : Type} (f : α → β → γ) (a : List α) (b : List β) :
    List.zipWith f a b = (a.zip b).map fun p => f p.1 p.2 := by
  induction a generalizing b with
  | nil => rfl
  | cons x a ih => cases b with
    | nil => rfl
    | cons y b => simp [ih]

/-- **C104, what is printed is true** when the program ends (missing: "Started ..." if the hardware reports an error,
see the negation): a controller reported as loaded is listed, one reported as unloaded is not, one reported as started
runs, one reported as stopped does not run, and what `list` shows is listed. -/
theorem c104_true_partial {conf errors env types prep pa pb args code lines} {m m' : Mgr} (h : Reachable conf m)
    (ht : ToolPrints conf errors env types prep pa pb args m code lines m') :
    ∀ l ∈ lines, (errors = true → ∀ ns, l ≠ .started ns) → Says m'.listControllers l := by
  intro l hl hs
  unfold ToolPrints at ht
  rcases args with _ | ⟨prog, _ | ⟨cmd, rest⟩⟩
  · obtain ⟨_, _, rfl⟩ := ht; rw [List.mem_singleton.1 hl]; exact trivial
  · obtain ⟨_, _, rfl⟩ := ht; rw [List.mem_singleton.1 hl]; exact trivial
  dsimp only at ht
  split at ht
  · obtain ⟨_, _, rfl⟩ := ht
    obtain ⟨t, _, rfl⟩ := List.mem_map.1 hl
    exact trivial
  split at ht
  · obtain ⟨_, _, ht⟩ := ht
    unfold ListLines at ht
    split at ht
    · rename_i he
      rw [ht] at hl; rw [List.mem_singleton.1 hl]
      simpa [Says] using he
    · obtain ⟨his, hlen, rfl, hp⟩ := ht
      rw [zipWith_eq_map_zip] at hl
      obtain ⟨p, hpm, rfl⟩ := List.mem_map.1 hl
      obtain ⟨q1, q2⟩ := hp p hpm
      exact ⟨p.1, (List.of_mem_zip hpm).1, rfl, rfl, q1, q2⟩
  split at ht
  · obtain ⟨_, r, _, rfl⟩ := ht
    simp only [List.mem_append, List.mem_cons, List.not_mem_nil, or_false] at hl
    rcases hl with (rfl | rfl) | hl
    · exact trivial
    · cases r <;> exact trivial
    · split at hl
      · rw [List.mem_singleton.1 hl]; exact trivial
      · cases hl
  split at ht
  · rename_i as has
    exact performs_says ht.2 h (toolActs_dir has) hl hs
  · obtain ⟨_, _, rfl⟩ := ht; rw [List.mem_singleton.1 hl]; exact trivial

/-! ### Everything is told -/

/-- **C104, everything is told.** Unless the libraries are reloaded, a controller that is listed afterwards and was not
before is reported as loaded, one that is not listed any more as unloaded, one that has come to run as started, and one
that does not run any more as stopped. -/
theorem c104_told {conf errors env types prep pa pb prog cmd rest code lines} {m m' : Mgr} (h : Reachable conf m)
    (hi : m.svc = .idle) (hc : cmd ≠ "reload-libraries")
    (ht : ToolPrints conf errors env types prep pa pb (prog :: cmd :: rest) m code lines m') (n : String) :
    (Listed m'.listControllers n → ¬ Listed m.listControllers n → .loaded n ∈ lines) ∧
    (¬ Listed m'.listControllers n → Listed m.listControllers n → .unloaded n ∈ lines) ∧
    (ListedRunning m'.listControllers n → ¬ ListedRunning m.listControllers n → .started [n] ∈ lines) ∧
    (¬ ListedRunning m'.listControllers n → ListedRunning m.listControllers n → .stopped [n] ∈ lines) := by
  have same : m'.listControllers = m.listControllers →
      (Listed m'.listControllers n → ¬ Listed m.listControllers n → .loaded n ∈ lines) ∧
      (¬ Listed m'.listControllers n → Listed m.listControllers n → .unloaded n ∈ lines) ∧
      (ListedRunning m'.listControllers n → ¬ ListedRunning m.listControllers n → .started [n] ∈ lines) ∧
      (¬ ListedRunning m'.listControllers n → ListedRunning m.listControllers n → .stopped [n] ∈ lines) := by
    intro e
    rw [e]
    exact ⟨fun a b => absurd a b, fun a b => absurd b a, fun a b => absurd a b, fun a b => absurd b a⟩
  unfold ToolPrints at ht
  dsimp only at ht
  split at ht
  · obtain ⟨_, ⟨before, hb, rfl⟩, _⟩ := ht
    exact same (background_listing h hi hb).2.2
  split at ht
  · obtain ⟨_, ⟨before, hb, rfl⟩, _⟩ := ht
    exact same (background_listing h hi hb).2.2
  split at ht
  · obtain ⟨a, b, c, d⟩ := performs_changes ht.2 h n
    exact ⟨fun x y => (a x).resolve_left y, fun x y => (b y).resolve_left x, fun x y => (c x).resolve_left y,
      fun x y => (d y).resolve_left x⟩
  · obtain ⟨_, rfl, _⟩ := ht
    exact same rfl

/-- **C104, nothing but errors.** If all that is printed are errors, the listing is as before. -/
theorem c104_only_errors {conf errors env types prep pa pb args code lines} {m m' : Mgr} (h : Reachable conf m)
    (hi : m.svc = .idle) (ht : ToolPrints conf errors env types prep pa pb args m code lines m')
    (he : ∀ l ∈ lines, IsError l) : m'.listControllers = m.listControllers := by
  unfold ToolPrints at ht
  rcases args with _ | ⟨prog, _ | ⟨cmd, rest⟩⟩
  · obtain ⟨_, rfl, _⟩ := ht; rfl
  · obtain ⟨_, rfl, _⟩ := ht; rfl
  dsimp only at ht
  split at ht
  · obtain ⟨_, ⟨before, hb, rfl⟩, _⟩ := ht
    exact (background_listing h hi hb).2.2
  split at ht
  · obtain ⟨_, ⟨before, hb, rfl⟩, _⟩ := ht
    exact (background_listing h hi hb).2.2
  split at ht
  · obtain ⟨_, r, _, rfl⟩ := ht
    exact (he (.restore (decide ("--restore" ∈ rest))) (by simp)).elim
  split at ht
  · exact performs_errors ht.2 h he
  · obtain ⟨_, rfl, _⟩ := ht; rfl

theorem performs_lines {conf errors env prep ns ls} {f : String → Act} {m m' : Mgr}
    (hp : Performs conf errors env prep (ns.map f) m ls m') {P : String → Line → Prop}
    (hf : ∀ n ok, ∃ l, (f n).lines ok = [l] ∧ P n l) : List.Forall₂ P ns ls := by
  induction ns generalizing m ls with
  | nil => cases hp; exact .nil
  | cons n ns ih =>
    cases hp with
    | @cons _ _ _ ok _ _ _ hd hp =>
      obtain ⟨l, e, hl⟩ := hf n ok
      rw [e]
      exact .cons hl (ih hp)

/-- **C104, one line for each controller**, in the order of the arguments; two if it is loaded and started, or stopped
and unloaded. -/
theorem c104_lines {conf errors env types prep pa pb prog cmd names code lines} {m m' : Mgr}
    (ht : ToolPrints conf errors env types prep pa pb (prog :: cmd :: names) m code lines m') :
    let load := List.Forall₂ (fun n l => l = Line.loaded n ∨ l = .loadError n) names
    let unload := List.Forall₂ (fun n l => l = Line.unloaded n ∨ l = .unloadError n) names
    let start := List.Forall₂ (fun n l => l = Line.started [n] ∨ l = .switchError [n] []) names
    let stop := List.Forall₂ (fun n l => l = Line.stopped [n] ∨ l = .switchError [] [n]) names
    (cmd = "load" → load lines) ∧ (cmd = "unload" → unload lines) ∧ (cmd = "start" → start lines) ∧
    (cmd = "stop" → stop lines) ∧
    (cmd ∈ ["sp", "spawn"] → ∃ a b, lines = a ++ b ∧ load a ∧ start b) ∧
    (cmd ∈ ["kl", "kill"] → ∃ a b, lines = a ++ b ∧ stop a ∧ unload b) := by
  intro load unload start stop
  have hl : ∀ {m m' : Mgr} {ls}, Performs conf errors env prep (names.map .load) m ls m' → load ls := fun hp =>
    performs_lines hp fun n ok => by cases ok <;> simp [Act.lines]
  have hu : ∀ {m m' : Mgr} {ls}, Performs conf errors env prep (names.map .unload) m ls m' → unload ls := fun hp =>
    performs_lines hp fun n ok => by cases ok <;> simp [Act.lines]
  have hs : ∀ {m m' : Mgr} {ls}, Performs conf errors env prep (names.map .start) m ls m' → start ls := fun hp =>
    performs_lines hp fun n ok => by cases ok <;> simp [Act.lines, startStopLines]
  have hp : ∀ {m m' : Mgr} {ls}, Performs conf errors env prep (names.map .stop) m ls m' → stop ls := fun hp =>
    performs_lines hp fun n ok => by cases ok <;> simp [Act.lines, startStopLines]
  clear_value load unload start stop
  refine ⟨?_, ?_, ?_, ?_, ?_, ?_⟩
  · rintro rfl; exact hl ht.2
  · rintro rfl; exact hu ht.2
  · rintro rfl; exact hs ht.2
  · rintro rfl; exact hp ht.2
  · intro hc
    have ht : Performs conf errors env prep (names.map .load ++ names.map .start) m lines m' := by
      rcases List.mem_cons.1 hc with rfl | hc
      · exact ht.2
      · rcases List.mem_singleton.1 hc with rfl
        exact ht.2
    obtain ⟨a, _, b, h1, h2, rfl⟩ := performs_append.1 ht
    exact ⟨a, b, rfl, hl h1, hs h2⟩
  · intro hc
    have ht : Performs conf errors env prep (names.map .stop ++ names.map .unload) m lines m' := by
      rcases List.mem_cons.1 hc with rfl | hc
      · exact ht.2
      · rcases List.mem_singleton.1 hc with rfl
        exact ht.2
    obtain ⟨a, _, b, h1, h2, rfl⟩ := performs_append.1 ht
    exact ⟨a, b, rfl, hp h1, hu h2⟩

/-- **C104, the listing.** `list` changes nothing and prints one line for each controller, in the order of the listing,
with its name, its state and the interfaces it claims; if there is none it says so. -/
theorem c104_list {conf errors env types prep pa pb prog cmd rest code lines} {m m' : Mgr} (h : Reachable conf m)
    (hi : m.svc = .idle) (hc : cmd ∈ ["lc", "list"])
    (ht : ToolPrints conf errors env types prep pa pb (prog :: cmd :: rest) m code lines m') :
    m'.listControllers = m.listControllers ∧
    (m.listControllers = [] → lines = [.noControllers]) ∧
    (m.listControllers ≠ [] → List.Forall₂ (fun (e : Entry) l => ∃ is, l = .entry e.name is e.state ∧ is.Nodup ∧
      ∀ i, i ∈ is ↔ ∃ r ∈ e.claimed, r.hardwareInterface = i) m.listControllers lines) := by
  have ht' : code = 0 ∧ (∃ before : List Op, (∀ op ∈ before, op.background errors) ∧ m' = m.run conf before) ∧
      ListLines m'.listControllers lines := by
    rcases List.mem_cons.1 hc with rfl | hc
    · exact ht
    · rcases List.mem_singleton.1 hc with rfl
      exact ht
  clear ht
  obtain ⟨_, ⟨before, hb, rfl⟩, ht⟩ := ht'
  have e := (background_listing h hi hb).2.2
  rw [e] at ht ⊢
  refine ⟨rfl, ?_, ?_⟩
  · intro hl
    rw [hl] at ht
    exact ht
  · intro hl
    unfold ListLines at ht
    rw [if_neg (by simpa using hl)] at ht
    obtain ⟨his, hlen, rfl, hp⟩ := ht
    clear e hl hi h
    generalize m.listControllers = l at *
    induction l generalizing his with
    | nil => exact .nil
    | cons x l ih =>
      cases his with
      | nil => simp at hlen
      | cons y his =>
        have := hp (x, y) (by simp)
        exact .cons ⟨y, rfl, this.1, this.2⟩ (ih his (by simpa using hlen)
          (fun p hpm => hp p (by rw [List.zip_cons_cons]; exact List.mem_cons_of_mem _ hpm)))

/-! ### The reasons of errors -/

/-- **C104, errors when loading.** If "Error when loading" is printed for a controller, it is listed (under its name one
is loaded already), or what the manager meets does not let it be loaded. -/
theorem c104_load_error {conf errors env types prep pa pb prog names code lines} {m m' : Mgr} (h : Reachable conf m)
    (ht : ToolPrints conf errors env types prep pa pb (prog :: "load" :: names) m code lines m') {n : String}
    (hn : .loadError n ∈ lines) :
    Listed m'.listControllers n ∨ ∀ type claimed, ¬ ListedLoadable [] n (env n) type claimed := by
  obtain ⟨_, hp⟩ : code = 0 ∧ Performs conf errors env prep (names.map .load) m lines m' := ht
  induction names generalizing m lines with
  | nil => cases hp; cases hn
  | cons k ns ih =>
    cases hp with
    | @cons _ _ _ ok m1 ls _ hd hp =>
      have r := (does_effect h hd).1
      rcases List.mem_append.1 hn with hn | hn
      · cases ok with
        | true => simp [Act.lines] at hn
        | false =>
          have hkn : n = k := by simpa [Act.lines] using hn
          subst hkn
          have hs := Served.serves (show Served conf errors m (.load n (env n)) false m1 from hd) h
          have hup := (performs_up hp r (by
            intro a ha; obtain ⟨_, _, rfl⟩ := List.mem_map.1 ha; exact trivial)).1 n
          generalize hl1 : m1.listControllers = l1 at *
          generalize hl0 : m.listControllers = l at *
          cases hs with
          | notLoaded hno =>
            by_cases hl : Listed m.listControllers n
            · exact Or.inl (hup (hl0 ▸ hl))
            · exact Or.inr fun t c hh => hno t c (listedLoadable_iff.2 ⟨hl0 ▸ hl, hh⟩)
      · exact ih r hn hp

/-- **C104, errors when unloading.** If "Error when unloading" is printed for a controller, it is not listed or it
runs. -/
theorem c104_unload_error {conf errors env types prep pa pb prog names code lines} {m m' : Mgr} (h : Reachable conf m)
    (ht : ToolPrints conf errors env types prep pa pb (prog :: "unload" :: names) m code lines m') {n : String}
    (hn : .unloadError n ∈ lines) :
    ¬ Listed m'.listControllers n ∨ ListedRunning m'.listControllers n := by
  obtain ⟨_, hp⟩ : code = 0 ∧ Performs conf errors env prep (names.map .unload) m lines m' := ht
  induction names generalizing m lines with
  | nil => cases hp; cases hn
  | cons k ns ih =>
    cases hp with
    | @cons _ _ _ ok m1 ls _ hd hp =>
      have r := (does_effect h hd).1
      rcases List.mem_append.1 hn with hn | hn
      · cases ok with
        | true => simp [Act.lines] at hn
        | false =>
          have hkn : n = k := by simpa [Act.lines] using hn
          subst hkn
          have hs := Served.serves (show Served conf errors m (.unload n) false m1 from hd) h
          obtain ⟨_, e⟩ := unloads_listing (performs_unload.1 ⟨_, hp⟩) r
          generalize hl1 : m1.listControllers = l1 at *
          generalize hl0 : m.listControllers = l at *
          cases hs with
          | notUnloaded hno =>
            by_cases hl : Listed m.listControllers n
            · obtain ⟨x, hx, h1, h2⟩ := hno (hl0 ▸ hl)
              right
              rw [e]
              exact ⟨x, List.mem_filter.2 ⟨hx, by simp [h2]⟩, h1, h2⟩
            · left
              rw [e]
              rintro ⟨x, hx, h1⟩
              exact hl ⟨x, hl0 ▸ (List.mem_filter.1 hx).1, h1⟩
      · exact ih r hn hp

/-! ### Groups -/

theorem loadMissing_prints {conf errors env known ns ok} {m m' : Mgr} :
    (∃ ls, LoadMissingPrints conf errors env known ns m ok ls m') ↔ LoadMissing conf errors env known ns m ok m' := by
  constructor
  · rintro ⟨ls, h⟩
    induction h with
    | nil m => exact .nil _
    | known a _ ih => exact .known a ih
    | loaded a b _ ih => exact .loaded a b ih
    | cancel a b => exact .cancel a b
  · intro h
    induction h with
    | nil m => exact ⟨_, .nil _⟩
    | known a _ ih => obtain ⟨ls, ih⟩ := ih; exact ⟨_, .known a ih⟩
    | loaded a b _ ih => obtain ⟨ls, ih⟩ := ih; exact ⟨_, .loaded a b ih⟩
    | cancel a b => exact ⟨_, .cancel a b⟩

/-- **C104, groups: the same program.** `controller_group switch`, described with its output, does to the manager what
the program of C76 does. -/
theorem c104_same_group {conf errors env desired others prepOk ok} {m m' : Mgr} :
    (∃ lines, SwitchGroupPrints conf errors env desired others prepOk m ok lines m') ↔
      SwitchGroup conf errors env desired others prepOk m ok m' := by
  unfold SwitchGroupPrints SwitchGroup
  constructor
  · rintro ⟨lines, before, hb, listing, hl, loadsOk, ls, m1, hm, hs⟩
    refine ⟨before, hb, listing, hl, loadsOk, m1, loadMissing_prints.1 ⟨ls, hm⟩, ?_⟩
    cases loadsOk with
    | true => exact hs.1
    | false => exact ⟨hs.1, hs.2.1⟩
  · rintro ⟨before, hb, listing, hl, loadsOk, m1, hm, hs⟩
    obtain ⟨ls, hm⟩ := loadMissing_prints.2 hm
    cases loadsOk with
    | true => exact ⟨_, before, hb, listing, hl, true, ls, m1, hm, hs, rfl⟩
    | false => exact ⟨_, before, hb, listing, hl, false, ls, m1, hm, hs.1, hs.2, rfl⟩

theorem loadMissing_lines {conf errors env known ns ok ls} {m m' : Mgr}
    (hl : LoadMissingPrints conf errors env known ns m ok ls m') (h : Reachable conf m) :
    Reachable conf m' ∧ (∃ es : List Entry, m'.listControllers = m.listControllers ++ es ∧
      (∀ e ∈ es, e.name ∈ ns ∧ e.state = "initialized" ∧ .loaded e.name ∈ ls) ∧
      ∀ n, .loaded n ∈ ls → ∃ e ∈ es, e.name = n) ∧
      (ok = false ↔ .cancel ∈ ls) ∧ (∀ l ∈ ls, (∃ n, l = .loaded n) ∨ (∃ n, l = .loadError n) ∨ l = .cancel) ∧
      (ok = true → ∀ l ∈ ls, ¬ IsError l) := by
  induction hl with
  | nil m => exact ⟨h, ⟨[], by simp, by simp, by simp⟩, by simp, by simp, by simp⟩
  | known _ _ ih =>
    obtain ⟨r, ⟨es, e1, e2, e3⟩, hh⟩ := ih h
    exact ⟨r, ⟨es, e1, fun e he => ⟨List.mem_cons_of_mem _ (e2 e he).1, (e2 e he).2⟩, e3⟩, hh⟩
  | @loaded n ns m m1 ok ls m2 _ hs _ ih =>
    obtain ⟨r, ⟨es, e1, e2, e3⟩, hc, hk, hn⟩ := ih (hs.reachable h)
    rcases load_listing (hs.serves h) with ⟨hh, _⟩ | ⟨_, _, t, c, _, _, e⟩
    · cases hh
    · refine ⟨r, ⟨⟨n, t, "initialized", c⟩ :: es, by rw [e1, e]; simp, ?_, ?_⟩, by rw [hc]; simp, ?_, ?_⟩
      · intro x hx
        rcases List.mem_cons.1 hx with rfl | hx
        · exact ⟨List.mem_cons_self, rfl, List.mem_cons_self⟩
        · obtain ⟨a, b, c⟩ := e2 x hx
          exact ⟨List.mem_cons_of_mem _ a, b, List.mem_cons_of_mem _ c⟩
      · intro k hk
        rcases List.mem_cons.1 hk with hk | hk
        · cases hk; exact ⟨_, List.mem_cons_self, rfl⟩
        · obtain ⟨x, hx, hxk⟩ := e3 k hk
          exact ⟨x, List.mem_cons_of_mem _ hx, hxk⟩
      · intro l hl
        rcases List.mem_cons.1 hl with rfl | hl
        · exact Or.inl ⟨_, rfl⟩
        · exact hk l hl
      · intro hok l hl
        rcases List.mem_cons.1 hl with rfl | hl
        · exact id
        · exact hn hok l hl
  | @cancel n ns m m1 _ hs =>
    rcases load_listing (hs.serves h) with ⟨_, e⟩ | ⟨hh, _⟩
    · exact ⟨hs.reachable h, ⟨[], by simp [e], by simp, by simp⟩, by simp, by simp, by simp⟩
    · cases hh

/-- What is printed about a switch is true. -/
theorem startStop_says {conf start stop prepOk ok} {m m' : Mgr} (h : Reachable conf m)
    (hs : StartStop conf false start stop prepOk m ok m') :
    (∀ l ∈ startStopLines start stop ok, Says m'.listControllers l) ∧
    (∀ n, Listed m'.listControllers n ↔ Listed m.listControllers n) ∧
    (ok = false → m'.listControllers = m.listControllers) ∧
    (ok = false ↔ ∃ l ∈ startStopLines start stop ok, l = .cancel ∨ IsError l) ∧
    .cancel ∉ startStopLines start stop ok := by
  obtain ⟨now, hs⟩ := hs
  rcases switch_listing rfl (hs.serves h) with ⟨_, rfl, e⟩ | ⟨ha, rfl, out, e, _, ho⟩
  · simp [startStopLines, Says, e, IsError]
  · obtain ⟨a1, _, _⟩ := ha
    rw [if_pos rfl] at a1
    refine ⟨?_, ?_, (fun hh => by cases hh), ?_, ?_⟩
    · intro l hl
      simp only [startStopLines, if_pos, List.mem_append] at hl
      rcases hl with hl | hl <;> split at hl <;> simp at hl <;> subst hl
      · intro n hn
        obtain ⟨⟨x, hx, hxn⟩, _⟩ := a1.2.1 n hn
        rw [e]
        refine ⟨_, List.mem_map_of_mem hx, by rw [switchedEntry_name, hxn], ?_⟩
        unfold switchedEntry
        rw [if_pos (by rw [hxn]; exact hn), ho rfl]; rfl
      · rintro n hn hr
        rw [e] at hr
        obtain ⟨y, hy, rfl, h2⟩ := hr
        obtain ⟨z, hz, rfl⟩ := List.mem_map.1 hy
        rw [switchedEntry_name] at hn
        unfold switchedEntry at h2
        rw [if_neg (fun hh => a1.2.2 _ hh hn)] at h2
        split at h2
        · exact absurd h2 (by decide : ("stopped" : String) ≠ "running")
        · rename_i hh; exact hh ⟨hn, h2⟩
    · intro n; rw [e]; exact listed_map_name (switchedEntry_name _ _) n
    · simp only [Bool.true_eq_false, false_iff]
      rintro ⟨l, hl, hh⟩
      simp only [startStopLines, if_pos, List.mem_append] at hl
      rcases hl with hl | hl <;> split at hl <;> simp at hl <;> subst hl <;> simp [IsError] at hh
    · intro hl
      simp only [startStopLines, if_pos, List.mem_append] at hl
      rcases hl with hl | hl <;> split at hl <;> simp at hl

/-- **C104, groups: the lines are true** (missing: hardware that reports errors). A controller reported as loaded is
listed, the ones reported as started run, the ones reported as stopped do not. The switch is not made exactly if the program
prints "Cancel group switching" or an error; every controller that was not listed before is reported as loaded, and
after "Cancel group switching" or an error no controller that was listed has changed. -/
theorem c104_group_true_partial {conf env desired others prepOk ok lines} {m m' : Mgr} (h : Reachable conf m)
    (hi : m.svc = .idle) (hs : SwitchGroupPrints conf false env desired others prepOk m ok lines m') :
    (∀ l ∈ lines, Says m'.listControllers l) ∧ (ok = false ↔ ∃ l ∈ lines, l = .cancel ∨ IsError l) ∧
    (∀ n, Listed m'.listControllers n ↔ Listed m.listControllers n ∨ .loaded n ∈ lines) ∧
    (ok = false → ∃ es : List Entry, m'.listControllers = m.listControllers ++ es ∧
      ∀ e ∈ es, e.name ∈ desired ∧ e.state = "initialized" ∧ .loaded e.name ∈ lines) := by
  obtain ⟨before, hb, listing, rfl, loadsOk, ls, m1, hm, hs⟩ := hs
  obtain ⟨h0, hi0, e0⟩ := background_listing h hi hb
  obtain ⟨r1, ⟨es, e1, e2, e3⟩, hc, hk, hn⟩ := loadMissing_lines hm h0
  rw [e0] at e1
  have hl1 : ∀ n, Listed m1.listControllers n ↔ Listed m.listControllers n ∨ .loaded n ∈ ls := by
    intro n
    rw [e1]
    constructor
    · rintro ⟨e, he, rfl⟩
      rcases List.mem_append.1 he with he | he
      · exact Or.inl ⟨e, he, rfl⟩
      · exact Or.inr (e2 e he).2.2
    · rintro (⟨e, he, rfl⟩ | hx)
      · exact ⟨e, List.mem_append_left _ he, rfl⟩
      · obtain ⟨e, he, rfl⟩ := e3 n hx
        exact ⟨e, List.mem_append_right _ he, rfl⟩
  cases loadsOk with
  | false =>
    rw [if_neg (by simp)] at hs
    obtain ⟨rfl, rfl, rfl⟩ := hs
    refine ⟨?_, ⟨fun _ => ⟨_, hc.1 rfl, Or.inl rfl⟩, fun _ => rfl⟩, hl1, fun _ => ⟨es, e1, e2⟩⟩
    intro l hl
    rcases hk l hl with ⟨n, rfl⟩ | ⟨n, rfl⟩ | rfl
    · exact (hl1 n).2 (Or.inr hl)
    · exact trivial
    · exact trivial
  | true =>
    rw [if_pos rfl] at hs
    obtain ⟨hs, rfl⟩ := hs
    obtain ⟨s1, s2, s3, s4, s5⟩ := startStop_says r1 hs
    have hno : .cancel ∉ ls := fun hh => by cases hc.2 hh
    refine ⟨?_, ?_, ?_, ?_⟩
    · intro l hl
      rcases List.mem_append.1 hl with hl | hl
      · rcases hk l hl with ⟨n, rfl⟩ | ⟨n, rfl⟩ | rfl
        · exact (s2 n).2 ((hl1 n).2 (Or.inr hl))
        · exact trivial
        · exact trivial
      · exact s1 l hl
    · rw [s4]
      constructor
      · rintro ⟨l, hl, hh⟩; exact ⟨l, List.mem_append_right _ hl, hh⟩
      · rintro ⟨l, hl, hh⟩
        rcases List.mem_append.1 hl with hl | hl
        · rcases hh with rfl | hh
          · exact absurd hl hno
          · exact absurd hh (hn rfl l hl)
        · exact ⟨l, hl, hh⟩
    · intro n
      rw [s2 n, hl1 n, List.mem_append]
      refine or_congr Iff.rfl ⟨Or.inl, fun hx => hx.elim id fun hx => ?_⟩
      exfalso
      unfold startStopLines at hx
      split at hx
      · rcases List.mem_append.1 hx with hx | hx <;> split at hx <;> simp at hx
      · simp at hx
    · intro hok
      exact ⟨es, by rw [s3 hok, e1], fun e he => ⟨(e2 e he).1, (e2 e he).2.1, List.mem_append_left _ (e2 e he).2.2⟩⟩

/-! ### Restoring -/

/-- **C104, "Controllers restored to original state"** (missing: that it is printed only then, see the negation). If
every controller can be loaded again as it was, and the hardware refuses nothing, then what the line says is true
except that controllers that did not run are initialized afterwards, whatever their state was. -/
theorem c104_restored_partial {conf env types prep prog rest code lines} (hc : Hereditary conf) {m m' : Mgr}
    (h : Reachable conf m) (hi : m.svc = .idle)
    (henv : ∀ e ∈ m.listControllers, (env e.name).nodeHandleOk = true ∧
      (env e.name).type = some e.type ∧ (∃ i, Provides (env e.name).loaders e.type i) ∧
      (env e.name).init = some e.claimed)
    (ht : ToolPrints conf false env types prep true true (prog :: "reload-libraries" :: rest) m code lines m')
    (hr : .restored ∈ lines) :
    .reloaded ∈ lines ∧ m'.listControllers = m.listControllers.map fun e =>
      { e with state := if e.state = "running" then "running" else "initialized" } := by
  obtain ⟨_, r, ht, rfl⟩ : code = 0 ∧ ∃ result,
        ReloadLibraries conf false env true (decide ("--restore" ∈ rest)) true true m result m' ∧
        lines = [Line.restore (decide ("--restore" ∈ rest)), if result then Line.reloaded else Line.notReloaded] ++
          (if "--restore" ∈ rest then [Line.restored] else []) := ht
  have hrest : "--restore" ∈ rest := by
    by_contra hh
    rw [if_neg hh] at hr
    cases r <;> simp at hr
  rw [decide_eq_true hrest] at ht
  obtain ⟨rfl, e⟩ := c75_restore hc h hi henv ht
  exact ⟨by simp, e⟩

/-- **C104, reloading.** "Successfully reloaded libraries" is printed exactly if nothing was loaded or everything could be
stopped and unloaded; without `--restore` nothing is listed then. If "Failed to reload libraries" is printed, and there is
no `--restore`, the listing is as before. -/
theorem c104_reload {conf errors env types prep pa pb prog rest code lines} {m m' : Mgr} (h : Reachable conf m)
    (hi : m.svc = .idle)
    (ht : ToolPrints conf errors env types prep pa pb (prog :: "reload-libraries" :: rest) m code lines m') :
    (.reloaded ∈ lines ↔ m.listControllers = [] ∨ pa = true ∧ conf [] = false) ∧
    (.notReloaded ∈ lines ↔ .reloaded ∉ lines) ∧ (.restored ∈ lines ↔ "--restore" ∈ rest) ∧
    ("--restore" ∉ rest → m'.listControllers = if .reloaded ∈ lines then [] else m.listControllers) := by
  obtain ⟨_, r, ⟨before, hb, orig, rfl, now, m1, hs, hr⟩, rfl⟩ : code = 0 ∧ ∃ result,
        ReloadLibraries conf errors env true (decide ("--restore" ∈ rest)) pa pb m result m' ∧
        lines = [Line.restore (decide ("--restore" ∈ rest)), if result then Line.reloaded else Line.notReloaded] ++
          (if "--restore" ∈ rest then [Line.restored] else []) := ht
  obtain ⟨h0, hi0, e0⟩ := background_listing h hi hb
  have hsv := hs.serves h0
  rw [e0] at hsv
  have hin : ∀ b : Bool, (Line.reloaded ∈ [.restore (decide ("--restore" ∈ rest)),
      if b then .reloaded else .notReloaded] ++ (if "--restore" ∈ rest then [.restored] else []) ↔ b = true) ∧
      (Line.notReloaded ∈ [.restore (decide ("--restore" ∈ rest)),
      if b then .reloaded else .notReloaded] ++ (if "--restore" ∈ rest then [.restored] else []) ↔ b = false) ∧
      (Line.restored ∈ [.restore (decide ("--restore" ∈ rest)),
      if b then .reloaded else .notReloaded] ++ (if "--restore" ∈ rest then [.restored] else []) ↔ "--restore" ∈ rest) := by
    intro b
    by_cases hh : "--restore" ∈ rest <;> cases b <;> simp [hh]
  obtain ⟨i1, i2, i3⟩ := hin r
  simp only [i1, i2, i3]
  generalize hL : m.listControllers = L at *
  generalize hL1 : m1.listControllers = L1 at *
  cases hsv with
  | reload hh =>
    refine ⟨⟨fun _ => hh.imp id (fun x => x.2), fun _ => rfl⟩, by simp, trivial, fun hn => ?_⟩
    rw [if_neg (by simpa using hn)] at hr
    rw [hr, hL1]; simp
  | notReloaded hne hh =>
    refine ⟨⟨(fun x => by cases x), fun x => ?_⟩, by simp, trivial, fun hn => ?_⟩
    · rcases x with x | ⟨x, y⟩
      · exact absurd x hne
      · rcases hh with hh | hh | hh
        · cases hh
        · rw [x] at hh; cases hh
        · rw [y] at hh; cases hh
    · rw [if_neg (by simpa using hn)] at hr
      rw [hr, hL1]; simp

/-! ### Examples -/

/-- "a" and "c" run, "b" is loaded: `controller_manager kill a x`. -/
theorem Ex.killed : ∃ m', ToolPrints checkForConflict false Ex.envOf [] (fun _ => true) true true
      ["controller_manager", "kill", "a", "x"] (Ex.after Ex.running) 0
      [.stopped ["a"], .switchError [] ["x"], .unloaded "a", .unloadError "x"] m' ∧
    m'.listControllers.map (fun e => (e.name, e.state)) = [("b", "initialized"), ("c", "running")] := by
  have hc := Ex.background_cycle false
  exact ⟨_, ⟨rfl, .cons (ok := true) ⟨0, served_of Ex.cycle (by decide) hc (by decide) (by decide)⟩
    (.cons (ok := false) ⟨0, served_of [] (by decide) (by simp) (by decide) (by decide)⟩
    (.cons (ok := true) (a := .unload "a") (served_of Ex.cycle (by decide) hc (by decide) (by decide))
    (.cons (ok := false) (a := .unload "x") (served_of [] (by decide) (by simp) (by decide) (by decide)) (.nil _))))⟩,
    by decide⟩

example : ∃ m' : Mgr, Reachable checkForConflict (Ex.after Ex.running) ∧ (Ex.after Ex.running).svc = .idle ∧
    Says m'.listControllers (.stopped ["a"]) ∧ Says m'.listControllers (.unloaded "a") ∧
    ListedRunning (Ex.after Ex.running).listControllers "a" ∧ ListedRunning m'.listControllers "c" := by
  obtain ⟨m', ht, e⟩ := Ex.killed
  have h := c104_true_partial (Ex.reachable_after Ex.rosUp_running) ht
  refine ⟨m', Ex.reachable_after Ex.rosUp_running, by decide, h (.stopped ["a"]) (by simp) (fun hh => by cases hh),
    h (.unloaded "a") (by simp) (fun hh => by cases hh), listedRunning_iff.2 (by unfold Runs; decide), ?_⟩
  have hm : ("c", "running") ∈ m'.listControllers.map (fun e => (e.name, e.state)) := by rw [e]; simp
  obtain ⟨x, hx, hh⟩ := List.mem_map.1 hm
  exact ⟨x, hx, (Prod.mk.inj hh).1, (Prod.mk.inj hh).2⟩

theorem Ex.lists {conf errors env prep m lines} (h : ListLines m.listControllers lines) :
    ToolPrints conf errors env [] prep true true ["controller_manager", "list"] m 0 lines m :=
  ⟨rfl, ⟨[], by simp, rfl⟩, h⟩

/-- What `controller_manager list` prints then. -/
example : ToolPrints checkForConflict false Ex.envOf [] (fun _ => true) true true ["controller_manager", "list"]
    (Ex.after Ex.running) 0
    [.entry "a" ["Pos"] "running", .entry "b" ["Pos"] "initialized", .entry "c" ["Pos"] "running"]
    (Ex.after Ex.running) := by
  apply Ex.lists
  have e : (Ex.after Ex.running).listControllers = [⟨"a", "T", "running", [⟨"Pos", ["j1"]⟩]⟩,
    ⟨"b", "T", "initialized", [⟨"Pos", ["j1"]⟩]⟩, ⟨"c", "T", "running", [⟨"Pos", ["j2"]⟩]⟩] := by decide
  rw [e]
  refine ⟨[["Pos"], ["Pos"], ["Pos"]], rfl, rfl, ?_⟩
  simp [eq_comm]

/-- Nothing can be loaded. -/
def Ex.noEnv (_ : String) : LoadEnv := ⟨true, none, [], none⟩

/-- A group switch from "a", "c" to "b", "x": "x" cannot be loaded, so everything is as before. -/
example : ∃ m', SwitchGroupPrints checkForConflict false Ex.noEnv ["b", "x"] ["a", "c"]
      true (Ex.after Ex.running) false [.loadError "x", .cancel] m' ∧
    m'.listControllers = (Ex.after Ex.running).listControllers := by
  refine ⟨_, ⟨[], by simp, _, rfl, false, _, _, .known (by decide) (.cancel (by decide)
    (served_of [] (by decide) (by simp) (by decide) (by decide))), rfl, rfl, rfl⟩, by decide⟩

/-- The same if "b" and "d" are the group. -/
example : ∃ m', SwitchGroupPrints checkForConflict false (fun _ => Ex.env ["j2"]) ["b", "d"] ["a", "c"]
      true (Ex.after Ex.running) true [.loaded "d", .started ["b", "d"], .stopped ["a", "c"]] m' ∧
    m'.listControllers.map (fun e => (e.name, e.state)) =
      [("a", "stopped"), ("b", "running"), ("c", "stopped"), ("d", "running")] := by
  have hc := Ex.background_cycle false
  refine ⟨_, ⟨[], by simp, _, rfl, true, _, _, .known (by decide) (.loaded (by decide)
    (served_of Ex.cycle (by decide) hc (by decide) (by decide)) (.nil _)), ⟨0,
    served_of Ex.cycle (by decide) hc (by decide) (by decide)⟩, by decide⟩, by decide⟩

/-! ### Where the lines are wrong -/

/-- **C104 does not hold if the hardware reports errors.** "Started ['a'] successfully" is printed though the start of
"a" has been aborted. -/
theorem c104_started_negation : ¬ TrueWithErrors checkForConflict := by
  intro hall
  have ht : ToolPrints checkForConflict true Ex.envOf [] (fun _ => true) true true ["controller_manager", "start", "a"]
      (Ex.after Ex.three) 0 [.started ["a"]] (Ex.after (Ex.three ++ [.switch ⟨["a"], [], 2, false, 0⟩ 0 true,
        .update 0 false (Ex.hw .error), Ex.wait])) :=
    ⟨rfl, .cons (ok := true) (a := .start "a") ⟨0, served_of [.update 0 false (Ex.hw .error), Ex.wait] (by decide)
      (by simp [Op.background, Ex.wait]) (by decide) (by decide)⟩ (.nil _)⟩
  have := hall _ _ _ _ _ _ _ _ _ _ (Ex.reachable_after Ex.rosUp_three) (by decide) ht (.started ["a"]) (by simp)
  obtain ⟨e, he, h1, h2⟩ := (show ∀ n ∈ ["a"], ListedRunning _ n from this) "a" (by simp)
  have : ∀ e ∈ (Ex.after (Ex.three ++ [.switch ⟨["a"], [], 2, false, 0⟩ 0 true,
        .update 0 false (Ex.hw .error), Ex.wait])).listControllers, e.state ≠ "running" := by decide
  exact this e he h2

/-- **"Controllers restored to original state" is not always true.** None of the controllers could be loaded again, and
the tool prints the same. -/
theorem c104_restored_negation : ¬ RestoredIsTrue checkForConflict := by
  intro hall
  obtain ⟨m', hr, e⟩ : ∃ m', ReloadLibraries checkForConflict false Ex.noEnv true true true true (Ex.after Ex.running)
      true m' ∧ m'.listControllers = [] := by
    refine ⟨Ex.after (Ex.running ++ .reload true 0 true :: Ex.reloading ++
        .load "a" (Ex.noEnv "a") :: [] ++ .load "b" (Ex.noEnv "b") :: [] ++ .load "c" (Ex.noEnv "c") :: [] ++
        .switch ⟨["a", "c"], [], 1, false, 0⟩ 0 true :: Ex.cycle),
      ⟨[], by simp, _, rfl, 0, _, served_of Ex.reloading (by decide)
      (Ex.background_of _ (by simp [Ex.reloading, Ex.cycle])) (by decide) (by decide), ?_⟩, by decide⟩
    rw [if_pos rfl]
    exact ⟨_, .cons (served_of [] (ok := false) (by decide) (by simp) (by decide) (by decide))
        (.cons (served_of [] (ok := false) (by decide) (by simp) (by decide) (by decide))
        (.cons (served_of [] (ok := false) (by decide) (by simp) (by decide) (by decide)) (.nil _))), 0, true,
        served_of Ex.cycle (by decide) (Ex.background_cycle _) (by decide) (by decide)⟩
  have := hall Ex.noEnv [] (fun _ => true) true true ["controller_manager", "reload-libraries", "--restore"] _ 0
    [.restore true, .reloaded, .restored] m' (Ex.reachable_after Ex.rosUp_running) (by decide)
    ⟨rfl, true, hr, by simp⟩ (by simp)
  rw [e] at this
  exact absurd this (by decide)

/-- **The exit code does not tell.** It is 0 though the controller could not be loaded. -/
theorem c104_code_negation : ¬ CodeTells checkForConflict := by
  intro hall
  refine hall Ex.noEnv [] (fun _ => true) true true ["controller_manager", "load", "a"]
    Mgr.init 0 [.loadError "a"] _ ⟨[], by simp, rfl⟩ rfl ⟨rfl, .cons (ok := false) (a := .load "a")
      (served_of [] (by decide) (by simp) (by decide) (by decide)) (.nil _)⟩ ⟨.loadError "a", List.mem_singleton.2 rfl, trivial⟩ rfl

/-- **What the spawner logs when it ends is not always true.** It logs "Succeeded in unloading" though the controller
goes on running: the answers of the manager are ignored. -/
theorem c104_log_negation : ¬ LogIsTrue checkForConflict := by
  intro hall
  apply c54_cleanup_negation
  intro env stopped prepOk controllers m0 loaded m1 ops m3 h0 hsp hops hsd n hn
  have h1 : Reachable checkForConflict m1 := by
    obtain ⟨ma, hl, hs⟩ := hsp
    have := (loads_listing hl h0).1
    split at hs
    · rw [hs]; exact this
    · obtain ⟨_, _, hs⟩ := hs; exact hs.reachable this
  exact hall loaded _ m3 (reachable_run h1 hops) hsd (.succeeded n)
    (List.mem_flatMap.2 ⟨n, List.mem_reverse.2 hn, by simp⟩)

end Verif
