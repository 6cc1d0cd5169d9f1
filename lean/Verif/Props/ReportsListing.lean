import Verif.Props.Reports
import Verif.Props.ReportsText

/-!
C104: from the output of `controller_manager list` one can tell the listing.
-/

namespace Verif

open Mgr Spec Clients

theorem cut_at {c : Char} {l l' r r' : List Char} (h : c ∉ l) (h' : c ∉ l') (e : l ++ c :: r = l' ++ c :: r') :
    l = l' ∧ r = r' := by
  induction l generalizing l' with
  | nil =>
    cases l' with
    | nil => exact ⟨rfl, by simpa using e⟩
    | cons d t => simp only [List.nil_append, List.cons_append, List.cons.injEq] at e; simp [← e.1] at h'
  | cons d t ih =>
    cases l' with
    | nil => simp only [List.nil_append, List.cons_append, List.cons.injEq] at e; simp [e.1] at h
    | cons d' t' =>
      simp only [List.cons_append, List.cons.injEq] at e
      simp only [List.mem_cons, not_or] at h h'
      obtain ⟨h1, h2⟩ := ih h.2 h'.2 e.2
      exact ⟨by rw [e.1, h1], h2⟩

/-- A name of an interface as it occurs in C++: not empty, without quotes and plus signs. -/
def PlainType (i : String) : Prop := i ≠ "" ∧ '\'' ∉ i.toList ∧ '+' ∉ i.toList

theorem joined_inj {is is' : List String} (h : ∀ i ∈ is, PlainType i) (h' : ∀ i ∈ is', PlainType i)
    (e : "+".intercalate is = "+".intercalate is') : is = is' := by
  have k := String.toList_split_intercalate (c := '+') (fun i hi => (h i hi).2.2)
  have k' := String.toList_split_intercalate (c := '+') (fun i hi => (h' i hi).2.2)
  have e1 : String.intercalate (String.singleton '+') is = String.intercalate (String.singleton '+') is' := e
  rw [e1, k'] at k
  by_cases hn : is = [] <;> by_cases hn' : is' = []
  · rw [hn, hn']
  · rw [if_pos hn, if_neg hn'] at k
    exact absurd rfl (h' "" (by rw [k]; simp)).1
  · rw [if_neg hn, if_pos hn'] at k
    exact absurd rfl (h "" (by rw [← k]; simp)).1
  · rw [if_neg hn, if_neg hn'] at k
    exact k.symm

theorem joined_plain {is : List String} (h : ∀ i ∈ is, PlainType i) : '\'' ∉ ("+".intercalate is).toList := by
  induction is with
  | nil => simp
  | cons i t ih =>
    cases t with
    | nil => simpa using (h i (by simp)).2.1
    | cons j t =>
      rw [String.intercalate_cons_cons]
      simp only [String.toList_append, List.mem_append, not_or]
      exact ⟨⟨(h i (by simp)).2.1, by decide⟩, ih fun k hk => h k (List.mem_cons_of_mem _ hk)⟩

theorem text_entry (n : String) (is : List String) (s : String) (r : List Char) :
    (Line.entry n is s).text.toList ++ r = '\'' :: (n.toList ++ '\'' :: (" - '".toList ++
      (("+".intercalate is).toList ++ '\'' :: (" ( ".toList ++ (s.toList ++ ' ' :: ')' :: r))))) := by
  show ("'" ++ n ++ "' - '" ++ "+".intercalate is ++ "' ( " ++ s ++ " )").toList ++ r = _
  simp only [String.toList_append, List.append_assoc]
  rfl

theorem output_cons (l : Line) (ls : List Line) : (output (l :: ls)).toList = l.text.toList ++ '\n' :: (output ls).toList := by
  show (String.join ((l.text ++ "\n") :: ls.map fun l => l.text ++ "\n")).toList = _
  rw [String.join_cons]
  simp only [String.toList_append, List.append_assoc]
  rfl

theorem listed_state {m : Mgr} {e : Entry} (h : e ∈ m.listControllers) : ' ' ∉ e.state.toList := by
  obtain ⟨s, -, rfl⟩ := List.mem_map.1 h
  show ' ' ∉ (Mgr.stateName (m.state s.c)).toList
  unfold Mgr.stateName
  repeat' split
  all_goals decide

/-- What `list` says about a controller. -/
abbrev Shows (e : Entry) (l : Line) : Prop := ∃ is, l = .entry e.name is e.state ∧ is.Nodup ∧
  ∀ i, i ∈ is ↔ ∃ r ∈ e.claimed, r.hardwareInterface = i

/-- The names in a listing are such that Python's output is not ambiguous. -/
def PlainEntry (e : Entry) : Prop := Plain e.name ∧ ∀ r ∈ e.claimed, PlainType r.hardwareInterface

/-- What can be told: the name, the state and the interfaces. -/
def SameShown (e e' : Entry) : Prop := e.name = e'.name ∧ e.state = e'.state ∧
  ∀ i, (∃ r ∈ e.claimed, r.hardwareInterface = i) ↔ ∃ r ∈ e'.claimed, r.hardwareInterface = i

theorem shown_inj {l l' : List Entry} {ls ls' : List Line} (h : List.Forall₂ Shows l ls) (h' : List.Forall₂ Shows l' ls')
    (hs : ∀ e ∈ l, ' ' ∉ e.state.toList) (hs' : ∀ e ∈ l', ' ' ∉ e.state.toList)
    (hp : ∀ e ∈ l, PlainEntry e) (hp' : ∀ e ∈ l', PlainEntry e)
    (ho : (output ls).toList = (output ls').toList) : List.Forall₂ SameShown l l' := by
  induction h generalizing l' ls' with
  | nil =>
    cases h' with
    | nil => exact .nil
    | cons a b =>
      rw [output_cons] at ho
      exact absurd ho.symm (by simp [output])
  | @cons e x l ls hx hl ih =>
    cases h' with
    | nil =>
      rw [output_cons] at ho
      exact absurd ho (by simp [output])
    | @cons e' x' l' ls' hx' hl' =>
      obtain ⟨is, rfl, -, hi⟩ := hx
      obtain ⟨is', rfl, -, hi'⟩ := hx'
      have hpe := hp e (by simp)
      have hpe' := hp' e' (by simp)
      have ht : ∀ i ∈ is, PlainType i := fun i hm => by
        obtain ⟨r, hr, rfl⟩ := (hi i).1 hm
        exact hpe.2 r hr
      have ht' : ∀ i ∈ is', PlainType i := fun i hm => by
        obtain ⟨r, hr, rfl⟩ := (hi' i).1 hm
        exact hpe'.2 r hr
      rw [output_cons, output_cons, text_entry, text_entry] at ho
      obtain ⟨e1, ho⟩ := cut_at hpe.1 hpe'.1 (List.cons.inj ho).2
      obtain ⟨e2, ho⟩ := cut_at (joined_plain ht) (joined_plain ht') (List.append_cancel_left ho)
      obtain ⟨e3, ho⟩ := cut_at (hs e (by simp)) (hs' e' (by simp)) (List.append_cancel_left ho)
      have ho := (List.cons.inj (List.cons.inj ho).2).2
      have e2 := joined_inj ht ht' (String.toList_inj.1 e2)
      refine .cons ⟨String.toList_inj.1 e1, String.toList_inj.1 e3, fun i => ?_⟩
        (ih hl' (fun e he => hs e (List.mem_cons_of_mem _ he)) (fun e he => hs' e (List.mem_cons_of_mem _ he))
          (fun e he => hp e (List.mem_cons_of_mem _ he)) (fun e he => hp' e (List.mem_cons_of_mem _ he)) ho)
      rw [← hi, ← hi', e2]

theorem shown_ne_none {e : Entry} {l : List Entry} {ls : List Line} (h : List.Forall₂ Shows (e :: l) ls) :
    output ls ≠ output [.noControllers] := by
  cases h with
  | cons hx _ =>
    obtain ⟨is, rfl, -⟩ := hx
    intro ho
    have ho := congrArg String.toList ho
    rw [output_cons, output_cons, text_entry] at ho
    exact absurd (List.cons.inj ho).1 (by decide)

/-- **C104, the listing can be told from the output.** If `controller_manager list` writes the same for two managers, or
for one at two times, the same controllers are listed in the same order and states, claiming the same interfaces. Names
with quotes, and interfaces with quotes or plus signs in their names, are left out. -/
theorem c104_list_text {conf conf' errors errors' env env' types types' prep prep' pa pa' pb pb' prog prog' cmd cmd'
      rest rest' code code' lines lines'} {m m' n n' : Mgr}
    (h : Reachable conf m) (hi : m.svc = .idle) (hc : cmd ∈ ["lc", "list"])
    (ht : ToolPrints conf errors env types prep pa pb (prog :: cmd :: rest) m code lines m')
    (h' : Reachable conf' n) (hi' : n.svc = .idle) (hc' : cmd' ∈ ["lc", "list"])
    (ht' : ToolPrints conf' errors' env' types' prep' pa' pb' (prog' :: cmd' :: rest') n code' lines' n')
    (hp : ∀ e ∈ m.listControllers, PlainEntry e) (hp' : ∀ e ∈ n.listControllers, PlainEntry e)
    (ho : output lines = output lines') : List.Forall₂ SameShown m.listControllers n.listControllers := by
  obtain ⟨-, a, b⟩ := c104_list h hi hc ht
  obtain ⟨-, a', b'⟩ := c104_list h' hi' hc' ht'
  by_cases hn : m.listControllers = [] <;> by_cases hn' : n.listControllers = []
  · rw [hn, hn']; exact .nil
  · rw [a hn] at ho
    have b' := b' hn'
    obtain ⟨e, l, hl⟩ := List.exists_cons_of_ne_nil hn'
    rw [hl] at b'
    exact absurd ho.symm (shown_ne_none b')
  · rw [a' hn'] at ho
    have b := b hn
    obtain ⟨e, l, hl⟩ := List.exists_cons_of_ne_nil hn
    rw [hl] at b
    exact absurd ho (shown_ne_none b)
  · exact shown_inj (b hn) (b' hn') (fun _ => listed_state) (fun _ => listed_state) hp hp' (congrArg String.toList ho)

/-- **C104, an empty listing.** The text that `list` writes tells that no controllers are loaded exactly if none are. -/
theorem c104_list_none {conf errors env types prep pa pb prog cmd rest code lines} {m m' : Mgr} (h : Reachable conf m)
    (hi : m.svc = .idle) (hc : cmd ∈ ["lc", "list"])
    (ht : ToolPrints conf errors env types prep pa pb (prog :: cmd :: rest) m code lines m') :
    output lines = "No controllers are loaded in mechanism control\n" ↔ m.listControllers = [] := by
  obtain ⟨-, a, b⟩ := c104_list h hi hc ht
  have e : output [.noControllers] = "No controllers are loaded in mechanism control\n" := by decide +kernel
  refine ⟨fun ho => ?_, fun hn => by rw [a hn, e]⟩
  by_contra hn
  have b := b hn
  obtain ⟨x, l, hl⟩ := List.exists_cons_of_ne_nil hn
  rw [hl] at b
  exact shown_ne_none b (ho.trans e.symm)

/-- A manager that was just started. -/
example : ToolPrints checkForConflict false Ex.envOf [] (fun _ => true) true true ["controller_manager", "list"]
    Mgr.init 0 [.noControllers] Mgr.init ∧ Reachable checkForConflict Mgr.init ∧ Mgr.init.svc = .idle :=
  ⟨Ex.lists rfl, ⟨[], by simp, rfl⟩, rfl⟩

/-- Three controllers, two of which run: what is written, and that the names are as required. -/
example : (∃ lines, ToolPrints checkForConflict false Ex.envOf [] (fun _ => true) true true ["controller_manager", "list"]
      (Ex.after Ex.running) 0 lines (Ex.after Ex.running) ∧
      output lines = "'a' - 'Pos' ( running )\n'b' - 'Pos' ( initialized )\n'c' - 'Pos' ( running )\n") ∧
    Reachable checkForConflict (Ex.after Ex.running) ∧ (Ex.after Ex.running).svc = .idle ∧
    ∀ e ∈ (Ex.after Ex.running).listControllers, PlainEntry e := by
  have e : (Ex.after Ex.running).listControllers = [⟨"a", "T", "running", [⟨"Pos", ["j1"]⟩]⟩,
    ⟨"b", "T", "initialized", [⟨"Pos", ["j1"]⟩]⟩, ⟨"c", "T", "running", [⟨"Pos", ["j2"]⟩]⟩] := by decide
  refine ⟨⟨[.entry "a" ["Pos"] "running", .entry "b" ["Pos"] "initialized", .entry "c" ["Pos"] "running"],
    Ex.lists ?_, by decide +kernel⟩, Ex.reachable_after Ex.rosUp_running, by decide, ?_⟩
  · rw [e]
    refine ⟨[["Pos"], ["Pos"], ["Pos"]], rfl, rfl, ?_⟩
    simp [eq_comm]
  · rw [e]
    unfold PlainEntry Plain PlainType
    decide +kernel

/-- With a quote in a name two controllers may look like one. -/
example : output [.entry "a" ["Pos"] "running", .entry "b" ["Pos"] "running"] =
    output [.entry "a' - 'Pos' ( running )\n'b" ["Pos"] "running"] := by decide +kernel

end Verif
