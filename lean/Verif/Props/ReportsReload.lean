import Verif.Props.Reports

/-!
C104: the whole output of `controller_manager reload-libraries`.
-/

namespace Verif

open Clients

/-- **C104, the output of a reload.** `controller_manager reload-libraries` first writes whether it will restore the
controllers, then whether the libraries were reloaded, which is so exactly if nothing was loaded or everything could be
stopped and unloaded, and, if asked to restore, at last that it restored them; nothing else. -/
theorem c104_reload_output {conf errors env types prep pa pb prog rest code lines} {m m' : Mgr} (h : Reachable conf m)
    (hi : m.svc = .idle)
    (ht : ToolPrints conf errors env types prep pa pb (prog :: "reload-libraries" :: rest) m code lines m') :
    code = 0 ∧ output lines =
      (if "--restore" ∈ rest then "Restore: True\n" else "Restore: False\n") ++
      (if m.listControllers = [] ∨ pa = true ∧ conf [] = false then "Successfully reloaded libraries\n"
        else "Failed to reload libraries. Do you still have controllers loaded?\n") ++
      (if "--restore" ∈ rest then "Controllers restored to original state\n" else "") := by
  obtain ⟨e, -, -, -⟩ := c104_reload h hi ht
  obtain ⟨hc, r, -, hl⟩ : code = 0 ∧ ∃ result,
        ReloadLibraries conf errors env true (decide ("--restore" ∈ rest)) pa pb m result m' ∧
        lines = [Line.restore (decide ("--restore" ∈ rest)), if result then Line.reloaded else Line.notReloaded] ++
          (if "--restore" ∈ rest then [Line.restored] else []) := ht
  refine ⟨hc, ?_⟩
  have hr : Line.reloaded ∈ lines ↔ r = true := by
    rw [hl]
    by_cases hh : "--restore" ∈ rest <;> cases r <;> simp [hh]
  simp only [← e, hr]
  rw [hl]
  by_cases hh : "--restore" ∈ rest <;> cases r <;> simp only [hh, decide_true, decide_false, if_true, if_false] <;>
    decide +kernel

/-- Two controllers run and one is loaded: the libraries are reloaded, the controllers restored, and the output says so. -/
example : ∃ m' lines, ToolPrints checkForConflict false Ex.envOf [] (fun _ => true) true true
      ["controller_manager", "reload-libraries", "--restore"] (Ex.after Ex.running) 0 lines m' ∧
    (Ex.after Ex.running).listControllers ≠ [] ∧
    output lines = "Restore: True\nSuccessfully reloaded libraries\nControllers restored to original state\n" := by
  obtain ⟨m', hr, -⟩ := Ex.restored
  have ht : ToolPrints checkForConflict false Ex.envOf [] (fun _ => true) true true
      ["controller_manager", "reload-libraries", "--restore"] (Ex.after Ex.running) 0
      [.restore true, .reloaded, .restored] m' := ⟨rfl, true, hr, by simp⟩
  refine ⟨m', _, ht, by decide, ?_⟩
  rw [(c104_reload_output (Ex.reachable_after Ex.rosUp_running) (by decide) ht).2]
  decide +kernel

end Verif
