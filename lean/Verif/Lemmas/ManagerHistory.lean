import Verif.Lemmas.ManagerWindow
import Mathlib.Data.List.Induction

/-!
Helper lemmas for the manager: where a loaded controller comes from.
-/

namespace Verif

namespace Mgr

/-- A controller that is new in the list was put there by a load of its name. -/
theorem step_new {conf P} {m : Mgr} (h : Inv P m) (op : Op) {s : CtrlSpec}
    (hs : s ∈ (m.step conf op).cur) (hn : s ∉ m.cur) :
    ∃ env, op = .load s.info.name env ∧ m.svc = .idle ∧ env.type = some s.info.type ∧
      env.init = some s.info.claimed ∧ s.c = m.nextId ∧ (∀ t ∈ m.cur, t.info.name ≠ s.info.name) ∧
      (m.step conf op).state s.c = .initialized := by
  have keep : ∀ m' : Mgr, List.Sublist m'.cur m.cur → s ∈ m'.cur → False :=
    fun m' h1 h2 => hn (h1.subset h2)
  cases op with
  | update t r hw =>
    exfalso; refine keep (m.update t r hw) ?_ hs
    rw [(update_cur h t r hw).1]
  | load n e =>
    change s ∈ (m.load n e).cur at hs
    by_cases hi : m.svc = .idle
    swap
    · exfalso; simp [load, hi] at hs; exact hn hs
    by_cases hu : m.used = some (!m.current)
    · exfalso; simp [load, hi, hu] at hs; exact hn hs
    rcases load_cases m n e hi hu with ⟨ty, i, cl, h1, _, h3, _, h5, e'⟩ | ⟨_, o, _, e'⟩
    · rw [e'] at hs
      rcases List.mem_append.1 hs with hs | hs
      · exact absurd hs hn
      · have := List.mem_singleton.1 hs
        subst this
        refine ⟨e, rfl, hi, h3, h5, rfl, h1, ?_⟩
        show (m.load n e).state _ = _
        rw [e']; simp [loaded]
    · rw [e'] at hs; exact absurd hs hn
  | unload n =>
    exfalso
    change s ∈ (m.unload n).cur at hs
    unfold unload at hs
    split at hs
    · exact hn hs
    · rename_i hi
      have hi : m.svc = .idle := by simpa using hi
      rcases unloadCore_cases m n .ret id (h.used (not_releasing_of_idle hi)) with ⟨_, h2, e⟩ | ⟨_, e⟩
      · rw [e] at hs; exact keep _ List.filter_sublist hs
      · rw [e] at hs; exact hn hs
  | switch r now p =>
    exfalso
    change s ∈ (m.switch conf r now p).cur at hs
    unfold switch at hs
    split at hs
    · exact hn hs
    · rename_i hi
      rw [(switchCore_cur (conf := conf) h (by simpa using hi) r now p .ret).1] at hs
      exact hn hs
  | reload f now p =>
    exfalso
    change s ∈ (m.reload conf f now p).cur at hs
    rw [(reload_cur (conf := conf) h f now p).1] at hs
    exact hn hs
  | poll ok e =>
    exfalso
    exact keep _ (poll_cur h ok e).1 hs

/-- Every loaded controller was created by a load in the history and has been loaded ever since. -/
theorem loaded_since {conf} (ops : List Op) (hops : ∀ op ∈ ops, op.rosUp) {s : CtrlSpec}
    (hs : s ∈ (Mgr.init.run conf ops).cur) :
    ∃ ops1 env ops2, ops = ops1 ++ .load s.info.name env :: ops2 ∧
      env.type = some s.info.type ∧ env.init = some s.info.claimed ∧
      s.c = (Mgr.init.run conf ops1).nextId ∧
      (∀ t ∈ (Mgr.init.run conf ops1).cur, t.info.name ≠ s.info.name) ∧
      ∀ pre, pre <+: ops2 → s ∈ (Mgr.init.run conf (ops1 ++ .load s.info.name env :: pre)).cur := by
  induction ops using List.reverseRecOn with
  | nil => simp [run, Mgr.init] at hs
  | append_singleton ops op ih =>
    have hops' : ∀ o ∈ ops, o.rosUp := fun o ho => hops o (by simp [ho])
    have hinv : Inv (fun _ => True) (Mgr.init.run conf ops) :=
      inv_run (checkOk_true conf) (inv_init trivial) ops hops'
    rw [run_append] at hs
    by_cases hm : s ∈ (Mgr.init.run conf ops).cur
    · obtain ⟨ops1, env, ops2, h1, h2, h3, h4, h5, h6⟩ := ih hops' hm
      refine ⟨ops1, env, ops2 ++ [op], by rw [h1]; simp, h2, h3, h4, h5, ?_⟩
      intro pre hpre
      rcases List.prefix_concat_iff.1 hpre with rfl | hpre
      · have : ops1 ++ Op.load s.info.name env :: (ops2 ++ [op]) = ops ++ [op] := by rw [h1]; simp
        rw [this, run_append]; exact hs
      · exact h6 pre hpre
    · obtain ⟨env, h1, _, h3, h4, h5, h6, _⟩ := step_new (conf := conf) hinv op hs hm
      refine ⟨ops, env, [], by rw [h1], h3, h4, h5, h6, ?_⟩
      intro pre hpre
      rw [List.prefix_nil.1 hpre, ← h1, run_append]; exact hs

end Mgr

end Verif
