import Verif.Lemmas.ClientProgress
import Verif.Model.CommandLine
import Verif.Props.Clients
import Mathlib.Data.List.Dedup

/-!
Property C89: every service call is answered, so the client programs run to their end.
-/

namespace Verif

open Mgr Spec Clients

theorem Svc.serves.left_pos {s : Svc} {c : Call} (h : s.serves c) : 0 < s.left := by
  cases h <;> simp [Svc.left]

theorem round_progress {conf errors} {m : Mgr} (h : Inv (fun _ => True) m) {c : Call} (hs : m.svc.serves c)
    {ops : List Op} (hr : Round errors ops) :
    (∃ pre post, ops = pre ++ post ∧ (m.run conf pre).Answered c) ∨
      ((m.run conf ops).svc.serves c ∧ (m.run conf ops).svc.left < m.svc.left) := by
  obtain ⟨hb, a, t, reset, hw, b, ok, el, d, hset, rfl⟩ := hr
  have up : ∀ {l : List Op}, (∀ op ∈ l, op.background errors) → ∀ op ∈ l, op.rosUp :=
    fun hl op ho => Op.rosUp_of_background (hl op ho)
  have ha : ∀ op ∈ a, op.background errors := fun op ho => hb op (by simp [ho])
  have hu : (Op.update t reset hw).background errors := hb _ (by simp)
  have hb' : ∀ op ∈ b, op.background errors := fun op ho => hb op (by simp [ho])
  have hp : (Op.poll ok el).background errors := hb _ (by simp)
  have hd : ∀ op ∈ d, op.background errors := fun op ho => hb op (by simp [ho])
  have e : ∀ m : Mgr, m.run conf (a ++ .update t reset hw :: b ++ .poll ok el :: d) =
      ((((m.run conf a).update t reset hw).run conf b).poll ok el).run conf d := by
    intro m; rw [run_append, run_append]; rfl
  rcases run_progress h hs a ha with ⟨pre, post, rfl, hA⟩ | ⟨s1, l1, _⟩
  · exact Or.inl ⟨pre, post ++ .update t reset hw :: b ++ .poll ok el :: d, by simp, hA⟩
  have i1 := inv_run (checkOk_true conf) h a (up ha)
  have i2 := inv_step (checkOk_true conf) i1 (.update t reset hw) trivial
  have c2 := (update_cur i1 t reset hw).2.2.1
  have r2 := leaves_settled i1 t reset hset
  set m2 := (m.run conf a).update t reset hw with hm2
  have s2 : m2.svc.serves c := by rw [c2]; exact s1
  rcases run_progress (conf := conf) i2 s2 b hb' with ⟨pre, post, rfl, hA⟩ | ⟨s3, l3, q3⟩
  · refine Or.inl ⟨a ++ .update t reset hw :: pre, post ++ .poll ok el :: d, by simp, ?_⟩
    rw [run_append]; exact hA
  have i3 := inv_run (checkOk_true conf) i2 b (up hb')
  have key : (((m2.run conf b).poll ok el).Answered c) ∨
      (((m2.run conf b).poll ok el).svc.serves c ∧ ((m2.run conf b).poll ok el).svc.left < m2.svc.left) := by
    rcases poll_progress i3 s3 hp el with hA | ⟨s4, ⟨e4, n4⟩ | l4⟩
    · exact Or.inl hA
    · rcases q3 with q3 | q3
      · refine Or.inr ⟨s4, ?_⟩
        rw [show (m2.run conf b).poll ok el = m2.run conf b from e4]; exact q3
      · exact absurd (q3 r2) n4
    · exact Or.inr ⟨s4, lt_of_lt_of_le l4 l3⟩
  rcases key with hA | ⟨s4, l4⟩
  · refine Or.inl ⟨a ++ .update t reset hw :: b ++ [.poll ok el], d, by simp, ?_⟩
    rw [run_append, run_append]; exact hA
  have i4 := inv_step (checkOk_true conf) i3 (.poll ok el) hp
  rcases run_progress (conf := conf) i4 s4 d hd with ⟨pre, post, rfl, hA⟩ | ⟨s5, l5, _⟩
  · refine Or.inl ⟨a ++ .update t reset hw :: b ++ .poll ok el :: pre, post, by simp, ?_⟩
    rw [run_append, run_append]; exact hA
  · refine Or.inr ⟨by rw [e]; exact s5, ?_⟩
    rw [e]
    refine lt_of_le_of_lt l5 (lt_of_lt_of_le l4 ?_)
    rw [c2]; exact l1

theorem rounds_progress {conf errors} (rounds : List (List Op)) (hr : ∀ ops ∈ rounds, Round errors ops)
    {m : Mgr} (h : Inv (fun _ => True) m) {c : Call} (hs : m.svc.serves c)
    (hn : m.svc.left ≤ rounds.length) :
    ∃ pre post, rounds.flatten = pre ++ post ∧ (m.run conf pre).Answered c := by
  induction rounds generalizing m with
  | nil =>
    exfalso
    have : 0 < m.svc.left := hs.left_pos
    simp at hn; omega
  | cons ops rounds ih =>
    have hops := hr ops (by simp)
    rcases round_progress (conf := conf) h hs hops with ⟨pre, post, e, hA⟩ | ⟨s1, l1⟩
    · exact ⟨pre, post ++ rounds.flatten, by simp [e], hA⟩
    · obtain ⟨pre, post, e, hA⟩ := ih (fun o ho => hr o (by simp [ho]))
        (inv_run (checkOk_true conf) h ops fun op ho => Op.rosUp_of_background (hops.1 op ho)) s1
        (by simp at hn; omega)
      exact ⟨ops ++ pre, post, by simp [e], by rw [run_append]; exact hA⟩

/-- **C89, every call is answered.** Whatever the realtime thread and the service thread have done
before, a call of any service is answered after at most so many rounds of the background as
`roundsFor` says (one, except for the reload of the libraries): the answer comes before the last of them
is over. -/
theorem c89_answered {conf errors} {m : Mgr} (h : Reachable conf m) (hi : m.svc = .idle) (c : Call)
    {before : List Op} (hb : ∀ op ∈ before, op.background errors)
    {rounds : List (List Op)} (hr : ∀ ops ∈ rounds, Round errors ops)
    (hn : roundsFor m.listControllers c ≤ rounds.length) :
    ∃ pre post, rounds.flatten = pre ++ post ∧
      ∃ ok, Served conf errors m c ok (((m.run conf before).step conf c.op).run conf pre) := by
  have hv := inv_of_reachable h
  have hh := idle_run (conf := conf) hv hi before hb
  have hi1 : (m.run conf before).svc = .idle := hh.svc.trans hi
  have i1 := inv_run (checkOk_true conf) hv before fun op ho => Op.rosUp_of_background (hb op ho)
  have i2 := inv_step (checkOk_true conf) i1 c.op (by cases c <;> trivial)
  have hlen : (m.run conf before).cur.length = m.listControllers.length := by
    have := congrArg List.length (background_listing h hi hb).2.2
    simpa [listControllers] using this
  have bg : ∀ op ∈ rounds.flatten, op.background errors := by
    intro op ho
    obtain ⟨r, hr1, hr2⟩ := List.mem_flatten.1 ho
    exact (hr r hr1).1 op hr2
  rcases call_starts (conf := conf) i1 hi1 c with hA | ⟨s1, l1⟩
  · obtain ⟨h1, ok, h2⟩ := hA
    exact ⟨[], rounds.flatten, rfl, ok, hi, before, [], hb, by simp, rfl, h1, h2⟩
  · obtain ⟨pre, post, e, h1, ok, h2⟩ := rounds_progress (conf := conf) rounds hr i2 s1 (by
      refine le_trans l1 (le_trans ?_ hn)
      cases c <;> simp [roundsFor, hlen])
    exact ⟨pre, post, e, ok, hi, before, pre, hb, fun op ho => bg op (by rw [e]; simp [ho]), rfl, h1, h2⟩

theorem switching_run {conf errors} {m : Mgr} (h : Inv (fun _ => True) m) {t : Int}
    (hs : m.svc = .switching .ret t) (r : SwitchReq) (now : Int) (p : Bool) (ops : List Op)
    (hops : ∀ op ∈ ops, op.background errors) :
    (∃ pre post, ops = pre ++ post ∧ (m.run conf pre).Answered (.switch r now p)) ∨
      (m.run conf ops).svc = .switching .ret t := by
  induction ops generalizing m with
  | nil => exact Or.inr hs
  | cons op ops ih =>
    have hb := hops op (by simp)
    have hi := inv_step (checkOk_true conf) h op (Op.rosUp_of_background hb)
    have step : (m.step conf op).Answered (.switch r now p) ∨ (m.step conf op).svc = .switching .ret t := by
      cases op with
      | update t' r' hw => exact Or.inr ((update_cur h t' r' hw).2.2.1.trans hs)
      | poll ok el =>
        rcases poll_progress h (c := .switch r now p) (by rw [hs]; constructor) hb el with
          h1 | ⟨h1, ⟨h2, _⟩ | h2⟩
        · exact Or.inl h1
        · refine Or.inr ?_
          show (m.poll ok el).svc = _
          rw [h2]; exact hs
        · exfalso
          rw [show m.svc.left = 1 by rw [hs]; rfl] at h2
          have : 0 < (m.poll ok el).svc.left := h1.left_pos
          omega
      | load n e => cases hb
      | unload n => cases hb
      | switch r now p => cases hb
      | reload f now p => cases hb
    rcases step with hA | hs'
    · exact Or.inl ⟨[op], ops, rfl, hA⟩
    · rcases ih hi hs' (fun o ho => hops o (by simp [ho])) with ⟨pre, post, e, hA⟩ | h1
      · exact Or.inl ⟨op :: pre, post, by rw [e]; rfl, hA⟩
      · exact Or.inr h1

theorem switch_svc {conf} {m : Mgr} (hi : m.svc = .idle) (r : SwitchReq) (now : Int) (p : Bool) :
    (m.switch conf r now p).svc = .idle ∨ ((m.switch conf r now p).svc = .switching .ret r.timeout ∧
      (m.switch conf r now p).params.asap = r.asap ∧ (m.switch conf r now p).params.timeout = r.timeout ∧
      (m.switch conf r now p).params.doSwitch = true) := by
  unfold switch
  rw [if_neg (by simp [hi])]
  unfold switchCore
  simp only
  generalize (if r.strictness = 0 then strictnessBestEffort else r.strictness) = q
  repeat' split
  all_goals first
    | exact Or.inl hi
    | exact Or.inr ⟨rfl, rfl, rfl, rfl⟩

/-- **C89, a switch with a timeout** is answered even if the realtime thread stands still or the hardware
never comes to a result: as soon as the service thread looks at the clock more than a second after
the timeout, at the latest. -/
theorem c89_timeout {conf errors} {m : Mgr} (h : Reachable conf m) (hi : m.svc = .idle) {r : SwitchReq}
    (ht : r.timeout ≠ 0) (now : Int) (p : Bool) {during : List Op}
    (hd : ∀ op ∈ during, op.background errors) {el : Int} (hel : r.timeout + 1000000000 ≤ el) :
    ∃ pre post, during ++ [.poll {} el] = pre ++ post ∧
      ∃ ok, Served conf errors m (.switch r now p) ok ((m.step conf (.switch r now p)).run conf pre) := by
  have hv := inv_of_reachable h
  have bg : ∀ op ∈ during ++ [.poll {} el], op.background errors := by
    intro op ho
    rcases List.mem_append.1 ho with ho | ho
    · exact hd op ho
    · cases List.mem_singleton.1 ho; exact ⟨rfl, rfl⟩
  have fin : ∀ pre post, during ++ [.poll {} el] = pre ++ post →
      ((m.step conf (.switch r now p)).run conf pre).Answered (.switch r now p) →
      ∃ pre post, during ++ [.poll {} el] = pre ++ post ∧
        ∃ ok, Served conf errors m (.switch r now p) ok ((m.step conf (.switch r now p)).run conf pre) := by
    rintro pre post e ⟨h1, ok, h2⟩
    exact ⟨pre, post, e, ok, hi, [], pre, by simp, fun op ho => bg op (by rw [e]; simp [ho]), rfl, h1, h2⟩
  rcases call_starts (conf := conf) hv hi (.switch r now p) with hA | ⟨s1, _⟩
  · exact fin [] _ rfl hA
  have s2 : (m.step conf (.switch r now p)).svc = .switching .ret r.timeout := by
    rcases switch_svc (conf := conf) hi r now p with e | e
    · exfalso
      change (m.switch conf r now p).svc.serves _ at s1
      rw [e] at s1; cases s1
    · exact e.1
  have i2 := inv_step (checkOk_true conf) hv (.switch r now p) trivial
  rcases switching_run i2 s2 r now p during hd with ⟨pre, post, e, hA⟩ | s3
  · exact fin pre (post ++ [.poll {} el]) (by rw [e]; simp) hA
  · refine fin (during ++ [.poll {} el]) [] (by simp) ?_
    rw [run_append]
    show (poll _ _ _).Answered _
    unfold poll
    rw [s3]
    simp only [Bool.true_and, Bool.not_true, Bool.false_eq_true, if_false]
    split
    · rw [if_neg (by
          have : second = 1000000000 := rfl
          simp [ht]; omega)]
      exact ⟨rfl, false, by simp [finish, emit, Call.answer]⟩
    · exact ⟨rfl, true, by simp [finish, emit, Call.answer]⟩

/-- **C89, the rounds are needed for a switch.** A switch without timeout (and without `start_asap`) that is
accepted is not answered as long as the hardware reports neither that it is done nor an error. -/
theorem c89_unsettled {conf errors} {m : Mgr} (h : Reachable conf m) (hi : m.svc = .idle) {r : SwitchReq}
    (ht : r.timeout = 0) (ha : r.asap = false) (now : Int) (p : Bool)
    (hacc : (m.step conf (.switch r now p)).svc ≠ .idle) {during : List Op}
    (hd : ∀ op ∈ during, op.background errors)
    (hu : ∀ t reset hw, .update t reset hw ∈ during → hw.first ≠ .done ∧ hw.second ≠ .error) :
    ((m.step conf (.switch r now p)).run conf during).svc ≠ .idle := by
  have i2 := inv_step (checkOk_true conf) (inv_of_reachable h) (.switch r now p) trivial
  obtain ⟨s, a, t, d⟩ := (switch_svc (conf := conf) hi r now p).resolve_left hacc
  suffices key : ∀ (ops : List Op) (m : Mgr), Inv (fun _ => True) m → m.svc = .switching .ret 0 →
      m.params.asap = false → m.params.timeout = 0 → m.params.doSwitch = true →
      (∀ op ∈ ops, op.background errors) →
      (∀ t reset hw, .update t reset hw ∈ ops → hw.first ≠ .done ∧ hw.second ≠ .error) →
      (m.run conf ops).svc ≠ .idle from
    key during _ i2 (ht ▸ s) (a.trans ha) (t.trans ht) d hd hu
  clear s a t d i2 hacc hu hd
  intro ops
  induction ops with
  | nil => intro m _ hs _ _ _ _ _; show m.svc ≠ _; rw [hs]; simp
  | cons op ops ih =>
    intro m hv hs ha ht hd hb hu
    have hb0 := hb op (by simp)
    have hv' := inv_step (checkOk_true conf) hv op (Op.rosUp_of_background hb0)
    rw [run_cons]
    have next := fun a b c d => ih (m.step conf op) hv' a b c d (fun o ho => hb o (by simp [ho]))
      (fun t r hw ho => hu t r hw (by simp [ho]))
    cases op with
    | update t reset hw =>
      obtain ⟨f1, f2⟩ := hu t reset hw (by simp)
      have ss := sameSwitch_update hv t reset hw
      refine next (ss.svc.trans hs) (ss.asap.trans ha) (ss.timeout.trans ht) ?_
      obtain ⟨st, es, d, h0, he, ho⟩ := update_switch m hv.sane hd t reset hw
      show (m.update t reset hw).params.doSwitch = true
      rw [he]
      show d = true
      have ha' : m.atStart.params.asap = false := ha
      have hto : timedOut m.atStart.params t = false := by
        unfold timedOut
        have : m.atStart.params.timeout = 0 := ht
        rw [this]; simp
      unfold startPure at h0
      rw [if_neg (by simp [ha']), if_neg f1, if_neg (by simp [f2, hto])] at h0
      exact (congrArg (fun q => q.2.2) h0).symm
    | poll ok el =>
      have e : m.poll ok el = m := by
        unfold poll
        rw [hs]
        simp [hb0.1, hb0.2, hd]
      rw [show m.step conf (.poll ok el) = m from e]
      exact ih m hv hs ha ht hd (fun o ho => hb o (by simp [ho])) (fun t r hw ho => hu t r hw (by simp [ho]))
    | load n e => cases hb0
    | unload n => cases hb0
    | switch r now p => cases hb0
    | reload f now p => cases hb0

/-- **C89, the rounds are needed for loading and unloading.** If the realtime thread has run since the manager
was created (`m` is idle, and an update happened), then a load or unload that is not answered at once is not
answered before the next update. -/
theorem c89_no_update {conf errors} {m : Mgr} (h : Reachable conf m) (hi : m.svc = .idle) (t : Int) (reset : Bool)
    (hw : HwReply) {c : Call} (hc : (∃ n env, c = .load n env) ∨ ∃ n, c = .unload n)
    (hn : ((m.update t reset hw).step conf c.op).svc ≠ .idle) {during : List Op}
    (hd : ∀ op ∈ during, op.background errors) (hu : ∀ t reset hw, .update t reset hw ∉ during) :
    (((m.update t reset hw).step conf c.op).run conf during).svc ≠ .idle := by
  have hv := inv_of_reachable h
  have used : (m.update t reset hw).used = some m.current ∧ (m.update t reset hw).current = m.current := by
    cases hd : m.params.doSwitch
    · rw [update_idle m hd]; exact ⟨rfl, rfl⟩
    · obtain ⟨st, es, d, h0, he, ho⟩ := update_switch m hv.sane hd t reset hw
      rw [he]; exact ⟨rfl, rfl⟩
  have hi' : (m.update t reset hw).svc = .idle := (update_cur hv t reset hw).2.2.1.trans hi
  generalize m.update t reset hw = m1 at *
  obtain ⟨f, q, hs, hused⟩ : ∃ f q, (m1.step conf c.op).svc = .releasing f q ∧
      (m1.step conf c.op).used = some f := by
    rcases hc with ⟨n, env, rfl⟩ | ⟨n, rfl⟩
    · change (m1.load n env).svc ≠ _ at hn
      show ∃ f q, (m1.load n env).svc = _ ∧ (m1.load n env).used = _
      unfold load at hn ⊢
      rw [if_neg (by simp [hi']), if_neg (by rw [used.1, used.2]; simp)] at hn ⊢
      simp only at hn ⊢
      split at hn
      · exact absurd hi' hn
      · split at hn
        · exact absurd hi' hn
        · split at hn
          · exact absurd hi' hn
          · split at hn
            · exact absurd hi' hn
            · split at hn
              · exact absurd hi' hn
              · split
                · contradiction
                · exact ⟨_, _, rfl, by rw [used.2]; exact used.1⟩
    · change (m1.unload n).svc ≠ _ at hn
      show ∃ f q, (m1.unload n).svc = _ ∧ (m1.unload n).used = _
      unfold unload unloadCore at hn ⊢
      rw [if_neg (by simp [hi']), if_neg (by rw [used.1, used.2]; simp)] at hn ⊢
      split at hn
      · exact absurd hi' hn
      · split at hn
        · exact absurd hi' hn
        · split
          · contradiction
          · exact ⟨_, _, rfl, by rw [used.2]; exact used.1⟩
  generalize m1.step conf c.op = m2 at *
  clear hn
  induction during with
  | nil => show m2.svc ≠ _; rw [hs]; simp
  | cons op ops ih =>
    have hb0 := hd op (by simp)
    cases op with
    | update t reset hw => exact absurd (by simp) (hu t reset hw)
    | poll ok el =>
      have e : m2.poll ok el = m2 := by
        unfold poll
        rw [hs]
        simp [hb0.1, hb0.2, hused]
      rw [run_cons, show m2.step conf (.poll ok el) = m2 from e]
      exact ih (fun o ho => hd o (by simp [ho])) (fun t r hw ho => hu t r hw (by simp [ho]))
    | load n e => cases hb0
    | unload n => cases hb0
    | switch r now p => cases hb0
    | reload f now p => cases hb0

/-! ### The client programs run to their end -/

/-- The rounds of the examples. -/
theorem Ex.round_cycle (errors : Bool) : Round errors Ex.cycle :=
  ⟨Ex.background_cycle errors, [], 0, false, Ex.hw .done, [], {}, 0, [],
    ⟨Or.inl rfl, fun _ _ => Or.inl rfl⟩, rfl⟩

/-- A manager that no call is being made to. -/
def Free (conf : List ControllerInfo → Bool) (m : Mgr) : Prop := Reachable conf m ∧ m.svc = .idle

theorem can_serve {conf} (errors : Bool) {m : Mgr} (h : Free conf m) (c : Call) :
    ∃ ok m', Served conf errors m c ok m' ∧ Free conf m' := by
  obtain ⟨pre, post, e, ok, hs⟩ := c89_answered (errors := errors) h.1 h.2 c (before := []) (by simp)
    (rounds := List.replicate (roundsFor m.listControllers c) Ex.cycle)
    (fun ops ho => by rw [List.eq_of_mem_replicate ho]; exact Ex.round_cycle errors) (by simp)
  exact ⟨ok, _, hs, hs.reachable h.1, by obtain ⟨_, _, _, _, _, _, hi, _⟩ := hs; exact hi⟩

theorem can_load {conf} (errors : Bool) (env : String → LoadEnv) (ns : List String) {m : Mgr}
    (h : Free conf m) : ∃ l m', Loads conf errors env ns m l m' ∧ Free conf m' := by
  induction ns generalizing m with
  | nil => exact ⟨[], m, .nil m, h⟩
  | cons n ns ih =>
    obtain ⟨ok, m1, h1, f1⟩ := can_serve errors h (.load n (env n))
    obtain ⟨l, m2, h2, f2⟩ := ih f1
    cases ok
    · exact ⟨l, m2, .failed h1 h2, f2⟩
    · exact ⟨n :: l, m2, .ok h1 h2, f2⟩

theorem can_loadAll {conf} (errors : Bool) (env : String → LoadEnv) (ns : List String) {m : Mgr}
    (h : Free conf m) : ∃ m', LoadAll conf errors env ns m m' ∧ Free conf m' := by
  induction ns generalizing m with
  | nil => exact ⟨m, .nil m, h⟩
  | cons n ns ih =>
    obtain ⟨ok, m1, h1, f1⟩ := can_serve errors h (.load n (env n))
    obtain ⟨m2, h2, f2⟩ := ih f1
    exact ⟨m2, .cons h1 h2, f2⟩

theorem can_unload {conf} (errors : Bool) (ns : List String) {m : Mgr}
    (h : Free conf m) : ∃ m', Unloads conf errors ns m m' ∧ Free conf m' := by
  induction ns generalizing m with
  | nil => exact ⟨m, .nil m, h⟩
  | cons n ns ih =>
    obtain ⟨ok, m1, h1, f1⟩ := can_serve errors h (.unload n)
    obtain ⟨m2, h2, f2⟩ := ih f1
    exact ⟨m2, .cons h1 h2, f2⟩

theorem can_startStop {conf} (errors : Bool) (start stop : List String) (prepOk : Bool) {m : Mgr}
    (h : Free conf m) : ∃ ok m', StartStop conf errors start stop prepOk m ok m' ∧ Free conf m' := by
  obtain ⟨ok, m1, h1, f1⟩ := can_serve errors h (.switch ⟨start, stop, strictnessStrict, false, 0⟩ 0 prepOk)
  exact ⟨ok, m1, ⟨0, h1⟩, f1⟩

theorem can_starts {conf} (errors : Bool) (prep : String → Bool) (ns : List String) {m : Mgr}
    (h : Free conf m) : ∃ m', Starts conf errors prep ns m m' ∧ Free conf m' := by
  induction ns generalizing m with
  | nil => exact ⟨m, .nil m, h⟩
  | cons n ns ih =>
    obtain ⟨ok, m1, h1, f1⟩ := can_startStop errors [n] [] (prep n) h
    obtain ⟨m2, h2, f2⟩ := ih f1
    exact ⟨m2, .cons h1 h2, f2⟩

theorem can_stops {conf} (errors : Bool) (prep : String → Bool) (ns : List String) {m : Mgr}
    (h : Free conf m) : ∃ m', Stops conf errors prep ns m m' ∧ Free conf m' := by
  induction ns generalizing m with
  | nil => exact ⟨m, .nil m, h⟩
  | cons n ns ih =>
    obtain ⟨ok, m1, h1, f1⟩ := can_startStop errors [] [n] (prep n) h
    obtain ⟨m2, h2, f2⟩ := ih f1
    exact ⟨m2, .cons h1 h2, f2⟩

theorem can_startEach {conf} (errors : Bool) (ns : List String) {m : Mgr}
    (h : Free conf m) : ∃ m', StartEach conf errors ns m m' ∧ Free conf m' := by
  induction ns generalizing m with
  | nil => exact ⟨m, .nil m, h⟩
  | cons n ns ih =>
    obtain ⟨ok, m1, h1, f1⟩ := can_startStop errors [n] [] true h
    obtain ⟨m2, h2, f2⟩ := ih f1
    exact ⟨m2, .cons h1 h2, f2⟩

theorem can_loadMissing {conf} (errors : Bool) (env : String → LoadEnv) (known ns : List String) {m : Mgr}
    (h : Free conf m) : ∃ ok m', LoadMissing conf errors env known ns m ok m' ∧ Free conf m' := by
  induction ns generalizing m with
  | nil => exact ⟨true, m, .nil m, h⟩
  | cons n ns ih =>
    by_cases hk : n ∈ known
    · obtain ⟨ok, m2, h2, f2⟩ := ih h
      exact ⟨ok, m2, .known hk h2, f2⟩
    · obtain ⟨ok, m1, h1, f1⟩ := can_serve errors h (.load n (env n))
      cases ok
      · exact ⟨false, m1, .cancel hk h1, f1⟩
      · obtain ⟨ok, m2, h2, f2⟩ := ih f1
        exact ⟨ok, m2, .loaded hk h1 h2, f2⟩

/-- **C89, spawner.** The spawner gets through loading and starting, and its shutdown through stopping and
unloading, whatever it is asked for and whatever the answers are. -/
theorem c89_spawner {conf} (errors : Bool) (env : String → LoadEnv) (stopped prepOk prepOk' : Bool)
    (controllers : List String) {m : Mgr} (h : Reachable conf m) (hi : m.svc = .idle) :
    ∃ loaded m1 m2, Spawns conf errors env stopped prepOk controllers m loaded m1 ∧
      Shutdown conf errors loaded prepOk' m1 m2 := by
  have sd : ∀ l m, Free conf m → ∃ m2, Shutdown conf errors l prepOk' m m2 := by
    intro l m f
    obtain ⟨ok, m1, h1, f1⟩ := can_serve errors f (.switch ⟨[], l, strictnessStrict, false, 0⟩ 0 prepOk')
    obtain ⟨m2, h2, _⟩ := can_unload errors l.reverse f1
    exact ⟨m2, 0, ok, m1, h1, h2⟩
  obtain ⟨l, m1, h1, f1⟩ := can_load errors env controllers ⟨h, hi⟩
  cases stopped
  · obtain ⟨ok, m2, h2, f2⟩ := can_serve errors f1 (.switch ⟨l, [], strictnessStrict, false, 0⟩ 0 prepOk)
    obtain ⟨m3, h3⟩ := sd l m2 f2
    exact ⟨l, m2, m3, ⟨m1, h1, 0, ok, h2⟩, h3⟩
  · obtain ⟨m3, h3⟩ := sd l m1 f1
    exact ⟨l, m1, m3, ⟨m1, h1, rfl⟩, h3⟩

/-- **C89, command line tool.** The tool gets through every command. -/
theorem c89_tool {conf} (errors : Bool) (env : String → LoadEnv) (prep : String → Bool) (prepOk prepOk' : Bool)
    (args : List String) {m : Mgr} (h : Reachable conf m) (hi : m.svc = .idle) :
    ∃ code m', Tool conf errors env prep prepOk prepOk' args m code m' := by
  have f : Free conf m := ⟨h, hi⟩
  match args with
  | [] => exact ⟨0, m, rfl, rfl⟩
  | [_] => exact ⟨0, m, rfl, rfl⟩
  | _ :: cmd :: rest =>
    simp only [Tool]
    split
    · exact ⟨0, m, rfl, [], by simp, rfl⟩
    split
    · obtain ⟨ok, m1, h1, f1⟩ := can_serve errors f (.reload true 0 prepOk)
      by_cases hr : "--restore" ∈ rest
      · obtain ⟨m2, h2, f2⟩ := can_loadAll errors env (m.listControllers.map (·.name)) f1
        obtain ⟨ok', m3, h3, f3⟩ := can_serve errors f2
          (.switch ⟨(m.listControllers.filter (·.state = "running")).map (·.name), [],
            strictnessBestEffort, false, 0⟩ 0 prepOk')
        refine ⟨0, m3, rfl, ok, [], by simp, _, rfl, 0, m1, h1, ?_⟩
        rw [if_pos (decide_eq_true hr)]
        exact ⟨m2, h2, 0, ok', h3⟩
      · refine ⟨0, m1, rfl, ok, [], by simp, _, rfl, 0, m1, h1, ?_⟩
        rw [if_neg (by simp [hr])]
    split
    · obtain ⟨m', h', _⟩ := can_loadAll errors env rest f; exact ⟨0, m', rfl, h'⟩
    split
    · obtain ⟨m', h', _⟩ := can_unload errors rest f; exact ⟨0, m', rfl, h'⟩
    split
    · obtain ⟨m', h', _⟩ := can_starts errors prep rest f; exact ⟨0, m', rfl, h'⟩
    split
    · obtain ⟨m', h', _⟩ := can_stops errors prep rest f; exact ⟨0, m', rfl, h'⟩
    split
    · obtain ⟨m1, h1, f1⟩ := can_loadAll errors env rest f
      obtain ⟨m2, h2, _⟩ := can_starts errors prep rest f1
      exact ⟨0, m2, rfl, m1, h1, h2⟩
    split
    · obtain ⟨m1, h1, f1⟩ := can_stops errors prep rest f
      obtain ⟨m2, h2, _⟩ := can_unload errors rest f1
      exact ⟨0, m2, rfl, m1, h1, h2⟩
    · exact ⟨1, m, rfl, rfl⟩

/-- **C89, unspawner.** The unspawner gets through stopping, and through the restart at its end. -/
theorem c89_unspawner {conf} (errors : Bool) (toInhibit inhibited : List String) (prepOk prepOk' : Bool)
    {m : Mgr} (h : Reachable conf m) (hi : m.svc = .idle) :
    ∃ inhibited' m1 m2, StopRound conf errors toInhibit prepOk inhibited m inhibited' m1 ∧
      Restart conf errors inhibited' prepOk' m1 m2 := by
  have f : Free conf m := ⟨h, hi⟩
  have re : ∀ l m, Free conf m → ∃ m2, Restart conf errors l prepOk' m m2 := by
    intro l m f
    obtain ⟨ok, m1, h1, _⟩ := can_serve errors f (.switch ⟨l, [], strictnessBestEffort, false, 0⟩ 0 prepOk')
    exact ⟨m1, 0, ok, h1⟩
  obtain ⟨toStop, ht, hm⟩ : ∃ l : List String, l.Nodup ∧ ∀ n, n ∈ l ↔ n ∈ toInhibit ∧
      ∃ e ∈ m.listControllers, e.name = n ∧ e.state = "running" :=
    ⟨(toInhibit.filter fun n => decide (∃ e ∈ m.listControllers, e.name = n ∧ e.state = "running")).dedup,
      List.nodup_dedup _, fun n => by simp [List.mem_dedup, List.mem_filter]⟩
  by_cases hs : toStop = []
  · obtain ⟨m2, h2⟩ := re inhibited m f
    exact ⟨inhibited, m, m2, ⟨[], by simp, toStop, ht, hm, by rw [if_pos hs]; exact ⟨rfl, rfl⟩⟩, h2⟩
  · obtain ⟨ok, m1, h1, f1⟩ := can_serve errors f (.switch ⟨[], toStop, strictnessBestEffort, false, 0⟩ 0 prepOk)
    obtain ⟨m2, h2⟩ := re (inhibited ++ toStop).dedup m1 f1
    refine ⟨(inhibited ++ toStop).dedup, m1, m2, ⟨[], by simp, toStop, ht, hm, ?_⟩, h2⟩
    rw [if_neg hs]
    exact ⟨fun n => by simp [List.mem_dedup], List.nodup_dedup _, 0, ok, h1⟩

/-- **C89, group script.** The script gets through switching to a group and through spawning one. -/
theorem c89_group {conf} (errors : Bool) (env : String → LoadEnv) (desired others : List String) (prepOk : Bool)
    {m : Mgr} (h : Reachable conf m) (hi : m.svc = .idle) :
    (∃ ok m', SwitchGroup conf errors env desired others prepOk m ok m') ∧
      ∃ m', SpawnGroup conf errors env desired m m' := by
  have f : Free conf m := ⟨h, hi⟩
  constructor
  · obtain ⟨ok, m1, h1, f1⟩ := can_loadMissing errors env (m.listControllers.map (·.name)) desired f
    cases ok
    · exact ⟨false, m1, [], by simp, _, rfl, false, m1, h1, rfl, rfl⟩
    · obtain ⟨ok, m2, h2, _⟩ := can_startStop errors
        (desired.filter fun n => !((loadedControllers m.listControllers n).getD false))
        (others.filter fun n => (loadedControllers m.listControllers n).getD false) prepOk f1
      exact ⟨ok, m2, [], by simp, _, rfl, true, m1, h1, h2⟩
  · obtain ⟨m1, h1, f1⟩ := can_loadAll errors env desired f
    obtain ⟨m2, h2, _⟩ := can_startEach errors desired f1
    exact ⟨m2, m1, h1, h2⟩

/-! ### Cases -/

/-- A manager with two running controllers and one that does not run: the forced reload takes more than one
round (it is not answered after one), and eight are enough. -/
example : Reachable checkForConflict (Ex.after Ex.running) ∧ (Ex.after Ex.running).svc = .idle ∧
    roundsFor (Ex.after Ex.running).listControllers (.reload true 0 true) = 8 ∧
    (((Ex.after Ex.running).step checkForConflict (.reload true 0 true)).run checkForConflict Ex.cycle).svc ≠ .idle :=
  ⟨Ex.reachable_after Ex.rosUp_running, by decide, by decide, by decide⟩

/-- A switch with a timeout of two seconds, without any update: answered after three seconds. -/
example : (⟨["b"], ["a"], 2, false, 2 * second⟩ : SwitchReq).timeout ≠ 0 ∧
    (((Ex.after Ex.running).step checkForConflict (.switch ⟨["b"], ["a"], 2, false, 2 * second⟩ 0 true)).run
      checkForConflict [.poll {} (2 * second)]).svc ≠ .idle ∧
    (((Ex.after Ex.running).step checkForConflict (.switch ⟨["b"], ["a"], 2, false, 2 * second⟩ 0 true)).run
      checkForConflict [.poll {} (2 * second), .poll {} (3 * second)]).svc = .idle :=
  ⟨by decide, by decide, by decide⟩

/-- The hypotheses of `c89_unsettled` and `c89_no_update`: an accepted switch, and a load that waits. -/
example : ((Ex.after Ex.running).step checkForConflict (.switch ⟨["b"], ["a"], 2, false, 0⟩ 0 true)).svc ≠ .idle ∧
    (((Ex.after Ex.running).update 0 false (Ex.hw .done)).step checkForConflict
      (Call.load "d" (Ex.env ["j3"])).op).svc ≠ .idle :=
  ⟨by decide, by decide⟩

end Verif
