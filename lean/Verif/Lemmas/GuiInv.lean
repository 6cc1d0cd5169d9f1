import Verif.Lemmas.Gui

/-!
The invariant of the graphical front end.
-/

namespace Verif.Gui

open Mgr Tools

theorem refresh_spec {home g} (h : Proxies home g) (hhead : g.cmNs ≠ [] → g.cmNs.head? = some '/')
    (ht : g.table = g.controllers) {w : World} (hw : w.Ordered home) :
    ∃ t p, refresh g w = ({ g with lister := p, controllers := t, table := t }, none) ∧
      (g.cmNs = [] → t = [] ∧ p = g.lister) ∧
      (g.cmNs ≠ [] → (∃ q, p = some q ∧ q.For home g.cmNs "list_controllers") ∧
        ∀ par last, g.cmNs = par ++ '/' :: last → '/' ∉ last → Right home w g.cmNs par t) := by
  obtain ⟨h1, h2⟩ := listAll_spec h hhead hw
  have key : ∀ t p, listAll g w = (.ok t, p) →
      refresh g w = ({ g with lister := p, controllers := t, table := t }, none) := by
    intro t p he
    unfold refresh
    rw [he]
    dsimp only
    by_cases hh : g.controllers = t
    · rw [if_neg (by simpa using hh)]
      subst hh
      rw [← ht]
    · rw [if_pos hh]
  by_cases hn : g.cmNs = []
  · exact ⟨[], g.lister, key _ _ (h1 hn), fun _ => ⟨rfl, rfl⟩, fun hh => absurd hn hh⟩
  · obtain ⟨t, p, e, hp, hr⟩ := h2 hn
    exact ⟨t, some p, key _ _ e, fun hh => absurd hh hn, fun _ => ⟨⟨p, rfl, hp⟩, hr⟩⟩

theorem Proxies.of_lister {home g} (h : Proxies home g) {p : Option Proxy} {t : List Entry}
    (h1 : g.cmNs = [] → p = none)
    (h2 : g.cmNs ≠ [] → ∃ q, p = some q ∧ q.For home g.cmNs "list_controllers") :
    Proxies home { g with lister := p, controllers := t, table := t } := by
  refine ⟨h.load, h.unload, h.switch, ?_⟩
  dsimp only
  split
  · rename_i hn; exact h1 hn
  · rename_i hn; exact h2 hn

theorem Proxies.lister_none {home g} (h : Proxies home g) (hn : g.cmNs = []) : g.lister = none := by
  have := h.lister
  rwa [if_pos hn] at this

theorem onCmChange_spec {home} (g : Gui) (ht : g.table = g.controllers) {w : World} (hw : w.Ordered home)
    {ns : List Char} (hns : ns ≠ [] → ns.head? = some '/') :
    ∃ g', onCmChange g w ns = (g', none) ∧ g'.combo = g.combo ∧ g'.managers = g.managers ∧ g'.menu = g.menu ∧
      g'.cmNs = ns ∧ g'.table = g'.controllers ∧ Proxies home g' ∧ (ns = [] → g'.table = g.table) ∧
      (ns ≠ [] → ∀ par last, ns = par ++ '/' :: last → '/' ∉ last → Right home w ns par g'.table) := by
  by_cases hn : ns = []
  · subst hn
    refine ⟨{ g with cmNs := [], load := none, unload := none, switch := none, lister := none }, ?_, rfl, rfl,
      rfl, rfl, ht, ⟨?_, ?_, ?_, ?_⟩, fun _ => rfl, fun hh => absurd rfl hh⟩
    · unfold onCmChange; rw [if_pos rfl]
    all_goals rw [if_pos rfl]
  · have hfor : ∀ srv, (⟨srvName ns srv, none⟩ : Proxy).For home ns srv := by
      intro srv
      refine ⟨?_, fun i hi => by cases hi⟩
      show srvName ns srv = _
      unfold srvName
      rw [withSlash_eq]
    have hpr : Proxies home { g with
        cmNs := ns
        load := some ⟨srvName ns "load_controller", none⟩
        unload := some ⟨srvName ns "unload_controller", none⟩
        switch := some ⟨srvName ns "switch_controller", none⟩
        lister := some ⟨srvName ns "list_controllers", none⟩ } := by
      refine ⟨?_, ?_, ?_, ?_⟩ <;> dsimp only <;> rw [if_neg hn] <;> exact ⟨_, rfl, hfor _⟩
    obtain ⟨t, p, e, h1, h2⟩ := refresh_spec hpr hns ht hw
    obtain ⟨h3, h4⟩ := h2 hn
    have e' := (show onCmChange g w ns = _ by unfold onCmChange; rw [if_neg hn]).trans e
    exact ⟨_, e', rfl, rfl, rfl, rfl, rfl, hpr.of_lister (fun hh => absurd hh hn) (fun _ => h3), fun hh => absurd hh hn,
      fun _ => h4⟩

/-- What handling a timer or a choice in the combo box does, besides keeping the invariant. -/
structure Kept (home : Nat → List Char) (g : Gui) (r : Gui × Option Exn) : Prop where
  inv : Inv home r.1
  ok : r.2 = none
  menu : r.1.menu = g.menu

theorem onSignal_kept {home} {g : Gui} {w : World} (hw : w.Ordered home) {c : Combo} {ms : List (List Char)}
    {sig : Option (List Char)} (h : Inv home g) (hc : c.Valid) (hh : ∀ x ∈ c.items, x.head? = some '/')
    (hs : sig = none ∧ c.text = g.combo.text ∨ sig = some c.text) :
    Kept home g (onSignal { g with managers := ms, combo := c } w sig) ∧
    (onSignal { g with managers := ms, combo := c } w sig).1.combo = c ∧
    (sig = none → (onSignal { g with managers := ms, combo := c } w sig).1 = { g with managers := ms, combo := c }) ∧
    (sig ≠ none → c.text ≠ [] → ∀ par last, c.text = par ++ '/' :: last → '/' ∉ last →
      Right home w c.text par (onSignal { g with managers := ms, combo := c } w sig).1.table) := by
  rcases hs with ⟨rfl, ht⟩ | rfl
  · refine ⟨⟨⟨hc, ?_, hh, ?_, h.table⟩, rfl, rfl⟩, rfl, fun _ => rfl, fun hx => absurd rfl hx⟩
    · show g.cmNs = c.text
      rw [ht]; exact h.text
    · exact ⟨h.proxies.load, h.proxies.unload, h.proxies.switch, h.proxies.lister⟩
  · have hns : c.text ≠ [] → c.text.head? = some '/' := by
      intro hne
      rcases hc.text_mem with ht | ht
      · exact absurd ht hne
      · exact hh _ ht
    obtain ⟨g', e, e1, e2, e3, e4, e5, e6, e7, e8⟩ :=
      onCmChange_spec (home := home) { g with managers := ms, combo := c } h.table hw hns
    have e' : onSignal { g with managers := ms, combo := c } w (some c.text) = (g', none) := e
    rw [e']
    refine ⟨⟨⟨?_, ?_, ?_, e6, e5⟩, rfl, e3⟩, e1, fun hx => (by cases hx), fun _ => e8⟩
    · show g'.combo.Valid
      rw [e1]; exact hc
    · show g'.cmNs = g'.combo.text
      rw [e4, e1]
    · show ∀ x ∈ g'.combo.items, _
      rw [e1]; exact hh

theorem managers_no_empty {home} {w : World} (hw : w.Ordered home) (guess : List (List Char)) :
    [] ∉ controllerManagers w.services w.typeOf guess := by
  intro hh
  have := managers_head hw hh
  cases this

theorem updateManagers_kept {home g w} (hw : World.Ordered home w) (h : Inv home g) :
    Kept home g (updateManagers g w) ∧
    (updateManagers g w).1.combo.text =
      (if g.combo.text ∈ controllerManagers w.services w.typeOf g.managers then g.combo.text else []) ∧
    (updateManagers g w).1.combo.items.Perm (controllerManagers w.services w.typeOf g.managers) := by
  unfold updateManagers
  dsimp only
  obtain ⟨u1, u2, u3, u4⟩ := updateCombo_spec h.combo (managers_no_empty hw g.managers)
  obtain ⟨k1, k2, _⟩ := onSignal_kept (ms := controllerManagers w.services w.typeOf g.managers) hw h u1
    (fun x hx => managers_head hw (u2.subset hx))
    (sig := (updateCombo g.combo (controllerManagers w.services w.typeOf g.managers)).2) (by
      rw [u4, u3]
      by_cases ha : g.combo.text = [] ∨ g.combo.text ∈ controllerManagers w.services w.typeOf g.managers
      · rw [if_pos ha]
        left
        refine ⟨rfl, ?_⟩
        rcases ha with ha | ha
        · rw [ha, if_neg (managers_no_empty hw g.managers)]
        · rw [if_pos ha]
      · rw [if_neg ha, if_neg (fun hh => ha (Or.inr hh))]
        exact Or.inr rfl)
  refine ⟨k1, ?_, ?_⟩
  · rw [k2, u3]
  · rw [k2]; exact u2

theorem setCombo_kept {home g w} (hw : World.Ordered home w) (h : Inv home g) (i : Option Nat) :
    Kept home g (setCombo g w i) ∧ (setCombo g w i).1.combo = (g.combo.setIndex i).1 ∧
    ((g.combo.setIndex i).1 ≠ g.combo → (g.combo.setIndex i).1.text ≠ [] →
      ∀ par last, (g.combo.setIndex i).1.text = par ++ '/' :: last → '/' ∉ last →
      Right home w (g.combo.setIndex i).1.text par (setCombo g w i).1.table) := by
  obtain ⟨s1, s2, s3⟩ := setIndex_spec h.combo i
  unfold setCombo
  obtain ⟨k1, k2, _, k4⟩ := onSignal_kept (ms := g.managers) hw h s1
    (fun x hx => h.heads x (by rwa [s2] at hx)) (sig := (g.combo.setIndex i).2) (by
      rcases s3 with ⟨a, b⟩ | a
      · exact Or.inl ⟨a, by rw [b]⟩
      · exact Or.inr a)
  refine ⟨k1, k2, ?_⟩
  intro hne
  refine k4 ?_
  rcases s3 with ⟨_, b⟩ | a
  · exact absurd b hne
  · rw [a]; simp

theorem refresh_kept {home g w} (hw : World.Ordered home w) (h : Inv home g) :
    Kept home g (refresh g w) ∧ (refresh g w).1.combo = g.combo ∧
    (g.combo.text = [] → (refresh g w).1.table = []) ∧
    (g.combo.text ≠ [] → ∀ par last, g.combo.text = par ++ '/' :: last → '/' ∉ last →
      Right home w g.combo.text par (refresh g w).1.table) := by
  obtain ⟨t, p, e, h1, h2⟩ := refresh_spec h.proxies h.head h.table hw
  rw [← h.text, e]
  refine ⟨⟨⟨h.combo, h.text, h.heads, ?_, rfl⟩, rfl, rfl⟩, rfl, fun hh => (h1 hh).1, fun hh => (h2 hh).2⟩
  exact h.proxies.of_lister (fun hn => by rw [(h1 hn).2]; exact h.proxies.lister_none hn) (fun hn => (h2 hn).1)

theorem restore_kept {home g w} (hw : World.Ordered home w) (h : Inv home g) (saved : List Char) :
    Kept home g (restore g w saved) := by
  obtain ⟨k, _⟩ := updateManagers_kept hw h
  unfold restore
  generalize updateManagers g w = r at k
  obtain ⟨g', o⟩ := r
  obtain ⟨k1, rfl, k3⟩ := k
  dsimp only
  split
  · obtain ⟨q, _⟩ := setCombo_kept hw k1 (some _)
    exact ⟨q.inv, q.ok, q.menu.trans k3⟩
  · exact ⟨k1, rfl, k3⟩

/-! ### Sending -/

theorem callProxy_for {home} {g : Gui} {w} (hw : World.Ordered home w) {o : Option Proxy} {srv : String}
    (hsrv : srv ∈ ["load_controller", "unload_controller", "switch_controller", "list_controllers"])
    (h : if g.cmNs = [] then o = none else ∃ p, o = some p ∧ p.For home g.cmNs srv) :
    (if g.cmNs = [] then (callProxy w o).2 = none else ∃ p, (callProxy w o).2 = some p ∧ p.For home g.cmNs srv) ∧
    (∀ i, (callProxy w o).1 = .ok i → g.cmNs ≠ [] ∧ home i = slashed g.cmNs ∧ w.alive i = true) := by
  by_cases hn : g.cmNs = []
  · rw [if_pos hn] at h ⊢
    subst h
    exact ⟨rfl, fun i hi => by cases hi⟩
  · rw [if_neg hn] at h ⊢
    obtain ⟨p, rfl, hp⟩ := h
    obtain ⟨a1, a2, _⟩ := call_for hp hsrv hw
    unfold callProxy
    dsimp only
    generalize p.call w = q at a1 a2
    rcases q with ⟨_ | i, q⟩
    · exact ⟨⟨q, rfl, a1⟩, fun i hi => by cases hi⟩
    · refine ⟨⟨q, rfl, a1⟩, fun j hj => ?_⟩
      cases hj
      exact ⟨hn, a2 i rfl⟩

theorem send_kept {home g w} (hw : World.Ordered home w) (h : Inv home g) (r : Req) :
    Inv home (send g w r).1 ∧ (send g w r).1.combo = g.combo ∧ (send g w r).1.menu = g.menu ∧
    ∀ i, (send g w r).2 = .ok i → g.combo.text ≠ [] ∧ home i = slashed g.combo.text ∧ w.alive i = true := by
  rw [← h.text]
  cases r with
  | load n =>
    obtain ⟨a, b⟩ := callProxy_for hw (by simp) h.proxies.load
    exact ⟨⟨h.combo, h.text, h.heads, ⟨a, h.proxies.unload, h.proxies.switch, h.proxies.lister⟩, h.table⟩, rfl, rfl, b⟩
  | unload n =>
    obtain ⟨a, b⟩ := callProxy_for hw (by simp) h.proxies.unload
    exact ⟨⟨h.combo, h.text, h.heads, ⟨h.proxies.load, a, h.proxies.switch, h.proxies.lister⟩, h.table⟩, rfl, rfl, b⟩
  | start n =>
    obtain ⟨a, b⟩ := callProxy_for hw (by simp) h.proxies.switch
    exact ⟨⟨h.combo, h.text, h.heads, ⟨h.proxies.load, h.proxies.unload, a, h.proxies.lister⟩, h.table⟩, rfl, rfl, b⟩
  | stop n =>
    obtain ⟨a, b⟩ := callProxy_for hw (by simp) h.proxies.switch
    exact ⟨⟨h.combo, h.text, h.heads, ⟨h.proxies.load, h.proxies.unload, a, h.proxies.lister⟩, h.table⟩, rfl, rfl, b⟩

theorem sendAll_kept {home w} (hw : World.Ordered home w) (rs : List Req) {g} (h : Inv home g) :
    Inv home (sendAll g w rs).1 ∧ (sendAll g w rs).1.combo = g.combo ∧
    ∀ i r, .sent i r ∈ (sendAll g w rs).2 →
      r ∈ rs ∧ g.combo.text ≠ [] ∧ home i = slashed g.combo.text ∧ w.alive i = true := by
  induction rs generalizing g with
  | nil => exact ⟨h, rfl, fun i r hh => by cases hh⟩
  | cons r rs ih =>
    obtain ⟨k1, k2, _, k4⟩ := send_kept hw h r
    unfold sendAll
    generalize send g w r = q at k1 k2 k4
    obtain ⟨g', e | i⟩ := q
    · refine ⟨k1, k2, fun i r hh => ?_⟩
      simp at hh
    · obtain ⟨j1, j2, j3⟩ := ih k1
      refine ⟨j1, j2.trans k2, fun j x hh => ?_⟩
      dsimp only at hh k2
      rcases List.mem_cons.1 hh with hh | hh
      · cases hh
        exact ⟨List.mem_cons_self, k4 i rfl⟩
      · obtain ⟨a, b⟩ := j3 j x hh
        rw [k2] at b
        exact ⟨List.mem_cons_of_mem _ a, b⟩

theorem menu_inv {home g} (h : Inv home g) (m : Option Entry) : Inv home { g with menu := m } :=
  ⟨h.combo, h.text, h.heads, ⟨h.proxies.load, h.proxies.unload, h.proxies.switch, h.proxies.lister⟩, h.table⟩

theorem step_inv {home g e} (he : ∀ w, Ev.world e = some w → w.Ordered home) (h : Inv home g) :
    Inv home (step g e).1 := by
  cases e with
  | managers w => exact (updateManagers_kept (he w rfl) h).1.inv
  | controllers w => exact (refresh_kept (he w rfl) h).1.inv
  | select i w =>
    unfold step
    dsimp only
    split
    · exact (setCombo_kept (he w rfl) h (some i)).1.inv
    · exact h
  | restore saved w =>
    unfold step
    dsimp only
    split
    · exact (restore_kept (he w rfl) h saved).inv
    · exact h
  | openMenu row =>
    unfold step
    dsimp only
    split
    · split
      · split
        · exact h
        · exact menu_inv h _
      · exact h
    · exact h
  | choose a w =>
    unfold step
    dsimp only
    split
    · exact h
    · split
      · exact menu_inv h _
      · split
        · exact (sendAll_kept (he w rfl) _ (menu_inv h none)).1
        · exact h

theorem run_inv {home} {evs : List Ev} (he : Ordered home evs) {g} (h : Inv home g) : Inv home (run g evs) := by
  induction evs generalizing g with
  | nil => exact h
  | cons e evs ih =>
    exact ih (fun x hx => he x (List.mem_cons_of_mem _ hx)) (step_inv (he e List.mem_cons_self) h)

theorem run_append (g : Gui) (a b : List Ev) : run g (a ++ b) = run (run g a) b := by
  unfold run; rw [List.foldl_append]

end Verif.Gui
