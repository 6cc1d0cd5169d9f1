import Verif.Lemmas.GuiInv
import Verif.Props.ToolsUtils

/-!
Properties C84 to C87: the graphical front end.
-/

namespace Verif.Gui

open Mgr Tools Spec Clients

/-! ### C84 -/

/-- **C84, the combo box.** `update_combo` gives the combo box the new values. An item that was selected and is
among them stays selected, and no signal is sent; otherwise nothing is selected afterwards, and a signal (with
the empty text) is sent exactly if something was selected. -/
theorem c84_combo {c : Combo} (hr : ∀ i, c.index = some i → i < c.items.length) (hi : [] ∉ c.items)
    {new : List (List Char)} (hn : [] ∉ new) :
    (updateCombo c new).1.items.Perm new ∧
    (updateCombo c new).1.text = (if c.text ∈ new then c.text else []) ∧
    (updateCombo c new).2 = (if c.index = none ∨ c.text ∈ new then none else some []) := by
  obtain ⟨_, h2, h3, h4⟩ := updateCombo_spec ⟨hr, hi⟩ hn
  refine ⟨h2, h3, ?_⟩
  rw [h4]
  simp only [Combo.Valid.text_nil ⟨hr, hi⟩]

example : updateCombo ⟨["/a".toList, "/b".toList], some 1⟩ ["/b".toList, "/c".toList] =
      (⟨["/b".toList, "/c".toList], some 0⟩, none) ∧
    updateCombo ⟨["/a".toList, "/b".toList], some 1⟩ ["/a".toList] = (⟨["/a".toList], none⟩, some []) ∧
    updateCombo ⟨["/a".toList, "/b".toList], some 1⟩ ["/b".toList, "/a".toList] =
      (⟨["/a".toList, "/b".toList], some 1⟩, none) := by decide

/-- **C84, the selection.** In every history the timer keeps the selected manager, at whatever place of the list
it is now, as long as it is found; otherwise no manager is selected, never another one. -/
theorem c84_selection {home evs} (he : Ordered home evs) {w : World} (hw : w.Ordered home) :
    let found := controllerManagers w.services w.typeOf (run {} evs).managers
    (step (run {} evs) (.managers w)).1.combo.items.Perm found ∧
    (step (run {} evs) (.managers w)).1.combo.text =
      if (run {} evs).combo.text ∈ found then (run {} evs).combo.text else [] := by
  obtain ⟨_, h2, h3⟩ := updateManagers_kept hw (run_inv he (inv_init home))
  exact ⟨h3, h2⟩

/-- **C84, requests.** Whatever happened before, every request is sent to a running process that serves the
manager selected in the combo box at that time. -/
theorem c84_requests {home evs} (he : Ordered home evs) {e : Ev} (hw : ∀ w, e.world = some w → w.Ordered home)
    {i : Nat} {r : Req} (hs : .sent i r ∈ (step (run {} evs) e).2) :
    (run {} evs).combo.text ≠ [] ∧ home i = slashed (run {} evs).combo.text ∧
    ∃ w, e.world = some w ∧ w.alive i = true := by
  have h := run_inv he (inv_init home)
  have hno : ∀ {g : Gui} {o : Gui × Option Exn}, Kept home g o → .sent i r ∉ (outOf o).2 := by
    intro g o hk hh
    unfold outOf at hh
    rw [hk.ok] at hh
    cases hh
  generalize run {} evs = g at *
  cases e with
  | managers w => exact absurd hs (hno (updateManagers_kept (hw w rfl) h).1)
  | controllers w => exact absurd hs (hno (refresh_kept (hw w rfl) h).1)
  | select j w =>
    unfold step at hs
    dsimp only at hs
    split at hs
    · exact absurd hs (hno (setCombo_kept (hw w rfl) h _).1)
    · cases hs
  | restore saved w =>
    unfold step at hs
    dsimp only at hs
    split at hs
    · exact absurd hs (hno (restore_kept (hw w rfl) h _))
    · cases hs
  | openMenu row =>
    unfold step at hs
    dsimp only at hs
    split at hs
    · split at hs
      · split at hs <;> simp at hs
      · cases hs
    · cases hs
  | choose a w =>
    unfold step at hs
    dsimp only at hs
    split at hs
    · cases hs
    · split at hs
      · cases hs
      · split at hs
        · obtain ⟨_, a1, a2, a3⟩ := (sendAll_kept (hw w rfl) _ (menu_inv h none)).2.2 i r hs
          exact ⟨a1, a2, w, rfl, a3⟩
        · cases hs

/-- **C84, the menu.** A choice from the context menu concerns the controller on which the menu was opened, and
is sent to the manager that was selected then, whatever the timers did meanwhile. -/
theorem c84_menu {home evs evs' row} (he : Ordered home (evs ++ .openMenu row :: evs'))
    (hclosed : (run {} evs).menu = none) (hrow : row < (run {} evs).table.length)
    (hno : ∀ e ∈ evs', ∀ a w, e ≠ .choose a w)
    {a : Option Action} {w : World} (hw : w.Ordered home) {i : Nat} {r : Req}
    (hs : .sent i r ∈ (step (run {} (evs ++ .openMenu row :: evs')) (.choose a w)).2) :
    home i = slashed (run {} evs).combo.text ∧
    ∃ c ∈ (run {} evs).table[row]?, r = .load c.name ∨ r = .unload c.name ∨ r = .start c.name ∨ r = .stop c.name := by
  have he0 : Ordered home evs := fun e h => he e (List.mem_append_left _ h)
  have he1 : Ordered home evs' := fun e h => he e (List.mem_append_right _ (List.mem_cons_of_mem _ h))
  obtain ⟨hsel, hhome, _⟩ := c84_requests he (e := .choose a w) (fun w' hw' => by cases hw'; exact hw) hs
  have h0 := run_inv he0 (inv_init home)
  rw [run_append] at hs hsel hhome
  -- while the menu is open
  have key : ∀ (l : List Ev) (g : Gui) (c : Entry) (t : List Char), Ordered home l → (∀ e ∈ l, ∀ a w, e ≠ .choose a w) →
      Inv home g → g.menu = some c → (g.combo.text = t ∨ g.combo.text = []) →
      (run g l).menu = some c ∧ ((run g l).combo.text = t ∨ (run g l).combo.text = []) := by
    intro l
    induction l with
    | nil => intro g c t _ _ _ h1 h2; exact ⟨h1, h2⟩
    | cons e l ih =>
      intro g c t ho hn hi hm ht
      have hoe := ho e List.mem_cons_self
      refine ih _ c t (fun x hx => ho x (List.mem_cons_of_mem _ hx)) (fun x hx => hn x (List.mem_cons_of_mem _ hx))
        (step_inv hoe hi) ?_ ?_
      · cases e with
        | managers w => exact (updateManagers_kept (hoe w rfl) hi).1.menu.trans hm
        | controllers w => exact (refresh_kept (hoe w rfl) hi).1.menu.trans hm
        | select j w => simp [step, hm]
        | restore s w => simp [step, hm]
        | openMenu row => simp [step, hm]
        | choose a w => exact absurd rfl (hn _ List.mem_cons_self a w)
      · cases e with
        | managers w =>
          have := (updateManagers_kept (hoe w rfl) hi).2.1
          show (updateManagers g w).1.combo.text = t ∨ (updateManagers g w).1.combo.text = []
          rw [this]
          split
          · exact ht
          · exact Or.inr rfl
        | controllers w =>
          show (refresh g w).1.combo.text = t ∨ (refresh g w).1.combo.text = []
          rw [(refresh_kept (hoe w rfl) hi).2.1]; exact ht
        | select j w => simpa [step, hm] using ht
        | restore s w => simpa [step, hm] using ht
        | openMenu row => simpa [step, hm] using ht
        | choose a w => exact absurd rfl (hn _ List.mem_cons_self a w)
  have hrun : run (run {} evs) (.openMenu row :: evs') = run (step (run {} evs) (.openMenu row)).1 evs' := rfl
  rw [hrun] at hs hsel hhome
  generalize run {} evs = g at *
  · -- the menu is open for the controller in this row
    have hc : g.controllers[row]? = some g.table[row] := by
      rw [← h0.table, List.getElem?_eq_getElem hrow]
    have hst : (step g (.openMenu row)).1 = { g with menu := some g.table[row] } := by
      simp only [step, hclosed, if_true, if_pos hrow, hc]
    rw [hst] at hs hsel hhome
    obtain ⟨k1, k2⟩ := key evs' _ g.table[row] g.combo.text he1 hno (menu_inv h0 (some g.table[row])) rfl (Or.inl rfl)
    rcases k2 with k2 | k2
    · rw [k2] at hhome
      refine ⟨hhome, g.table[row], by rw [List.getElem?_eq_getElem hrow]; rfl, ?_⟩
      unfold step at hs
      dsimp only at hs
      rw [k1] at hs
      dsimp only at hs
      cases a with
      | none => cases hs
      | some b =>
        dsimp only at hs
        split at hs
        · have hi := run_inv he1 (menu_inv h0 (some g.table[row]))
          obtain ⟨a1, _⟩ := (sendAll_kept hw _ (menu_inv hi none)).2.2 i r hs
          cases b <;> simp only [requests, List.mem_cons, List.not_mem_nil, or_false] at a1 <;> tauto
        · cases hs
    · exact absurd k2 hsel

theorem sendAll_same (g : Gui) (w : World) (rs : List Req) :
    (sendAll g w rs).1.menu = g.menu ∧ (sendAll g w rs).1.table = g.table ∧ (sendAll g w rs).1.combo = g.combo := by
  induction rs generalizing g with
  | nil => exact ⟨rfl, rfl, rfl⟩
  | cons r rs ih =>
    have hs : (send g w r).1.menu = g.menu ∧ (send g w r).1.table = g.table ∧ (send g w r).1.combo = g.combo := by
      cases r <;> exact ⟨rfl, rfl, rfl⟩
    unfold sendAll
    generalize send g w r = q at hs
    obtain ⟨g', e | i⟩ := q
    · exact hs
    · obtain ⟨a, b, c⟩ := ih g'
      exact ⟨a.trans hs.1, b.trans hs.2.1, c.trans hs.2.2⟩

/-- **C84, the menu closes.** A choice among the offered entries, or closing the menu, closes it; the table and
the selected manager stay as they are; and closing it without a choice sends nothing. Then it can be opened
again on every row. -/
theorem c84_menu_closes {home evs} (he : Ordered home evs) {c : Entry} (hm : (run {} evs).menu = some c)
    {a : Option Action} (ha : ∀ b ∈ a, b ∈ menuOf c.state) (w : World) :
    (step (run {} evs) (.choose a w)).1.menu = none ∧
    (step (run {} evs) (.choose a w)).1.table = (run {} evs).table ∧
    (step (run {} evs) (.choose a w)).1.combo = (run {} evs).combo ∧
    (a = none → (step (run {} evs) (.choose a w)).2 = []) ∧
    ∀ row c', (run {} evs).table[row]? = some c' →
      (step (step (run {} evs) (.choose a w)).1 (.openMenu row)).1.menu = some c' := by
  have h := run_inv he (inv_init home)
  generalize run {} evs = g at *
  have key : ∀ g' : Gui, g'.menu = none → g'.table = g.table → g'.controllers = g.controllers →
      ∀ row c', g.table[row]? = some c' → (step g' (.openMenu row)).1.menu = some c' := by
    intro g' k1 k2 k3 row c' hc
    have hlt : row < g'.table.length := by
      rw [k2]; exact (List.getElem?_eq_some_iff.1 hc).1
    simp only [step, k1, if_true, if_pos hlt, k3]
    rw [← h.table, hc]
  have hctl : ∀ (rs : List Req) (g' : Gui), (sendAll g' w rs).1.controllers = g'.controllers := by
    intro rs
    induction rs with
    | nil => intro g'; rfl
    | cons r rs ih =>
      intro g'
      have hs : (send g' w r).1.controllers = g'.controllers := by cases r <;> rfl
      unfold sendAll
      generalize send g' w r = q at hs
      obtain ⟨g'', e | i⟩ := q
      · exact hs
      · exact (ih g'').trans hs
  cases a with
  | none =>
    have e : step g (.choose none w) = ({ g with menu := none }, []) := by
      unfold step; dsimp only; rw [hm]
    rw [e]
    exact ⟨rfl, rfl, rfl, fun _ => rfl, key _ rfl rfl rfl⟩
  | some b =>
    have e : step g (.choose (some b) w) = sendAll { g with menu := none } w (requests c.name b) := by
      unfold step; dsimp only; rw [hm]; dsimp only; rw [if_pos (ha b rfl)]
    rw [e]
    obtain ⟨a1, a2, a3⟩ := sendAll_same { g with menu := none } w (requests c.name b)
    exact ⟨a1, a2, a3, fun hh => (by cases hh), key _ a1 a2 (hctl _ _)⟩

/-! ### C85 -/

/-- **C85, the table.** Whatever happened before, the timer brings the table up to date: it is empty if no
manager is selected; otherwise it shows the controllers listed by the selected manager, followed by those that
are configured in its parent namespace but not loaded. No exception is raised. -/
theorem c85_table {home evs} (he : Ordered home evs) {w : World} (hw : w.Ordered home) :
    (step (run {} evs) (.controllers w)).2 = [] ∧
    ((run {} evs).combo.text = [] → (step (run {} evs) (.controllers w)).1.table = []) ∧
    ∀ par last, (run {} evs).combo.text = par ++ '/' :: last → '/' ∉ last →
      Right home w (run {} evs).combo.text par (step (run {} evs) (.controllers w)).1.table := by
  obtain ⟨h1, h2, h3, h4⟩ := refresh_kept hw (run_inv he (inv_init home))
  refine ⟨by show (outOf _).2 = []; unfold outOf; rw [h1.ok]; rfl, h3, fun par last hh => h4 ?_ par last hh⟩
  rw [hh]; simp

/-- **C85, a manager is chosen.** The table shows its controllers at once. -/
theorem c85_select {home evs} (he : Ordered home evs) (hclosed : (run {} evs).menu = none) {w : World}
    (hw : w.Ordered home) {i : Nat} {ns : List Char} (hi : (run {} evs).combo.items[i]? = some ns)
    (hne : ns ≠ (run {} evs).combo.text) :
    (step (run {} evs) (.select i w)).1.combo.text = ns ∧ (step (run {} evs) (.select i w)).2 = [] ∧
    ∃ par last, ns = par ++ '/' :: last ∧ '/' ∉ last ∧
      Right home w ns par (step (run {} evs) (.select i w)).1.table := by
  have h := run_inv he (inv_init home)
  generalize run {} evs = g at *
  obtain ⟨k1, k2, k3⟩ := setCombo_kept hw h (some i)
  obtain ⟨hlt, _⟩ := List.getElem?_eq_some_iff.1 hi
  have hc : (g.combo.setIndex (some i)).1 = ⟨g.combo.items, some i⟩ := by
    rw [setIndex_fst]; simp [Option.filter_some, hlt]
  have ht : (g.combo.setIndex (some i)).1.text = ns := by
    rw [hc]; unfold Combo.text
    simp only [Option.bind_some, hi]; rfl
  have hs : step g (.select i w) = outOf (setCombo g w (some i)) := by
    unfold step; dsimp only; rw [if_pos hclosed]
  have hnil : ns ≠ [] := by
    rintro rfl
    exact h.combo.items (List.mem_of_getElem? hi)
  have hhead := h.heads ns (List.mem_of_getElem? hi)
  obtain ⟨par, last, hsp, hla⟩ := split_last_slash (List.mem_of_head? hhead)
  rw [hs]
  refine ⟨by show (setCombo g w (some i)).1.combo.text = ns; rw [k2, ht], by unfold outOf; rw [k1.ok]; rfl,
    par, last, hsp, hla, ?_⟩
  have := k3 (by rintro hh; rw [hh] at ht; exact hne ht.symm) (by rw [ht]; exact hnil) par last (by rw [ht]; exact hsp) hla
  rwa [ht] at this

/-- **C85, no exceptions.** Timers, choices in the combo box and restored settings never raise an exception,
and the context menu can be opened on every row. -/
theorem c85_no_exception {home evs} (he : Ordered home evs) {e : Ev} (hw : ∀ w, e.world = some w → w.Ordered home)
    (hno : ∀ a w, e ≠ .choose a w) : (step (run {} evs) e).2 = [] := by
  have h := run_inv he (inv_init home)
  generalize run {} evs = g at *
  have hk : ∀ {o : Gui × Option Exn}, Kept home g o → (outOf o).2 = [] := by
    intro o ho; unfold outOf; rw [ho.ok]; rfl
  cases e with
  | managers w => exact hk (updateManagers_kept (hw w rfl) h).1
  | controllers w => exact hk (refresh_kept (hw w rfl) h).1
  | select j w =>
    unfold step; dsimp only
    split
    · exact hk (setCombo_kept (hw w rfl) h _).1
    · rfl
  | restore saved w =>
    unfold step; dsimp only
    split
    · exact hk (restore_kept (hw w rfl) h _)
    · rfl
  | openMenu row =>
    unfold step; dsimp only
    split
    · split
      · rename_i hrow
        rw [← h.table, List.getElem?_eq_getElem hrow]
      · rfl
    · rfl
  | choose a w => exact absurd rfl (hno a w)

/-- **C85, the settings.** The manager saved in the settings is selected again if it is found; otherwise the
selection is as after the timer. -/
theorem c85_restore {home evs} (he : Ordered home evs) (hclosed : (run {} evs).menu = none) {w : World}
    (hw : w.Ordered home) (saved : List Char) :
    let found := controllerManagers w.services w.typeOf (run {} evs).managers
    (step (run {} evs) (.restore saved w)).1.combo.text =
      if saved ∈ found then saved
      else if (run {} evs).combo.text ∈ found then (run {} evs).combo.text else [] := by
  have h := run_inv he (inv_init home)
  generalize run {} evs = g at *
  obtain ⟨k, ht, hp⟩ := updateManagers_kept hw h
  have hs : step g (.restore saved w) = outOf (restore g w saved) := by
    unfold step; dsimp only; rw [if_pos hclosed]
  rw [hs]
  show (restore g w saved).1.combo.text = _
  unfold restore
  generalize updateManagers g w = q at k ht hp
  obtain ⟨g', o⟩ := q
  obtain ⟨k1, rfl, k3⟩ := k
  dsimp only at ht hp k1 k3 ⊢
  by_cases hin : saved ∈ controllerManagers w.services w.typeOf g.managers
  · rw [if_pos hin]
    obtain ⟨i, hi, hg⟩ := idxOf?_some (hp.symm.subset hin)
    rw [hi]
    dsimp only
    obtain ⟨_, q2, _⟩ := setCombo_kept hw k1 (some i)
    obtain ⟨hlt, _⟩ := List.getElem?_eq_some_iff.1 hg
    rw [q2, setIndex_fst]
    unfold Combo.text
    simp only [Option.filter_some, decide_eq_true hlt, if_true, Option.bind_some, hg]
    rfl
  · rw [if_neg hin, List.idxOf?_eq_none_iff.2 (fun hh => hin (hp.subset hh))]
    exact ht

/-! ### Example -/

/-- Where the services of the manager of the example are. -/
def exNames : List (List Char) :=
  ["load_controller", "unload_controller", "switch_controller", "list_controllers"].map
    fun s => "/r/cm/".toList ++ s.toList

/-- A system with a manager in "/r/cm", process `pid`, that has loaded "arm"; "base" is configured. -/
def exWorld (pid : Nat) (alive : Nat → Bool) (state : String) : World where
  services := some ((exServices "/r/cm").map (·.1))
  typeOf := exTypeOf (exServices "/r/cm")
  params := [("/r/arm/type".toList, "T"), ("/r/base/type".toList, "U"), ("/x/type".toList, "V")]
  server := fun n => if n ∈ exNames then some pid else none
  alive := alive
  listing := fun _ => [⟨"arm", "T", state, []⟩]

theorem exWorld_ordered (pid alive state) : (exWorld pid alive state).Ordered fun _ => "/r/cm/".toList := by
  refine ⟨?_, ?_⟩
  · intro l hl s hs
    cases hl
    revert s
    decide
  · intro d i hd srv hsrv hh
    have hmem : d ++ srv.toList ∈ exNames := by
      by_contra hc
      rw [show (exWorld pid alive state).server (d ++ srv.toList) = none from if_neg hc] at hh
      cases hh
    have htake : ∀ N : List Char, d ++ srv.toList = N → d = N.take (N.length - srv.toList.length) := by
      rintro N rfl; simp
    have key : ∀ srv ∈ ["load_controller", "unload_controller", "switch_controller", "list_controllers"],
        ∀ N ∈ exNames, N.take (N.length - srv.toList.length) ++ srv.toList = N →
          (N.take (N.length - srv.toList.length)).getLast? = some '/' → "/r/cm/".toList = N.take (N.length - srv.toList.length) := by decide
    rw [htake _ rfl]
    refine key srv hsrv _ hmem ?_ ?_
    · rw [← htake _ rfl]
    · rwa [← htake _ rfl]

/-- All of it: the manager is found, chosen, its controllers are shown, "arm" is stopped and unloaded; and if
the manager disappears while the menu is open, nothing is sent. -/
example : let w := exWorld 1 (fun _ => true) "running"
    let evs : List Ev := [.managers w, .select 0 w, .controllers w]
    Ordered (fun _ => "/r/cm/".toList) evs ∧
    (run {} evs).combo = ⟨["/r/cm".toList], some 0⟩ ∧
    (run {} evs).table = [⟨"arm", "T", "running", []⟩, ⟨"base", "U", "uninitialized", []⟩] ∧
    (step (run {} (evs ++ [.openMenu 0, .controllers w])) (.choose (some .kill) w)).2 =
      [.sent 1 (.stop "arm"), .sent 1 (.unload "arm")] ∧
    (step (run {} (evs ++ [.openMenu 0, .managers { w with services := some [] }])) (.choose (some .kill) w)).2 =
      [.raised .attribute] := by
  intro w evs
  refine ⟨?_, by decide, by decide, by decide, by decide⟩
  intro e he w' hw'
  simp only [evs, List.mem_cons, List.not_mem_nil, or_false] at he
  rcases he with rfl | rfl | rfl <;> cases hw' <;> exact exWorld_ordered _ _ _

/-! ### C86 -/

/-- **C86, icons and menus** (missing: controllers that wait or were aborted, see the negation). Every other
controller a manager may list, has an icon, and its menu offers the requests that
make sense: stop and unload when it runs, start or unload when it does not. -/
theorem c86_menu_partial {conf} {m : Mgr} (h : Reachable conf m) {e : Entry} (he : e ∈ m.listControllers)
    (hw : e.state ≠ "waiting") (ha : e.state ≠ "aborted") :
    (∃ i, icon e.state = .ok i) ∧
    (ListedRunning m.listControllers e.name → menuOf e.state = [.stop, .kill]) ∧
    (¬ ListedRunning m.listControllers e.name → menuOf e.state = [.start, .unload]) := by
  have hk := c15_state_known h he
  rw [listedRunning_entry h he]
  simp only [List.mem_cons, List.not_mem_nil, or_false] at hk
  rcases hk with hk | hk | hk | hk | hk <;> rw [hk] at hw ha ⊢
  · exact ⟨⟨_, rfl⟩, fun hh => absurd hh (by decide), fun _ => rfl⟩
  · exact ⟨⟨_, rfl⟩, fun _ => rfl, fun hh => absurd rfl hh⟩
  · exact ⟨⟨_, rfl⟩, fun hh => absurd hh (by decide), fun _ => rfl⟩
  · exact absurd rfl hw
  · exact absurd rfl ha

/-- **C86, the rows of the table** (missing as above). Every row of a right table is a controller that some
manager lists, with an icon and the menu above, or one that is not loaded, with an icon and a menu that offers to
load it. -/
theorem c86_rows_partial {conf home w ns p t} (ht : Right home w ns p t)
    (hl : ∀ i, ∃ m, Reachable conf m ∧ w.listing i = m.listControllers) {e : Entry} (he : e ∈ t)
    (hw : e.state ≠ "waiting") (ha : e.state ≠ "aborted") :
    (∃ i, icon e.state = .ok i) ∧ (e.state = "uninitialized" ∧ menuOf e.state = [.load, .spawn] ∨
      ∃ i, home i = slashed ns ∧ w.alive i = true ∧ e ∈ w.listing i ∧
        (ListedRunning (w.listing i) e.name → menuOf e.state = [.stop, .kill]) ∧
        (¬ ListedRunning (w.listing i) e.name → menuOf e.state = [.start, .unload])) := by
  obtain ⟨l, names, type, rfl, hlist, -⟩ := ht
  rcases List.mem_append.1 he with he | he
  · rcases hlist with ⟨i, h1, h2, rfl⟩ | ⟨rfl, -⟩
    · obtain ⟨m, hm, heq⟩ := hl i
      obtain ⟨k1, k2, k3⟩ := c86_menu_partial hm (heq ▸ he) hw ha
      exact ⟨k1, Or.inr ⟨i, h1, h2, he, by rw [heq]; exact k2, by rw [heq]; exact k3⟩⟩
    · cases he
  · obtain ⟨n, -, rfl⟩ := List.mem_map.1 he
    exact ⟨⟨_, rfl⟩, Or.inl ⟨rfl, rfl⟩⟩

/-- A running controller, one that is loaded and one that is not: their menus. -/
example : (⟨"a", "T", "running", [⟨"Pos", ["j1"]⟩]⟩ : Entry) ∈ (Ex.after Ex.running).listControllers ∧
    menuOf "running" = [.stop, .kill] ∧ menuOf "initialized" = [.start, .unload] ∧
    menuOf "uninitialized" = [.load, .spawn] := by decide

/-- The history of a switch in which the hardware reports an error. -/
def exAborted : List Op :=
  Ex.three ++ [.switch ⟨["a", "c"], [], 2, false, 0⟩ 0 true, .update 0 false (Ex.hw .error), Ex.wait]

/-- **C86, the negation.** A manager may list a controller (its start was aborted) for which the table raises a
`KeyError` when it is drawn, and for which the menu is empty, so that it can neither be started nor unloaded,
though the manager would unload it. -/
theorem c86_state_negation : ∃ m, Reachable checkForConflict m ∧ ∃ e ∈ m.listControllers,
    icon e.state = .error .key ∧ menuOf e.state = [] ∧
    ∃ m', Served checkForConflict false m (.unload e.name) true m' := by
  refine ⟨Ex.after exAborted, Ex.reachable_after ?_, ⟨"a", "T", "aborted", [⟨"Pos", ["j1"]⟩]⟩, by decide, by decide,
    by decide, _, served_of Ex.cycle (by decide) (Ex.background_cycle _) (by decide) (by decide)⟩
  simp [exAborted, Ex.three, Ex.loadOf, Op.rosUp, Ex.tick, Ex.wait]

/-- **C86, what the menu does.** "Stop" stops the controller, "Stop and Unload" removes it (whatever its state is by
now), unless the hardware refuses; "Unload" removes it unless it runs; nothing else changes. -/
theorem c86_stop_unload {conf errors env prepOk} (hc : Hereditary conf) {m m' : Mgr} (h : Reachable conf m)
    {n : String} :
    (Performs conf errors env prepOk (requests n .stop) m m' →
      m'.listControllers = m.listControllers.map fun e =>
        if e.name = n ∧ e.state = "running" ∧ prepOk = true then { e with state := "stopped" } else e) ∧
    (Performs conf errors env prepOk (requests n .kill) m m' →
      m'.listControllers = m.listControllers.filter fun e => e.name ≠ n ∨ e.state = "running" ∧ prepOk = false) ∧
    (Performs conf errors env prepOk (requests n .unload) m m' →
      m'.listControllers = m.listControllers.filter fun e => e.name ≠ n ∨ e.state = "running") := by
  have hstop : ∀ {r m1 m2}, Performs conf errors env prepOk (.stop r :: []) m1 m2 → ∃ ok,
      StartStop conf errors [] [r] prepOk m1 ok m2 := by
    rintro r m1 m2 (_ | ⟨hs, hn⟩)
    cases hn
    exact ⟨_, _, hs⟩
  have hunl : ∀ {r m1 m2}, Performs conf errors env prepOk (.unload r :: []) m1 m2 → ∃ ok,
      Served conf errors m1 (.unload r) ok m2 := by
    rintro r m1 m2 (_ | ⟨hs, hn⟩)
    cases hn
    exact ⟨_, hs⟩
  refine ⟨fun hp => ?_, fun hp => ?_, fun hp => ?_⟩
  · obtain ⟨ok, hs⟩ := hstop hp
    exact (stopOne_listing hc h hs).2
  · obtain _ | ⟨hs, hp⟩ := hp
    obtain ⟨r1, e1⟩ := stopOne_listing hc h ⟨_, hs⟩
    obtain ⟨ok, hu⟩ := hunl hp
    rw [unload_listing r1 hu, e1]
    clear hs hp hu e1 h
    induction m.listControllers with
    | nil => rfl
    | cons e l ih =>
      rw [List.map_cons]
      by_cases hn : e.name = n
      · by_cases hr : e.state = "running"
        · cases prepOk
          · rw [if_neg (by simp), List.filter_cons_of_pos (by simp [hr]), List.filter_cons_of_pos (by simp [hr]), ih]
          · rw [if_pos ⟨hn, hr, rfl⟩, List.filter_cons_of_neg (by simp [hn]), List.filter_cons_of_neg (by simp [hn]), ih]
        · rw [if_neg (fun hh => hr hh.2.1), List.filter_cons_of_neg (by simp [hn, hr]),
            List.filter_cons_of_neg (by simp [hn, hr]), ih]
      · rw [if_neg (fun hh => hn hh.1), List.filter_cons_of_pos (by simp [hn]), List.filter_cons_of_pos (by simp [hn]), ih]
  · obtain ⟨ok, hu⟩ := hunl hp
    exact unload_listing h hu

/-- **C86, what the menu does.** "Start" and "Load and Start" leave the controller running if it is loaded then,
the hardware accepts it and it does not conflict with the running controllers; "Load" loads it if it can be loaded
and is not loaded. No running controller is stopped, and nothing else changes. -/
theorem c86_load_start {conf env prepOk} (hc : Hereditary conf) {m m' : Mgr} (h : Reachable conf m) {n : String}
    {a : Action} (ha : a = .start ∨ a = .load ∨ a = .spawn) (hp : Performs conf false env prepOk (requests n a) m m') :
    (Listed m'.listControllers n ↔ Listed m.listControllers n ∨
      a ≠ .start ∧ ∃ type claimed, ListedLoadable m.listControllers n (env n) type claimed) ∧
    (a ≠ .load → Listed m'.listControllers n → ListedRunning m'.listControllers n ∨ prepOk = false ∨
      conf (listedTarget m'.listControllers [n] []) = true) ∧
    (a = .load → ∀ e ∈ m'.listControllers, e ∈ m.listControllers ∨ e.name = n ∧ e.state = "initialized") ∧
    (∀ x, ListedRunning m.listControllers x → ListedRunning m'.listControllers x) ∧
    ∀ e, e.name ≠ n → (e ∈ m'.listControllers ↔ e ∈ m.listControllers) := by
  have hload : ∀ {m1 m2}, Reachable conf m1 → (∃ ok, Served conf false m1 (.load n (env n)) ok m2) →
      Reachable conf m2 ∧ (Listed m2.listControllers n ↔ Listed m1.listControllers n ∨
        ∃ type claimed, ListedLoadable m1.listControllers n (env n) type claimed) ∧
      (∀ e ∈ m2.listControllers, e ∈ m1.listControllers ∨ e.name = n ∧ e.state = "initialized") ∧
      (∀ e ∈ m1.listControllers, e ∈ m2.listControllers) := by
    rintro m1 m2 h1 ⟨ok, hs⟩
    obtain ⟨r2, es, e1, e2, e3, e4⟩ := loadAll_which (.cons hs (.nil _)) h1
    refine ⟨r2, e4 n (by simp), fun e he => ?_, fun e he => by rw [e1]; exact List.mem_append_left _ he⟩
    rw [e1] at he
    rcases List.mem_append.1 he with he | he
    · exact Or.inl he
    · right
      have := e2.subset (List.mem_map_of_mem (f := (·.name)) he)
      exact ⟨by simpa using this, (e3 e he).1⟩
  have hstart : ∀ {m1 m2}, Reachable conf m1 → (∃ ok, StartStop conf false [n] [] prepOk m1 ok m2) →
      (Listed m2.listControllers n ↔ Listed m1.listControllers n) ∧
      (Listed m2.listControllers n → ListedRunning m2.listControllers n ∨ prepOk = false ∨
        conf (listedTarget m2.listControllers [n] []) = true) ∧
      (∀ x, ListedRunning m1.listControllers x → ListedRunning m2.listControllers x) ∧
      ∀ e, e.name ≠ n → (e ∈ m2.listControllers ↔ e ∈ m1.listControllers) := by
    rintro m1 m2 h1 ⟨ok, hs⟩
    have hst : Starts conf false (fun _ => prepOk) [n] m1 m2 := .cons hs (.nil _)
    obtain ⟨r2, on, o1, o2, o3, o4⟩ := starts_listing hc hst h1
    refine ⟨by rw [o2]; exact listed_turnedOn, fun hl => o4 n (by simp) (by rw [o2] at hl; exact listed_turnedOn.1 hl),
      fun x hx => by rw [o2]; exact listedRunning_turnedOn.2 (Or.inl hx), ?_⟩
    intro e hne
    rw [o2]
    unfold turnedOn
    constructor
    · intro hh
      obtain ⟨y, hy, rfl⟩ := List.mem_map.1 hh
      by_cases hon : y.name ∈ on
      · rw [if_pos hon] at hne
        exact absurd (List.mem_singleton.1 (o1 hon)) hne
      · rwa [if_neg hon]
    · intro hh
      exact List.mem_map.2 ⟨e, hh, if_neg fun hon => hne (List.mem_singleton.1 (o1 hon))⟩
  rcases ha with rfl | rfl | rfl
  · obtain _ | ⟨hs, hp⟩ := hp
    cases hp
    obtain ⟨s1, s2, s3, s4⟩ := hstart h ⟨_, _, hs⟩
    exact ⟨by rw [s1]; simp, fun _ => s2, fun hh => absurd hh (by decide), s3, s4⟩
  · obtain _ | ⟨hs, hp⟩ := hp
    cases hp
    obtain ⟨_, l1, l2, l3⟩ := hload h ⟨_, hs⟩
    refine ⟨by rw [l1]; simp, fun hh => absurd rfl hh, fun _ => l2, ?_, ?_⟩
    · rintro x ⟨e, he, hx⟩; exact ⟨e, l3 e he, hx⟩
    · intro e hne
      exact ⟨fun hh => (l2 e hh).resolve_right fun hx => hne hx.1, l3 e⟩
  · obtain _ | ⟨hs, hp⟩ := hp
    obtain _ | ⟨hs', hp⟩ := hp
    cases hp
    obtain ⟨r1, l1, l2, l3⟩ := hload h ⟨_, hs⟩
    obtain ⟨s1, s2, s3, s4⟩ := hstart r1 ⟨_, _, hs'⟩
    refine ⟨by rw [s1, l1]; simp, fun _ => s2, fun hh => absurd hh (by decide), ?_, ?_⟩
    · rintro x ⟨e, he, hx⟩; exact s3 x ⟨e, l3 e he, hx⟩
    · intro e hne
      rw [s4 e hne]
      exact ⟨fun hh => (l2 e hh).resolve_right fun hx => hne hx.1, l3 e⟩

/-- "Stop and Unload" of a running controller, "Load and Start" of a new one. -/
example : (∃ m', Performs checkForConflict false Ex.envOf true (requests "a" .kill) (Ex.after Ex.running) m' ∧
      m'.listControllers.map (fun e => (e.name, e.state)) = [("b", "initialized"), ("c", "running")]) ∧
    ∃ m', Performs checkForConflict false (fun _ => Ex.env ["j3"]) true (requests "d" .spawn) (Ex.after Ex.running) m' ∧
      m'.listControllers.map (fun e => (e.name, e.state)) =
        [("a", "running"), ("b", "initialized"), ("c", "running"), ("d", "running")] := by
  have hc := Ex.background_cycle false
  refine ⟨⟨Ex.after (Ex.running ++ .switch ⟨[], ["a"], 2, false, 0⟩ 0 true :: Ex.cycle ++ .unload "a" :: Ex.cycle),
    .cons (ok := true) (now := 0) (served_of Ex.cycle (by decide) hc (by decide) (by decide))
      (.cons (ok := true) (now := 0) (served_of Ex.cycle (by decide) hc (by decide) (by decide)) (.nil _)), by decide⟩,
    ⟨Ex.after (Ex.running ++ .load "d" (Ex.env ["j3"]) :: Ex.cycle ++ .switch ⟨["d"], [], 2, false, 0⟩ 0 true :: Ex.cycle),
    .cons (ok := true) (now := 0) (served_of Ex.cycle (by decide) hc (by decide) (by decide))
      (.cons (ok := true) (now := 0) (served_of Ex.cycle (by decide) hc (by decide) (by decide)) (.nil _)), by decide⟩⟩

/-! ### C87 -/

theorem callProxy_ok {home : Nat → List Char} {ns srv} {o : Option Proxy} {w : World} {i : Nat}
    (h : ∃ p, o = some p ∧ p.For home ns srv) (halive : ∀ j, home j = slashed ns → w.alive j = true)
    (hs : w.server (slashed ns ++ srv.toList) = some i) (hi : w.alive i = true) : ∃ j, (callProxy w o).1 = .ok j := by
  obtain ⟨p, rfl, hp⟩ := h
  have hcall : ∃ j, (p.call w).1 = some j := by
    unfold Proxy.call
    cases hc : p.conn with
    | some j => exact ⟨j, if_pos (halive j (hp.conn j hc))⟩
    | none =>
      dsimp only
      rw [hp.name, hs]
      dsimp only
      rw [if_pos hi]
      exact ⟨i, rfl⟩
  obtain ⟨j, hj⟩ := hcall
  unfold callProxy
  dsimp only
  generalize p.call w = q at hj
  obtain ⟨_ | k, q⟩ := q
  · cases hj
  · exact ⟨k, rfl⟩

/-- **C87** (missing: managers that were restarted, see the negation). As long as no process that ever served the
selected manager has ended, and its services are advertised, every request of the menu is sent. -/
theorem c87_alive_partial {home evs} (he : Ordered home evs) {w : World} (hw : w.Ordered home) {c : Entry} {a : Action}
    (hm : (run {} evs).menu = some c) (ha : a ∈ menuOf c.state) (hsel : (run {} evs).combo.text ≠ [])
    (halive : ∀ j, home j = slashed (run {} evs).combo.text → w.alive j = true)
    (hs : ∃ i, w.alive i = true ∧ ∀ srv ∈ ["load_controller", "unload_controller", "switch_controller", "list_controllers"],
      w.server (slashed (run {} evs).combo.text ++ srv.toList) = some i) :
    ∃ js : List Nat, (step (run {} evs) (.choose (some a) w)).2 = js.zipWith Out.sent (requests c.name a) ∧
      js.length = (requests c.name a).length := by
  have h := run_inv he (inv_init home)
  generalize run {} evs = g at *
  obtain ⟨i, hi, hs⟩ := hs
  have key : ∀ (rs : List Req) (g' : Gui), Inv home g' → g'.combo.text = g.combo.text →
      ∃ js : List Nat, (sendAll g' w rs).2 = js.zipWith Out.sent rs ∧ js.length = rs.length := by
    intro rs
    induction rs with
    | nil => intro g' _ _; exact ⟨[], rfl, rfl⟩
    | cons r rs ih =>
      intro g' hinv ht
      obtain ⟨k1, k2, _, _⟩ := send_kept hw hinv r
      have hcm : g'.cmNs = g.combo.text := hinv.text.trans ht
      have hok : ∃ j, (send g' w r).2 = .ok j := by
        have hp := hinv.proxies
        cases r with
        | load n =>
          have := hp.load
          rw [if_neg (by rw [hcm]; exact hsel), hcm] at this
          exact callProxy_ok this halive (hs _ (by simp)) hi
        | unload n =>
          have := hp.unload
          rw [if_neg (by rw [hcm]; exact hsel), hcm] at this
          exact callProxy_ok this halive (hs _ (by simp)) hi
        | start n =>
          have := hp.switch
          rw [if_neg (by rw [hcm]; exact hsel), hcm] at this
          exact callProxy_ok this halive (hs _ (by simp)) hi
        | stop n =>
          have := hp.switch
          rw [if_neg (by rw [hcm]; exact hsel), hcm] at this
          exact callProxy_ok this halive (hs _ (by simp)) hi
      obtain ⟨j, hj⟩ := hok
      obtain ⟨js, e1, e2⟩ := ih (send g' w r).1 k1 (by rw [k2]; exact ht)
      refine ⟨j :: js, ?_, by simp [e2]⟩
      unfold sendAll
      generalize send g' w r = q at *
      obtain ⟨q1, q2⟩ := q
      dsimp only at hj
      subst hj
      dsimp only at e1 ⊢
      rw [e1]; rfl
  obtain ⟨js, e1, e2⟩ := key (requests c.name a) { g with menu := none } (menu_inv h none) rfl
  refine ⟨js, ?_, e2⟩
  unfold step
  dsimp only
  rw [hm]
  dsimp only
  rw [if_pos ha]
  exact e1

/-- The proxies for requests are not connected. -/
def Fresh (g : Gui) : Prop :=
  (∀ p, g.load = some p → p.conn = none) ∧ (∀ p, g.unload = some p → p.conn = none) ∧
  ∀ p, g.switch = some p → p.conn = none

theorem refresh_fresh {g : Gui} (h : Fresh g) (w : World) : Fresh (refresh g w).1 := by
  unfold refresh
  split
  · exact h
  · split
    · exact h
    · exact h

theorem onCmChange_fresh (g : Gui) (w : World) (ns : List Char) : Fresh (onCmChange g w ns).1 := by
  unfold onCmChange
  split
  · exact ⟨fun p hp => (by cases hp), fun p hp => (by cases hp), fun p hp => (by cases hp)⟩
  · apply refresh_fresh
    refine ⟨fun p hp => ?_, fun p hp => ?_, fun p hp => ?_⟩ <;> cases hp <;> rfl

theorem onSignal_fresh {g : Gui} (h : Fresh g) (w : World) (sig : Option (List Char)) : Fresh (onSignal g w sig).1 := by
  cases sig with
  | none => exact h
  | some ns => exact onCmChange_fresh g w ns

theorem updateManagers_fresh {g : Gui} (h : Fresh g) (w : World) : Fresh (updateManagers g w).1 := by
  unfold updateManagers
  apply onSignal_fresh
  exact h

theorem setCombo_fresh {g : Gui} (h : Fresh g) (w : World) (i : Option Nat) : Fresh (setCombo g w i).1 := by
  unfold setCombo
  apply onSignal_fresh
  exact h

theorem step_fresh {g : Gui} (h : Fresh g) {e : Ev} (hno : ∀ a w, e ≠ .choose a w) : Fresh (step g e).1 := by
  cases e with
  | managers w => exact updateManagers_fresh h w
  | controllers w => exact refresh_fresh h w
  | select i w =>
    unfold step; dsimp only
    split
    · exact setCombo_fresh h w _
    · exact h
  | restore s w =>
    unfold step; dsimp only
    split
    · show Fresh (restore g w s).1
      unfold restore
      have h1 : Fresh (updateManagers g w).1 := updateManagers_fresh h w
      generalize updateManagers g w = q at h1
      obtain ⟨g', _ | e⟩ := q
      · dsimp only
        split
        · exact setCombo_fresh h1 w _
        · exact h1
      · exact h1
    · exact h
  | openMenu row =>
    unfold step; dsimp only
    split
    · split
      · split <;> exact h
      · exact h
    · exact h
  | choose a w => exact absurd rfl (hno a w)

/-- **C87** (missing as above). The first request after the manager was chosen is sent to the process that
advertises its services then, if it runs, even if it is not the one that did so when the manager was chosen. -/
theorem c87_chosen_partial {home evs evs' i w0} (he : Ordered home (evs ++ .select i w0 :: evs'))
    (hch : (run {} (evs ++ [.select i w0])).combo.text ≠ (run {} evs).combo.text)
    (hno : ∀ e ∈ evs', ∀ a w, e ≠ .choose a w) {w : World}
    {c : Entry} {a : Action} (hm : (run {} (evs ++ .select i w0 :: evs')).menu = some c) (ha : a ∈ menuOf c.state)
    (hsel : (run {} (evs ++ .select i w0 :: evs')).combo.text ≠ []) {j : Nat} (hj : w.alive j = true)
    (hs : ∀ srv ∈ ["load_controller", "unload_controller", "switch_controller", "list_controllers"],
      w.server (slashed (run {} (evs ++ .select i w0 :: evs')).combo.text ++ srv.toList) = some j) :
    ∃ r, (step (run {} (evs ++ .select i w0 :: evs')) (.choose (some a) w)).2[0]? = some (.sent j r) := by
  have h := run_inv he (inv_init home)
  have hfresh : Fresh (run {} (evs ++ .select i w0 :: evs')) := by
    have h1 : Fresh (step (run {} evs) (.select i w0)).1 := by
      rw [run_append] at hch
      change (step (run {} evs) (.select i w0)).1.combo.text ≠ _ at hch
      revert hch
      generalize run {} evs = g
      intro hch
      unfold step at hch ⊢
      dsimp only at hch ⊢
      split at hch
      · rename_i hmn
        rw [if_pos hmn]
        show Fresh (setCombo g w0 (some i)).1
        change (setCombo g w0 (some i)).1.combo.text ≠ _ at hch
        unfold setCombo at hch ⊢
        cases hsig : (g.combo.setIndex (some i)).2 with
        | some ns => exact onCmChange_fresh _ _ _
        | none =>
          exfalso
          rw [hsig] at hch
          apply hch
          show (g.combo.setIndex (some i)).1.text = _
          unfold Combo.setIndex at hsig ⊢
          dsimp only at hsig ⊢
          split at hsig
          · rename_i hh; rw [if_pos hh]
          · cases hsig
      · exact absurd rfl hch
    have hrun : ∀ (l : List Ev) (g : Gui), (∀ e ∈ l, ∀ a w, e ≠ .choose a w) → Fresh g → Fresh (run g l) := by
      intro l
      induction l with
      | nil => intro g _ hg; exact hg
      | cons e l ih =>
        intro g hn hg
        exact ih _ (fun x hx => hn x (List.mem_cons_of_mem _ hx)) (step_fresh hg (hn e List.mem_cons_self))
    rw [run_append]
    exact hrun evs' _ hno h1
  generalize run {} (evs ++ .select i w0 :: evs') = g at *
  obtain ⟨f1, f2, f3⟩ := hfresh
  have hcm : g.cmNs = g.combo.text := h.text
  have hp := (menu_inv h none).proxies
  have hcall : ∀ {o : Option Proxy} {srv}, (∃ p, o = some p ∧ p.For home g.combo.text srv) →
      (∀ p, o = some p → p.conn = none) → w.server (slashed g.combo.text ++ srv.toList) = some j →
      (callProxy w o).1 = .ok j := by
    rintro o srv ⟨p, rfl, hpf⟩ hf hsv
    have hc : (p.call w).1 = some j := by
      unfold Proxy.call
      rw [hf p rfl]
      dsimp only
      rw [hpf.name, hsv]
      dsimp only
      rw [if_pos hj]
    unfold callProxy
    dsimp only
    generalize p.call w = q at hc
    obtain ⟨_ | k, q⟩ := q
    · cases hc
    · cases hc; rfl
  have hload := hp.load
  have hunload := hp.unload
  have hswitch := hp.switch
  dsimp only at hload hunload hswitch
  rw [if_neg (by rw [hcm]; exact hsel), hcm] at hload hunload hswitch
  have hst : (step g (.choose (some a) w)).2 = (sendAll { g with menu := none } w (requests c.name a)).2 := by
    unfold step
    dsimp only
    rw [hm]
    dsimp only
    rw [if_pos ha]
  rw [hst]
  have hfirst : ∀ (r : Req) (rs : List Req), (send { g with menu := none } w r).2 = .ok j →
      (sendAll { g with menu := none } w (r :: rs)).2[0]? = some (.sent j r) := by
    intro r rs hr
    unfold sendAll
    generalize send { g with menu := none } w r = q at hr
    obtain ⟨q1, q2⟩ := q
    dsimp only at hr
    subst hr
    rfl
  cases a with
  | stop => exact ⟨_, hfirst _ _ (hcall hswitch f3 (hs _ (by simp)))⟩
  | kill => exact ⟨_, hfirst _ _ (hcall hswitch f3 (hs _ (by simp)))⟩
  | start => exact ⟨_, hfirst _ _ (hcall hswitch f3 (hs _ (by simp)))⟩
  | unload => exact ⟨_, hfirst _ _ (hcall hunload f2 (hs _ (by simp)))⟩
  | load => exact ⟨_, hfirst _ _ (hcall hload f1 (hs _ (by simp)))⟩
  | spawn => exact ⟨_, hfirst _ _ (hcall hload f1 (hs _ (by simp)))⟩

/-- The events of the next theorem: "arm" is stopped by the front end, then the manager is restarted (process 2
takes the place of process 1), which the timer for managers does not notice as the services are there again. -/
def exRestart : List Ev :=
  let w := exWorld 1 (fun _ => true) "running"
  let w' := exWorld 2 (fun i => i = 2) "running"
  [.managers w, .select 0 w, .openMenu 0, .choose (some .stop) w, .managers w', .controllers w', .openMenu 0]

theorem exRestart_ordered : Ordered (fun _ => "/r/cm/".toList) exRestart := by
  intro e he w hw
  simp only [exRestart, List.mem_cons, List.not_mem_nil, or_false] at he
  rcases he with rfl | rfl | rfl | rfl | rfl | rfl | rfl <;> cases hw <;> exact exWorld_ordered _ _ _

/-- **C87, the negation.** After a restart of the selected manager the table is filled from the new process, but
requests through a proxy that was used before raise an exception, as it is never connected again. -/
theorem c87_restart_negation : ¬ Works fun _ => "/r/cm/".toList := by
  intro hall
  obtain ⟨i, r, hh⟩ := hall exRestart (exWorld 2 (fun i => i = 2) "running") .stop exRestart_ordered
    (exWorld_ordered _ _ _) ⟨"arm", "T", "running", []⟩ (by decide) (by decide) (by decide)
    ⟨2, by decide, by decide⟩
  have : (step (run {} exRestart) (.choose (some .stop) (exWorld 2 (fun i => i = 2) "running"))).2 = [.raised .service] := by
    decide
  rw [this] at hh
  simp at hh

/-- The table is filled from the new process all the same. -/
example : (run {} exRestart).table = [⟨"arm", "T", "running", []⟩, ⟨"base", "U", "uninitialized", []⟩] ∧
    (run {} exRestart).lister.map (·.conn) = some (some 2) := by decide

end Verif.Gui
