import Verif.Lemmas.Reports
import Verif.Spec.Outcome

/-!
Lemmas for C104: answers and listings as functions of the listing before.
-/

namespace Verif

open Mgr Spec Clients

theorem served_afterLoad {conf errors env loads n ok} {m m' : Mgr} (ht : Tells env loads) (h : Reachable conf m)
    (hs : Served conf errors m (.load n (env n)) ok m') :
    (ok, m'.listControllers) = afterLoad loads m.listControllers n := by
  have hsv := hs.serves h
  unfold afterLoad
  generalize hl0 : m.listControllers = l at *
  generalize hl1 : m'.listControllers = l' at *
  cases hsv with
  | load hh =>
    obtain ⟨h1, h2⟩ := listedLoadable_iff.1 hh
    rw [(ht _ _ _).2 h2]
    simp [h1]
  | notLoaded hno =>
    cases hln : loads n with
    | none => rfl
    | some tc =>
      obtain ⟨t, c⟩ := tc
      dsimp only
      rw [if_pos]
      by_contra hh
      exact hno t c (listedLoadable_iff.2 ⟨hh, (ht _ _ _).1 hln⟩)

theorem served_afterUnload {conf errors n ok} {m m' : Mgr} (h : Reachable conf m)
    (hs : Served conf errors m (.unload n) ok m') :
    (ok, m'.listControllers) = afterUnload m.listControllers n := by
  have hsv := hs.serves h
  unfold afterUnload
  generalize hl0 : m.listControllers = l at *
  generalize hl1 : m'.listControllers = l' at *
  cases hsv with
  | unload h1 h2 => rw [if_pos ⟨h1, h2⟩]
  | notUnloaded hno => rw [if_neg (fun hh => hh.2 (hno hh.1))]

theorem startStop_afterSwitch {conf start stop prepOk ok} {m m' : Mgr} (h : Reachable conf m)
    (hs : StartStop conf false start stop prepOk m ok m') :
    (ok, m'.listControllers) = afterSwitch conf prepOk m.listControllers start stop := by
  obtain ⟨now, hs⟩ := hs
  unfold afterSwitch
  have key : Acceptable conf m.listControllers ⟨start, stop, strictnessStrict, false, 0⟩ prepOk ↔
      (∀ n ∈ stop, ListedRunning m.listControllers n) ∧ (∀ n ∈ start, Listed m.listControllers n ∧
        ¬ ListedRunning m.listControllers n ∧ n ∉ stop) ∧
      conf (listedTarget m.listControllers start stop) = false ∧ prepOk = true := by
    unfold Acceptable
    rw [if_pos rfl]
    constructor
    · rintro ⟨⟨a, b, c⟩, d, e⟩; exact ⟨a, fun n hn => ⟨(b n hn).1, (b n hn).2, c n hn⟩, d, e⟩
    · rintro ⟨a, b, d, e⟩
      exact ⟨⟨a, fun n hn => ⟨(b n hn).1, (b n hn).2.1⟩, fun n hn => (b n hn).2.2⟩, d, e⟩
  rcases switch_listing rfl (hs.serves h) with ⟨ha, rfl, e⟩ | ⟨ha, rfl, out, e, _, ho⟩
  · rw [if_neg (fun hh => ha (key.2 hh)), e]
  · have hk := key.1 ha
    rw [if_pos hk, e]
    congr 1
    apply List.map_congr_left
    intro x hx
    unfold switchedEntry
    rw [ho rfl]
    by_cases h1 : x.name ∈ start
    · simp [h1]
    · simp only [h1, if_false]
      by_cases h2 : x.name ∈ stop
      · have : x.state = "running" := (listedRunning_entry h hx).1 (hk.1 _ h2)
        simp [h2, this]
      · simp [h2]

theorem does_outcome {conf env loads prep a ok} {m m' : Mgr} (ht : Tells env loads) (h : Reachable conf m)
    (hd : Does conf false env prep a m ok m') :
    (a.lines ok, m'.listControllers) = ([(outcome conf loads prep m.listControllers a).1],
      (outcome conf loads prep m.listControllers a).2) := by
  cases a with
  | load n =>
    have hh := served_afterLoad ht h (show Served conf false m (.load n (env n)) ok m' from hd)
    simp [outcome, ← hh, Act.lines]
  | unload n =>
    have hh := served_afterUnload h (show Served conf false m (.unload n) ok m' from hd)
    simp [outcome, ← hh, Act.lines]
  | start n =>
    have hh := startStop_afterSwitch h (show StartStop conf false [n] [] (prep n) m ok m' from hd)
    cases ok <;> simp [outcome, ← hh, Act.lines, startStopLines]
  | stop n =>
    have hh := startStop_afterSwitch h (show StartStop conf false [] [n] (prep n) m ok m' from hd)
    cases ok <;> simp [outcome, ← hh, Act.lines, startStopLines]

theorem performs_outcomes {conf env loads prep as ls} {m m' : Mgr} (ht : Tells env loads) (h : Reachable conf m)
    (hp : Performs conf false env prep as m ls m') :
    (ls, m'.listControllers) = outcomes conf loads prep as m.listControllers := by
  induction hp with
  | nil m => rfl
  | @cons a as m ok m1 ls m2 hd _ ih =>
    have e := does_outcome ht h hd
    have ih := ih (does_effect h hd).1
    obtain ⟨e1, e2⟩ := Prod.mk.inj e
    unfold outcomes
    rw [← e2, ← ih, e1]
    rfl

theorem loadMissing_groupLoads {conf errors env loads known ns ok ls} {m m' : Mgr} (ht : Tells env loads)
    (h : Reachable conf m) (hl : LoadMissingPrints conf errors env known ns m ok ls m') :
    (ok, ls, m'.listControllers) = groupLoads loads known ns m.listControllers := by
  induction hl with
  | nil m => rfl
  | known hk _ ih => unfold groupLoads; rw [if_pos hk, ih h]
  | loaded hk hs _ ih =>
    have e := served_afterLoad ht h hs
    have ih := ih (hs.reachable h)
    unfold groupLoads
    rw [if_neg hk, ← e]
    simp only [if_true]
    rw [← ih]
  | cancel hk hs =>
    have e := served_afterLoad ht h hs
    rcases load_listing (hs.serves h) with ⟨_, e'⟩ | ⟨hh, _⟩
    · unfold groupLoads
      rw [if_neg hk, ← e, e']
      simp
    · cases hh

end Verif
