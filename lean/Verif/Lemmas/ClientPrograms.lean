import Verif.Lemmas.Clients
import Verif.Props.ManagerSafety

/-!
Helper lemmas: the effect of the client programs on the listing.
-/

namespace Verif

open Mgr Spec Clients

theorem hereditary_checkForConflict : Hereditary checkForConflict := by
  refine ⟨by decide, ?_⟩
  intro a b hs hb
  have hb' : ConflictFree b := checkOk_checkForConflict.sound b hb
  have ha : ConflictFree a := checkOk_checkForConflict.mono b a hs hb'
  by_contra hc
  have hc' : checkForConflict a = true := by simpa using hc
  exact ((c27_conflict_iff a).1 hc') ha

/-- The running controllers of a listing. -/
theorem listedTarget_running {conf} (hc : Hereditary conf) {m : Mgr} (h : Reachable conf m) :
    conf (listedTarget m.listControllers [] []) = false := by
  have := c05_any_hereditary_check conf (fun l => conf l = false) (fun _ h => h)
    (fun l l' hs h => hc.2 l' l hs h) hc.1 h
  rw [listedTarget_eq]
  have e : target m [] [] = m.running.map (·.info) := by
    unfold target Mgr.running
    simp
  rw [e]; exact this

theorem listedTarget_stop {conf} (hc : Hereditary conf) {m : Mgr} (h : Reachable conf m)
    (stop : List String) : conf (listedTarget m.listControllers [] stop) = false := by
  refine hc.2 _ _ ?_ (listedTarget_running hc h)
  unfold listedTarget
  apply List.Sublist.map
  apply List.monotone_filter_right
  intro e
  simp only [List.not_mem_nil, or_false, not_false_eq_true, and_true, decide_eq_true_eq]
  exact fun hh => hh.1

theorem listing_entry_unique {conf} {m : Mgr} (h : Reachable conf m) {e e' : Entry}
    (he : e ∈ m.listControllers) (he' : e' ∈ m.listControllers) (hn : e.name = e'.name) : e = e' :=
  List.inj_on_of_nodup_map (c15_names_unique h) he he' hn

theorem listedRunning_entry {conf} {m : Mgr} (h : Reachable conf m) {e : Entry}
    (he : e ∈ m.listControllers) : ListedRunning m.listControllers e.name ↔ e.state = "running" := by
  constructor
  · rintro ⟨e', he', hn, hs⟩
    rw [listing_entry_unique h he he' hn.symm]; exact hs
  · intro hs; exact ⟨e, he, rfl, hs⟩

/-! ### Loading -/

theorem load_listing {conf errors} {l l' : Listing} {name env ok}
    (h : Serves conf errors l (.load name env) ok l') :
    (ok = false ∧ l' = l) ∨ (ok = true ∧ ¬ Listed l name ∧
      ∃ type claimed, env.type = some type ∧ env.init = some claimed ∧
        l' = l ++ [⟨name, type, "initialized", claimed⟩]) := by
  cases h with
  | load h => exact Or.inr ⟨rfl, h.1, _, _, h.2.2.1, h.2.2.2.2, rfl⟩
  | notLoaded h => exact Or.inl ⟨rfl, rfl⟩

theorem loads_listing {conf errors env ns} {m m' : Mgr} {l : List String}
    (hl : Loads conf errors env ns m l m') (h : Reachable conf m) :
    Reachable conf m' ∧ (m.svc = .idle → m'.svc = .idle) ∧ ∃ es : List Entry,
      m'.listControllers = m.listControllers ++ es ∧
      es.map (·.name) = l ∧ ∀ e ∈ es, e.state = "initialized" := by
  induction hl with
  | nil m => exact ⟨h, id, [], by simp, rfl, by simp⟩
  | ok hs hl ih =>
    obtain ⟨h1, h2, es, e1, e2, e3⟩ := ih (hs.reachable h)
    rcases load_listing (hs.serves h) with ⟨e, _⟩ | ⟨_, _, type, claimed, _, _, e⟩
    · cases e
    · refine ⟨h1, fun _ => h2 ?_, _ :: es, by rw [e1, e]; simp; rfl, by simp [e2], ?_⟩
      · obtain ⟨_, _, _, _, _, _, hh, _⟩ := hs; exact hh
      · intro x hx
        rcases List.mem_cons.1 hx with rfl | hx
        · rfl
        · exact e3 x hx
  | failed hs hl ih =>
    obtain ⟨h1, h2, es, e1, e2, e3⟩ := ih (hs.reachable h)
    rcases load_listing (hs.serves h) with ⟨_, e⟩ | ⟨e, _⟩
    · refine ⟨h1, fun _ => h2 ?_, es, by rw [e1, e], e2, e3⟩
      obtain ⟨_, _, _, _, _, _, hh, _⟩ := hs; exact hh
    · cases e

/-! ### Unloading -/

theorem unload_listing {conf errors} {m m' : Mgr} {name ok} (h : Reachable conf m)
    (hs : Served conf errors m (.unload name) ok m') :
    m'.listControllers = m.listControllers.filter fun e => e.name ≠ name ∨ e.state = "running" := by
  have := hs.serves h
  generalize hL : m.listControllers = L at *
  generalize m'.listControllers = L' at *
  cases this with
  | unload h1 h2 =>
    apply List.filter_congr
    intro e he
    by_cases hn : e.name = name
    · have : e.state ≠ "running" := fun hh => h2 ⟨e, he, hn, hh⟩
      simp [hn, this]
    · simp [hn]
  | notUnloaded h1 =>
    symm
    rw [List.filter_eq_self]
    intro e he
    by_cases hn : e.name = name
    · have h2 := h1 ⟨e, he, hn⟩
      rw [← hL] at h2 he
      rw [← hn] at h2
      have := (listedRunning_entry h he).1 h2
      simp [this]
    · simp [hn]

theorem unloads_listing {conf errors ns} {m m' : Mgr} (hu : Unloads conf errors ns m m')
    (h : Reachable conf m) :
    Reachable conf m' ∧
    m'.listControllers = m.listControllers.filter fun e => e.name ∉ ns ∨ e.state = "running" := by
  induction hu with
  | nil m => exact ⟨h, by simp⟩
  | cons hs hu ih =>
    obtain ⟨h1, e⟩ := ih (hs.reachable h)
    refine ⟨h1, ?_⟩
    rw [e, unload_listing h hs, List.filter_filter]
    apply List.filter_congr
    intro x hx
    by_cases hr : x.state = "running" <;> simp [hr]
    exact Bool.and_comm _ _

/-! ### Switching -/

/-- A completed call of a switch that does not time out. -/
theorem switch_listing {conf errors} {l l' : Listing} {r now prepOk ok} (ht : r.timeout = 0)
    (h : Serves conf errors l (.switch r now prepOk) ok l') :
    (¬ Acceptable conf l r prepOk ∧ ok = false ∧ l' = l) ∨
    (Acceptable conf l r prepOk ∧ ok = true ∧ ∃ out : String → Bool,
      l' = l.map (switchedEntry r out) ∧
      (r.asap = false → (∀ n, out n = true) ∨ ∀ n, out n = false) ∧
      (errors = false → ∀ n, out n = true)) := by
  cases h with
  | refused h => exact Or.inl ⟨h, rfl, rfl⟩
  | switched out h1 h2 h3 => exact Or.inr ⟨h1, rfl, out, rfl, h2, fun x => h3 x ht⟩
  | gaveUp _ h _ => exact absurd ht h

theorem switchedEntry_name (r : SwitchReq) (out : String → Bool) (e : Entry) :
    (switchedEntry r out e).name = e.name := by
  unfold switchedEntry; split <;> [rfl; split <;> rfl]

end Verif
