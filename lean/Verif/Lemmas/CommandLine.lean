import Verif.Props.ClientTools
import Verif.Model.CommandLine

/-!
Lemmas for the command line tool: what sequences of single requests do to the listing.
-/

namespace Verif

open Mgr Spec Clients

theorem stopOne_listing {conf errors} (hc : Hereditary conf) {m m' : Mgr} (h : Reachable conf m) {n : String}
    {prepOk ok : Bool} (hs : StartStop conf errors [] [n] prepOk m ok m') :
    Reachable conf m' ∧ m'.listControllers = m.listControllers.map fun e =>
      if e.name = n ∧ e.state = "running" ∧ prepOk = true then { e with state := "stopped" } else e := by
  obtain ⟨now, hs⟩ := hs
  refine ⟨hs.reachable h, ?_⟩
  rcases switch_listing rfl (hs.serves h) with ⟨ha, _, e⟩ | ⟨ha, _, out, e, _, _⟩
  · rw [e, map_eq_self]
    rintro x hx
    rw [if_neg]
    rintro ⟨rfl, h2, h3⟩
    refine ha ⟨?_, listedTarget_stop hc h _, h3⟩
    rw [if_pos rfl]
    refine ⟨?_, by simp, by simp⟩
    intro y hy
    rw [List.mem_singleton.1 hy]
    exact ⟨x, hx, rfl, h2⟩
  · obtain ⟨_, _, hp⟩ := ha
    rw [e]
    apply List.map_congr_left
    intro x _
    unfold switchedEntry
    rw [if_neg (by simp)]
    simp [hp]

theorem stops_listing {conf errors prep ns} (hc : Hereditary conf) {m m' : Mgr}
    (hs : Stops conf errors prep ns m m') (h : Reachable conf m) :
    Reachable conf m' ∧ m'.listControllers = m.listControllers.map fun e =>
      if e.name ∈ ns ∧ e.state = "running" ∧ prep e.name = true then { e with state := "stopped" } else e := by
  induction hs with
  | nil m => exact ⟨h, by simp⟩
  | @cons n ns m ok m1 m2 h1 _ ih =>
    obtain ⟨r1, e1⟩ := stopOne_listing hc h h1
    obtain ⟨r2, e2⟩ := ih r1
    refine ⟨r2, ?_⟩
    rw [e2, e1, List.map_map]
    apply List.map_congr_left
    intro x _
    simp only [Function.comp]
    by_cases hx : x.name = n ∧ x.state = "running" ∧ prep n = true
    · obtain ⟨rfl, a, b⟩ := hx
      simp [a, b]
    · rw [if_neg hx]
      by_cases hy : x.name ∈ ns ∧ x.state = "running" ∧ prep x.name = true
      · rw [if_pos hy, if_pos ⟨List.mem_cons_of_mem _ hy.1, hy.2⟩]
      · rw [if_neg hy, if_neg]
        rintro ⟨a, b, c⟩
        rcases List.mem_cons.1 a with a | a
        · exact hx ⟨a, b, a ▸ c⟩
        · exact hy ⟨a, b, c⟩

/-- The listing after some controllers were started. -/
def turnedOn (on : List String) (l : Listing) : Listing :=
  l.map fun e => if e.name ∈ on then { e with state := "running" } else e

theorem listed_turnedOn {on : List String} {l : Listing} {n : String} : Listed (turnedOn on l) n ↔ Listed l n := by
  unfold turnedOn
  constructor
  · rintro ⟨e, he, rfl⟩
    obtain ⟨x, hx, rfl⟩ := List.mem_map.1 he
    exact ⟨x, hx, by split <;> rfl⟩
  · rintro ⟨e, he, rfl⟩
    exact ⟨_, List.mem_map_of_mem he, by split <;> rfl⟩

theorem listedRunning_turnedOn {on : List String} {l : Listing} {n : String} :
    ListedRunning (turnedOn on l) n ↔ ListedRunning l n ∨ Listed l n ∧ n ∈ on := by
  unfold turnedOn
  constructor
  · rintro ⟨e, he, rfl, h2⟩
    obtain ⟨x, hx, rfl⟩ := List.mem_map.1 he
    split at h2
    · rename_i hh
      rw [if_pos hh]
      exact Or.inr ⟨⟨x, hx, rfl⟩, hh⟩
    · rename_i hh
      rw [if_neg hh]
      exact Or.inl ⟨x, hx, rfl, h2⟩
  · rintro (⟨e, he, rfl, h2⟩ | ⟨⟨e, he, rfl⟩, h2⟩)
    · refine ⟨_, List.mem_map_of_mem he, ?_, ?_⟩ <;> split <;> first | rfl | exact h2
    · exact ⟨_, List.mem_map_of_mem he, by split <;> rfl, by rw [if_pos h2]⟩

theorem listedTarget_turnedOn (on : List String) (l : Listing) (start : List String) :
    (listedTarget l start []).Sublist (listedTarget (turnedOn on l) start []) := by
  unfold listedTarget turnedOn
  induction l with
  | nil => exact List.Sublist.refl _
  | cons e l ih =>
    simp only [List.map_cons]
    by_cases hr : (e.state = "running" ∧ e.name ∉ ([] : List String)) ∨ e.name ∈ start
    · rw [List.filter_cons_of_pos (by simpa using hr), List.filter_cons_of_pos (by
        split <;> simp_all)]
      simp only [List.map_cons]
      have : ∀ e : Entry, (fun e : Entry => (⟨e.name, e.type, e.claimed⟩ : ControllerInfo))
          (if e.name ∈ on then { e with state := "running" } else e) = ⟨e.name, e.type, e.claimed⟩ := by
        intro e; split <;> rfl
      rw [show (⟨(if e.name ∈ on then { e with state := "running" } else e).name,
        (if e.name ∈ on then { e with state := "running" } else e).type,
        (if e.name ∈ on then { e with state := "running" } else e).claimed⟩ : ControllerInfo) =
          ⟨e.name, e.type, e.claimed⟩ from this e]
      exact ih.cons_cons _
    · rw [List.filter_cons_of_neg (by simpa using hr)]
      by_cases hn : e.name ∈ on
      · rw [if_pos hn, List.filter_cons_of_pos (by simp), List.map_cons]
        exact ih.cons _
      · rw [if_neg hn, List.filter_cons_of_neg (by simpa using hr)]
        exact ih

theorem startOne_listing {conf} {m m' : Mgr} (h : Reachable conf m) {n : String}
    {prepOk ok : Bool} (hs : StartStop conf false [n] [] prepOk m ok m') :
    Reachable conf m' ∧ ∃ on : List String, on ⊆ [n] ∧ m'.listControllers = turnedOn on m.listControllers ∧
      (n ∈ on → prepOk = true ∧ Listed m.listControllers n ∧ ¬ ListedRunning m.listControllers n) ∧
      (n ∉ on → Listed m.listControllers n → ListedRunning m.listControllers n ∨ prepOk = false ∨
        conf (listedTarget m.listControllers [n] []) = true) := by
  obtain ⟨now, hs⟩ := hs
  refine ⟨hs.reachable h, ?_⟩
  rcases switch_listing rfl (hs.serves h) with ⟨ha, _, e⟩ | ⟨ha, _, out, e, _, ho⟩
  · refine ⟨[], by simp, by rw [e]; simp [turnedOn], by simp, ?_⟩
    intro _ hl
    by_contra hcon
    rw [not_or, not_or] at hcon
    refine ha ⟨?_, by simpa using hcon.2.2, by simpa using hcon.2.1⟩
    rw [if_pos rfl]
    refine ⟨by simp, ?_, by simp⟩
    intro y hy
    rw [List.mem_singleton.1 hy]
    exact ⟨hl, hcon.1⟩
  · obtain ⟨a1, _, hp⟩ := ha
    rw [if_pos rfl] at a1
    refine ⟨[n], List.Subset.refl _, ?_, fun _ => ⟨hp, a1.2.1 n (by simp)⟩, by simp⟩
    rw [e]
    unfold turnedOn
    apply List.map_congr_left
    intro x _
    unfold switchedEntry
    by_cases hx : x.name ∈ [n]
    · rw [if_pos hx, if_pos hx, ho rfl]; rfl
    · rw [if_neg hx, if_neg hx, if_neg (by simp)]

theorem turnedOn_append (a b : List String) (l : Listing) : turnedOn b (turnedOn a l) = turnedOn (a ++ b) l := by
  unfold turnedOn
  rw [List.map_map]
  apply List.map_congr_left
  intro x _
  simp only [Function.comp, List.mem_append]
  by_cases ha : x.name ∈ a <;> by_cases hb : x.name ∈ b <;> simp [ha, hb]

theorem starts_listing {conf prep ns} (hc : Hereditary conf) {m m' : Mgr}
    (hs : Starts conf false prep ns m m') (h : Reachable conf m) :
    Reachable conf m' ∧ ∃ on : List String, on ⊆ ns ∧ m'.listControllers = turnedOn on m.listControllers ∧
      (∀ n ∈ on, prep n = true ∧ Listed m.listControllers n ∧ ¬ ListedRunning m.listControllers n) ∧
      ∀ n ∈ ns, Listed m.listControllers n → ListedRunning m'.listControllers n ∨ prep n = false ∨
        conf (listedTarget m'.listControllers [n] []) = true := by
  induction hs with
  | nil m => exact ⟨h, [], by simp, by simp [turnedOn], by simp, by simp⟩
  | @cons n ns m ok m1 m2 h1 _ ih =>
    obtain ⟨r1, on1, s1, e1, p1, q1⟩ := startOne_listing h h1
    obtain ⟨r2, on2, s2, e2, p2, q2⟩ := ih r1
    have e12 : m2.listControllers = turnedOn (on1 ++ on2) m.listControllers := by
      rw [e2, e1, turnedOn_append]
    refine ⟨r2, on1 ++ on2, ?_, e12, ?_, ?_⟩
    · intro x hx
      rcases List.mem_append.1 hx with hx | hx
      · rw [List.mem_singleton.1 (s1 hx)]; exact List.mem_cons_self
      · exact List.mem_cons_of_mem _ (s2 hx)
    · intro x hx
      rcases List.mem_append.1 hx with hx | hx
      · have := List.mem_singleton.1 (s1 hx)
        subst this
        exact p1 hx
      · obtain ⟨a, b, c⟩ := p2 x hx
        rw [e1] at b c
        exact ⟨a, listed_turnedOn.1 b, fun hh => c (listedRunning_turnedOn.2 (Or.inl hh))⟩
    · intro x hx hl
      rcases List.mem_cons.1 hx with rfl | hx
      · by_cases hon : x ∈ on1
        · left; rw [e12]; exact listedRunning_turnedOn.2 (Or.inr ⟨hl, List.mem_append_left _ hon⟩)
        · rcases q1 hon hl with hh | hh | hh
          · left; rw [e12]; exact listedRunning_turnedOn.2 (Or.inl hh)
          · exact Or.inr (Or.inl hh)
          · right; right
            by_contra hcon
            rw [e12, Bool.not_eq_true] at hcon
            rw [hc.2 _ _ (listedTarget_turnedOn (on1 ++ on2) m.listControllers [x]) hcon] at hh
            cases hh
      · exact q2 x hx (by rw [e1]; exact listed_turnedOn.2 hl)

theorem listedLoadable_iff {l : Listing} {n : String} {env : LoadEnv} {t c} :
    ListedLoadable l n env t c ↔ ¬ Listed l n ∧ ListedLoadable [] n env t c := by
  unfold ListedLoadable
  have : ¬ Listed [] n := by rintro ⟨e, he, _⟩; cases he
  simp [this]

theorem loadAll_which {conf errors env ns} {m m' : Mgr} (hl : LoadAll conf errors env ns m m')
    (h : Reachable conf m) : Reachable conf m' ∧ ∃ es : List Entry,
      m'.listControllers = m.listControllers ++ es ∧ (es.map (·.name)).Sublist ns ∧
      (∀ e ∈ es, e.state = "initialized" ∧ ListedLoadable m.listControllers e.name (env e.name) e.type e.claimed) ∧
      ∀ n ∈ ns, Listed m'.listControllers n ↔ Listed m.listControllers n ∨
        ∃ type claimed, ListedLoadable m.listControllers n (env n) type claimed := by
  induction hl with
  | nil m => exact ⟨h, [], by simp, by simp, by simp, by simp⟩
  | @cons n ns m ok m1 m2 hs hl ih =>
    obtain ⟨h2, es, e1, e2, e3, e4⟩ := ih (hs.reachable h)
    have hsv := hs.serves h
    have hmono : ∀ x, Listed m1.listControllers x → Listed m2.listControllers x := by
      rintro x ⟨e, he, hx⟩
      exact ⟨e, by rw [e1]; exact List.mem_append_left _ he, hx⟩
    generalize hL : m.listControllers = L at *
    generalize hL1 : m1.listControllers = L1 at *
    cases hsv with
    | @load _ _ type claimed hload =>
      have hn : Listed (L ++ [⟨n, type, "initialized", claimed⟩]) n :=
        ⟨_, List.mem_append_right _ List.mem_cons_self, rfl⟩
      have hother : ∀ x, x ≠ n → (Listed (L ++ [⟨n, type, "initialized", claimed⟩]) x ↔ Listed L x) := by
        intro x hx
        constructor
        · rintro ⟨e, he, rfl⟩
          rcases List.mem_append.1 he with he | he
          · exact ⟨e, he, rfl⟩
          · rw [List.mem_singleton.1 he] at hx; exact absurd rfl hx
        · rintro ⟨e, he, rfl⟩; exact ⟨e, List.mem_append_left _ he, rfl⟩
      refine ⟨h2, ⟨n, type, "initialized", claimed⟩ :: es, by rw [e1]; simp, ?_, ?_, ?_⟩
      · simpa using e2
      · intro e he
        rcases List.mem_cons.1 he with rfl | he
        · exact ⟨rfl, hload⟩
        · obtain ⟨a, b⟩ := e3 e he
          obtain ⟨b1, b2⟩ := listedLoadable_iff.1 b
          refine ⟨a, listedLoadable_iff.2 ⟨fun hh => b1 ?_, b2⟩⟩
          obtain ⟨y, hy, hyn⟩ := hh
          exact ⟨y, List.mem_append_left _ hy, hyn⟩
      · intro x hx
        by_cases hxn : x = n
        · subst hxn
          exact ⟨fun _ => Or.inr ⟨_, _, hload⟩, fun _ => hmono x hn⟩
        · rcases List.mem_cons.1 hx with hx | hx
          · exact absurd hx hxn
          · rw [e4 x hx, hother x hxn]
            simp only [listedLoadable_iff (l := L ++ _), listedLoadable_iff (l := L), hother x hxn]
    | notLoaded hno =>
      refine ⟨h2, es, e1, e2.cons _, e3, ?_⟩
      intro x hx
      rcases List.mem_cons.1 hx with rfl | hx
      · by_cases hxs : x ∈ ns
        · exact e4 x hxs
        · constructor
          · rintro ⟨e, he, rfl⟩
            rw [e1] at he
            rcases List.mem_append.1 he with he | he
            · exact Or.inl ⟨e, he, rfl⟩
            · exact absurd (e2.subset (List.mem_map_of_mem (f := (·.name)) he)) hxs
          · rintro (hh | ⟨t, c, hh⟩)
            · exact hmono x hh
            · exact absurd hh (hno t c)
      · exact e4 x hx

end Verif
