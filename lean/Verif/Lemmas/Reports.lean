import Verif.Lemmas.CommandLine
import Verif.Spec.Reports

/-!
Lemmas for C104: what a single request of the tools does to the listing, together with its answer.
-/

namespace Verif

open Mgr Spec Clients

/-- What an answered request has done to the listing. -/
def Effect (errors : Bool) (l : Listing) : Act → Listing → Prop
  | .load n, l' => ¬ Listed l n ∧ (∀ x, Listed l' x ↔ Listed l x ∨ x = n) ∧
      ∀ x, ListedRunning l' x ↔ ListedRunning l x
  | .unload n, l' => Listed l n ∧ ¬ ListedRunning l n ∧ (∀ x, Listed l' x ↔ Listed l x ∧ x ≠ n) ∧
      ∀ x, ListedRunning l' x ↔ ListedRunning l x
  | .start n, l' => Listed l n ∧ ¬ ListedRunning l n ∧ (∀ x, Listed l' x ↔ Listed l x) ∧
      ∃ b : Bool, (errors = false → b = true) ∧ ∀ x, ListedRunning l' x ↔ ListedRunning l x ∨ (b = true ∧ x = n)
  | .stop n, l' => ListedRunning l n ∧ (∀ x, Listed l' x ↔ Listed l x) ∧
      ∀ x, ListedRunning l' x ↔ ListedRunning l x ∧ x ≠ n

theorem listed_append {l : Listing} {e : Entry} {x : String} : Listed (l ++ [e]) x ↔ Listed l x ∨ x = e.name := by
  simp [Listed, or_and_right, exists_or, eq_comm]

theorem listedRunning_append {l : Listing} {e : Entry} {x : String} (he : e.state ≠ "running") :
    ListedRunning (l ++ [e]) x ↔ ListedRunning l x := by
  constructor
  · rintro ⟨y, hy, h1, h2⟩
    rcases List.mem_append.1 hy with hy | hy
    · exact ⟨y, hy, h1, h2⟩
    · rw [List.mem_singleton.1 hy] at h2; exact absurd h2 he
  · rintro ⟨y, hy, h1, h2⟩
    exact ⟨y, List.mem_append_left _ hy, h1, h2⟩

theorem listed_filter {l : Listing} {n x : String} :
    Listed (l.filter (·.name ≠ n)) x ↔ Listed l x ∧ x ≠ n := by
  constructor
  · rintro ⟨y, hy, rfl⟩
    obtain ⟨h1, h2⟩ := List.mem_filter.1 hy
    exact ⟨⟨y, h1, rfl⟩, by simpa using h2⟩
  · rintro ⟨⟨y, hy, rfl⟩, h2⟩
    exact ⟨y, List.mem_filter.2 ⟨hy, by simpa using h2⟩, rfl⟩

theorem listedRunning_filter {l : Listing} {n x : String} (hn : ¬ ListedRunning l n) :
    ListedRunning (l.filter (·.name ≠ n)) x ↔ ListedRunning l x := by
  constructor
  · rintro ⟨y, hy, h1, h2⟩
    exact ⟨y, (List.mem_filter.1 hy).1, h1, h2⟩
  · rintro ⟨y, hy, rfl, h2⟩
    refine ⟨y, List.mem_filter.2 ⟨hy, ?_⟩, rfl, h2⟩
    have : y.name ≠ n := fun hh => hn ⟨y, hy, hh, h2⟩
    simpa using this

theorem listed_map_name {l : Listing} {f : Entry → Entry} (hf : ∀ e, (f e).name = e.name) (x : String) :
    Listed (l.map f) x ↔ Listed l x := by
  constructor
  · rintro ⟨y, hy, rfl⟩
    obtain ⟨z, hz, rfl⟩ := List.mem_map.1 hy
    exact ⟨z, hz, (hf z).symm⟩
  · rintro ⟨y, hy, rfl⟩
    exact ⟨_, List.mem_map_of_mem hy, hf y⟩

theorem does_effect {conf errors env prep a ok} {m m' : Mgr} (h : Reachable conf m)
    (hd : Does conf errors env prep a m ok m') :
    Reachable conf m' ∧ (ok = false → m'.listControllers = m.listControllers) ∧
      (ok = true → Effect errors m.listControllers a m'.listControllers) := by
  cases a with
  | load n =>
    have hd : Served conf errors m (.load n (env n)) ok m' := hd
    refine ⟨hd.reachable h, ?_⟩
    rcases load_listing (hd.serves h) with ⟨rfl, e⟩ | ⟨rfl, hn, t, c, _, _, e⟩
    · exact ⟨fun _ => e, (fun hh => by cases hh)⟩
    · refine ⟨(fun hh => by cases hh), fun _ => ⟨hn, ?_, ?_⟩⟩
      · intro x; rw [e]; exact listed_append
      · intro x; rw [e]; exact listedRunning_append (by simp)
  | unload n =>
    have hd : Served conf errors m (.unload n) ok m' := hd
    refine ⟨hd.reachable h, ?_⟩
    have hs := hd.serves h
    generalize m.listControllers = l at *
    generalize m'.listControllers = l' at *
    cases hs with
    | unload h1 h2 =>
      exact ⟨(fun hh => by cases hh), fun _ => ⟨h1, h2, fun x => listed_filter, fun x => listedRunning_filter h2⟩⟩
    | notUnloaded _ => exact ⟨fun _ => rfl, (fun hh => by cases hh)⟩
  | start n =>
    obtain ⟨now, hd⟩ : StartStop conf errors [n] [] (prep n) m ok m' := hd
    refine ⟨hd.reachable h, ?_⟩
    rcases switch_listing rfl (hd.serves h) with ⟨_, rfl, e⟩ | ⟨ha, rfl, out, e, _, ho⟩
    · exact ⟨fun _ => e, (fun hh => by cases hh)⟩
    · obtain ⟨a1, _, _⟩ := ha
      rw [if_pos rfl] at a1
      obtain ⟨l1, l2⟩ := a1.2.1 n (by simp)
      refine ⟨(fun hh => by cases hh), fun _ => ⟨l1, l2, fun x => ?_, out n, fun hh => ho hh n, fun x => ?_⟩⟩
      · rw [e]; exact listed_map_name (switchedEntry_name _ _) x
      · rw [e]
        constructor
        · rintro ⟨y, hy, rfl, h2⟩
          obtain ⟨z, hz, rfl⟩ := List.mem_map.1 hy
          rw [switchedEntry_name]
          unfold switchedEntry at h2
          by_cases hzn : z.name ∈ [n]
          · rw [if_pos hzn] at h2
            have hz' := List.mem_singleton.1 hzn
            rw [hz'] at h2
            refine Or.inr ⟨?_, hz'⟩
            by_contra hh
            simp [hh] at h2
          · rw [if_neg hzn, if_neg (by simp)] at h2
            exact Or.inl ⟨z, hz, rfl, h2⟩
        · rintro (⟨y, hy, rfl, h2⟩ | ⟨hb, rfl⟩)
          · refine ⟨_, List.mem_map_of_mem hy, switchedEntry_name _ _ _, ?_⟩
            unfold switchedEntry
            rw [if_neg, if_neg (by simp)]
            · exact h2
            · intro hh
              exact l2 ⟨y, hy, List.mem_singleton.1 hh, h2⟩
          · obtain ⟨y, hy, hyx⟩ := l1
            refine ⟨_, List.mem_map_of_mem hy, by rw [switchedEntry_name, hyx], ?_⟩
            unfold switchedEntry
            rw [if_pos (by simp [hyx]), hyx, hb]; rfl
  | stop n =>
    obtain ⟨now, hd⟩ : StartStop conf errors [] [n] (prep n) m ok m' := hd
    refine ⟨hd.reachable h, ?_⟩
    rcases switch_listing rfl (hd.serves h) with ⟨_, rfl, e⟩ | ⟨ha, rfl, out, e, _, ho⟩
    · exact ⟨fun _ => e, (fun hh => by cases hh)⟩
    · obtain ⟨a1, _, _⟩ := ha
      rw [if_pos rfl] at a1
      refine ⟨(fun hh => by cases hh), fun _ => ⟨a1.1 n (by simp), fun x => ?_, fun x => ?_⟩⟩
      · rw [e]; exact listed_map_name (switchedEntry_name _ _) x
      · rw [e]
        constructor
        · rintro ⟨y, hy, rfl, h2⟩
          obtain ⟨z, hz, rfl⟩ := List.mem_map.1 hy
          rw [switchedEntry_name]
          unfold switchedEntry at h2
          rw [if_neg (by simp)] at h2
          split at h2
          · exact absurd h2 (by decide : ("stopped" : String) ≠ "running")
          · rename_i hh
            exact ⟨⟨z, hz, rfl, h2⟩, fun hzn => hh ⟨by simp [hzn], h2⟩⟩
        · rintro ⟨⟨y, hy, rfl, h2⟩, hne⟩
          refine ⟨_, List.mem_map_of_mem hy, switchedEntry_name _ _ _, ?_⟩
          unfold switchedEntry
          rw [if_neg (by simp), if_neg]
          · exact h2
          · rintro ⟨hh, _⟩
            exact hne (by simpa using hh)

theorem Does.idle {conf errors env prep a ok} {m m' : Mgr} (hd : Does conf errors env prep a m ok m') :
    m.svc = .idle ∧ m'.svc = .idle := by
  cases a with
  | load n => obtain ⟨h1, _, _, _, _, _, h2, _⟩ := hd; exact ⟨h1, h2⟩
  | unload n => obtain ⟨h1, _, _, _, _, _, h2, _⟩ := hd; exact ⟨h1, h2⟩
  | start n => obtain ⟨_, h1, _, _, _, _, _, h2, _⟩ := hd; exact ⟨h1, h2⟩
  | stop n => obtain ⟨_, h1, _, _, _, _, _, h2, _⟩ := hd; exact ⟨h1, h2⟩

/-- Requests that only add. -/
def Clients.Act.up : Act → Prop
  | .load _ => True
  | .start _ => True
  | _ => False

theorem performs_reachable {conf errors env prep as ls} {m m' : Mgr} (hp : Performs conf errors env prep as m ls m')
    (h : Reachable conf m) : Reachable conf m' := by
  induction hp with
  | nil m => exact h
  | cons hd _ ih => exact ih (does_effect h hd).1

theorem performs_up {conf errors env prep as ls} {m m' : Mgr} (hp : Performs conf errors env prep as m ls m')
    (h : Reachable conf m) (hu : ∀ a ∈ as, a.up) :
    (∀ x, Listed m.listControllers x → Listed m'.listControllers x) ∧
      ∀ x, ListedRunning m.listControllers x → ListedRunning m'.listControllers x := by
  induction hp with
  | nil m => exact ⟨fun _ => id, fun _ => id⟩
  | @cons a as m ok m1 ls m2 hd _ ih =>
    obtain ⟨r, e0, e1⟩ := does_effect h hd
    obtain ⟨i1, i2⟩ := ih r (fun x hx => hu x (List.mem_cons_of_mem _ hx))
    have ha := hu a List.mem_cons_self
    cases ok with
    | false => rw [e0 rfl] at i1 i2; exact ⟨i1, i2⟩
    | true =>
      have e1 := e1 rfl
      cases a with
      | load n =>
        exact ⟨fun x hx => i1 x ((e1.2.1 x).2 (Or.inl hx)), fun x hx => i2 x ((e1.2.2 x).2 hx)⟩
      | start n =>
        obtain ⟨_, _, e2, b, _, e3⟩ := e1
        exact ⟨fun x hx => i1 x ((e2 x).2 hx), fun x hx => i2 x ((e3 x).2 (Or.inl hx))⟩
      | unload n => exact ha.elim
      | stop n => exact ha.elim

theorem performs_down {conf errors env prep as ls} {m m' : Mgr} (hp : Performs conf errors env prep as m ls m')
    (h : Reachable conf m) (hu : ∀ a ∈ as, ¬ a.up) :
    (∀ x, Listed m'.listControllers x → Listed m.listControllers x) ∧
      ∀ x, ListedRunning m'.listControllers x → ListedRunning m.listControllers x := by
  induction hp with
  | nil m => exact ⟨fun _ => id, fun _ => id⟩
  | @cons a as m ok m1 ls m2 hd _ ih =>
    obtain ⟨r, e0, e1⟩ := does_effect h hd
    obtain ⟨i1, i2⟩ := ih r (fun x hx => hu x (List.mem_cons_of_mem _ hx))
    have ha := hu a List.mem_cons_self
    cases ok with
    | false => rw [e0 rfl] at i1 i2; exact ⟨i1, i2⟩
    | true =>
      have e1 := e1 rfl
      cases a with
      | unload n =>
        exact ⟨fun x hx => ((e1.2.2.1 x).1 (i1 x hx)).1, fun x hx => (e1.2.2.2 x).1 (i2 x hx)⟩
      | stop n =>
        exact ⟨fun x hx => (e1.2.1 x).1 (i1 x hx), fun x hx => ((e1.2.2 x).1 (i2 x hx)).1⟩
      | load n => exact (ha trivial).elim
      | start n => exact (ha trivial).elim

/-- The lines of a request are true when it is answered. -/
theorem does_says {conf errors env prep a ok} {m m' : Mgr} (h : Reachable conf m)
    (hd : Does conf errors env prep a m ok m') {l : Line} (hl : l ∈ a.lines ok)
    (hs : errors = true → ∀ ns, l ≠ .started ns) : Says m'.listControllers l := by
  obtain ⟨_, _, e⟩ := does_effect h hd
  cases ok with
  | false =>
    cases a <;> simp [Act.lines, startStopLines] at hl <;> subst hl <;> exact trivial
  | true =>
    have e := e rfl
    cases a with
    | load n =>
      simp [Act.lines] at hl; subst hl
      exact (e.2.1 n).2 (Or.inr rfl)
    | unload n =>
      simp [Act.lines] at hl; subst hl
      exact fun hh => ((e.2.2.1 n).1 hh).2 rfl
    | start n =>
      simp [Act.lines, startStopLines] at hl; subst hl
      obtain ⟨_, _, _, b, hb, e3⟩ := e
      have hb : b = true := by
        cases errors with
        | false => exact hb rfl
        | true => exact absurd rfl (hs rfl [n])
      intro x hx
      exact (e3 x).2 (Or.inr ⟨hb, by simpa using hx⟩)
    | stop n =>
      simp [Act.lines, startStopLines] at hl; subst hl
      intro x hx hh
      exact ((e.2.2 x).1 hh).2 (by simpa using hx)

/-- The kind of a line is that of the request. -/
theorem says_mono {a : Act} {ok : Bool} {l : Line} (hl : l ∈ a.lines ok) {l1 l2 : Listing}
    (hu : a.up → (∀ x, Listed l1 x → Listed l2 x) ∧ ∀ x, ListedRunning l1 x → ListedRunning l2 x)
    (hd : ¬ a.up → (∀ x, Listed l2 x → Listed l1 x) ∧ ∀ x, ListedRunning l2 x → ListedRunning l1 x)
    (h : Says l1 l) : Says l2 l := by
  cases a with
  | load n =>
    cases ok <;> simp [Act.lines] at hl <;> subst hl
    · exact trivial
    · exact (hu trivial).1 n h
  | unload n =>
    cases ok <;> simp [Act.lines] at hl <;> subst hl
    · exact trivial
    · exact fun hh => h ((hd id).1 n hh)
  | start n =>
    cases ok <;> simp [Act.lines, startStopLines] at hl <;> subst hl
    · exact trivial
    · exact fun x hx => (hu trivial).2 x (h x hx)
  | stop n =>
    cases ok <;> simp [Act.lines, startStopLines] at hl <;> subst hl
    · exact trivial
    · exact fun x hx hh => h x hx ((hd id).2 x hh)

theorem performs_says {conf errors env prep as ls} {m m' : Mgr} (hp : Performs conf errors env prep as m ls m')
    (h : Reachable conf m) (hu : (∀ a ∈ as, a.up) ∨ ∀ a ∈ as, ¬ a.up) {l : Line} (hl : l ∈ ls)
    (hs : errors = true → ∀ ns, l ≠ .started ns) : Says m'.listControllers l := by
  induction hp with
  | nil m => cases hl
  | @cons a as m ok m1 ls m2 hd hp ih =>
    have r := (does_effect h hd).1
    have hu' : (∀ a ∈ as, a.up) ∨ ∀ a ∈ as, ¬ a.up :=
      hu.imp (fun hh x hx => hh x (List.mem_cons_of_mem _ hx)) (fun hh x hx => hh x (List.mem_cons_of_mem _ hx))
    rcases List.mem_append.1 hl with hl | hl
    · refine says_mono hl ?_ ?_ (does_says h hd hl hs)
      · intro ha
        rcases hu with hu | hu
        · exact performs_up hp r (fun x hx => hu x (List.mem_cons_of_mem _ hx))
        · exact absurd ha (hu a List.mem_cons_self)
      · intro ha
        rcases hu with hu | hu
        · exact absurd (hu a List.mem_cons_self) ha
        · exact performs_down hp r (fun x hx => hu x (List.mem_cons_of_mem _ hx))
    · exact ih r hu' hl

theorem toolActs_dir {cmd : String} {names : List String} {as : List Act} (h : toolActs cmd names = some as) :
    (∀ a ∈ as, a.up) ∨ ∀ a ∈ as, ¬ a.up := by
  unfold toolActs at h
  have hl : ∀ a ∈ names.map Act.load, a.up := by
    intro a ha; obtain ⟨n, _, rfl⟩ := List.mem_map.1 ha; exact trivial
  have hs : ∀ a ∈ names.map Act.start, a.up := by
    intro a ha; obtain ⟨n, _, rfl⟩ := List.mem_map.1 ha; exact trivial
  have hu : ∀ a ∈ names.map Act.unload, ¬ a.up := by
    intro a ha; obtain ⟨n, _, rfl⟩ := List.mem_map.1 ha; exact id
  have ht : ∀ a ∈ names.map Act.stop, ¬ a.up := by
    intro a ha; obtain ⟨n, _, rfl⟩ := List.mem_map.1 ha; exact id
  split at h
  · cases h; exact Or.inl hl
  split at h
  · cases h; exact Or.inr hu
  split at h
  · cases h; exact Or.inl hs
  split at h
  · cases h; exact Or.inr ht
  split at h
  · cases h
    exact Or.inl fun a ha => (List.mem_append.1 ha).elim (hl a) (hs a)
  split at h
  · cases h
    exact Or.inr fun a ha => (List.mem_append.1 ha).elim (ht a) (hu a)
  · cases h

/-- Every change has its line. -/
theorem performs_changes {conf errors env prep as ls} {m m' : Mgr} (hp : Performs conf errors env prep as m ls m')
    (h : Reachable conf m) (n : String) :
    (Listed m'.listControllers n → Listed m.listControllers n ∨ .loaded n ∈ ls) ∧
    (Listed m.listControllers n → Listed m'.listControllers n ∨ .unloaded n ∈ ls) ∧
    (ListedRunning m'.listControllers n → ListedRunning m.listControllers n ∨ .started [n] ∈ ls) ∧
    (ListedRunning m.listControllers n → ListedRunning m'.listControllers n ∨ .stopped [n] ∈ ls) := by
  induction hp with
  | nil m => exact ⟨Or.inl, Or.inl, Or.inl, Or.inl⟩
  | @cons a as m ok m1 ls m2 hd hp ih =>
    obtain ⟨r, e0, e1⟩ := does_effect h hd
    obtain ⟨i1, i2, i3, i4⟩ := ih r
    have hr : ∀ l, l ∈ ls → l ∈ a.lines ok ++ ls := fun l hl => List.mem_append_right _ hl
    have hh : ∀ l, l ∈ a.lines ok → l ∈ a.lines ok ++ ls := fun l hl => List.mem_append_left _ hl
    have s1 : Listed m1.listControllers n → Listed m.listControllers n ∨ .loaded n ∈ a.lines ok := by
      intro hx
      cases ok with
      | false => rw [e0 rfl] at hx; exact Or.inl hx
      | true =>
        have e1 := e1 rfl
        cases a with
        | load k =>
          rcases (e1.2.1 n).1 hx with hx | rfl
          · exact Or.inl hx
          · exact Or.inr (by simp [Act.lines])
        | unload k => exact Or.inl ((e1.2.2.1 n).1 hx).1
        | start k => exact Or.inl ((e1.2.2.1 n).1 hx)
        | stop k => exact Or.inl ((e1.2.1 n).1 hx)
    have s2 : Listed m.listControllers n → Listed m1.listControllers n ∨ .unloaded n ∈ a.lines ok := by
      intro hx
      cases ok with
      | false => rw [e0 rfl]; exact Or.inl hx
      | true =>
        have e1 := e1 rfl
        cases a with
        | load k => exact Or.inl ((e1.2.1 n).2 (Or.inl hx))
        | unload k =>
          by_cases hn : n = k
          · exact Or.inr (by simp [Act.lines, hn])
          · exact Or.inl ((e1.2.2.1 n).2 ⟨hx, hn⟩)
        | start k => exact Or.inl ((e1.2.2.1 n).2 hx)
        | stop k => exact Or.inl ((e1.2.1 n).2 hx)
    have s3 : ListedRunning m1.listControllers n → ListedRunning m.listControllers n ∨ .started [n] ∈ a.lines ok := by
      intro hx
      cases ok with
      | false => rw [e0 rfl] at hx; exact Or.inl hx
      | true =>
        have e1 := e1 rfl
        cases a with
        | load k => exact Or.inl ((e1.2.2 n).1 hx)
        | unload k => exact Or.inl ((e1.2.2.2 n).1 hx)
        | start k =>
          obtain ⟨_, _, _, b, _, e3⟩ := e1
          rcases (e3 n).1 hx with hx | ⟨_, rfl⟩
          · exact Or.inl hx
          · exact Or.inr (by simp [Act.lines, startStopLines])
        | stop k => exact Or.inl ((e1.2.2 n).1 hx).1
    have s4 : ListedRunning m.listControllers n → ListedRunning m1.listControllers n ∨ .stopped [n] ∈ a.lines ok := by
      intro hx
      cases ok with
      | false => rw [e0 rfl]; exact Or.inl hx
      | true =>
        have e1 := e1 rfl
        cases a with
        | load k => exact Or.inl ((e1.2.2 n).2 hx)
        | unload k => exact Or.inl ((e1.2.2.2 n).2 hx)
        | start k =>
          obtain ⟨_, _, _, b, _, e3⟩ := e1
          exact Or.inl ((e3 n).2 (Or.inl hx))
        | stop k =>
          by_cases hn : n = k
          · exact Or.inr (by simp [Act.lines, startStopLines, hn])
          · exact Or.inl ((e1.2.2 n).2 ⟨hx, hn⟩)
    refine ⟨fun hx => ?_, fun hx => ?_, fun hx => ?_, fun hx => ?_⟩
    · exact (i1 hx).elim (fun hy => (s1 hy).imp id (hh _)) (fun hy => Or.inr (hr _ hy))
    · exact (s2 hx).elim (fun hy => (i2 hy).imp id (hr _)) (fun hy => Or.inr (hh _ hy))
    · exact (i3 hx).elim (fun hy => (s3 hy).imp id (hh _)) (fun hy => Or.inr (hr _ hy))
    · exact (s4 hx).elim (fun hy => (i4 hy).imp id (hr _)) (fun hy => Or.inr (hh _ hy))

theorem performs_errors {conf errors env prep as ls} {m m' : Mgr} (hp : Performs conf errors env prep as m ls m')
    (h : Reachable conf m) (he : ∀ l ∈ ls, IsError l) : m'.listControllers = m.listControllers := by
  induction hp with
  | nil m => rfl
  | @cons a as m ok m1 ls m2 hd hp ih =>
    obtain ⟨r, e0, e1⟩ := does_effect h hd
    cases ok with
    | false => rw [ih r (fun l hl => he l (List.mem_append_right _ hl)), e0 rfl]
    | true =>
      exfalso
      cases a <;> simp [Act.lines, startStopLines, IsError] at he

end Verif
