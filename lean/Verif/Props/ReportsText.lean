import Verif.Model.Reports
import Mathlib.Data.List.Basic

/-!
C104: the texts of the reports can be told apart.
-/

namespace Verif

open Clients

/-- A name as Python prints it without escapes. -/
def Plain (n : String) : Prop := '\'' ∉ n.toList

/-- What is reported about controllers that are loaded, unloaded, started or stopped. -/
inductive ActionLine : Line → Prop
  | loaded {n} : Plain n → ActionLine (.loaded n)
  | loadError {n} : Plain n → ActionLine (.loadError n)
  | unloaded {n} : Plain n → ActionLine (.unloaded n)
  | unloadError {n} : Plain n → ActionLine (.unloadError n)
  | started {ns} : (∀ n ∈ ns, Plain n) → ActionLine (.started ns)
  | stopped {ns} : (∀ n ∈ ns, Plain n) → ActionLine (.stopped ns)
  | switchError {ns ms} : (∀ n ∈ ns, Plain n) → (∀ n ∈ ms, Plain n) → ActionLine (.switchError ns ms)

theorem quoted_inj {l l' r r' : List Char} (h : '\'' ∉ l) (h' : '\'' ∉ l') (e : l ++ '\'' :: r = l' ++ '\'' :: r') :
    l = l' ∧ r = r' := by
  induction l generalizing l' with
  | nil =>
    cases l' with
    | nil => exact ⟨rfl, by simpa using e⟩
    | cons c t => simp only [List.nil_append, List.cons_append, List.cons.injEq] at e; simp [← e.1] at h'
  | cons c t ih =>
    cases l' with
    | nil => simp only [List.nil_append, List.cons_append, List.cons.injEq] at e; simp [e.1] at h
    | cons c' t' =>
      simp only [List.cons_append, List.cons.injEq] at e
      simp only [List.mem_cons, not_or] at h h'
      obtain ⟨h1, h2⟩ := ih h.2 h'.2 e.2
      exact ⟨by rw [e.1, h1], h2⟩

/-- The names of a list after the first one, and the end of the list. -/
def listTail : List String → List Char
  | [] => [']']
  | n :: t => ',' :: ' ' :: '\'' :: (n.toList ++ '\'' :: listTail t)

theorem listTail_inj {ns ns' : List String} (h : ∀ n ∈ ns, Plain n) (h' : ∀ n ∈ ns', Plain n) {r r' : List Char}
    (e : listTail ns ++ r = listTail ns' ++ r') : ns = ns' ∧ r = r' := by
  induction ns generalizing ns' with
  | nil =>
    cases ns' with
    | nil => exact ⟨rfl, by simpa [listTail] using e⟩
    | cons n t => exact absurd e (by simp [listTail])
  | cons n t ih =>
    cases ns' with
    | nil => exact absurd e (by simp [listTail])
    | cons n' t' =>
      simp only [listTail, List.cons_append, List.append_assoc, List.cons.injEq, true_and] at e
      obtain ⟨h1, h2⟩ := quoted_inj (h n (by simp)) (h' n' (by simp)) e
      obtain ⟨h3, h4⟩ := ih (fun m hm => h m (by simp [hm])) (fun m hm => h' m (by simp [hm])) h2
      exact ⟨by rw [String.toList_inj.1 h1, h3], h4⟩

theorem pyList_toList (ns : List String) : (pyList ns).toList = '[' :: match ns with
    | [] => [']']
    | n :: t => '\'' :: (n.toList ++ '\'' :: listTail t) := by
  have key : ∀ (n : String) (t : List String),
      (", ".intercalate ((n :: t).map fun n => "'" ++ n ++ "'")).toList ++ [']'] =
        '\'' :: (n.toList ++ '\'' :: listTail t) := by
    intro n t
    induction t generalizing n with
    | nil => simp [String.toList_append, listTail]
    | cons m t ih =>
      have := ih m
      rw [List.map_cons] at this
      rw [List.map_cons, List.map_cons, String.intercalate_cons_cons]
      simp only [String.toList_append, List.append_assoc, this]
      simp [listTail]
  unfold pyList
  cases ns with
  | nil => rfl
  | cons n t =>
    have := key n t
    simp only [String.toList_append, List.append_assoc]
    rw [show "]".toList = [']'] from rfl, this]
    rfl

theorem pyList_inj {ns ns' : List String} (h : ∀ n ∈ ns, Plain n) (h' : ∀ n ∈ ns', Plain n) {r r' : List Char}
    (e : (pyList ns).toList ++ r = (pyList ns').toList ++ r') : ns = ns' ∧ r = r' := by
  rw [pyList_toList, pyList_toList] at e
  cases ns with
  | nil =>
    cases ns' with
    | nil => exact ⟨rfl, by simpa using e⟩
    | cons n t => exact absurd e (by simp)
  | cons n t =>
    cases ns' with
    | nil => exact absurd e (by simp)
    | cons n' t' =>
      simp only [List.cons_append, List.append_assoc, List.cons.injEq, true_and] at e
      obtain ⟨h1, h2⟩ := quoted_inj (h n (by simp)) (h' n' (by simp)) e
      obtain ⟨h3, h4⟩ := listTail_inj (fun m hm => h m (by simp [hm])) (fun m hm => h' m (by simp [hm])) h2
      exact ⟨by rw [String.toList_inj.1 h1, h3], h4⟩

theorem text_loaded (n : String) : (Line.loaded n).text = "Loaded '" ++ n ++ "'" := rfl
theorem text_loadError (n : String) : (Line.loadError n).text = "Error when loading '" ++ n ++ "'" := rfl
theorem text_unloaded (n : String) : (Line.unloaded n).text = "Unloaded '" ++ n ++ "' successfully" := rfl
theorem text_unloadError (n : String) : (Line.unloadError n).text = "Error when unloading '" ++ n ++ "'" := rfl
theorem text_started (ns : List String) : (Line.started ns).text = "Started " ++ pyList ns ++ " successfully" := rfl
theorem text_stopped (ns : List String) : (Line.stopped ns).text = "Stopped " ++ pyList ns ++ " successfully" := rfl
theorem text_switchError (ns ms : List String) :
    (Line.switchError ns ms).text = "Error when starting " ++ pyList ns ++ " and stopping " ++ pyList ms := rfl

/-- How the texts of the reports begin. -/
def firstWords : Line → String
  | .loaded _ => "Lo"
  | .loadError _ => "Error when l"
  | .unloaded _ => "Un"
  | .unloadError _ => "Error when u"
  | .started _ => "Sta"
  | .stopped _ => "Sto"
  | .switchError _ _ => "Error when s"
  | _ => ""

theorem text_firstWords {a : Line} (ha : ActionLine a) : ∃ r, a.text = firstWords a ++ r := by
  cases ha with
  | loaded => exact ⟨_, by rw [text_loaded, show "Loaded '" = "Lo" ++ "aded '" by decide +kernel]; simp only [String.append_assoc]; rfl⟩
  | loadError => exact ⟨_, by rw [text_loadError, show "Error when loading '" = "Error when l" ++ "oading '" by decide +kernel]; simp only [String.append_assoc]; rfl⟩
  | unloaded => exact ⟨_, by rw [text_unloaded, show "Unloaded '" = "Un" ++ "loaded '" by decide +kernel]; simp only [String.append_assoc]; rfl⟩
  | unloadError => exact ⟨_, by rw [text_unloadError, show "Error when unloading '" = "Error when u" ++ "nloading '" by decide +kernel]; simp only [String.append_assoc]; rfl⟩
  | started => exact ⟨_, by rw [text_started, show "Started " = "Sta" ++ "rted " by decide +kernel]; simp only [String.append_assoc]; rfl⟩
  | stopped => exact ⟨_, by rw [text_stopped, show "Stopped " = "Sto" ++ "pped " by decide +kernel]; simp only [String.append_assoc]; rfl⟩
  | switchError => exact ⟨_, by rw [text_switchError, show "Error when starting " = "Error when s" ++ "tarting " by decide +kernel]; simp only [String.append_assoc]; rfl⟩

theorem firstWords_eq {a b : Line} (ha : ActionLine a) (hb : ActionLine b) (h : a.text = b.text) :
    firstWords a = firstWords b := by
  obtain ⟨r, hr⟩ := text_firstWords ha
  obtain ⟨r', hr'⟩ := text_firstWords hb
  have e : (firstWords a ++ r).toList = (firstWords b ++ r').toList := by rw [← hr, ← hr', h]
  clear hr hr' h
  cases ha <;> cases hb <;> first | rfl | (simp only [firstWords] at e; simp at e)

/-- **C104, the texts.** From the text of a report one can tell what was done, whether it succeeded, and for which
controllers: two reports with the same text are the same. -/
theorem c104_text {a b : Line} (ha : ActionLine a) (hb : ActionLine b) (h : a.text = b.text) : a = b := by
  have hw := firstWords_eq ha hb h
  have h := congrArg String.toList h
  have cut : ∀ {p x y q : List Char}, p ++ (x ++ q) = p ++ (y ++ q) → x = y := fun e =>
    List.append_cancel_right (List.append_cancel_left e)
  cases ha <;> cases hb <;> try (simp only [firstWords] at hw; exact absurd hw (by decide +kernel))
  case loaded.loaded =>
    simp only [text_loaded, String.toList_append, List.append_assoc] at h
    have h := String.toList_inj.1 (cut h)
    rw [h]
  case loadError.loadError =>
    simp only [text_loadError, String.toList_append, List.append_assoc] at h
    have h := String.toList_inj.1 (cut h)
    rw [h]
  case unloaded.unloaded =>
    simp only [text_unloaded, String.toList_append, List.append_assoc] at h
    have h := String.toList_inj.1 (cut h)
    rw [h]
  case unloadError.unloadError =>
    simp only [text_unloadError, String.toList_append, List.append_assoc] at h
    have h := String.toList_inj.1 (cut h)
    rw [h]
  case started.started =>
    simp only [text_started, String.toList_append, List.append_assoc] at h
    rw [(pyList_inj (by assumption) (by assumption) (List.append_cancel_left h)).1]
  case stopped.stopped =>
    simp only [text_stopped, String.toList_append, List.append_assoc] at h
    rw [(pyList_inj (by assumption) (by assumption) (List.append_cancel_left h)).1]
  case switchError.switchError =>
    simp only [text_switchError, String.toList_append, List.append_assoc] at h
    obtain ⟨e1, e2⟩ := pyList_inj (by assumption) (by assumption) (List.append_cancel_left h)
    have e3 := List.append_cancel_left e2
    have e4 := (pyList_inj (by assumption) (by assumption) (congrArg (· ++ []) e3)).1
    rw [e1, e4]

/-- The reports of one call: a controller with a dash and a blank in its name, and a failed switch. -/
example : ActionLine (.unloadError "arm - 2") ∧ ActionLine (.switchError ["a", "b"] []) ∧
    (Line.unloadError "arm - 2").text = "Error when unloading 'arm - 2'" ∧
    (Line.switchError ["a", "b"] []).text = "Error when starting ['a', 'b'] and stopping []" :=
  ⟨.unloadError (by unfold Plain; decide), .switchError (by unfold Plain; decide) (by simp), by decide +kernel, by decide +kernel⟩

/-- A quote in a name makes them ambiguous, or Python prints them in another way. -/
example : pyList ["a', 'b"] = pyList ["a", "b"] := by decide +kernel

end Verif
