import Verif.Spec.TransmissionParser
import Mathlib.Tactic.Tauto

/-!
Lemmas about the transmission parser.
-/

namespace Verif.Transmission

theorem first_eq_child (e : Elem) (tag : String) : e.first tag = e.child tag := by
  rw [Elem.first, Elem.all, List.head?_filter, Elem.child]

/-- One joint element; `none`: skipped. -/
def jointOf (e : Elem) : Option JointInfo :=
  match e.attr "name" with
  | none => none
  | some name =>
    if name = "" then none
    else if (hwIfaces e).isEmpty then none
    else some ⟨name, hwIfaces e, match e.first "role" with
          | none => ""
          | some r => r.text.getD "", e⟩

/-- One actuator element; `none`: skipped. -/
def actuatorOf (e : Elem) : Option ActuatorInfo :=
  match e.attr "name" with
  | none => none
  | some name => if name = "" then none else some ⟨name, hwIfaces e, e⟩

theorem parseJointList_eq (es : List Elem) (acc : List JointInfo) :
    parseJointList es acc = if ∀ e ∈ es, e.attr "name" ≠ none then some (acc ++ es.filterMap jointOf) else none := by
  induction es generalizing acc with
  | nil => simp [parseJointList]
  | cons e es ih =>
    simp only [List.forall_mem_cons]
    rw [parseJointList]
    cases h : e.attr "name" with
    | none => simp
    | some name =>
      simp only [ne_eq, reduceCtorEq, not_false_eq_true, true_and]
      by_cases hn : name = ""
      · rw [if_pos hn, ih, List.filterMap_cons_none (by simp [jointOf, h, hn])]
      · rw [if_neg hn]
        by_cases hi : (hwIfaces e).isEmpty
        · simp only [hi, if_true]
          rw [ih, List.filterMap_cons_none (by simp [jointOf, h, hi])]
        · rw [if_neg hi, ih, List.filterMap_cons_some (by simp only [jointOf, h, if_neg hn, if_neg hi]; rfl)]
          simp only [List.append_assoc, List.cons_append, List.nil_append]
          rfl

theorem parseActuatorList_eq (es : List Elem) (acc : List ActuatorInfo) :
    parseActuatorList es acc =
      if ∀ e ∈ es, e.attr "name" ≠ none then some (acc ++ es.filterMap actuatorOf) else none := by
  induction es generalizing acc with
  | nil => simp [parseActuatorList]
  | cons e es ih =>
    simp only [List.forall_mem_cons]
    rw [parseActuatorList]
    cases h : e.attr "name" with
    | none => simp
    | some name =>
      simp only [ne_eq, reduceCtorEq, not_false_eq_true, true_and]
      by_cases hn : name = ""
      · rw [if_pos hn, ih, List.filterMap_cons_none (by simp [actuatorOf, h, hn])]
      · rw [if_neg hn, ih, List.filterMap_cons_some (by simp only [actuatorOf, h, if_neg hn]; rfl)]
        simp only [List.append_assoc, List.cons_append, List.nil_append]

theorem parseJoints_some {t : Elem} {js : List JointInfo} : parseJoints t = some js ↔
    (∀ e ∈ t.all "joint", e.attr "name" ≠ none) ∧ js = (t.all "joint").filterMap jointOf ∧ js ≠ [] := by
  unfold parseJoints
  rw [parseJointList_eq]
  split
  · rename_i h
    split at h
    · cases h
    · rename_i hn; simp [hn]
  · rename_i js' h
    split at h
    · rename_i hn
      have h := Option.some.inj h
      rw [List.nil_append] at h
      by_cases hj : js'.isEmpty
      · rw [if_pos hj]
        have : js' = [] := by simpa using hj
        subst this
        simp only [reduceCtorEq, false_iff, not_and]
        rintro _ rfl
        simp [h]
      · rw [if_neg hj]
        have hj : js' ≠ [] := by simpa using hj
        constructor
        · intro h'
          cases h'
          exact ⟨hn, h.symm, hj⟩
        · rintro ⟨_, rfl, _⟩
          rw [h]
    · cases h

theorem parseActuators_some {t : Elem} {js : List ActuatorInfo} : parseActuators t = some js ↔
    (∀ e ∈ t.all "actuator", e.attr "name" ≠ none) ∧ js = (t.all "actuator").filterMap actuatorOf ∧ js ≠ [] := by
  unfold parseActuators
  rw [parseActuatorList_eq]
  split
  · rename_i h
    split at h
    · cases h
    · rename_i hn; simp [hn]
  · rename_i js' h
    split at h
    · rename_i hn
      have h := Option.some.inj h
      rw [List.nil_append] at h
      by_cases hj : js'.isEmpty
      · rw [if_pos hj]
        have : js' = [] := by simpa using hj
        subst this
        simp only [reduceCtorEq, false_iff, not_and]
        rintro _ rfl
        simp [h]
      · rw [if_neg hj]
        have hj : js' ≠ [] := by simpa using hj
        constructor
        · intro h'
          cases h'
          exact ⟨hn, h.symm, hj⟩
        · rintro ⟨_, rfl, _⟩
          rw [h]
    · cases h

theorem parseTransmission_some {t : Elem} {i : TransInfo} : parseTransmission t = some i ↔
    t.attr "name" = some i.name ∧ i.name ≠ "" ∧ (∃ ty, t.first "type" = some ty ∧ ty.text = some i.type) ∧
    parseJoints t = some i.joints ∧ parseActuators t = some i.actuators := by
  unfold parseTransmission
  constructor
  · intro h
    split at h
    · cases h
    rename_i name h1
    split at h
    · cases h
    rename_i h2
    split at h
    · cases h
    rename_i ty h3
    split at h
    · cases h
    rename_i type h4
    split at h
    · cases h
    rename_i joints h5
    split at h
    · cases h
    rename_i actuators h6
    cases h
    exact ⟨h1, h2, ⟨ty, h3, h4⟩, h5, h6⟩
  · rintro ⟨h1, h2, ⟨ty, h3, h4⟩, h5, h6⟩
    simp [h1, h2, h3, h4, h5, h6]

theorem parseLoop_eq (ts : List Elem) (acc : List TransInfo) :
    parseLoop ts acc = acc ++ ts.filterMap parseTransmission := by
  induction ts generalizing acc with
  | nil => simp [parseLoop]
  | cons t ts ih =>
    rw [parseLoop]
    cases h : parseTransmission t with
    | none => simp only [ih, List.filterMap_cons_none h]
    | some i => simp only [ih, List.filterMap_cons_some h, List.append_assoc, List.cons_append, List.nil_append]

theorem mem_hwIfaces {e : Elem} {x : String} :
    x ∈ hwIfaces e ↔ ∃ h ∈ e.children, h.tag = "hardwareInterface" ∧ h.text = some x := by
  simp [hwIfaces, Elem.all, and_assoc]

theorem hwIfaces_ne_nil {e : Elem} :
    hwIfaces e ≠ [] ↔ ∃ h ∈ e.children, h.tag = "hardwareInterface" ∧ h.text ≠ none := by
  constructor
  · intro h
    obtain ⟨x, hx⟩ := List.exists_mem_of_ne_nil _ h
    obtain ⟨h, h1, h2, h3⟩ := mem_hwIfaces.1 hx
    exact ⟨h, h1, h2, by simp [h3]⟩
  · rintro ⟨h, h1, h2, h3⟩
    obtain ⟨x, hx⟩ := Option.ne_none_iff_exists'.1 h3
    exact List.ne_nil_of_mem (mem_hwIfaces.2 ⟨h, h1, h2, hx⟩)

theorem jointOf_some {e : Elem} {j : JointInfo} (h : jointOf e = some j) :
    j.xml = e ∧ e.attr "name" = some j.name ∧ j.name ≠ "" ∧ j.hwIfaces = hwIfaces e ∧ hwIfaces e ≠ [] ∧
      j.role = ((e.child "role").bind Elem.text).getD "" := by
  unfold jointOf at h
  split at h
  · cases h
  · split at h
    · cases h
    · split at h
      · cases h
      · rename_i h1 h2 h3
        cases h
        refine ⟨rfl, h1, h2, rfl, by simpa using h3, ?_⟩
        rw [← first_eq_child]
        cases e.first "role" <;> rfl

theorem jointOf_isSome {e : Elem} : (jointOf e).isSome ↔ e.IsJoint := by
  rw [Elem.IsJoint, ← hwIfaces_ne_nil]
  constructor
  · intro h
    obtain ⟨j, hj⟩ := Option.isSome_iff_exists.1 h
    obtain ⟨_, h1, h2, _, h3, _⟩ := jointOf_some hj
    exact ⟨⟨_, h1, h2⟩, h3⟩
  · rintro ⟨⟨n, h1, h2⟩, h3⟩
    simp [jointOf, h1, h2, h3]

theorem actuatorOf_some {e : Elem} {a : ActuatorInfo} (h : actuatorOf e = some a) :
    a.xml = e ∧ e.attr "name" = some a.name ∧ a.name ≠ "" := by
  unfold actuatorOf at h
  split at h
  · cases h
  · split at h
    · cases h
    · rename_i h1 h2
      cases h
      exact ⟨rfl, h1, h2⟩

theorem actuatorOf_isSome {e : Elem} : (actuatorOf e).isSome ↔ e.Named := by
  constructor
  · intro h
    obtain ⟨j, hj⟩ := Option.isSome_iff_exists.1 h
    obtain ⟨_, h1, h2⟩ := actuatorOf_some hj
    exact ⟨_, h1, h2⟩
  · rintro ⟨n, h1, h2⟩
    simp [actuatorOf, h1, h2]

theorem map_xml_filterMap {A : Type} (f : Elem → Option A) (xml : A → Elem) (h : ∀ e a, f e = some a → xml a = e)
    (l : List Elem) : (l.filterMap f).map xml = l.filter fun e => (f e).isSome := by
  induction l with
  | nil => rfl
  | cons e l ih =>
    cases hf : f e with
    | none => rw [List.filterMap_cons_none hf, List.filter_cons_of_neg (by simp [hf]), ih]
    | some a =>
      rw [List.filterMap_cons_some hf, List.filter_cons_of_pos (by simp [hf]), List.map_cons, ih, h e a hf]

theorem mem_all {t e : Elem} {g : String} : e ∈ t.all g ↔ e ∈ t.children ∧ e.tag = g := by
  simp [Elem.all]

theorem transmission_from {t : Elem} {i : TransInfo} (h : parseTransmission t = some i) : i.From t ∧ i.WellFormed := by
  obtain ⟨h1, h2, h3, h4, h5⟩ := parseTransmission_some.1 h
  obtain ⟨a1, a2, a3⟩ := parseJoints_some.1 h4
  obtain ⟨b1, b2, b3⟩ := parseActuators_some.1 h5
  have hj : ∀ j ∈ i.joints, ∃ e, jointOf e = some j := by
    intro j hj
    rw [a2] at hj
    obtain ⟨e, _, he⟩ := List.mem_filterMap.1 hj
    exact ⟨e, he⟩
  have ha : ∀ j ∈ i.actuators, ∃ e, actuatorOf e = some j := by
    intro j hj
    rw [b2] at hj
    obtain ⟨e, _, he⟩ := List.mem_filterMap.1 hj
    exact ⟨e, he⟩
  refine ⟨⟨h1, by simpa only [first_eq_child] using h3, ?_, ?_, ?_, ?_⟩, ⟨h2, a3, b3, ?_, ?_⟩⟩
  · rw [a2, map_xml_filterMap _ _ (fun e a h => (jointOf_some h).1), Elem.all, List.filter_filter]
    apply List.filter_congr
    intro e _
    rw [Bool.eq_iff_iff]
    simp only [Bool.and_eq_true, decide_eq_true_eq, jointOf_isSome]
    tauto
  · rw [b2, map_xml_filterMap _ _ (fun e a h => (actuatorOf_some h).1), Elem.all, List.filter_filter]
    apply List.filter_congr
    intro e _
    rw [Bool.eq_iff_iff]
    simp only [Bool.and_eq_true, decide_eq_true_eq, actuatorOf_isSome]
    tauto
  · intro j hm
    obtain ⟨e, he⟩ := hj j hm
    obtain ⟨k1, k2, k3, k4, k5, k6⟩ := jointOf_some he
    subst k1
    exact ⟨k2, fun x => by rw [k4]; exact mem_hwIfaces, k6⟩
  · intro a hm
    obtain ⟨e, he⟩ := ha a hm
    obtain ⟨k1, k2, k3⟩ := actuatorOf_some he
    subst k1
    exact k2
  · intro j hm
    obtain ⟨e, he⟩ := hj j hm
    obtain ⟨k1, k2, k3, k4, k5, -⟩ := jointOf_some he
    exact ⟨k3, k4 ▸ k5⟩
  · intro a hm
    obtain ⟨e, he⟩ := ha a hm
    exact (actuatorOf_some he).2.2

theorem transmission_iff {t : Elem} : (∃ i, parseTransmission t = some i) ↔ t.IsTransmission := by
  constructor
  · rintro ⟨i, h⟩
    obtain ⟨h1, h2, ⟨ty, h3, h3'⟩, h4, h5⟩ := parseTransmission_some.1 h
    obtain ⟨a1, a2, a3⟩ := parseJoints_some.1 h4
    obtain ⟨b1, b2, b3⟩ := parseActuators_some.1 h5
    refine ⟨⟨_, h1, h2⟩, ⟨ty, _, by rw [← first_eq_child]; exact h3, h3'⟩, fun j hj ht => a1 j (mem_all.2 ⟨hj, ht⟩), ?_,
      fun j hj ht => b1 j (mem_all.2 ⟨hj, ht⟩), ?_⟩
    · obtain ⟨j, hj⟩ := List.exists_mem_of_ne_nil _ a3
      rw [a2] at hj
      obtain ⟨e, he, hf⟩ := List.mem_filterMap.1 hj
      obtain ⟨e1, e2⟩ := mem_all.1 he
      exact ⟨e, e1, e2, jointOf_isSome.1 (by simp [hf])⟩
    · obtain ⟨j, hj⟩ := List.exists_mem_of_ne_nil _ b3
      rw [b2] at hj
      obtain ⟨e, he, hf⟩ := List.mem_filterMap.1 hj
      obtain ⟨e1, e2⟩ := mem_all.1 he
      exact ⟨e, e1, e2, actuatorOf_isSome.1 (by simp [hf])⟩
  · rintro ⟨⟨n, h1, h2⟩, ⟨ty, x, h3, h3'⟩, h4, ⟨j, j1, j2, j3⟩, h5, ⟨a, a1, a2, a3⟩⟩
    refine ⟨⟨n, x, (t.all "joint").filterMap jointOf, (t.all "actuator").filterMap actuatorOf⟩,
      parseTransmission_some.2 ⟨h1, h2, ⟨ty, by rw [first_eq_child]; exact h3, h3'⟩, parseJoints_some.2 ⟨?_, rfl, ?_⟩,
        parseActuators_some.2 ⟨?_, rfl, ?_⟩⟩⟩
    · intro e he
      exact h4 e (mem_all.1 he).1 (mem_all.1 he).2
    · obtain ⟨i, hi⟩ := Option.isSome_iff_exists.1 (jointOf_isSome.2 j3)
      exact List.ne_nil_of_mem (List.mem_filterMap.2 ⟨j, mem_all.2 ⟨j1, j2⟩, hi⟩)
    · intro e he
      exact h5 e (mem_all.1 he).1 (mem_all.1 he).2
    · obtain ⟨i, hi⟩ := Option.isSome_iff_exists.1 (actuatorOf_isSome.2 a3)
      exact List.ne_nil_of_mem (List.mem_filterMap.2 ⟨a, mem_all.2 ⟨a1, a2⟩, hi⟩)

end Verif.Transmission
