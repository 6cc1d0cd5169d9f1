import Verif.Lemmas.TransmissionParser
import Mathlib.Data.List.Forall2

/-!
Property C50: parsing transmissions from a robot description.
-/

namespace Verif.Transmission

/-- **C50.** Every transmission the parser returns is well-formed. -/
theorem c50_well_formed (d : Doc) (infos : List TransInfo) (h : parse d = .ok infos) :
    ∀ i ∈ infos, i.WellFormed := by
  unfold parse at h
  split at h
  · cases h
  · split at h
    · cases h
    · cases h
      intro i hi
      rw [parseLoop_eq, List.nil_append] at hi
      obtain ⟨t, _, ht⟩ := List.mem_filterMap.1 hi
      exact (transmission_from ht).2

open scoped Classical in
/-- **C50.** The parser returns, in the order of the description, one transmission for each `transmission`
element that describes one, with the joints and actuators it describes; all others are skipped, whatever
stands before or after them. -/
theorem c50_exactly_the_proper_ones (d : Doc) (root : Elem) (hr : d.root = some root)
    (hd : (d.null && d.error) = false) :
    ∃ infos, parse d = .ok infos ∧
      List.Forall₂ TransInfo.From infos (root.children.filter fun e => e.tag = "transmission" ∧ e.IsTransmission) := by
  refine ⟨_, by simp only [parse, hd, hr]; rfl, ?_⟩
  have : (root.children.filter fun e => decide (e.tag = "transmission" ∧ e.IsTransmission)) =
      (root.all "transmission").filter (fun e => (parseTransmission e).isSome) := by
    rw [Elem.all, List.filter_filter]
    apply List.filter_congr
    intro e _
    rw [Bool.eq_iff_iff]
    simp only [Bool.and_eq_true, decide_eq_true_eq, Option.isSome_iff_exists, transmission_iff]
    tauto
  rw [this]
  · rw [parseLoop_eq, List.nil_append]
    generalize root.all "transmission" = l
    induction l with
    | nil => exact .nil
    | cons e l ih =>
      cases h : parseTransmission e with
      | none => rw [List.filterMap_cons_none h, List.filter_cons_of_neg (by simp [h])]; exact ih
      | some i =>
        rw [List.filterMap_cons_some h, List.filter_cons_of_pos (by simp [h])]
        exact .cons (transmission_from h).1 ih

/-- **C50.** A transmission element that does not describe one does not affect the result: the parser gives
the same with and without it. -/
theorem c50_malformed_no_effect (attrs) (text) (before after : List Elem) (bad : Elem) (hb : ¬bad.IsTransmission) :
    parse { root := some (.node "robot" attrs text (before ++ bad :: after)) } =
      parse { root := some (.node "robot" attrs text (before ++ after)) } := by
  simp only [parse, Bool.and_false, Bool.false_eq_true, if_false, Elem.all, Elem.children]
  rw [parseLoop_eq, parseLoop_eq]
  have : parseTransmission bad = none := by
    rw [Option.eq_none_iff_forall_not_mem]
    intro i hi
    exact hb (transmission_iff.1 ⟨i, hi⟩)
  by_cases ht : bad.tag = "transmission"
  · simp [List.filter_append, List.filterMap_append, ht, this]
  · simp [List.filter_append, ht]

/-- A joint element. -/
def exJoint (name : String) (more : List Elem := []) : Elem :=
  .node "joint" [("name", name)] none (.node "hardwareInterface" [] (some "hardware_interface/EffortJointInterface") [] :: more)

/-- An actuator element. -/
def exActuator (name : String) (more : List Elem := []) : Elem := .node "actuator" [("name", name)] none more

/-- A transmission element. -/
def exTransmission (name type : String) (joints actuators : List Elem) : Elem :=
  .node "transmission" [("name", name)] none (.node "type" [] (some type) [] :: joints ++ actuators)

/-- The second transmission has no name, the third has no hardware interface in its joint. -/
example : (match parse { root := some (.node "robot" [] none
    [exTransmission "t1" "transmission_interface/SimpleTransmission" [exJoint "j1"] [exActuator "a1"],
     exTransmission "" "transmission_interface/SimpleTransmission" [exJoint "j2"] [exActuator "a2"],
     exTransmission "t3" "transmission_interface/SimpleTransmission" [.node "joint" [("name", "j3")] none []]
       [exActuator "a3"],
     exTransmission "t4" "transmission_interface/SimpleTransmission" [exJoint "j4"] [exActuator "a4"]]) } with
    | .ok l => l.map (·.name)
    | _ => []) = ["t1", "t4"] := by decide

example : (exTransmission "t1" "x" [exJoint "j1"] [exActuator "a1"]).IsTransmission :=
  transmission_iff.1 ⟨_, rfl⟩

/-- A document without a root element (for example only a comment) that TinyXML accepts makes the parser
dereference a null pointer. -/
theorem c50_no_root_negation : ∃ d : Doc, d.error = false ∧ parse d = .nullDereference :=
  ⟨{ root := none }, rfl, rfl⟩

end Verif.Transmission
