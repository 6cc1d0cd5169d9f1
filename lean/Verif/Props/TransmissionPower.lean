import Verif.Props.Transmission

/-!
Property C47, continued: power whichever way velocities and efforts are mapped, and four-bar linkages, none of which conserves it.
-/

namespace Verif.Transmission

section

variable {K : Type} [Field K] [NeZero (2 : K)] [DecidableEq K]

/-- Values of one quantity mapped from the actuators to the joints or, if `back`, from the joints to the actuators. -/
def mapped (back nd : Bool) (q : Quantity) (T : Trans K) (act jnt : Data) (m : Mem K) : Except Fault (Mem K) :=
  if back then toActuator nd q T jnt act m else toJoint nd q T act jnt m

/-- Whichever way a quantity is mapped, afterwards the joint values are those that belong to the actuator values. -/
theorem mapped_run (back nd : Bool) (q : Quantity) {T : Trans K} (hT : Constructed T) {act jnt : Data} {as js : List Nat}
    (ha : act.get q = cells as) (hj : jnt.get q = cells js) (la : as.length = T.numActuators)
    (lj : js.length = T.numJoints) (hn : (as ++ js).Nodup) (m : Mem K) :
    ∃ m', mapped back nd q T act jnt m = .ok m' ∧ js.map m' = (jointMaps q T).run (as.map m') ∧
      ∀ c, c ∉ as → c ∉ js → m' c = m c := by
  cases back with
  | false =>
    obtain ⟨m', e, v, f⟩ := toJoint_run nd q T ha hj la lj hn m
    refine ⟨m', e, ?_, fun c _ hc => f c hc⟩
    rw [v]
    congr 1
    refine List.map_congr_left fun c hc => (f c fun h => ?_).symm
    exact (List.nodup_append.1 hn).2.2 c hc c h rfl
  | true =>
    obtain ⟨m', e, v, f⟩ := toActuator_run nd q T ha hj la lj hn m
    refine ⟨m', e, ?_, fun c hc _ => f c hc⟩
    rw [v, (run_inv q (regular hT) _ (by rw [List.length_map, lj, num_eq])).2]
    exact List.map_congr_left fun c hc => f c fun h => (List.nodup_append.1 hn).2.2 c h c hc rfl

/-- **C47** (missing: the four-bar linkage, for which it is false, see `c47_no_four_bar_negation`). Whichever way velocities and
efforts are mapped by a simple or differential transmission, each from the actuators to the joints or the other way round, afterwards
the power of the joints is that of the actuators. So commanded efforts do the same work at the measured velocities on both sides. -/
theorem c47_either_way_partial (backV backE nd : Bool) {T : Trans K} (hT : Constructed T) (h4 : ∀ t, T ≠ .fourBar t)
    {act jnt : Data} {ea va ej vj : List Nat} (h1 : act.effort = cells ea) (h2 : act.velocity = cells va)
    (h3 : jnt.effort = cells ej) (h5 : jnt.velocity = cells vj)
    (l1 : ea.length = T.numActuators) (l2 : va.length = T.numActuators)
    (l3 : ej.length = T.numJoints) (l5 : vj.length = T.numJoints)
    (hn : (ea ++ va ++ ej ++ vj).Nodup) (m : Mem K) :
    ∃ m1 m2, mapped backV nd .velocity T act jnt m = .ok m1 ∧ mapped backE nd .effort T act jnt m1 = .ok m2 ∧
      power m2 ej vj = power m2 ea va := by
  have hr := regular hT
  have h20 : (2 : K) ≠ 0 := NeZero.ne 2
  have n1 : (va ++ vj).Nodup := hn.sublist
    (List.Sublist.append ((List.sublist_append_right ea va).trans (List.sublist_append_left _ ej)) (List.Sublist.refl vj))
  have n2 : (ea ++ ej).Nodup := hn.sublist
    ((List.Sublist.append (List.sublist_append_left ea va) (List.Sublist.refl ej)).trans (List.sublist_append_left _ vj))
  obtain ⟨m1, e1, v1, -⟩ := mapped_run backV nd .velocity hT (act := act) (jnt := jnt) h2 h5 l2 l5 n1 m
  obtain ⟨m2, e2, v2, f2⟩ := mapped_run backE nd .effort hT (act := act) (jnt := jnt) h1 h3 l1 l3 n2 m1
  refine ⟨m1, m2, e1, e2, ?_⟩
  have hk : ∀ c, c ∈ va ∨ c ∈ vj → m2 c = m1 c := by
    obtain ⟨hab, -, hd⟩ := List.nodup_append.1 hn
    obtain ⟨ha, -, hd'⟩ := List.nodup_append.1 hab
    obtain ⟨-, -, hd''⟩ := List.nodup_append.1 ha
    rintro c (hc | hc)
    · exact f2 c (fun h => hd'' c h c hc rfl) fun h => hd' c (List.mem_append_right _ hc) c h rfl
    · exact f2 c (fun h => hd c (by simp [h]) c hc rfl) fun h => hd c (by simp [h]) c hc rfl
  rw [← List.map_congr_left fun c hc => hk c (Or.inr hc), ← List.map_congr_left fun c hc => hk c (Or.inl hc)] at v1
  cases T with
  | fourBar t => exact absurd rfl (h4 t)
  | simple t =>
    simp only [Trans.numActuators, Trans.numJoints, List.length_eq_one_iff] at l1 l2 l3 l5
    obtain ⟨e, rfl⟩ := l1
    obtain ⟨v, rfl⟩ := l2
    obtain ⟨je, rfl⟩ := l3
    obtain ⟨jv, rfl⟩ := l5
    simp only [List.map_cons, List.map_nil, Maps.run, jointMaps, List.cons.injEq, and_true] at v1 v2
    have r0 : t.reduction ≠ 0 := hr
    rw [power_one, power_one, v1, v2]
    field_simp
  | differential t =>
    simp only [Trans.numActuators, Trans.numJoints, List.length_eq_two] at l1 l2 l3 l5
    obtain ⟨e, e', rfl⟩ := l1
    obtain ⟨v, v', rfl⟩ := l2
    obtain ⟨je, je', rfl⟩ := l3
    obtain ⟨jv, jv', rfl⟩ := l5
    simp only [List.map_cons, List.map_nil, Maps.run, jointMaps, List.cons.injEq, and_true] at v1 v2
    obtain ⟨r1, r2, r3, r4⟩ := hr
    rw [power_two, power_two, v1.1, v1.2, v2.1, v2.2]
    field_simp
    ring

/-- **C47**, no four-bar linkage conserves power: for each one that can be constructed, wherever its values are and whatever they are
otherwise, there are efforts and velocities of the actuators that it maps to efforts and velocities of the joints with another power. -/
theorem c47_no_four_bar_negation (nd : Bool) {t : Two K} (hT : Constructed (Trans.fourBar t))
    {act jnt : Data} {e1 e2 v1 v2 je1 je2 jv1 jv2 : Nat} (h1 : act.effort = cells [e1, e2])
    (h2 : act.velocity = cells [v1, v2]) (h3 : jnt.effort = cells [je1, je2]) (h5 : jnt.velocity = cells [jv1, jv2])
    (hn : [e1, e2, v1, v2, je1, je2, jv1, jv2].Nodup) :
    ∃ m m1 m2 : Mem K, toJoint nd .velocity (.fourBar t) act jnt m = .ok m1 ∧ toJoint nd .effort (.fourBar t) act jnt m1 = .ok m2 ∧
      power m2 [je1, je2] [jv1, jv2] ≠ power m [e1, e2] [v1, v2] := by
  obtain ⟨m1, m2, k1, k2, hp⟩ := c47_four_bar_partial nd hT h1 h2 h3 h5 hn fun c => if c = e1 ∨ c = v1 then 1 else 0
  refine ⟨_, m1, m2, k1, k2, fun h => ?_⟩
  rw [h] at hp
  simp only [List.nodup_cons, List.mem_cons, List.not_mem_nil, or_false, not_or] at hn
  obtain ⟨⟨a0, a1, a2, -⟩, ⟨b1, -⟩, ⟨c1, -⟩, -⟩ := hn
  have hx := left_eq_add.1 hp
  simp only [true_or, or_true, if_true, Ne.symm a0, b1, or_self, if_false, Ne.symm a2, Ne.symm c1] at hx
  simp at hx

end

/-! ### Concrete cases -/

/-- Efforts are commanded to the joints of `exDiff` while velocities are measured at its actuators. -/
example : ∃ m1 m2 : Mem ℚ, mapped false false .velocity (.differential exDiff) { effort := cells [0, 1], velocity := cells [2, 3] }
      { effort := cells [4, 5], velocity := cells [6, 7] } (fun c => c) = .ok m1 ∧
    mapped true false .effort (.differential exDiff) { effort := cells [0, 1], velocity := cells [2, 3] }
      { effort := cells [4, 5], velocity := cells [6, 7] } m1 = .ok m2 ∧
    power m2 [4, 5] [6, 7] = power m2 [0, 1] [2, 3] :=
  c47_either_way_partial false true false (.differential [10, -20] [2, 5] [1, 3] false _ rfl) (by simp) rfl rfl rfl rfl rfl rfl rfl rfl
    (by decide) _

example : ∃ m m1 m2 : Mem ℚ, toJoint false .velocity (.fourBar exDiff) { effort := cells [0, 1], velocity := cells [2, 3] }
      { effort := cells [4, 5], velocity := cells [6, 7] } m = .ok m1 ∧
    toJoint false .effort (.fourBar exDiff) { effort := cells [0, 1], velocity := cells [2, 3] }
      { effort := cells [4, 5], velocity := cells [6, 7] } m1 = .ok m2 ∧
    power m2 [4, 5] [6, 7] ≠ power m [0, 1] [2, 3] :=
  c47_no_four_bar_negation false (.fourBar [10, -20] [2, 5] [1, 3] _ rfl) rfl rfl rfl rfl (by decide)

end Verif.Transmission
