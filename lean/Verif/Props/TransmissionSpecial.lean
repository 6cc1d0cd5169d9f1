import Verif.Lemmas.TransmissionSpecial

/-!
C103: transmissions pass on NaN and infinities.
-/

namespace Verif.Transmission

open Limits

variable {A : Machine binary64}

/-- A value that is not finite makes every joint value that depends on it not finite; if it is NaN, they are NaN. -/
theorem c103_to_joint (nd : Bool) (q : Quantity) (T : Trans (Flt A)) {act jnt : Data} {as js : List Nat}
    (ha : act.get q = cells as) (hj : jnt.get q = cells js) (la : as.length = T.numActuators)
    (lj : js.length = T.numJoints) (hn : (as ++ js).Nodup) (m : Mem (Flt A)) :
    ∃ m', toJoint nd q T act jnt m = .ok m' ∧ ∀ i j a c, DependsOn T i j → as[j]? = some a → js[i]? = some c →
      (NotFinite (m a) → NotFinite (m' c)) ∧ (IsNaN (m a) → IsNaN (m' c)) := by
  obtain ⟨m', h1, h2, _⟩ := toJoint_run nd q T ha hj la lj hn m
  refine ⟨m', h1, fun i j a c hd e1 e2 => ?_⟩
  have k1 : (as.map m)[j]? = some (m a) := by rw [List.getElem?_map, e1]; rfl
  have k2 : ((jointMaps q T).run (as.map m))[i]? = some (m' c) := by rw [← h2, List.getElem?_map, e2]; rfl
  exact ⟨fun h => (absorbing_not_finite.run q T (by simpa using la) hd k1 h).1 _ k2,
    fun h => (absorbing_nan.run q T (by simpa using la) hd k1 h).1 _ k2⟩

/-- The same for the actuator values. -/
theorem c103_to_actuator (nd : Bool) (q : Quantity) (T : Trans (Flt A)) {act jnt : Data} {as js : List Nat}
    (ha : act.get q = cells as) (hj : jnt.get q = cells js) (la : as.length = T.numActuators)
    (lj : js.length = T.numJoints) (hn : (as ++ js).Nodup) (m : Mem (Flt A)) :
    ∃ m', toActuator nd q T jnt act m = .ok m' ∧ ∀ i j a c, DependsOn T i j → js[j]? = some c → as[i]? = some a →
      (NotFinite (m c) → NotFinite (m' a)) ∧ (IsNaN (m c) → IsNaN (m' a)) := by
  obtain ⟨m', h1, h2, _⟩ := toActuator_run nd q T ha hj la lj hn m
  refine ⟨m', h1, fun i j a c hd e1 e2 => ?_⟩
  have k1 : (js.map m)[j]? = some (m c) := by rw [List.getElem?_map, e1]; rfl
  have k2 : ((actuatorMaps q T).run (js.map m))[i]? = some (m' a) := by rw [← h2, List.getElem?_map, e2]; rfl
  have hl : (js.map m).length = T.numActuators := by
    rw [List.length_map, lj]; cases T <;> rfl
  exact ⟨fun h => (absorbing_not_finite.run q T hl hd k1 h).2 _ k2, fun h => (absorbing_nan.run q T hl hd k1 h).2 _ k2⟩

/-- The first joint of a four-bar linkage does not see the second actuator: whatever the second actuator reports, NaN and
infinities included, the first joint has the same value. The same for the first actuator and the second joint. -/
theorem c103_four_bar (nd : Bool) (q : Quantity) (t : Two (Flt A)) {act jnt : Data} {a b i j : Nat}
    (ha : act.get q = cells [a, b]) (hj : jnt.get q = cells [i, j]) (hn : [a, b, i, j].Nodup) (m m0 : Mem (Flt A)) :
    (m a = m0 a → ∃ m1 m2, toJoint nd q (.fourBar t) act jnt m = .ok m1 ∧ toJoint nd q (.fourBar t) act jnt m0 = .ok m2 ∧
      m1 i = m2 i) ∧
    (m i = m0 i → ∃ m1 m2, toActuator nd q (.fourBar t) jnt act m = .ok m1 ∧
      toActuator nd q (.fourBar t) jnt act m0 = .ok m2 ∧ m1 a = m2 a) := by
  constructor
  · intro e
    obtain ⟨m1, h1, h2, _⟩ := toJoint_run nd q (.fourBar t) ha hj rfl rfl hn m
    obtain ⟨m2, h3, h4, _⟩ := toJoint_run nd q (.fourBar t) ha hj rfl rfl hn m0
    refine ⟨m1, m2, h1, h3, ?_⟩
    simp only [List.map_cons, List.map_nil, Maps.run, List.cons.injEq] at h2 h4
    rw [h2.1, h4.1]
    cases q <;> simp only [jointMaps, e]
  · intro e
    obtain ⟨m1, h1, h2, _⟩ := toActuator_run nd q (.fourBar t) ha hj rfl rfl hn m
    obtain ⟨m2, h3, h4, _⟩ := toActuator_run nd q (.fourBar t) ha hj rfl rfl hn m0
    refine ⟨m1, m2, h1, h3, ?_⟩
    simp only [List.map_cons, List.map_nil, Maps.run, List.cons.injEq] at h2 h4
    rw [h2.1, h4.1]
    cases q <;> simp only [actuatorMaps, e]

/-- A command that is NaN reaches the actuator as NaN: there and back, it remains NaN. -/
theorem c103_round_trip (nd : Bool) (q : Quantity) (T : Trans (Flt A)) {act jnt : Data} {as js : List Nat}
    (ha : act.get q = cells as) (hj : jnt.get q = cells js) (la : as.length = T.numActuators)
    (lj : js.length = T.numJoints) (hn : (as ++ js).Nodup) (m : Mem (Flt A)) :
    ∃ m1 m2, toJoint nd q T act jnt m = .ok m1 ∧ toActuator nd q T jnt act m1 = .ok m2 ∧
      ∀ a ∈ as, (NotFinite (m a) → NotFinite (m2 a)) ∧ (IsNaN (m a) → IsNaN (m2 a)) := by
  obtain ⟨m1, h1, k1⟩ := c103_to_joint nd q T ha hj la lj hn m
  obtain ⟨m2, h2, k2⟩ := c103_to_actuator nd q T ha hj la lj hn m1
  refine ⟨m1, m2, h1, h2, fun a ha' => ?_⟩
  obtain ⟨j, hjl, e⟩ := List.mem_iff_getElem.1 ha'
  have hl : as.length = js.length := by rw [la, lj]; cases T <;> rfl
  have e1 : as[j]? = some a := by rw [List.getElem?_eq_getElem hjl, e]
  have e2 : js[j]? = some js[j] := List.getElem?_eq_getElem (by omega)
  have hd : DependsOn T j j := by
    cases T <;> simp only [DependsOn]
    omega
  have p1 := k1 j j a _ hd e1 e2
  have p2 := k2 j j a _ hd e2 e1
  exact ⟨fun h => p2.1 (p1.1 h), fun h => p2.2 (p1.2 h)⟩

/-- A differential transmission, the velocity of whose first actuator is NaN and that of whose second actuator is infinite:
neither joint has a velocity. -/
example (t : Two (Flt A)) :
    ∃ m', toJoint false .velocity (.differential t) { velocity := cells [0, 1] } { velocity := cells [2, 3] }
      (fun c => if c = 0 then none else Flt.fl Fl.infinity : Mem (Flt A)) = .ok m' ∧ IsNaN (m' 2) ∧ IsNaN (m' 3) := by
  obtain ⟨m', h1, h2⟩ := c103_to_joint false .velocity (.differential t) (act := { velocity := cells [0, 1] })
    (jnt := { velocity := cells [2, 3] }) rfl rfl rfl rfl (by decide)
    (fun c => if c = 0 then none else Flt.fl Fl.infinity : Mem (Flt A))
  exact ⟨m', h1, (h2 0 0 0 2 trivial rfl rfl).2 rfl, (h2 1 0 0 3 trivial rfl rfl).2 rfl⟩

/-- A simple transmission whose joint command is infinite. -/
example (t : Simple (Flt A)) :
    ∃ m', toActuator false .effort (.simple t) { effort := cells [1] } { effort := cells [0] }
      (fun _ => Flt.fl Fl.infinity : Mem (Flt A)) = .ok m' ∧ NotFinite (m' 0) := by
  obtain ⟨m', h1, h2⟩ := c103_to_actuator false .effort (.simple t) (act := { effort := cells [0] })
    (jnt := { effort := cells [1] }) (as := [0]) (js := [1]) rfl rfl rfl rfl (by decide)
    (fun _ => Flt.fl Fl.infinity : Mem (Flt A))
  exact ⟨m', h1, (h2 0 0 0 1 trivial rfl rfl).1 (.fl infinity_isInf)⟩

end Verif.Transmission
