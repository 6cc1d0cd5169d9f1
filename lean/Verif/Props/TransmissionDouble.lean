import Verif.Lemmas.TransmissionDouble
import Verif.Lemmas.TransmissionSpecial
import Verif.Props.TransmissionMaps

/-!
Property C98: transmissions that compute with doubles.
-/

namespace Verif.Transmission

open Limits

variable {A : Machine binary64}

/-- **C98.** For every transmission that can be constructed, each of position, velocity and effort, and all parameters
and actuator values between 2^-100 and 2^100 in absolute value (or zero): the map to the joints, computed with doubles,
gives finite numbers, and they differ from the exact result by at most 2^-49 of the terms they are the sum of. -/
theorem c98_to_joint (nd : Bool) (q : Quantity) {T : Trans (Flt A)} (hT : Constructed T) {t : Trans ℚ}
    (hs : SameTrans T t) {act jnt : Data} {as js : List Nat} (ha : act.get q = cells as) (hj : jnt.get q = cells js)
    (la : as.length = T.numActuators) (lj : js.length = T.numJoints) (hn : (as ++ js).Nodup)
    {m : Mem (Flt A)} {n : Mem ℚ} (hm : MeansAll (as.map m) (as.map n)) :
    ∃ m' n', toJoint nd q T act jnt m = .ok m' ∧ toJoint nd q t act jnt n = .ok n' ∧ (∀ c, c ∉ js → m' c = m c) ∧
      Near (2 ^ 49)⁻¹ (js.map m') (js.map n') (jointScale q t ((as.map n).map abs)) := by
  obtain ⟨m', e1, v1, f1⟩ := toJoint_run nd q T ha hj la lj hn m
  obtain ⟨n', e2, v2, _⟩ := toJoint_run nd q t ha hj (la.trans hs.num.1) (lj.trans hs.num.2) hn n
  refine ⟨m', n', e1, e2, f1, ?_⟩
  rw [v1, v2]
  exact (near_all q hT hs (by rw [List.length_map]; exact la) hm).1

/-- **C98.** The same for the map to the actuators. -/
theorem c98_to_actuator (nd : Bool) (q : Quantity) {T : Trans (Flt A)} (hT : Constructed T) {t : Trans ℚ}
    (hs : SameTrans T t) {act jnt : Data} {as js : List Nat} (ha : act.get q = cells as) (hj : jnt.get q = cells js)
    (la : as.length = T.numActuators) (lj : js.length = T.numJoints) (hn : (as ++ js).Nodup)
    {m : Mem (Flt A)} {n : Mem ℚ} (hm : MeansAll (js.map m) (js.map n)) :
    ∃ m' n', toActuator nd q T jnt act m = .ok m' ∧ toActuator nd q t jnt act n = .ok n' ∧
      (∀ c, c ∉ as → m' c = m c) ∧
      Near (2 ^ 49)⁻¹ (as.map m') (as.map n') (actuatorScale q t ((js.map n).map abs)) := by
  obtain ⟨m', e1, v1, f1⟩ := toActuator_run nd q T ha hj la lj hn m
  obtain ⟨n', e2, v2, _⟩ := toActuator_run nd q t ha hj (la.trans hs.num.1) (lj.trans hs.num.2) hn n
  refine ⟨m', n', e1, e2, f1, ?_⟩
  rw [v1, v2]
  exact (near_all q hT hs (by rw [List.length_map, lj, num_eq]) hm).2.1

/-- **C98.** Mapping from the actuators to the joints and back, computed with doubles, gives the actuator values again
up to an error of at most 2^-49 of the terms that are added up on the way. -/
theorem c98_actuator_round_trip (nd : Bool) (q : Quantity) {T : Trans (Flt A)} (hT : Constructed T) {t : Trans ℚ}
    (hs : SameTrans T t) {act jnt : Data} {as js : List Nat} (ha : act.get q = cells as) (hj : jnt.get q = cells js)
    (la : as.length = T.numActuators) (lj : js.length = T.numJoints) (hn : (as ++ js).Nodup)
    {m : Mem (Flt A)} {xs : List ℚ} (hm : MeansAll (as.map m) xs) :
    ∃ m1 m2, toJoint nd q T act jnt m = .ok m1 ∧ toActuator nd q T jnt act m1 = .ok m2 ∧
      (∀ c, c ∉ as ++ js → m2 c = m c) ∧
      Near (2 ^ 49)⁻¹ (as.map m2) xs (actuatorScale q t (jointScale q t (xs.map abs))) := by
  obtain ⟨m1, e1, v1, f1⟩ := toJoint_run nd q T ha hj la lj hn m
  obtain ⟨m2, e2, v2, f2⟩ := toActuator_run nd q T ha hj la lj hn m1
  refine ⟨m1, m2, e1, e2, fun c hc => ?_, ?_⟩
  · rw [List.mem_append, not_or] at hc
    rw [f2 c hc.1, f1 c hc.2]
  · rw [v2, v1]
    exact (near_all q hT hs (by rw [List.length_map]; exact la) hm).2.2.1

/-- **C98.** The same in the other direction. -/
theorem c98_joint_round_trip (nd : Bool) (q : Quantity) {T : Trans (Flt A)} (hT : Constructed T) {t : Trans ℚ}
    (hs : SameTrans T t) {act jnt : Data} {as js : List Nat} (ha : act.get q = cells as) (hj : jnt.get q = cells js)
    (la : as.length = T.numActuators) (lj : js.length = T.numJoints) (hn : (as ++ js).Nodup)
    {m : Mem (Flt A)} {xs : List ℚ} (hm : MeansAll (js.map m) xs) :
    ∃ m1 m2, toActuator nd q T jnt act m = .ok m1 ∧ toJoint nd q T act jnt m1 = .ok m2 ∧
      (∀ c, c ∉ as ++ js → m2 c = m c) ∧
      Near (2 ^ 49)⁻¹ (js.map m2) xs (jointScale q t (actuatorScale q t (xs.map abs))) := by
  obtain ⟨m1, e1, v1, f1⟩ := toActuator_run nd q T ha hj la lj hn m
  obtain ⟨m2, e2, v2, f2⟩ := toJoint_run nd q T ha hj la lj hn m1
  refine ⟨m1, m2, e1, e2, fun c hc => ?_, ?_⟩
  · rw [List.mem_append, not_or] at hc
    rw [f2 c hc.2, f1 c hc.1]
  · rw [v2, v1]
    exact (near_all q hT hs (by rw [List.length_map, lj, num_eq]) hm).2.2.2

/-- **C98.** Torque sensor values are mapped as accurately as efforts. -/
theorem c98_torque_sensor (nd : Bool) {T : Trans (Flt A)} (hT : Constructed T) {t : Trans ℚ} (hs : SameTrans T t)
    {act jnt : Data} {as js : List Nat} (ha : act.torqueSensor = cells as) (hj : jnt.torqueSensor = cells js)
    (la : as.length = T.numActuators) (lj : js.length = T.numJoints) (hn : (as ++ js).Nodup)
    {m : Mem (Flt A)} {n : Mem ℚ} (hm : MeansAll (as.map m) (as.map n)) :
    ∃ m' n', actuatorToJointTorqueSensor nd T act jnt m = .ok m' ∧ actuatorToJointTorqueSensor nd t act jnt n = .ok n' ∧
      (∀ c, c ∉ js → m' c = m c) ∧
      Near (2 ^ 49)⁻¹ (js.map m') (js.map n') (jointScale .effort t ((as.map n).map abs)) := by
  rw [c62_torque_sensor, c62_torque_sensor]
  exact c98_to_joint nd .effort hT hs (act := act.torqueAsEffort) (jnt := jnt.torqueAsEffort) ha hj la lj hn hm

/-- **C98.** Absolute positions are mapped as accurately as positions. -/
theorem c98_absolute_position (nd : Bool) {T : Trans (Flt A)} (hT : Constructed T) {t : Trans ℚ} (hs : SameTrans T t)
    (hi : T.ignores = false) (hi' : t.ignores = false)
    {act jnt : Data} {as js : List Nat} {p : Nat} {ps : List Ptr} (hp : act.position = some p :: ps)
    (ha : act.absolutePosition = cells as) (hj : jnt.absolutePosition = cells js)
    (la : as.length = T.numActuators) (lj : js.length = T.numJoints) (hn : (as ++ js).Nodup)
    {m : Mem (Flt A)} {n : Mem ℚ} (hm : MeansAll (as.map m) (as.map n)) :
    ∃ m' n', actuatorToJointAbsolutePosition nd T act jnt m = .ok m' ∧
      actuatorToJointAbsolutePosition nd t act jnt n = .ok n' ∧ (∀ c, c ∉ js → m' c = m c) ∧
      Near (2 ^ 49)⁻¹ (js.map m') (js.map n') (jointScale .position t ((as.map n).map abs)) := by
  rw [c62_absolute_position nd T hi hp ha hj la lj,
    c62_absolute_position nd t hi' hp ha hj (la.trans hs.num.1) (lj.trans hs.num.2)]
  exact c98_to_joint nd .position hT hs (act := act.absoluteAsPosition) (jnt := jnt.absoluteAsPosition) ha hj la lj hn hm

/-- There is such an arithmetic. -/
example : Nonempty (Machine binary64) :=
  (exists_rounding binary64 (by decide)).elim fun R => ⟨⟨R, fun _ => true⟩⟩

/-- A whole number as a double. -/
def whole (n : ℤ) (h : |n| < 2 ^ 53) : Flt A := Flt.fl (dyadic n 0 h (by decide))

theorem whole_means {n : ℤ} (h : |n| < 2 ^ 53) (h1 : n ≠ 0) : Means (whole n h : Flt A) n := by
  refine means_dyadic _ _ (by simp) (Or.inr ⟨?_, ?_⟩)
  · have : (1 : ℚ) ≤ |(n : ℚ)| := by exact_mod_cast Int.one_le_abs h1
    exact le_trans (zpow_le_one_of_nonpos₀ (by norm_num) (by norm_num)) this
  · have : |(n : ℚ)| < 2 ^ 53 := by exact_mod_cast h
    exact this.le.trans (by norm_num)

/-- A differential transmission. -/
def exFlt : Two (Flt A) :=
  ⟨(whole 10 (by decide), whole (-20) (by decide)), (whole 2 (by decide), whole 5 (by decide)),
    (whole 1 (by decide), whole 3 (by decide)), false⟩

example : Constructed (Trans.differential (exFlt : Two (Flt A))) := by
  refine .differential [exFlt.ar.1, exFlt.ar.2] [exFlt.jr.1, exFlt.jr.2] [exFlt.off.1, exFlt.off.2] false _
    (mkTwo_some.2 ⟨rfl, rfl, rfl, rfl, ?_, ?_, ?_, ?_⟩) <;>
  exact fl_ne_zero (by rw [dyadic_val]; norm_num)

example : SameTrans (Trans.differential (exFlt : Two (Flt A))) (.differential ⟨(10, -20), (2, 5), (1, 3), false⟩) := by
  refine ⟨?_, ?_, ?_, ?_, ?_, ?_⟩
  · exact_mod_cast whole_means (A := A) (n := 10) (by decide) (by decide)
  · exact_mod_cast whole_means (A := A) (n := -20) (by decide) (by decide)
  · exact_mod_cast whole_means (A := A) (n := 2) (by decide) (by decide)
  · exact_mod_cast whole_means (A := A) (n := 5) (by decide) (by decide)
  · exact_mod_cast whole_means (A := A) (n := 1) (by decide) (by decide)
  · exact_mod_cast whole_means (A := A) (n := 3) (by decide) (by decide)

example : MeansAll ([0, 1].map fun c => if c = 0 then (whole 40 (by decide) : Flt A) else whole 100 (by decide)) [40, 100] := by
  refine .cons ?_ (.cons ?_ .nil)
  · exact_mod_cast whole_means (A := A) (n := 40) (by decide) (by decide)
  · exact_mod_cast whole_means (A := A) (n := 100) (by decide) (by decide)

/-- In this case: the error of the position of the first actuator is at most 2^-49 of 40 + 50 + 2 (2 + 15) 10. -/
example : actuatorScale .position (.differential ⟨(10, -20), (2, 5), (1, 3), false⟩)
    (jointScale .position (.differential ⟨(10, -20), (2, 5), (1, 3), false⟩) [40, 100]) = [430, 860] := by
  norm_num [actuatorScale, jointScale, abs_of_pos, abs_of_neg]

/-! ### The terms that are added up -/

/-- For a simple transmission the error of the round trip is relative to the value itself, except for an offset. -/
theorem c98_scale_simple {t : Simple ℚ} (h : t.reduction ≠ 0) (x : ℚ) :
    actuatorScale .velocity (.simple t) (jointScale .velocity (.simple t) [|x|]) = [|x|] ∧
    actuatorScale .effort (.simple t) (jointScale .effort (.simple t) [|x|]) = [|x|] ∧
    actuatorScale .position (.simple t) (jointScale .position (.simple t) [|x|]) =
      [|x| + 2 * |t.offset * t.reduction|] := by
  have h := abs_pos.2 h
  refine ⟨?_, ?_, ?_⟩ <;> simp only [actuatorScale, jointScale, abs_mul] <;> congr 1 <;> field_simp <;> ring

/-- For a differential transmission the other actuator has a share. -/
theorem c98_scale_differential {t : Two ℚ} (h : (Trans.differential t).Regular) (x y : ℚ) :
    actuatorScale .velocity (.differential t) (jointScale .velocity (.differential t) [|x|, |y|]) =
      [|x| + |t.ar.1| / |t.ar.2| * |y|, |y| + |t.ar.2| / |t.ar.1| * |x|] ∧
    actuatorScale .effort (.differential t) (jointScale .effort (.differential t) [|x|, |y|]) =
      [|x| + |t.ar.2| / |t.ar.1| * |y|, |y| + |t.ar.1| / |t.ar.2| * |x|] ∧
    actuatorScale .position (.differential t) (jointScale .position (.differential t) [|x|, |y|]) =
      [|x| + |t.ar.1| / |t.ar.2| * |y| + 2 * (|t.off.1 * t.jr.1| + |t.off.2 * t.jr.2|) * |t.ar.1|,
        |y| + |t.ar.2| / |t.ar.1| * |x| + 2 * (|t.off.1 * t.jr.1| + |t.off.2 * t.jr.2|) * |t.ar.2|] := by
  obtain ⟨h1, h2, h3, h4⟩ := h
  have h1 := abs_pos.2 h1
  have h2 := abs_pos.2 h2
  have h3 := abs_pos.2 h3
  have h4 := abs_pos.2 h4
  refine ⟨?_, ?_, ?_⟩ <;> simp only [actuatorScale, jointScale, abs_mul, abs_two, List.cons.injEq, and_true] <;>
    constructor <;> field_simp <;> ring

/-- For a four-bar linkage the first actuator has a share in the second one. -/
theorem c98_scale_four_bar {t : Two ℚ} (h : (Trans.fourBar t).Regular) (x y : ℚ) :
    actuatorScale .velocity (.fourBar t) (jointScale .velocity (.fourBar t) [|x|, |y|]) =
      [|x|, |y| + 2 * |t.ar.2| / |t.jr.1 * t.ar.1| * |x|] ∧
    actuatorScale .effort (.fourBar t) (jointScale .effort (.fourBar t) [|x|, |y|]) =
      [|x|, |y| + 2 * |t.jr.1 * t.ar.1| / |t.ar.2| * |x|] ∧
    actuatorScale .position (.fourBar t) (jointScale .position (.fourBar t) [|x|, |y|]) =
      [|x| + 2 * |t.off.1 * t.jr.1 * t.ar.1|,
        |y| + 2 * |t.ar.2| / |t.jr.1 * t.ar.1| * |x| + 2 * (|t.off.1| + |t.off.2 * t.jr.2|) * |t.ar.2|] := by
  obtain ⟨h1, h2, h3, h4⟩ := h
  have h1 := abs_pos.2 h1
  have h2 := abs_pos.2 h2
  have h3 := abs_pos.2 h3
  have h4 := abs_pos.2 h4
  refine ⟨?_, ?_, ?_⟩ <;> simp only [actuatorScale, jointScale, abs_mul, List.cons.injEq, and_true] <;>
    constructor <;> field_simp <;> ring

/-! ### What does not hold -/

/-- With doubles, a round trip does not restore the value exactly: with reduction 49, a velocity of 1 becomes smaller. -/
theorem c98_exact_negation (A : Machine binary64) :
    ∃ (T : Trans (Flt A)) (t : Trans ℚ) (m m1 m2 : Mem (Flt A)) (y : ℚ), Constructed T ∧ SameTrans T t ∧ Means (m 0) 1 ∧
      toJoint false .velocity T { velocity := cells [0] } { velocity := cells [1] } m = .ok m1 ∧
      toActuator false .velocity T { velocity := cells [1] } { velocity := cells [0] } m1 = .ok m2 ∧
      Is (m2 0) y ∧ y < 1 := by
  let one : Flt A := Flt.fl (dyadic 1 0 (by decide) (by decide))
  let r : Flt A := Flt.fl (dyadic 49 0 (by decide) (by decide))
  let o : Flt A := Flt.fl (dyadic 0 0 (by decide) (by decide))
  refine ⟨.simple ⟨r, o⟩, .simple ⟨49, 0⟩, fun _ => one, _, _, 9007199254740991 * 2 ^ (-53 : ℤ),
    .simple r o _ ?_, ⟨?_, ?_⟩, ?_, toJoint_one false .velocity _ rfl _ _ 0 1 rfl rfl _,
    toActuator_one false .velocity _ rfl _ _ 0 1 rfl rfl _, ⟨dyadic 9007199254740991 (-53) (by decide) (by decide), ?_, ?_⟩, ?_⟩
  · have h : (r == 0) = false := fl_ne_zero (by rw [dyadic_val]; norm_num)
    exact if_neg (Bool.eq_false_iff.1 h)
  · exact means_dyadic _ _ (by norm_num) (Or.inr (by norm_num))
  · exact means_dyadic _ _ (by norm_num) (Or.inl rfl)
  · exact means_dyadic _ _ (by norm_num) (Or.inr (by norm_num))
  · have e1 : one / r = Flt.fl (dyadic 5882252574524729 (-58) (by decide) (by decide)) := by
      rw [← rnd_49 A]
      refine (flt_div (dyadic_fin _ _) (dyadic_fin _ _) (by rw [dyadic_val]; norm_num)).trans ?_
      rw [dyadic_val, dyadic_val]; norm_num
    have e2 : one / r * r = Flt.fl (dyadic 9007199254740991 (-53) (by decide) (by decide)) := by
      rw [e1, ← rnd_49_back A]
      refine (flt_mul (dyadic_fin _ _) (dyadic_fin _ _)).trans ?_
      rw [dyadic_val, dyadic_val]; norm_num
    rw [upd_same, upd_same]
    exact e2
  · rw [dyadic_val]; norm_num
  · norm_num

/-- With an offset, the error is not relative to the value: with an offset of 1, a position of 2^-60 is lost. -/
theorem c98_offset_negation (A : Machine binary64) :
    ∃ (T : Trans (Flt A)) (t : Trans ℚ) (m m1 m2 : Mem (Flt A)), Constructed T ∧ SameTrans T t ∧
      Means (m 0) (2 ^ (-60 : ℤ)) ∧
      toJoint false .position T { position := cells [0] } { position := cells [1] } m = .ok m1 ∧
      toActuator false .position T { position := cells [1] } { position := cells [0] } m1 = .ok m2 ∧
      Is (m2 0) 0 := by
  let x : Flt A := Flt.fl (dyadic 1 (-60) (by decide) (by decide))
  let one : Flt A := Flt.fl (dyadic 1 0 (by decide) (by decide))
  refine ⟨.simple ⟨one, one⟩, .simple ⟨1, 1⟩, fun _ => x, _, _,
    .simple one one _ ?_, ⟨?_, ?_⟩, ?_, toJoint_one false .position _ rfl _ _ 0 1 rfl rfl _,
    toActuator_one false .position _ rfl _ _ 0 1 rfl rfl _, ?_⟩
  · have h : (one == 0) = false := fl_ne_zero (by rw [dyadic_val]; norm_num)
    exact if_neg (Bool.eq_false_iff.1 h)
  · exact means_dyadic _ _ (by norm_num) (Or.inr (by norm_num))
  · exact means_dyadic _ _ (by norm_num) (Or.inr (by norm_num))
  · exact means_dyadic _ _ (by norm_num) (Or.inr (by norm_num))
  · have e1 : x / one = x := by
      refine (flt_div (dyadic_fin _ _) (dyadic_fin _ _) (by rw [dyadic_val]; norm_num)).trans ?_
      rw [dyadic_val (m := 1) (e := 0), Int.cast_one, one_mul, zpow_zero, div_one, A.id]
    have e2 : x + one = one := by
      refine (flt_add (dyadic_fin _ _) (dyadic_fin _ _)).trans ?_
      rw [dyadic_val, dyadic_val, Int.cast_one, one_mul, one_mul, zpow_zero, rnd_one_more A]
    have e3 : one - one = (0 : Flt A) := by
      refine (flt_sub (dyadic_fin _ _) (dyadic_fin _ _)).trans ?_
      rw [sub_self]; rfl
    have e4 : (0 : Flt A) * one = 0 := by
      have hz : (A.rnd 0).1 = 0 := by rw [A.rnd_zero (by decide)]; rfl
      refine (flt_mul (d := A.rnd 0) ?_ (dyadic_fin _ _)).trans ?_
      · unfold Fl.Fin
        rw [hz, abs_zero]; exact binary64.inf_pos
      · rw [hz, zero_mul]; rfl
    rw [upd_same, upd_same]
    show Is ((x / one + one - one) * one) 0
    rw [e1, e2, e3, e4]
    exact ⟨A.rnd 0, rfl, by rw [A.rnd_zero (by decide)]; rfl⟩

/-- The constructor does not see that reductions are too small: the product of two of them can become zero, and then the
velocity of a joint is infinite. -/
theorem c98_range_negation (A : Machine binary64) :
    ∃ (T : Trans (Flt A)) (m m1 : Mem (Flt A)), Constructed T ∧ Means (m 0) 1 ∧ Means (m 1) 1 ∧
      toJoint false .velocity T { velocity := cells [0, 1] } { velocity := cells [2, 3] } m = .ok m1 ∧
      ∃ d : Fl binary64, m1 2 = Flt.fl d ∧ d.isInf = true := by
  let one : Flt A := Flt.fl (dyadic 1 0 (by decide) (by decide))
  let r : Flt A := Flt.fl (dyadic 1 (-600) (by decide) (by decide))
  let o : Flt A := Flt.fl (dyadic 0 0 (by decide) (by decide))
  refine ⟨.fourBar ⟨(r, r), (r, r), (o, o), false⟩, fun _ => one, _,
    .fourBar [r, r] [r, r] [o, o] _ ?_, ?_, ?_, toJoint_two false .velocity _ rfl _ _ rfl rfl (by decide) (by decide) _, ?_⟩
  · unfold mkTwo
    have : (r == 0) = false := fl_ne_zero (by rw [dyadic_val]; positivity)
    simp only [this, Bool.or_self, Bool.false_eq_true, if_false]
  · exact means_dyadic _ _ (by norm_num) (Or.inr (by norm_num))
  · exact means_dyadic _ _ (by norm_num) (Or.inr (by norm_num))
  · have hz : (A.rnd (2 ^ (-1200 : ℤ))).1 = 0 := rnd_tiny A.toRounding (by
      rw [abs_of_pos (by positivity)]
      exact zpow_lt_zpow_right₀ (by norm_num) (by norm_num))
    have e1 : r * r = Flt.fl (A.rnd (2 ^ (-1200 : ℤ))) := by
      refine (flt_mul (dyadic_fin _ _) (dyadic_fin _ _)).trans ?_
      rw [dyadic_val, Int.cast_one, one_mul, ← zpow_add₀ (by norm_num)]
      rfl
    refine ⟨if A.sign (dyadic 1 0 (by decide) (by decide)) then Fl.neg Fl.infinity else Fl.infinity, ?_, ?_⟩
    · rw [upd_ne _ _ (by decide), upd_same]
      show one / (r * r) = _
      rw [e1]
      show Fl.div A _ _ = _
      unfold Fl.div
      rw [Fl.isInf_false (dyadic_fin _ _), Bool.false_and, if_neg (by simp), if_neg, if_pos hz, if_neg]
      · rfl
      · rw [dyadic_val]; norm_num
      · rw [Fl.isInf_false]
        · simp
        · unfold Fl.Fin
          rw [hz, abs_zero]; exact binary64.inf_pos
    · have h : (Fl.infinity (f := binary64)).isInf = true := by
        unfold Fl.isInf
        rw [decide_eq_true_eq]
        exact abs_of_pos binary64.inf_pos
      split
      · rw [Fl.isInf_neg]; exact h
      · exact h

/-- With such reductions, a velocity of zero becomes NaN. -/
theorem c98_nan_negation (A : Machine binary64) :
    ∃ (T : Trans (Flt A)) (m m1 : Mem (Flt A)), Constructed T ∧ Means (m 0) 0 ∧ Means (m 1) 0 ∧
      toJoint false .velocity T { velocity := cells [0, 1] } { velocity := cells [2, 3] } m = .ok m1 ∧
      IsNaN (m1 2) := by
  let r : Flt A := Flt.fl (dyadic 1 (-600) (by decide) (by decide))
  let o : Flt A := Flt.fl (dyadic 0 0 (by decide) (by decide))
  refine ⟨.fourBar ⟨(r, r), (r, r), (o, o), false⟩, fun _ => o, _,
    .fourBar [r, r] [r, r] [o, o] _ ?_, ?_, ?_, toJoint_two false .velocity _ rfl _ _ rfl rfl (by decide) (by decide) _, ?_⟩
  · unfold mkTwo
    have : (r == 0) = false := fl_ne_zero (by rw [dyadic_val]; positivity)
    simp only [this, Bool.or_self, Bool.false_eq_true, if_false]
  · exact means_dyadic _ _ (by norm_num) (Or.inl rfl)
  · exact means_dyadic _ _ (by norm_num) (Or.inl rfl)
  · have hz : (A.rnd (2 ^ (-1200 : ℤ))).1 = 0 := rnd_tiny A.toRounding (by
      rw [abs_of_pos (by positivity)]
      exact zpow_lt_zpow_right₀ (by norm_num) (by norm_num))
    have e1 : r * r = Flt.fl (A.rnd (2 ^ (-1200 : ℤ))) := by
      refine (flt_mul (dyadic_fin _ _) (dyadic_fin _ _)).trans ?_
      rw [dyadic_val, Int.cast_one, one_mul, ← zpow_add₀ (by norm_num)]
      rfl
    rw [upd_ne _ _ (by decide), upd_same]
    show o / (r * r) = _
    rw [e1]
    show Fl.div A _ _ = _
    unfold Fl.div
    rw [Fl.isInf_false (dyadic_fin _ _), Bool.false_and, if_neg (by simp), if_neg, if_pos hz, if_pos]
    · rw [dyadic_val]; norm_num
    · rw [Fl.isInf_false]
      · simp
      · unfold Fl.Fin
        rw [hz, abs_zero]; exact binary64.inf_pos

/-- Nor does the constructor see that reductions are too large: the product of two of them can become infinite, and then a
joint seems to stand still whatever the velocity of the actuator. -/
theorem c98_overflow_negation (A : Machine binary64) :
    ∃ T : Trans (Flt A), Constructed T ∧ ∀ (m : Mem (Flt A)) (d : Fl binary64), m 0 = Flt.fl d → d.Fin →
      ∃ m1, toJoint false .velocity T { velocity := cells [0, 1] } { velocity := cells [2, 3] } m = .ok m1 ∧
        Is (m1 2) 0 := by
  let r : Flt A := Flt.fl (dyadic 1 600 (by decide) (by decide))
  let o : Flt A := Flt.fl (dyadic 0 0 (by decide) (by decide))
  refine ⟨.fourBar ⟨(r, r), (r, r), (o, o), false⟩, .fourBar [r, r] [r, r] [o, o] _ ?_, fun m d hm hd =>
    ⟨_, toJoint_two false .velocity _ rfl _ _ rfl rfl (by decide) (by decide) m, ?_⟩⟩
  · unfold mkTwo
    have : (r == 0) = false := fl_ne_zero (by rw [dyadic_val]; positivity)
    simp only [this, Bool.or_self, Bool.false_eq_true, if_false]
  · have hz : (A.rnd (2 ^ (1200 : ℤ))).isInf = true := rnd_huge A.toRounding (by
      show (2 : ℚ) ^ 53 * 2 ^ (971 : ℤ) ≤ _
      rw [← zpow_natCast, ← zpow_add₀ (by norm_num)]
      exact zpow_le_zpow_right₀ (by norm_num) (by norm_num))
    have e1 : r * r = Flt.fl (A.rnd (2 ^ (1200 : ℤ))) := by
      refine (flt_mul (dyadic_fin _ _) (dyadic_fin _ _)).trans ?_
      rw [dyadic_val, Int.cast_one, one_mul, ← zpow_add₀ (by norm_num)]
      rfl
    refine ⟨A.rnd 0, ?_, by rw [A.rnd_zero (by decide)]; rfl⟩
    rw [upd_ne _ _ (by decide), upd_same]
    show m 0 / (r * r) = _
    rw [e1, hm]
    show Fl.div A _ _ = _
    unfold Fl.div
    rw [Fl.isInf_false hd, Bool.false_and, if_neg (by simp), if_pos hz]
    first | rfl | (rw [A.rnd_zero (by decide)]; rfl)

end Verif.Transmission
