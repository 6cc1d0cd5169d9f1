import Verif.Spec.LoadedRobot
import Verif.Props.TransmissionLoad
import Verif.Props.TransmissionMaps

/-!
Lemmas about robots whose transmissions come from a description.
-/

namespace Verif.Transmission

section

variable {A B C : Type}

theorem mapM_rel {f : A → Option B} {g : A → Option C} {u : B → C} {l : List A} {r : List B} (h : l.mapM f = some r)
    (hg : ∀ a ∈ l, ∀ b, f a = some b → g a = some (u b)) : l.mapM g = some (r.map u) := by
  induction l generalizing r with
  | nil => simp at h; subst h; rfl
  | cons a l ih =>
    simp only [List.mapM_cons, Option.bind_eq_bind, Option.bind_eq_some_iff, Option.pure_def, Option.some.injEq] at h ⊢
    obtain ⟨b, hb, bs, hbs, rfl⟩ := h
    exact ⟨u b, hg a (by simp) b hb, bs.map u, ih hbs fun a' ha' => hg a' (by simp [ha']), rfl⟩

theorem mapM_pairwise {f : A → Option B} {R : B → B → Prop} {l : List A} {r : List B} (h : l.mapM f = some r)
    (hn : l.Nodup) (hR : ∀ a a' b b', a ≠ a' → f a = some b → f a' = some b' → R b b') : r.Pairwise R := by
  induction l generalizing r with
  | nil => simp at h; subst h; exact .nil
  | cons a l ih =>
    simp only [List.mapM_cons, Option.bind_eq_bind, Option.bind_eq_some_iff, Option.pure_def, Option.some.injEq] at h
    obtain ⟨b, hb, bs, hbs, rfl⟩ := h
    obtain ⟨hna, hn⟩ := List.nodup_cons.1 hn
    refine List.pairwise_cons.2 ⟨?_, ih hbs hn⟩
    intro b' hb'
    obtain ⟨a', ha', hfa⟩ := (mapM_mem hbs).2 b' hb'
    exact hR a a' b b' (by rintro rfl; exact hna ha') hb hfa

end

section

variable {K : Type} [Add K] [Sub K] [Mul K] [Div K] [OfNat K 2]

theorem run_jointsFrom (q : Quantity) (T : Trans K) (l : List K) (hl : l.length = T.numActuators) :
    (jointMaps q T).run l = T.jointsFrom q l := by
  rcases T.one_num with ⟨h1, e1, e2⟩ | ⟨h1, e1, e2⟩ <;> rw [e1] at hl
  · obtain ⟨x, rfl⟩ := List.length_eq_one_iff.1 hl
    cases T <;> first | (cases h1; done) | (cases q <;> rfl)
  · obtain ⟨x, y, rfl⟩ := List.length_eq_two.1 hl
    cases T <;> first | (cases h1; done) | (cases q <;> rfl)

theorem run_actuatorsFrom (q : Quantity) (T : Trans K) (l : List K) (hl : l.length = T.numActuators) :
    (actuatorMaps q T).run l = T.actuatorsFrom q l := by
  rcases T.one_num with ⟨h1, e1, e2⟩ | ⟨h1, e1, e2⟩ <;> rw [e1] at hl
  · obtain ⟨x, rfl⟩ := List.length_eq_one_iff.1 hl
    cases T <;> first | (cases h1; done) | (cases q <;> rfl)
  · obtain ⟨x, y, rfl⟩ := List.length_eq_two.1 hl
    cases T <;> first | (cases h1; done) | (cases q <;> rfl)

/-- What a step leaves in the cells `J`, from the values in the cells `A`. -/
def Gives (f : Mem K → Except Fault (Mem K)) (J A : List Nat) (F : List K → List K) : Prop :=
  ∀ m, ∃ m', f m = .ok m' ∧ J.map m' = F (A.map m) ∧ ∀ c, c ∉ J → m' c = m c

theorem gives_toJoint (nd : Bool) (q : Quantity) (T : Trans K) {act jnt : Data} {as js : List Nat}
    (ha : act.get q = cells as) (hj : jnt.get q = cells js) (la : as.length = T.numActuators)
    (lj : js.length = T.numJoints) (hd : ∀ a ∈ as, a ∉ js) (hn : js.Nodup) :
    Gives (toJoint nd q T act jnt) js as (T.jointsFrom q) := by
  intro m
  rw [← run_jointsFrom q T _ (by rw [List.length_map]; exact la)]
  rcases T.one_num with ⟨h1, e1, e2⟩ | ⟨h1, e1, e2⟩ <;> rw [e1] at la <;> rw [e2] at lj
  · obtain ⟨a, rfl⟩ := List.length_eq_one_iff.1 la
    obtain ⟨j, rfl⟩ := List.length_eq_one_iff.1 lj
    exact ⟨_, toJoint_one nd q T h1 act jnt a j ha hj m, by simp [Maps.run], fun c hc => upd_ne _ _ (by simpa using hc)⟩
  · obtain ⟨a, b, rfl⟩ := List.length_eq_two.1 la
    obtain ⟨i, j, rfl⟩ := List.length_eq_two.1 lj
    have ha' := hd a (by simp)
    have hb' := hd b (by simp)
    simp only [List.mem_cons, List.not_mem_nil, or_false, not_or] at ha' hb'
    have hij : i ≠ j := by simpa using hn
    refine ⟨_, toJoint_two nd q T h1 act jnt ha hj ha'.1 hb'.1 m, ?_, fun c hc => ?_⟩
    · simp [Maps.run, upd_ne _ _ hij]
    · simp only [List.mem_cons, List.not_mem_nil, or_false, not_or] at hc
      rw [upd_ne _ _ hc.2, upd_ne _ _ hc.1]

theorem gives_absolute (nd : Bool) (T : Trans K) {act jnt : Data} {as js : List Nat} {p : Nat} {ps : List Ptr}
    (hp : act.position = some p :: ps)
    (ha : act.absolutePosition = cells as) (hj : jnt.absolutePosition = cells js) (la : as.length = T.numActuators)
    (lj : js.length = T.numJoints) (hd : ∀ a ∈ as, a ∉ js) (hn : js.Nodup) :
    Gives (actuatorToJointAbsolutePosition nd T act jnt) js as T.absoluteFrom := by
  intro m
  cases hi : T.ignores with
  | false =>
    rw [c62_absolute_position nd T hi hp ha hj la lj m]
    obtain ⟨m', h1, h2, h3⟩ := gives_toJoint nd .position T (act := act.absoluteAsPosition)
      (jnt := jnt.absoluteAsPosition) ha hj la lj hd hn m
    exact ⟨m', h1, by rw [h2]; unfold Trans.absoluteFrom; rw [hi], h3⟩
  | true =>
    cases T with
    | simple t => cases hi
    | fourBar t => cases hi
    | differential t =>
      obtain ⟨a, b, rfl⟩ := List.length_eq_two.1 la
      obtain ⟨i, j, rfl⟩ := List.length_eq_two.1 lj
      have ha' := hd a (by simp)
      have hb' := hd b (by simp)
      simp only [List.mem_cons, List.not_mem_nil, or_false, not_or] at ha' hb'
      have hij : i ≠ j := by simpa using hn
      have hT : t.ignore = true := hi
      refine ⟨upd (upd m i (m b)) j (m a), ?_, ?_, ?_⟩
      · simp only [actuatorToJointAbsolutePosition, ha, hj, hT, Bool.not_true, Bool.false_eq_true, if_false]
        rw [assign2_disjoint ha'.1 hb'.1]
        cases nd
        · simp [asserts, hp, cells, assertPtrs, nonNull, bind, Except.bind]
        · simp [asserts, bind, Except.bind]
      · simp [Trans.absoluteFrom, hi, upd_ne _ _ hij]
      · intro c hc
        simp only [List.mem_cons, List.not_mem_nil, or_false, not_or] at hc
        rw [upd_ne _ _ hc.2, upd_ne _ _ hc.1]

theorem gives_torque (nd : Bool) (T : Trans K) {act jnt : Data} {as js : List Nat}
    (ha : act.torqueSensor = cells as) (hj : jnt.torqueSensor = cells js) (la : as.length = T.numActuators)
    (lj : js.length = T.numJoints) (hd : ∀ a ∈ as, a ∉ js) (hn : js.Nodup) :
    Gives (actuatorToJointTorqueSensor nd T act jnt) js as (T.jointsFrom .effort) := by
  intro m
  rw [c62_torque_sensor]
  exact gives_toJoint nd .effort T (act := act.torqueAsEffort) (jnt := jnt.torqueAsEffort) ha hj la lj hd hn m

theorem Gives.pure (J : List Nat) : Gives (K := K) (fun m => .ok m) J J id :=
  fun m => ⟨m, rfl, rfl, fun _ _ => rfl⟩

/-- A column of the raw joint data of some joints. -/
def col (bs : List Nat) (k : Nat) : List Nat := bs.map (· + k)

/-- The raw data of the joints do not overlap. -/
def RawApart (bs : List Nat) : Prop := bs.Pairwise fun b b' => b + 8 ≤ b' ∨ b' + 8 ≤ b

theorem RawApart.eq {bs : List Nat} (h : RawApart bs) {b b' : Nat} (hb : b ∈ bs) (hb' : b' ∈ bs)
    (h1 : b < b' + 8) (h2 : b' < b + 8) : b = b' := by
  by_contra hne
  have : Std.Symm fun b b' : Nat => b + 8 ≤ b' ∨ b' + 8 ≤ b := ⟨fun _ _ h => h.symm⟩
  have := List.Pairwise.forall h hb hb' hne
  omega

theorem col_disjoint {bs : List Nat} (h : RawApart bs) {k k' : Nat} (hk : k < 8) (hk' : k' < 8) (hne : k ≠ k') :
    ∀ c ∈ col bs k, c ∉ col bs k' := by
  intro c hc hc'
  obtain ⟨b, hb, rfl⟩ := List.mem_map.1 hc
  obtain ⟨b', hb', e⟩ := List.mem_map.1 hc'
  have := h.eq hb hb' (by omega) (by omega)
  omega

theorem col_nodup {bs : List Nat} (h : RawApart bs) (k : Nat) : (col bs k).Nodup := by
  unfold col List.Nodup
  rw [List.pairwise_map]
  exact h.imp fun h => by omega

theorem map_frame {J J' : List Nat} {m m' : Mem K} (hd : ∀ c ∈ J, c ∉ J') (h : ∀ c, c ∉ J' → m' c = m c) :
    J.map m' = J.map m := List.map_congr_left fun c hc => h c (hd c hc)

/-- What propagating a state handle leaves in the joint data. -/
theorem propagate_state_values (nd : Bool) (g : Handle K) {ap av ae aa at' bs : List Nat}
    (h1 : g.act.position = cells ap) (h2 : g.act.velocity = cells av) (h3 : g.act.effort = cells ae)
    (h4 : g.act.absolutePosition = cells aa) (h5 : g.act.torqueSensor = cells at')
    (j1 : g.jnt.position = cells (col bs 0)) (j2 : g.jnt.velocity = cells (col bs 1))
    (j3 : g.jnt.effort = cells (col bs 2)) (j4 : g.jnt.absolutePosition = cells (col bs 6))
    (j5 : g.jnt.torqueSensor = cells (col bs 7)) (l1 : ap.length = g.trans.numActuators)
    (l2 : av.length = g.trans.numActuators) (l3 : ae.length = g.trans.numActuators)
    (l4 : aa ≠ [] → aa.length = g.trans.numActuators) (l5 : at' ≠ [] → at'.length = g.trans.numActuators)
    (lj : bs.length = g.trans.numJoints) (hb : RawApart bs)
    (hd : ∀ a ∈ ap ++ av ++ ae ++ aa ++ at', ∀ b ∈ bs, a < b) (m : Mem K) :
    ∃ m', g.propagate nd .actuatorToJointState m = .ok m' ∧
      (col bs 0).map m' = g.trans.jointsFrom .position (ap.map m) ∧
      (col bs 1).map m' = g.trans.jointsFrom .velocity (av.map m) ∧
      (col bs 2).map m' = g.trans.jointsFrom .effort (ae.map m) ∧
      ((aa ≠ [] → (col bs 6).map m' = g.trans.absoluteFrom (aa.map m)) ∧ (aa = [] → (col bs 6).map m' = (col bs 6).map m)) ∧
      ((at' ≠ [] → (col bs 7).map m' = g.trans.jointsFrom .effort (at'.map m)) ∧
        (at' = [] → (col bs 7).map m' = (col bs 7).map m)) ∧
      ∀ c, c ∉ col bs 0 → c ∉ col bs 1 → c ∉ col bs 2 → c ∉ col bs 6 → c ∉ col bs 7 → m' c = m c := by
  have dis : ∀ k, ∀ a ∈ ap ++ av ++ ae ++ aa ++ at', a ∉ col bs k := by
    intro k a ha hc
    obtain ⟨b, hb', rfl⟩ := List.mem_map.1 hc
    have := hd _ ha b hb'
    omega
  have d1 : ∀ k, ∀ a ∈ ap, a ∉ col bs k := fun k a ha => dis k a (by simp [ha])
  have d2 : ∀ k, ∀ a ∈ av, a ∉ col bs k := fun k a ha => dis k a (by simp [ha])
  have d3 : ∀ k, ∀ a ∈ ae, a ∉ col bs k := fun k a ha => dis k a (by simp [ha])
  have d4 : ∀ k, ∀ a ∈ aa, a ∉ col bs k := fun k a ha => dis k a (by simp [ha])
  have d5 : ∀ k, ∀ a ∈ at', a ∉ col bs k := fun k a ha => dis k a (by simp [ha])
  have lc : ∀ k, (col bs k).length = g.trans.numJoints := fun k => by rw [col, List.length_map]; exact lj
  obtain ⟨m1, e1, v1, f1⟩ := gives_toJoint nd .position g.trans (act := g.act) (jnt := g.jnt) h1 j1 l1 (lc 0)
    (d1 0) (col_nodup hb 0) m
  obtain ⟨m2, e2, v2, f2⟩ := gives_toJoint nd .velocity g.trans (act := g.act) (jnt := g.jnt) h2 j2 l2 (lc 1)
    (d2 1) (col_nodup hb 1) m1
  obtain ⟨m3, e3, v3, f3⟩ := gives_toJoint nd .effort g.trans (act := g.act) (jnt := g.jnt) h3 j3 l3 (lc 2)
    (d3 2) (col_nodup hb 2) m2
  have s4 : ∃ m4, (if g.act.absolutePosition.isEmpty then pure m3
        else actuatorToJointAbsolutePosition nd g.trans g.act g.jnt m3) = .ok m4 ∧
      ((aa ≠ [] → (col bs 6).map m4 = g.trans.absoluteFrom (aa.map m3)) ∧ (aa = [] → (col bs 6).map m4 = (col bs 6).map m3)) ∧
      ∀ c, c ∉ col bs 6 → m4 c = m3 c := by
    by_cases ha : aa = []
    · subst ha
      rw [h4]
      exact ⟨m3, rfl, ⟨fun h => absurd rfl h, fun _ => rfl⟩, fun _ _ => rfl⟩
    · have hp : ∃ p ps, g.act.position = some p :: ps := by
        cases ap with
        | nil => have := l4 ha; rw [← l1] at this; simp at this; exact absurd this ha
        | cons p ps => exact ⟨p, _, h1⟩
      obtain ⟨p, ps, hp⟩ := hp
      obtain ⟨m4, e4, v4, f4⟩ := gives_absolute nd g.trans hp h4 j4 (l4 ha) (lc 6)
        (d4 6) (col_nodup hb 6) m3
      have hne : g.act.absolutePosition.isEmpty = false := by
        rw [h4]; cases aa with
        | nil => exact absurd rfl ha
        | cons _ _ => rfl
      rw [hne]
      exact ⟨m4, e4, ⟨fun _ => v4, fun h => absurd h ha⟩, f4⟩
  obtain ⟨m4, e4, ⟨v4, w4⟩, f4⟩ := s4
  have s5 : ∃ m5, (if g.act.torqueSensor.isEmpty then pure m4
        else actuatorToJointTorqueSensor nd g.trans g.act g.jnt m4) = .ok m5 ∧
      ((at' ≠ [] → (col bs 7).map m5 = g.trans.jointsFrom .effort (at'.map m4)) ∧
        (at' = [] → (col bs 7).map m5 = (col bs 7).map m4)) ∧
      ∀ c, c ∉ col bs 7 → m5 c = m4 c := by
    by_cases ha : at' = []
    · subst ha
      rw [h5]
      exact ⟨m4, rfl, ⟨fun h => absurd rfl h, fun _ => rfl⟩, fun _ _ => rfl⟩
    · obtain ⟨m5, e5, v5, f5⟩ := gives_torque nd g.trans h5 j5 (l5 ha) (lc 7)
        (d5 7) (col_nodup hb 7) m4
      have hne : g.act.torqueSensor.isEmpty = false := by
        rw [h5]; cases at' with
        | nil => exact absurd rfl ha
        | cons _ _ => rfl
      rw [hne]
      exact ⟨m5, e5, ⟨fun _ => v5, fun h => absurd h ha⟩, f5⟩
  obtain ⟨m5, e5, ⟨v5, w5⟩, f5⟩ := s5
  have D : ∀ k k', k < 8 → k' < 8 → k ≠ k' → ∀ c ∈ col bs k, c ∉ col bs k' :=
    fun k k' hk hk' hne => col_disjoint hb hk hk' hne
  refine ⟨m5, ?_, ?_, ?_, ?_, ⟨?_, ?_⟩, ⟨?_, ?_⟩, ?_⟩
  · rw [propagate_state]
    have e1 : actuatorToJointPosition nd g.trans g.act g.jnt m = .ok m1 := e1
    have e2 : actuatorToJointVelocity nd g.trans g.act g.jnt m1 = .ok m2 := e2
    have e3 : actuatorToJointEffort nd g.trans g.act g.jnt m2 = .ok m3 := e3
    simp only [e1, e2, e3, bind, Except.bind]
    rw [e4]
    exact e5
  · rw [map_frame (D 0 7 (by omega) (by omega) (by omega)) f5, map_frame (D 0 6 (by omega) (by omega) (by omega)) f4,
      map_frame (D 0 2 (by omega) (by omega) (by omega)) f3, map_frame (D 0 1 (by omega) (by omega) (by omega)) f2, v1]
  · rw [map_frame (D 1 7 (by omega) (by omega) (by omega)) f5, map_frame (D 1 6 (by omega) (by omega) (by omega)) f4,
      map_frame (D 1 2 (by omega) (by omega) (by omega)) f3, v2, map_frame (d2 0) f1]
  · rw [map_frame (D 2 7 (by omega) (by omega) (by omega)) f5, map_frame (D 2 6 (by omega) (by omega) (by omega)) f4,
      v3, map_frame (d3 1) f2, map_frame (d3 0) f1]
  · intro ha
    rw [map_frame (D 6 7 (by omega) (by omega) (by omega)) f5, v4 ha, map_frame (d4 2) f3,
      map_frame (d4 1) f2, map_frame (d4 0) f1]
  · intro ha
    rw [map_frame (D 6 7 (by omega) (by omega) (by omega)) f5, w4 ha, map_frame (D 6 2 (by omega) (by omega) (by omega)) f3,
      map_frame (D 6 1 (by omega) (by omega) (by omega)) f2, map_frame (D 6 0 (by omega) (by omega) (by omega)) f1]
  · intro ha
    rw [v5 ha, map_frame (d5 6) f4, map_frame (d5 2) f3,
      map_frame (d5 1) f2, map_frame (d5 0) f1]
  · intro ha
    rw [w5 ha, map_frame (D 7 6 (by omega) (by omega) (by omega)) f4, map_frame (D 7 2 (by omega) (by omega) (by omega)) f3,
      map_frame (D 7 1 (by omega) (by omega) (by omega)) f2, map_frame (D 7 0 (by omega) (by omega) (by omega)) f1]
  · intro c c0 c1 c2 c6 c7
    rw [f5 c c7, f4 c c6, f3 c c2, f2 c c1, f1 c c0]

end

end Verif.Transmission
