import Verif.Lemmas.DescribedRobotCycle

/-!
The limit handles of a robot put together from its description, and what its actuators are told.
-/

namespace Verif.Described

open Verif.Transmission (Mem Loader Cmd Quantity Doc TransInfo StateCells parse loadTransmission setAt rawCommand
  loadTransmission_some run_inv regular run_length)
open Verif.Transmission.Loader (Inv mapM_congr_mem robotCommand_nil flat_apart)
open Verif.Limits (Arith Dbl Cells UrdfJoint LimitsIface Limiter JointLimits SoftLimits mkLimiter)
open Verif.Cycle (Record Halt overwrite effective)

section

variable {T K : Type} [Add T] [Sub T] [Mul T] [Div T] [OfNat T 0] [OfNat T 1] [OfNat T 2] [DecidableEq T] [LinearOrder K]
  {stod : String → Option T} {L0 L : Loader T} {d : Doc} {infos : List TransInfo} {A : Arith K} {nd : Bool} {joints : List (Cmd × String × UrdfJoint (Dbl K))}

/-- The limit handle of a joint. -/
def limiterOf (A : Arith K) (kind : Cmd → Limits.Kind) (c : Cmd) (n : String) (u : UrdfJoint (Dbl K)) (b : Nat) :
    Limiter K :=
  ⟨⟨n, b, b + 1, rawCommand b c⟩, (Limits.urdfLimits (some u) (noLimits A)).2.toJointLimits,
    (Limits.urdfSoftLimits (some u) (noSoft A)).2, (kind c).initial A⟩

theorem Base.found (hb : Base stod L0 d infos L) {c : Cmd} {n : String} {s : StateCells × Nat}
    (h : smapFind n (L.robotCommand c) = some s) :
    ∃ b, smapFind n L.raw = some b ∧ s = (Transmission.rawState b, rawCommand b c) := by
  rcases hb.inv.command c n s h with h | ⟨-, b, h, e⟩
  · rw [robotCommand_nil hb.fresh hb.noOwn c] at h; cases h
  · exact ⟨b, h, e⟩

/-- What `addJoint` does. -/
theorem addJoint_some (hb : Base stod L0 d infos L) {kind : Cmd → Limits.Kind} {c : Cmd} {n : String}
    {u : UrdfJoint (Dbl K)} {s s' : Cmd → LimitsIface K} (h : addJoint A L kind c n u s = some s') :
    ∃ b, smapFind n L.raw = some b ∧ L.commandCell c n = some (rawCommand b c) ∧
      s' = setAt s c (smapInsert n (limiterOf A kind c n u b) (s c)) := by
  unfold addJoint at h
  cases hf : smapFind n ((L.ownCommand c).getD (L.jointCommand c)) with
  | none => rw [hf] at h; cases h
  | some p =>
    obtain ⟨b, hraw, rfl⟩ := hb.found hf
    rw [hf] at h
    dsimp only at h
    unfold mkLimiter at h
    split at h
    · cases h
    · rename_i l hl
      split at hl
      · cases hl
        cases h
        refine ⟨b, hraw, ?_, rfl⟩
        show (smapFind n (L.robotCommand c)).map (·.2) = _
        rw [show smapFind n (L.robotCommand c) = _ from hf]
        rfl
      · cases hl

/-- The handles after `addJoints`. -/
theorem addJoints_some (hb : Base stod L0 d infos L) {kind : Cmd → Limits.Kind} {s s' : Cmd → LimitsIface K}
    (h : addJoints A L kind joints s = some s') (hs : ∀ c, KeysSorted (s c))
    (hn : (joints.map fun j => (j.1, j.2.1)).Nodup) (hnew : ∀ j ∈ joints, j.2.1 ∉ smapKeys (s j.1)) :
    (∀ c, KeysSorted (s' c)) ∧
    (∀ c n l, smapFind n (s c) = some l → smapFind n (s' c) = some l) ∧
    (∀ c n u, (c, n, u) ∈ joints → ∃ b, smapFind n L.raw = some b ∧ L.commandCell c n = some (rawCommand b c) ∧
      smapFind n (s' c) = some (limiterOf A kind c n u b)) ∧
    (∀ c n l, smapFind n (s' c) = some l → smapFind n (s c) = some l ∨ ∃ u, (c, n, u) ∈ joints) := by
  induction joints generalizing s with
  | nil =>
    cases h
    exact ⟨hs, fun _ _ _ h => h, fun c n u h => (by cases h), fun _ _ _ h => Or.inl h⟩
  | cons j rest ih =>
    obtain ⟨c, n, u⟩ := j
    rw [List.map_cons, List.nodup_cons] at hn
    unfold addJoints at h
    cases h1 : addJoint A L kind c n u s with
    | none => rw [h1] at h; cases h
    | some s1 =>
      rw [h1] at h
      obtain ⟨b, hraw, hcell, rfl⟩ := addJoint_some hb h1
      have hfind : ∀ c' n', smapFind n' (setAt s c (smapInsert n (limiterOf A kind c n u b) (s c)) c') =
          if c' = c ∧ n' = n then some (limiterOf A kind c n u b) else smapFind n' (s c') := by
        intro c' n'
        unfold setAt
        by_cases hc : c' = c
        · subst hc
          rw [if_pos rfl, smapFind_insert]
          by_cases hn' : n' = n
          · simp [hn']
          · simp [hn', eq_comm]
        · rw [if_neg hc, if_neg fun h => hc h.1]
      have hnew' : ∀ j ∈ rest, j.2.1 ∉ smapKeys (setAt s c (smapInsert n (limiterOf A kind c n u b) (s c)) j.1) := by
        intro j hj
        rw [Transmission.not_mem_keys, hfind, if_neg, ← Transmission.not_mem_keys]
        · exact hnew j (List.mem_cons_of_mem _ hj)
        · rintro ⟨e1, e2⟩
          exact hn.1 (List.mem_map.2 ⟨j, hj, by rw [e1, e2]⟩)
      obtain ⟨g1, g2, g3, g4⟩ := ih h (fun c' => by
        unfold setAt
        split
        · exact keysSorted_insert _ _ (hs c)
        · exact hs c') hn.2 hnew'
      refine ⟨g1, fun c' n' l hl => g2 c' n' l ?_, fun c' n' u' hm => ?_, fun c' n' l hl => ?_⟩
      · rw [hfind, if_neg, hl]
        rintro ⟨rfl, rfl⟩
        have := hnew (c', n', u) List.mem_cons_self
        rw [Transmission.not_mem_keys] at this
        rw [this] at hl
        cases hl
      · rcases List.mem_cons.1 hm with e | hm
        · cases e
          exact ⟨b, hraw, hcell, g2 _ _ _ (by rw [hfind, if_pos ⟨rfl, rfl⟩])⟩
        · exact g3 c' n' u' hm
      · rcases g4 c' n' l hl with h | ⟨u', h⟩
        · rw [hfind] at h
          split at h
          · rename_i e
            obtain ⟨rfl, rfl⟩ := e
            exact Or.inr ⟨u, List.mem_cons_self⟩
          · exact Or.inl h
        · exact Or.inr ⟨u', List.mem_cons_of_mem _ h⟩

/-- The handles of the robot. -/
theorem Assembled.handles {r : Robot T K} (ha : Assembled stod A L0 d infos joints r) :
    Made r ∧
    (∀ c n u, (c, n, u) ∈ joints → ∃ b, smapFind n r.loader.raw = some b ∧
      r.loader.commandCell c n = some (rawCommand b c) ∧ (n, limiterOf A r.kind c n u b) ∈ r.limits c) ∧
    ∀ c, ∀ e ∈ r.limits c, ∃ u, (c, e.1, u) ∈ joints := by
  obtain ⟨s, hs, e⟩ := Option.map_eq_some_iff.1 ha.made
  have hl : r.limits = s := by rw [← e]
  obtain ⟨g1, -, g3, g4⟩ := addJoints_some ha.toBase hs (fun _ => List.Pairwise.nil) ha.once fun j _ => by simp [smapKeys]
  rw [← hl] at g1 g3 g4
  have only : ∀ c, ∀ e ∈ r.limits c, ∃ u, (c, e.1, u) ∈ joints := fun c e he => by
    rcases g4 c e.1 e.2 (smapFind_of_mem (g1 c) he) with h | h
    · cases h
    · exact h
  refine ⟨⟨g1, fun c n h hh => ?_⟩, fun c n u hm => ?_, only⟩
  · obtain ⟨u, hu⟩ := only c _ hh
    obtain ⟨b, h1, h2, h3⟩ := g3 c n u hu
    have := smapFind_of_mem (g1 c) hh
    rw [h3] at this
    cases this
    exact ⟨b, h1, rfl, h2⟩
  · obtain ⟨b, h1, h2, h3⟩ := g3 c n u hm
    exact ⟨b, h1, h2, mem_of_smapFind h3⟩

/-- The URDF has no acceleration limits, so only soft position limits need the period. -/
theorem Assembled.accepts {r : Robot T K} (ha : Assembled stod A L0 d infos joints r) (dt : Dbl K) :
    Accepts A r dt ↔ Limits.dlt (some A.zero) dt = true ∨ ∀ c n u, (c, n, u) ∈ joints → r.kind c ≠ .posSoft := by
  obtain ⟨hm, hin, hof⟩ := ha.handles
  have noAcc : ∀ u : UrdfJoint (Dbl K), (Limits.urdfLimits (some u) (noLimits A)).2.hasAcceleration = false := by
    rintro ⟨ty, _ | l, s⟩ <;> cases ty <;> rfl
  unfold Accepts
  refine or_congr_right ⟨fun h c n u hj hk => ?_, fun h c e he hk => ?_⟩
  · obtain ⟨b, -, -, hmem⟩ := hin c n u hj
    exact h c _ hmem (Or.inl hk)
  · obtain ⟨u, hu⟩ := hof c e he
    rcases hk with hk | ⟨-, hk⟩
    · exact h c _ u hu hk
    · obtain ⟨b, -, -, hmem⟩ := hin c _ u hu
      have e1 := smapFind_of_mem (hm.sorted c) hmem
      have e2 := smapFind_of_mem (hm.sorted c) (k := e.1) he
      rw [e1] at e2
      rw [← Option.some.inj e2] at hk
      have := noAcc u
      change (Limits.urdfLimits (some u) (noLimits A)).2.hasAcceleration = true at hk
      rw [this] at hk
      cases hk

theorem Base.jointValue (hb : Base stod L0 d infos L) {r : Robot T K} (hr : r.loader = L) {n : String} {b : Nat}
    (h : smapFind n L.raw = some b) (q : Quantity) (m : Mem T) :
    r.jointValue q n m = some (m ((Transmission.rawState b).get q)) := by
  unfold Robot.jointValue
  rw [hr, (hb.inv.rawState n b h).1]
  rfl

/-- Joints determine their transmissions. -/
theorem Base.transmission (hb : Base stod L0 d infos L) {i j : TransInfo} (hi : i ∈ infos) (hj : j ∈ infos) {n : String}
    (h1 : n ∈ i.jointNames) (h2 : n ∈ j.jointNames) : i = j := by
  by_contra hne
  exact (flat_apart hb.apart.joints).2 i hi j hj hne n h1 h2

end

section

variable {K : Type} [Field K] [LinearOrder K] {stod : String → Option K} {L0 L : Loader K} {d : Doc}
  {infos : List TransInfo} {S : Setting K K} {nd : Bool}

theorem from_length {t : Transmission.Trans K} {v : List K} (h : v.length = t.numJoints) :
    v.length = t.numActuators := by
  rcases t.one_num with ⟨-, h1, h2⟩ | ⟨-, h1, h2⟩ <;> rw [h, h1, h2]

theorem from_inv [NeZero (2 : K)] {i : TransInfo} {t : Transmission.Trans K} (ht : loadTransmission stod i = .ok (some t))
    (q : Quantity) {v : List K} (h : v.length = t.numJoints) : t.jointsFrom q (t.actuatorsFrom q v) = v := by
  obtain ⟨-, -, hc⟩ := loadTransmission_some ht
  have hl := from_length h
  rw [← Transmission.run_actuatorsFrom _ _ _ hl, ← Transmission.run_jointsFrom _ _ _ (by rw [run_length, hl]),
    (run_inv q (regular hc) v hl).2]

/-- The actuator commands amount to the limited joint commands. -/
theorem sends_iff [NeZero (2 : K)] (hS : Lawful S) (hb : Base stod L0 d infos L) {r : Robot K K} (hr : r.loader = L) (hmade : Made r)
    (is : List (Cycle.Input K)) (hp : ∀ i ∈ is, Limits.dlt (some S.zero) (S.see i.period) = true) (m : Mem K)
    (k : Nat) (i : Cycle.Input K) (rec : Record K) (hi : is[k]? = some i) (hrec : (r.run S nd is m).1[k]? = some rec)
    {c : Cmd} {n : String} (hd : Driven L0 infos c n) (x : K) :
    Sends stod L0 infos c rec n x ↔ ∃ a, r.loader.commandCell c n = some a ∧ x = rec.limited a := by
  obtain ⟨-, hsent, -⟩ := run_transmissions (nd := nd) hS hb hr hmade is hp m k i rec hi hrec
  obtain ⟨j, hj, hnj, hcd, hcm⟩ := hd
  obtain ⟨t, v, ht, hv, hl, hact⟩ := hsent c j hj hcd hcm
  have key : ∀ (q : Nat), j.jointNames[q]? = some n → ∃ a, r.loader.commandCell c n = some a ∧ v[q]? = some (rec.limited a) := by
    intro q hq
    obtain ⟨hlv, hval⟩ := Transmission.mapM_some hv
    obtain ⟨y, hy, e⟩ := hval q n hq
    obtain ⟨a, ha, rfl⟩ := Option.map_eq_some_iff.1 e
    exact ⟨a, ha, hy⟩
  constructor
  · rintro ⟨j', hj', t', v', q, ht', hv', hq, hx⟩
    have := hb.transmission hj hj' hnj (List.mem_of_getElem? hq)
    subst this
    rw [ht] at ht'; cases ht'
    rw [hact] at hv'; cases hv'
    rw [from_inv ht _ hl] at hx
    obtain ⟨a, h1, h2⟩ := key q hq
    rw [h2] at hx
    exact ⟨a, h1, (Option.some.inj hx).symm⟩
  · rintro ⟨a, ha, rfl⟩
    obtain ⟨q, hq⟩ := List.mem_iff_getElem?.1 hnj
    obtain ⟨a', h1, h2⟩ := key q hq
    rw [ha] at h1
    cases h1
    exact ⟨j, hj, t, _, q, ht, hact, hq, by rw [from_inv ht _ hl]; exact h2⟩

end

end Verif.Described
