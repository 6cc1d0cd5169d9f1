import Verif.Lemmas.LimitHistory
import Verif.Lemmas.TransmissionSpecial
import Verif.Props.DoubleLimits
import Verif.Props.JointLimitsEffort
import Verif.Props.TransmissionDouble

/-!
Property C106: joint limits hold at the actuators of a robot that computes with doubles.
-/

namespace Verif.Cycle

open Verif.Transmission (Mem Trans Constructed toJoint toJoint_run jointMaps actuatorMaps run_inv Is IsNaN Means MeansAll
  SameTrans DependsOn jointScale actuatorScale near_all num_eq absorbing_nan)
open Verif.Limits (Machine Flt Fl Arith Dbl binary64 JointLimits SoftLimits Limiter mkLimiter Within)

variable {A : Machine binary64}

theorem positive64 {is : List (Input (Flt A))} (ht : ∀ i ∈ is, GoodPeriod i.period) :
    ∀ i ∈ is, Limits.dlt (some (limitsArith A).zero) i.period = true := by
  intro i hi
  obtain ⟨d, e, _, h⟩ := ht i hi
  rw [e]
  exact decide_eq_true h

/-- **C106, no cycle is lost.** With finite positive periods every cycle is completed: whatever the sensors report and the
controllers command, NaN and infinities included, no assertion of a limit handle or a transmission fails, and no
memory fault occurs. -/
theorem c106_completes (nd : Bool) (r : Robot64 A) (hw : Wired64 r) (is : List (Input (Flt A)))
    (ht : ∀ i ∈ is, GoodPeriod i.period) (m : Mem (Flt A)) :
    (r.run nd is m).2 = none ∧ (r.run nd is m).1.length = is.length := by
  obtain ⟨_, _, h1, h2, _⟩ := run64_cycled (nd := nd) hw is (positive64 ht) m
  exact ⟨h1, h2⟩

/-- **C106, bad periods.** If the limits need the period (soft position limits, or velocity limits of a joint with acceleration
limits), the first cycle whose period is not a positive number is not completed: the assertion of the handle is reported, and the
cycles before it are as if they had been the whole run. Nothing is sent in this cycle or later. -/
theorem c106_halts (nd : Bool) (r : Robot64 A) (hw : Wired64 r) (is : List (Input (Flt A)))
    (ht : ∀ i ∈ is, GoodPeriod i.period) (i : Input (Flt A)) (hi : ∀ d : Fl binary64, i.period = Flt.fl d → d.1 ≤ 0)
    (hk : ∃ e ∈ r.limits, r.kind = .posSoft ∨ r.kind = .velSat ∧ e.2.limits.hasAcceleration = true)
    (js : List (Input (Flt A))) (m : Mem (Flt A)) :
    (r.run nd (is ++ i :: js) m).2 = some .limits ∧
    (r.run nd (is ++ i :: js) m).1 = (r.run nd is m).1 ∧ (r.run nd (is ++ i :: js) m).1.length = is.length := by
  have h0 : Limits.dlt (some (limitsArith A).zero) i.period = false := by
    rcases h : i.period with _ | d
    · rfl
    · exact decide_eq_false (not_lt.2 (hi d h))
  have e := run64_halts (nd := nd) hw is (positive64 ht) i h0 hk js m
  rw [e]
  exact ⟨rfl, rfl, (c106_completes nd r hw is ht m).2⟩

/-! ### From the joints to the actuators -/

theorem is_unique {a : Flt A} {x y : ℚ} (h : Is a x) (h' : Is a y) : x = y := by
  obtain ⟨d, rfl, rfl⟩ := h
  obtain ⟨d', e, rfl⟩ := h'
  have : d = d' := Option.some.inj e
  rw [this]

theorem cmd_nodup {d : Drive (Flt A)} (hn : d.all.Nodup) : (d.aCmd ++ d.jCmd).Nodup := by
  simp only [Drive.all, List.nodup_append, List.mem_append] at hn
  obtain ⟨⟨_, n4, _⟩, ⟨_, m4, _⟩, hnm⟩ := hn
  exact List.nodup_append.2 ⟨n4, m4, fun a ha b hb => hnm a (by simp [ha]) b (by simp [hb])⟩

theorem sentMeans_iff (nd : Bool) {r : Robot64 A} (hw : Wired64 r) (rec : Record (Flt A)) {d : Drive (Flt A)}
    (hd : d ∈ r.drives) {t : Trans ℚ} (hs : SameTrans d.trans t) (xs : List ℚ) :
    SentMeans nd r rec d t xs ↔
      ∃ ys, List.Forall₂ Is (d.aCmd.map rec.sent) ys ∧ (jointMaps r.sends.quantity t).run ys = xs := by
  have hz := hw.sized d hd
  have hn := cmd_nodup ((List.nodup_flatMap.1 hw.distinct).1 d hd)
  have go : ∀ n : Mem ℚ, ∃ m', toJoint nd r.sends.quantity t (r.sends.data d.aCmd) (r.sends.data d.jCmd) n = .ok m' ∧
      d.jCmd.map m' = (jointMaps r.sends.quantity t).run (d.aCmd.map n) := by
    intro n
    obtain ⟨m', e, v, _⟩ := toJoint_run nd r.sends.quantity t (act := r.sends.data d.aCmd)
      (jnt := r.sends.data d.jCmd) (as := d.aCmd) (js := d.jCmd) (by cases r.sends <;> rfl) (by cases r.sends <;> rfl)
      (hz.aCmd.trans hs.num.1) (hz.jCmd.trans hs.num.2) hn n
    exact ⟨m', e, v⟩
  constructor
  · rintro ⟨n, m, h1, h2, rfl⟩
    obtain ⟨m', e, v⟩ := go n
    rw [h2] at e
    cases e
    refine ⟨d.aCmd.map n, ?_, v.symm⟩
    rw [List.forall₂_map_left_iff, List.forall₂_map_right_iff, List.forall₂_same]
    exact h1
  · rintro ⟨ys, h1, rfl⟩
    obtain ⟨n, hn'⟩ := exists_mem (List.nodup_append.1 hn).1 (ys := ys) (by rw [← h1.length_eq, List.length_map])
    subst hn'
    obtain ⟨m', e, v⟩ := go n
    refine ⟨n, m', ?_, e, v⟩
    rwa [List.forall₂_map_left_iff, List.forall₂_map_right_iff, List.forall₂_same] at h1

/-- **C106, what the transmissions add.** In every cycle, if the parameters of a transmission and the commands of its joints
after the limits are moderate numbers: the actuator commands that are sent are numbers, and amount to exactly one
value for each joint; it differs from the command after the limits by at most 2^-49 of the terms that are added up on
the way. -/
theorem c106_sent (nd : Bool) (r : Robot64 A) (hw : Wired64 r) (is : List (Input (Flt A)))
    (ht : ∀ i ∈ is, GoodPeriod i.period) (m : Mem (Flt A)) (k : Nat) (i : Input (Flt A)) (rec : Record (Flt A))
    (hi : is[k]? = some i) (hrec : (r.run nd is m).1[k]? = some rec) (d : Drive (Flt A)) (hd : d ∈ r.drives) (t : Trans ℚ)
    (hs : SameTrans d.trans t) (xs : List ℚ) (hm : MeansAll (d.jCmd.map rec.limited) xs) :
    ∃ ys, SentMeans nd r rec d t ys ∧ (∀ ys', SentMeans nd r rec d t ys' → ys' = ys) ∧
      CloseAll (2 ^ 49)⁻¹ ys xs (jointScale r.sends.quantity t (actuatorScale r.sends.quantity t (xs.map abs))) := by
  obtain ⟨_, h2, _⟩ := run64_drive (nd := nd) hw is (positive64 ht) m k i rec hi hrec
  have hz := hw.sized d hd
  have hlj : (d.jCmd.map rec.limited).length = d.trans.numActuators := by
    rw [List.length_map, hz.jCmd, num_eq]
  have hT := hw.constructed d hd
  obtain ⟨_, hnear, _⟩ := near_all r.sends.quantity hT hs hlj hm
  rw [← h2 d hd] at hnear
  obtain ⟨zs, hzs, hclose⟩ := near_close hnear
  have hlx : xs.length = t.numActuators := by rw [← hs.num.1, ← hlj]; exact hm.length_eq.symm
  have hla : ((actuatorMaps r.sends.quantity t).run xs).length = t.numActuators := by
    cases t <;> simp only [Trans.numActuators] at hlx ⊢
    · obtain ⟨x, rfl⟩ := List.length_eq_one_iff.1 hlx; rfl
    · obtain ⟨x, y, rfl⟩ := List.length_eq_two.1 hlx; rfl
    · obtain ⟨x, y, rfl⟩ := List.length_eq_two.1 hlx; rfl
  refine ⟨(jointMaps r.sends.quantity t).run zs, (sentMeans_iff nd hw rec hd hs _).2 ⟨zs, hzs, rfl⟩, fun ys' h' => ?_, ?_⟩
  · obtain ⟨zs', hzs', rfl⟩ := (sentMeans_iff nd hw rec hd hs _).1 h'
    congr 1
    have hu : ∀ (l : List (Flt A)) (a b : List ℚ), List.Forall₂ Is l a → List.Forall₂ Is l b → a = b := by
      intro l
      induction l with
      | nil => intro a b h h'; cases h; cases h'; rfl
      | cons c l ih =>
        intro a b h h'
        cases h with
        | cons h1 h2 => cases h' with
          | cons h3 h4 => rw [is_unique h1 h3, ih _ _ h2 h4]
    exact hu _ _ _ hzs' hzs
  · have := closeAll_joint (by positivity) r.sends.quantity t hla hclose
    rwa [(run_inv r.sends.quantity (hs.regular hT) xs hlx).2] at this

/-- For a simple transmission the error is relative to the command itself, and for positions to twice the offset. -/
theorem c106_scale_simple {t : Transmission.Simple ℚ} (h : t.reduction ≠ 0) (x : ℚ) :
    jointScale .velocity (.simple t) (actuatorScale .velocity (.simple t) [|x|]) = [|x|] ∧
    jointScale .effort (.simple t) (actuatorScale .effort (.simple t) [|x|]) = [|x|] ∧
    jointScale .position (.simple t) (actuatorScale .position (.simple t) [|x|]) = [|x| + 2 * |t.offset|] := by
  have h := abs_pos.2 h
  refine ⟨?_, ?_, ?_⟩ <;> simp only [actuatorScale, jointScale] <;> congr 1 <;> field_simp <;> ring

/-- A joint whose command after the limits is between two numbers. -/
theorem sent_within (nd : Bool) {r : Robot64 A} (hw : Wired64 r) (is : List (Input (Flt A)))
    (ht : ∀ i ∈ is, GoodPeriod i.period) (m : Mem (Flt A)) (k : Nat) (i : Input (Flt A)) (rec : Record (Flt A))
    (hi : is[k]? = some i) (hrec : (r.run nd is m).1[k]? = some rec) {c : Nat} {o : Fl binary64}
    (ho : rec.limited c = Flt.fl o) {lo hi' : ℚ} (h1 : lo ≤ o.1) (h2 : o.1 ≤ hi') : SentWithin nd r rec c lo hi' := by
  intro d hd t xs q hs hm hc
  obtain ⟨ys, hy, _, hcl⟩ := c106_sent nd r hw is ht m k i rec hi hrec d hd t hs xs hm
  have hx : xs[q]? = some o.1 := by
    have hq : q < d.jCmd.length := (List.getElem?_eq_some_iff.1 hc).1
    have hl := hm.length_eq
    rw [List.length_map] at hl
    have := hm.get (i := q) (by rw [List.length_map]; exact hq) (by omega)
    rw [List.getElem?_eq_getElem (by omega)]
    have h' : (d.jCmd.map rec.limited).get ⟨q, by rw [List.length_map]; exact hq⟩ = Flt.fl o := by
      rw [List.get_eq_getElem, List.getElem_map, (List.getElem?_eq_some_iff.1 hc).2, ho]
    rw [h'] at this
    exact congrArg some (is_unique this.1 ⟨o, rfl, rfl⟩)
  obtain ⟨y, s, e1, e2, hb⟩ := hcl.get q hx
  refine ⟨ys, y, s, hy, e1, e2, ?_, ?_⟩
  · linarith [(abs_le.1 hb).1]
  · linarith [(abs_le.1 hb).2]

/-! ### What the controllers command -/

/-- A joint that has no limit handle. -/
theorem c106_free_joints (nd : Bool) (r : Robot64 A) (hw : Wired64 r) (is : List (Input (Flt A)))
    (ht : ∀ i ∈ is, GoodPeriod i.period) (m : Mem (Flt A)) (k : Nat) (i : Input (Flt A)) (rec : Record (Flt A))
    (hi : is[k]? = some i) (hrec : (r.run nd is m).1[k]? = some rec) (d : Drive (Flt A)) (hd : d ∈ r.drives) (c : Nat)
    (hc : c ∈ d.jCmd) (hfree : ∀ e ∈ r.limits, e.2.joint.cmd ≠ c) : rec.limited c = i.wish c :=
  (run64_drive (nd := nd) hw is (positive64 ht) m k i rec hi hrec).2.2 d hd c hc hfree

/-- **C106, NaN and numbers.** Whatever the sensors report, in every cycle the command of a joint after the limits is NaN if
and only if the controllers have commanded NaN. -/
theorem c106_nan_iff (nd : Bool) (r : Robot64 A) (hw : Wired64 r) (is : List (Input (Flt A)))
    (ht : ∀ i ∈ is, GoodPeriod i.period) (m : Mem (Flt A)) (k : Nat) (i : Input (Flt A)) (rec : Record (Flt A))
    (hi : is[k]? = some i) (hrec : (r.run nd is m).1[k]? = some rec) (d : Drive (Flt A)) (hd : d ∈ r.drives) (c : Nat)
    (hc : c ∈ d.jCmd) : IsNaN (rec.limited c) ↔ IsNaN (i.wish c) := by
  by_cases hfree : ∀ e ∈ r.limits, e.2.joint.cmd ≠ c
  · rw [c106_free_joints nd r hw is ht m k i rec hi hrec d hd c hc hfree]
  · push Not at hfree
    obtain ⟨⟨n, h⟩, hm, rfl⟩ := hfree
    obtain ⟨p, _, _, hl⟩ := run64_joint (nd := nd) hw is (positive64 ht) m n h hm k i rec hi hrec
    constructor
    · intro hn
      unfold IsNaN at hn ⊢
      cases hwish : (i.wish h.joint.cmd : Option (Fl binary64)) with
      | none => rfl
      | some x =>
        obtain ⟨o, ho⟩ := limit_number r.kind _ _ _ _ x hwish _ hl
        rw [hn] at ho
        cases ho
    · intro hn
      refine limit_nan r.kind _ _ _ _ ?_ _ hl
      exact hn

/-- **C106, NaN reaches the hardware.** If the controllers command NaN for a joint, then whatever the limits are, every
actuator that moves with this joint gets NaN. -/
theorem c106_nan_sent (nd : Bool) (r : Robot64 A) (hw : Wired64 r) (is : List (Input (Flt A)))
    (ht : ∀ i ∈ is, GoodPeriod i.period) (m : Mem (Flt A)) (k : Nat) (i : Input (Flt A)) (rec : Record (Flt A))
    (hi : is[k]? = some i) (hrec : (r.run nd is m).1[k]? = some rec) (d : Drive (Flt A)) (hd : d ∈ r.drives)
    (x y c a : Nat) (hdep : DependsOn d.trans x y) (hc : d.jCmd[y]? = some c) (ha : d.aCmd[x]? = some a)
    (hn : IsNaN (i.wish c)) : IsNaN (rec.sent a) := by
  have hl := (c106_nan_iff nd r hw is ht m k i rec hi hrec d hd c (List.mem_of_getElem? hc)).2 hn
  obtain ⟨_, h2, _⟩ := run64_drive (nd := nd) hw is (positive64 ht) m k i rec hi hrec
  have k1 : (d.jCmd.map rec.limited)[y]? = some (rec.limited c) := by rw [List.getElem?_map, hc]; rfl
  have k2 : ((actuatorMaps r.sends.quantity d.trans).run (d.jCmd.map rec.limited))[x]? = some (rec.sent a) := by
    rw [← h2 d hd, List.getElem?_map, ha]; rfl
  refine (absorbing_nan.run r.sends.quantity d.trans ?_ hdep k1 hl).2 _ k2
  rw [List.length_map, (hw.sized d hd).jCmd, num_eq]

/-! ### Limits -/

theorem limiter_eq {k : Limits.Kind} {j : Limits.Joint} {L : JointLimits (Fl binary64)} {S : SoftLimits (Fl binary64)}
    {h : Limiter (Fl binary64)} (hh : mkLimiter (limitsArith A) k j L.lift S.lift = some h) :
    h = ⟨j, L.lift, S.lift, k.initial (limitsArith A)⟩ := by
  unfold mkLimiter at hh
  split at hh
  · exact (Option.some.inj hh).symm
  · cases hh

theorem hist (nd : Bool) {r : Robot64 A} (hw : Wired64 r) (is : List (Input (Flt A))) (ht : ∀ i ∈ is, GoodPeriod i.period)
    (m : Mem (Flt A)) {n : String} {h : Limiter (Fl binary64)} (hm : (n, h) ∈ r.limits) {j : Limits.Joint}
    {L : JointLimits (Fl binary64)} {S : SoftLimits (Fl binary64)}
    (hh : mkLimiter (limitsArith A) r.kind j L.lift S.lift = some h) : Hist r.kind j L S.lift is (r.run nd is m).1 := by
  refine ⟨(c106_completes nd r hw is ht m).2, ht, fun k i rec hi hrec => ?_⟩
  have := run64_joint (nd := nd) hw is (positive64 ht) m n h hm k i rec hi hrec
  rw [limiter_eq hh] at this
  exact this

/-- **C106, position limits.** The robot has position saturation handles. Whatever the controllers command and the sensors
report, and whatever other joints and transmissions there are: provided the measured position of the joint is a
number within its limits whenever the limiter starts from it (in the first cycle, with a reset, and after a NaN
command), every command for it that is a number becomes a finite number exactly within the limits; with velocity
limits, it is at most `max_velocity * period` away from the reference, as computed; the actuator commands that
are sent amount to a position within the limits, up to the rounding of the transmissions; and a finite command that
satisfies both is left as it is. -/
theorem c106_position (nd : Bool) (r : Robot64 A) (hw : Wired64 r) (hkind : r.kind = .posSat) (is : List (Input (Flt A)))
    (ht : ∀ i ∈ is, GoodPeriod i.period) (m : Mem (Flt A)) (n : String) (h : Limiter (Fl binary64))
    (hm : (n, h) ∈ r.limits) (j : Limits.Joint) (L : JointLimits (Fl binary64)) (S : SoftLimits (Fl binary64))
    (hh : mkLimiter (limitsArith A) r.kind j L.lift S.lift = some h)
    (hfin : L.hasPosition = true → L.minPosition.Fin ∧ L.maxPosition.Fin ∧ L.minPosition ≤ L.maxPosition)
    (hv : L.hasVelocity = true → L.maxVelocity.Fin ∧ 0 ≤ L.maxVelocity.1)
    (hstart : ∀ k rec, (r.run nd is m).1[k]? = some rec → Restarts is j.cmd k →
      ∃ x : Fl binary64, rec.measured j.pos = Flt.fl x ∧ x.Fin ∧
        (L.hasPosition = true → L.minPosition.1 ≤ x.1 ∧ x.1 ≤ L.maxPosition.1)) :
    ∀ (k : Nat) i rec, is[k]? = some i → (r.run nd is m).1[k]? = some rec → ∀ c, i.wish j.cmd = Flt.fl c →
      ∃ o : Fl binary64, rec.limited j.cmd = Flt.fl o ∧ o.Fin ∧
        (L.hasPosition = true → L.minPosition.1 ≤ o.1 ∧ o.1 ≤ L.maxPosition.1 ∧
          SentWithin nd r rec j.cmd L.minPosition.1 L.maxPosition.1) ∧
        (L.hasVelocity = true → ∃ p t b, Reference is (r.run nd is m).1 j k p ∧ i.period = Flt.fl t ∧
          (limitsArith A).mul L.maxVelocity t = some b ∧ Within (limitsArith A) p b o) ∧
        (c.Fin → (L.hasPosition = true → L.minPosition.1 ≤ c.1 ∧ c.1 ≤ L.maxPosition.1) →
          (L.hasVelocity = true → ∀ p t b, Reference is (r.run nd is m).1 j k p → i.period = Flt.fl t →
            (limitsArith A).mul L.maxVelocity t = some b → Within (limitsArith A) p b c) → o = c) := by
  intro k i rec hi hrec c hc
  obtain ⟨o, ho, h1, h2, h3⟩ := (hist nd hw is ht m hm hh).position hkind hfin hv hstart k i rec hi hrec c hc
  exact ⟨o, ho, h1, fun hP => ⟨(h2 hP).1, (h2 hP).2, sent_within nd hw is ht m k i rec hi hrec ho (h2 hP).1 (h2 hP).2⟩, h3⟩

/-- **C106, soft position limits.** A cycle of a robot that has soft position limit handles, with a reference that is finite
and does not exceed the maximum. The command after the limits lies between the positions reached with
`-max_velocity` and `max_velocity`, as computed, and does not exceed the maximum; it does not lead further out from
a reference at or beyond a soft limit; and the actuator commands that are sent amount to a position within these
bounds, up to the rounding of the transmissions. -/
theorem c106_soft_position (nd : Bool) (r : Robot64 A) (hw : Wired64 r) (hkind : r.kind = .posSoft)
    (is : List (Input (Flt A))) (ht : ∀ i ∈ is, GoodPeriod i.period) (m : Mem (Flt A)) (n : String)
    (h : Limiter (Fl binary64)) (hm : (n, h) ∈ r.limits) (j : Limits.Joint) (L : JointLimits (Fl binary64))
    (S : SoftLimits (Fl binary64)) (hh : mkLimiter (limitsArith A) r.kind j L.lift S.lift = some h)
    (hv : L.maxVelocity.Fin ∧ 0 ≤ L.maxVelocity.1)
    (hS : L.hasPosition = true → S.minPosition.Fin ∧ S.maxPosition.Fin ∧ S.kPosition.Fin ∧ 0 < S.kPosition.1)
    (k : Nat) (i : Input (Flt A)) (rec : Record (Flt A)) (hi : is[k]? = some i)
    (hrec : (r.run nd is m).1[k]? = some rec) (p c t : Fl binary64) (hp : Reference is (r.run nd is m).1 j k p)
    (hfp : p.Fin) (hmax : L.hasPosition = true → p.1 ≤ L.maxPosition.1) (hc : i.wish j.cmd = Flt.fl c)
    (het : i.period = Flt.fl t) :
    ∃ o x y low high, rec.limited j.cmd = Flt.fl o ∧
      (limitsArith A).mul ((limitsArith A).neg L.maxVelocity) t = some x ∧ (limitsArith A).mul L.maxVelocity t = some y ∧
      (limitsArith A).add p x = some low ∧ (limitsArith A).add p y = some high ∧ low.1 ≤ o.1 ∧ o.1 ≤ high.1 ∧
      SentWithin nd r rec j.cmd low.1 high.1 ∧
      (L.hasPosition = true → o.1 ≤ L.maxPosition.1 ∧ SentWithin nd r rec j.cmd low.1 L.maxPosition.1 ∧
        (S.maxPosition.1 ≤ p.1 → o.1 ≤ p.1) ∧
        (p.1 ≤ S.minPosition.1 → S.minPosition.1 ≤ S.maxPosition.1 → p.1 ≤ o.1)) := by
  obtain ⟨prev, hl, hp'⟩ := (hist nd hw is ht m hm hh).position_limit (Or.inr hkind) hi hrec
  obtain ⟨t', et, ft, ht0⟩ := ht i (List.mem_of_getElem? hi)
  have e : t' = t := Option.some.inj (et.symm.trans het)
  subst e
  obtain ⟨o, x, y, low, high, e, h1, h2, h3, h4, h5, h6, h7⟩ := Limits.c40_double_partial A.toRounding L S hv hS prev
    ⟨i.wish j.cmd, rec.measured j.pos, rec.measured j.vel, i.period⟩ p t' c (hp' p hp) hfp hmax het ft ht0 hc
  rw [hkind] at hl
  have ho : rec.limited j.cmd = Flt.fl o := (Option.some.inj (e.symm.trans hl)).symm
  refine ⟨o, x, y, low, high, ho, h1, h2, h3, h4, h5, h6, sent_within nd hw is ht m k i rec hi hrec ho h5 h6, fun hP => ?_⟩
  obtain ⟨g1, g2, g3⟩ := h7 hP
  exact ⟨g1, sent_within nd hw is ht m k i rec hi hrec ho h5 g1, g2, g3⟩

/-- **C106, velocity limits.** The robot has velocity saturation handles, and the controllers command numbers for the joint.
Whatever the sensors report, the command after the limits is within `± max_velocity` exactly, with acceleration
limits it is at most `max_acceleration * period` away from the one of the cycle before (at first: from 0), as
computed, and the actuator commands that are sent amount to a velocity within `± max_velocity`, up to the rounding of
the transmissions. Without acceleration limits, commands within the limits are left as they are. -/
theorem c106_velocity (nd : Bool) (r : Robot64 A) (hw : Wired64 r) (hkind : r.kind = .velSat) (is : List (Input (Flt A)))
    (ht : ∀ i ∈ is, GoodPeriod i.period) (m : Mem (Flt A)) (n : String) (h : Limiter (Fl binary64))
    (hm : (n, h) ∈ r.limits) (j : Limits.Joint) (L : JointLimits (Fl binary64)) (S : SoftLimits (Fl binary64))
    (hh : mkLimiter (limitsArith A) r.kind j L.lift S.lift = some h) (hV : L.maxVelocity.Fin ∧ 0 ≤ L.maxVelocity.1)
    (ha : L.hasAcceleration = true → L.maxAcceleration.Fin ∧ 0 ≤ L.maxAcceleration.1)
    (hc : ∀ i ∈ is, ∃ c, i.wish j.cmd = Flt.fl c) :
    ∀ (k : Nat) i rec, is[k]? = some i → (r.run nd is m).1[k]? = some rec →
      ∃ o : Fl binary64, rec.limited j.cmd = Flt.fl o ∧ |o.1| ≤ L.maxVelocity.1 ∧
        SentWithin nd r rec j.cmd (-L.maxVelocity.1) L.maxVelocity.1 ∧
        (L.hasAcceleration = true → ∃ p t b, (k = 0 → p = (limitsArith A).zero) ∧
          (∀ k' rec', k = k' + 1 → (r.run nd is m).1[k']? = some rec' → rec'.limited j.cmd = Flt.fl p) ∧
          i.period = Flt.fl t ∧ (limitsArith A).mul L.maxAcceleration t = some b ∧ Within (limitsArith A) p b o) ∧
        (L.hasAcceleration = false → ∀ c, i.wish j.cmd = Flt.fl c → |c.1| ≤ L.maxVelocity.1 → o = c) := by
  intro k i rec hi hrec
  obtain ⟨o, ho, h1, h2⟩ := (hist nd hw is ht m hm hh).velocity hkind hV ha hc k i rec hi hrec
  exact ⟨o, ho, h1, sent_within nd hw is ht m k i rec hi hrec ho (abs_le.1 h1).1 (abs_le.1 h1).2, h2⟩

/-- **C106, soft velocity limits.** The robot has soft velocity limit handles. In a cycle in which the measured position and
velocity of the joint and the command for it are numbers (and with acceleration limits the measured velocity is not
below `-max_velocity`), the command after the limits is within `± max_velocity`, is not positive at or beyond the
upper soft limit, nor negative at or beyond the lower soft limit (with acceleration limits: if the measured velocity
is not negative either); with acceleration limits it exceeds the measured velocity by at most
`max_acceleration * period` as computed; and the actuator commands that are sent amount to a velocity within these
bounds, up to the rounding of the transmissions. What a measured velocity below these bounds does is in
`c44_acceleration_negation`. -/
theorem c106_soft_velocity (nd : Bool) (r : Robot64 A) (hw : Wired64 r) (hkind : r.kind = .velSoft)
    (is : List (Input (Flt A))) (ht : ∀ i ∈ is, GoodPeriod i.period) (m : Mem (Flt A)) (n : String)
    (h : Limiter (Fl binary64)) (hm : (n, h) ∈ r.limits) (j : Limits.Joint) (L : JointLimits (Fl binary64))
    (S : SoftLimits (Fl binary64)) (hh : mkLimiter (limitsArith A) r.kind j L.lift S.lift = some h)
    (hV : L.hasVelocity = true ∧ 0 ≤ L.maxVelocity.1)
    (hA : L.hasAcceleration = true → L.maxAcceleration.Fin ∧ 0 ≤ L.maxAcceleration.1)
    (hS : L.hasPosition = true → S.minPosition.Fin ∧ S.maxPosition.Fin ∧ S.kPosition.Fin ∧ 0 < S.kPosition.1)
    (k : Nat) (i : Input (Flt A)) (rec : Record (Flt A)) (hi : is[k]? = some i)
    (hrec : (r.run nd is m).1[k]? = some rec) (x v c : Fl binary64) (hx : rec.measured j.pos = Flt.fl x)
    (hfx : L.hasPosition = true → x.Fin) (hv : rec.measured j.vel = Flt.fl v) (hc : i.wish j.cmd = Flt.fl c)
    (hfv : L.hasAcceleration = true → v.Fin ∧ -L.maxVelocity.1 ≤ v.1) :
    ∃ o : Fl binary64, rec.limited j.cmd = Flt.fl o ∧ |o.1| ≤ L.maxVelocity.1 ∧
      SentWithin nd r rec j.cmd (-L.maxVelocity.1) L.maxVelocity.1 ∧
      (L.hasPosition = true → (S.maxPosition.1 ≤ x.1 → o.1 ≤ 0 ∧ SentWithin nd r rec j.cmd (-L.maxVelocity.1) 0) ∧
        (x.1 ≤ S.minPosition.1 → S.minPosition.1 ≤ S.maxPosition.1 → (L.hasAcceleration = true → 0 ≤ v.1) →
          0 ≤ o.1 ∧ SentWithin nd r rec j.cmd 0 L.maxVelocity.1)) ∧
      (L.hasAcceleration = true → ∃ t d y : Fl binary64, i.period = Flt.fl t ∧
        (Limits.double A.toRounding).mul L.maxAcceleration t = some d ∧
        (Limits.double A.toRounding).add v d = some y ∧ o.1 ≤ y.1 ∧
        SentWithin nd r rec j.cmd (-L.maxVelocity.1) y.1) := by
  obtain ⟨q, _, _, hl⟩ := run64_joint (nd := nd) hw is (positive64 ht) m n h hm k i rec hi hrec
  rw [limiter_eq hh] at hl
  simp only at hl
  rw [hkind] at hl
  obtain ⟨t, et, ft, ht0⟩ := ht i (List.mem_of_getElem? hi)
  obtain ⟨o, e, h1, h2, h3, h4⟩ := Limits.c44_double_partial A.toRounding L S hV hS
    ⟨i.wish j.cmd, rec.measured j.pos, rec.measured j.vel, i.period⟩ x v t c hx hfx hv et hc
    (fun g => ⟨(hfv g).1, (hA g).1, ft, (hA g).2, ht0.le⟩)
  have hl' : some (Limits.velSoft (limitsArith A) L.lift S.lift
    ⟨i.wish j.cmd, rec.measured j.pos, rec.measured j.vel, i.period⟩) = some (rec.limited j.cmd) := hl
  have ho : rec.limited j.cmd = Flt.fl o := (Option.some.inj hl').symm.trans e
  have h2 := h2 fun g => (hfv g).2
  refine ⟨o, ho, abs_le.2 ⟨h2, h1⟩, sent_within nd hw is ht m k i rec hi hrec ho h2 h1,
    fun hP => ⟨fun g => ?_, fun g g' gv => ?_⟩, fun ha => ?_⟩
  · have := (h3 hP).1 g
    exact ⟨this, sent_within nd hw is ht m k i rec hi hrec ho h2 this⟩
  · have := (h3 hP).2 g g' gv
    exact ⟨this, sent_within nd hw is ht m k i rec hi hrec ho this h1⟩
  · obtain ⟨d, y, g1, g2, g3⟩ := h4 ha
    exact ⟨t, d, y, et, g1, g2, g3, sent_within nd hw is ht m k i rec hi hrec ho h2 g3⟩

/-- **C106, effort limits.** The robot has effort saturation handles. Whatever the sensors report, every command for the
joint that is a number becomes an effort within `± max_effort` exactly; strictly beyond a position limit, or strictly
above the velocity limit, it does not push further; and the actuator commands that are sent amount to an effort
within these bounds, up to the rounding of the transmissions. -/
theorem c106_effort (nd : Bool) (r : Robot64 A) (hw : Wired64 r) (hkind : r.kind = .effSat) (is : List (Input (Flt A)))
    (ht : ∀ i ∈ is, GoodPeriod i.period) (m : Mem (Flt A)) (n : String) (h : Limiter (Fl binary64))
    (hm : (n, h) ∈ r.limits) (j : Limits.Joint) (L : JointLimits (Fl binary64)) (S : SoftLimits (Fl binary64))
    (hh : mkLimiter (limitsArith A) r.kind j L.lift S.lift = some h) (hE : 0 ≤ L.maxEffort.1) (hV : 0 ≤ L.maxVelocity.1)
    (hP : L.minPosition.1 ≤ L.maxPosition.1)
    (k : Nat) (i : Input (Flt A)) (rec : Record (Flt A)) (hi : is[k]? = some i)
    (hrec : (r.run nd is m).1[k]? = some rec) (c : Fl binary64) (hc : i.wish j.cmd = Flt.fl c) :
    ∃ o : Fl binary64, rec.limited j.cmd = Flt.fl o ∧ |o.1| ≤ L.maxEffort.1 ∧
      SentWithin nd r rec j.cmd (-L.maxEffort.1) L.maxEffort.1 ∧
      (L.hasPosition = true → ∀ x : Fl binary64, rec.measured j.pos = Flt.fl x →
        (x.1 < L.minPosition.1 → 0 ≤ o.1 ∧ SentWithin nd r rec j.cmd 0 L.maxEffort.1) ∧
        (L.maxPosition.1 < x.1 → o.1 ≤ 0 ∧ SentWithin nd r rec j.cmd (-L.maxEffort.1) 0)) ∧
      (∀ v : Fl binary64, rec.measured j.vel = Flt.fl v →
        (v.1 < -L.maxVelocity.1 → 0 ≤ o.1 ∧ SentWithin nd r rec j.cmd 0 L.maxEffort.1) ∧
        (L.maxVelocity.1 < v.1 → o.1 ≤ 0 ∧ SentWithin nd r rec j.cmd (-L.maxEffort.1) 0)) := by
  obtain ⟨q, _, _, hl⟩ := run64_joint (nd := nd) hw is (positive64 ht) m n h hm k i rec hi hrec
  rw [limiter_eq hh] at hl
  simp only at hl
  rw [hkind] at hl
  obtain ⟨o, e, h1, h2, _, _, h5, h6⟩ := Limits.c41_effort_saturation_partial (limitsArith A) L
    ⟨i.wish j.cmd, rec.measured j.pos, rec.measured j.vel, i.period⟩ c
    ⟨show (-L.maxEffort.1) ≤ 0 by linarith, hE⟩ hP (show (-L.maxVelocity.1) ≤ L.maxVelocity.1 by linarith) hc
  have hl' : some (Limits.effSat (limitsArith A) L.lift
    ⟨i.wish j.cmd, rec.measured j.pos, rec.measured j.vel, i.period⟩) = some (rec.limited j.cmd) := hl
  have ho : rec.limited j.cmd = Flt.fl o := (Option.some.inj hl').symm.trans e
  have up : 0 ≤ o.1 → 0 ≤ o.1 ∧ SentWithin nd r rec j.cmd 0 L.maxEffort.1 :=
    fun g => ⟨g, sent_within nd hw is ht m k i rec hi hrec ho g h2⟩
  have dn : o.1 ≤ 0 → o.1 ≤ 0 ∧ SentWithin nd r rec j.cmd (-L.maxEffort.1) 0 :=
    fun g => ⟨g, sent_within nd hw is ht m k i rec hi hrec ho h1 g⟩
  exact ⟨o, ho, abs_le.2 ⟨h1, h2⟩, sent_within nd hw is ht m k i rec hi hrec ho h1 h2,
    fun hp x hx => ⟨fun g => up ((h5 hp x hx).1 g), fun g => dn ((h5 hp x hx).2 g)⟩,
    fun v hv => ⟨fun g => up ((h6 v hv).1 g), fun g => dn ((h6 v hv).2 g)⟩⟩

/-- **C106, soft effort limits.** The robot has soft effort limit handles. In a cycle in which the measured position and
velocity of the joint are finite and the command for it is a number, the command after the limits is within
`± max_effort` exactly; it does not accelerate a joint at or above the velocity limit, nor push a joint outward that
is at or beyond a soft limit and not moving back; and the actuator commands that are sent amount to an effort within
these bounds, up to the rounding of the transmissions. -/
theorem c106_soft_effort (nd : Bool) (r : Robot64 A) (hw : Wired64 r) (hkind : r.kind = .effSoft)
    (is : List (Input (Flt A))) (ht : ∀ i ∈ is, GoodPeriod i.period) (m : Mem (Flt A)) (n : String)
    (h : Limiter (Fl binary64)) (hm : (n, h) ∈ r.limits) (j : Limits.Joint) (L : JointLimits (Fl binary64))
    (S : SoftLimits (Fl binary64)) (hh : mkLimiter (limitsArith A) r.kind j L.lift S.lift = some h)
    (hV : L.maxVelocity.Fin ∧ 0 ≤ L.maxVelocity.1) (hE : 0 ≤ L.maxEffort.1)
    (hS : L.hasPosition = true → S.minPosition.Fin ∧ S.maxPosition.Fin ∧ S.kPosition.Fin ∧ 0 < S.kPosition.1)
    (hk : S.kVelocity.Fin ∧ 0 < S.kVelocity.1)
    (k : Nat) (i : Input (Flt A)) (rec : Record (Flt A)) (hi : is[k]? = some i)
    (hrec : (r.run nd is m).1[k]? = some rec) (x v c : Fl binary64) (hx : rec.measured j.pos = Flt.fl x)
    (hfx : L.hasPosition = true → x.Fin) (hv : rec.measured j.vel = Flt.fl v) (hfv : v.Fin)
    (hc : i.wish j.cmd = Flt.fl c) :
    ∃ o : Fl binary64, rec.limited j.cmd = Flt.fl o ∧ |o.1| ≤ L.maxEffort.1 ∧
      SentWithin nd r rec j.cmd (-L.maxEffort.1) L.maxEffort.1 ∧
      (L.maxVelocity.1 ≤ v.1 ∨ (L.hasPosition = true ∧ S.maxPosition.1 ≤ x.1 ∧ 0 ≤ v.1) →
        o.1 ≤ 0 ∧ SentWithin nd r rec j.cmd (-L.maxEffort.1) 0) ∧
      (v.1 ≤ -L.maxVelocity.1 ∨ (L.hasPosition = true ∧ x.1 ≤ S.minPosition.1 ∧ S.minPosition.1 ≤ S.maxPosition.1 ∧ v.1 ≤ 0) →
        0 ≤ o.1 ∧ SentWithin nd r rec j.cmd 0 L.maxEffort.1) := by
  obtain ⟨q, _, _, hl⟩ := run64_joint (nd := nd) hw is (positive64 ht) m n h hm k i rec hi hrec
  rw [limiter_eq hh] at hl
  simp only at hl
  rw [hkind] at hl
  obtain ⟨o, e, h1, h2, h3, h4⟩ := Limits.c42_double_partial A.toRounding L S hV hE hS hk
    ⟨i.wish j.cmd, rec.measured j.pos, rec.measured j.vel, i.period⟩ x v c hx hfx hv hfv hc
  have hl' : some (Limits.effSoft (limitsArith A) L.lift S.lift
    ⟨i.wish j.cmd, rec.measured j.pos, rec.measured j.vel, i.period⟩) = some (rec.limited j.cmd) := hl
  have ho : rec.limited j.cmd = Flt.fl o := (Option.some.inj hl').symm.trans e
  have b := abs_le.1 h1
  refine ⟨o, ho, h1, sent_within nd hw is ht m k i rec hi hrec ho b.1 b.2, fun g => ?_, fun g => ?_⟩
  · have : o.1 ≤ 0 := g.elim h2 fun ⟨g1, g2, g3⟩ => (h4 g1).1 g2 g3
    exact ⟨this, sent_within nd hw is ht m k i rec hi hrec ho b.1 this⟩
  · have : 0 ≤ o.1 := g.elim h3 fun ⟨g1, g2, g3, g4⟩ => (h4 g1).2 g2 g3 g4
    exact ⟨this, sent_within nd hw is ht m k i rec hi hrec ho this b.2⟩

/-! ### A robot -/

open Verif.Limits (dyadic dyadic_val dyadic_fin fl_ne_zero exDouble exDoubleSoft)

/-- Five, as a double. -/
def five : Flt A := Flt.fl (dyadic 5 0 (by decide) (by decide))

/-- Zero, as a double. -/
def zero : Flt A := Flt.fl (dyadic 0 0 (by decide) (by decide))

/-- A reducer. -/
def reducer64 : Drive (Flt A) := ⟨.simple ⟨five, zero⟩, [0], [3], [6], [9], [12], [15], [18], [21]⟩

/-- A differential transmission and a reducer. -/
def drives64 : List (Drive (Flt A)) :=
  [⟨.differential Transmission.exFlt, [1, 2], [4, 5], [7, 8], [10, 11], [13, 14], [16, 17], [19, 20], [22, 23]⟩,
   reducer64]

/-- The joint behind the reducer and the first one of the differential have limits, the other one has none. -/
def robot64 (k : Limits.Kind) (L : JointLimits (Fl binary64)) : Robot64 A where
  sends := .velocity
  drives := drives64
  kind := k
  limits := [("bar", ⟨⟨"bar", 13, 16, 22⟩, exDouble.lift, exDoubleSoft.lift, k.initial (limitsArith A)⟩),
    ("foo", ⟨⟨"foo", 12, 15, 21⟩, L.lift, exDoubleSoft.lift, k.initial (limitsArith A)⟩)]

theorem robot64_wired (k : Limits.Kind) (L : JointLimits (Fl binary64)) : Wired64 (robot64 k L : Robot64 A) where
  constructed := by
    simp only [robot64, drives64, List.mem_cons, List.not_mem_nil, or_false, forall_eq_or_imp, forall_eq]
    refine ⟨.differential [Transmission.exFlt.ar.1, Transmission.exFlt.ar.2] [Transmission.exFlt.jr.1, Transmission.exFlt.jr.2]
      [Transmission.exFlt.off.1, Transmission.exFlt.off.2] false _
      (Transmission.mkTwo_some.2 ⟨rfl, rfl, rfl, rfl, ?_, ?_, ?_, ?_⟩), .simple five zero _ ?_⟩
    · exact fl_ne_zero (by rw [dyadic_val]; norm_num)
    · exact fl_ne_zero (by rw [dyadic_val]; norm_num)
    · exact fl_ne_zero (by rw [dyadic_val]; norm_num)
    · exact fl_ne_zero (by rw [dyadic_val]; norm_num)
    · have h : (five == (0 : Flt A)) = false := fl_ne_zero (by rw [dyadic_val]; norm_num)
      exact if_neg (Bool.eq_false_iff.1 h)
  sized := by
    simp only [robot64, drives64, List.mem_cons, List.not_mem_nil, or_false, forall_eq_or_imp, forall_eq]
    exact ⟨⟨rfl, rfl, rfl, rfl, rfl, rfl, rfl, rfl⟩, ⟨rfl, rfl, rfl, rfl, rfl, rfl, rfl, rfl⟩⟩
  distinct := by
    simp [robot64, drives64, reducer64, Drive.all]
  sorted := by
    simp only [robot64, KeysSorted, smapKeys, List.map_cons, List.map_nil, List.pairwise_cons, List.mem_cons,
      List.not_mem_nil, or_false, forall_eq]
    exact ⟨by decide, by simp⟩
  joints := by
    simp only [robot64, drives64, List.mem_cons, List.not_mem_nil, or_false, forall_eq_or_imp, forall_eq]
    exact ⟨⟨_, Or.inl rfl, 0, rfl, rfl, rfl⟩, ⟨_, Or.inr rfl, 0, rfl, rfl, rfl⟩⟩
  once := by
    simp [robot64]

theorem same_reducer : SameTrans (reducer64 (A := A)).trans (.simple ⟨5, 0⟩) :=
  ⟨Transmission.means_dyadic _ _ (by norm_num) (Or.inr (by norm_num)),
    Transmission.means_dyadic _ _ (by norm_num) (Or.inl rfl)⟩

/-- One, as a double. -/
def one : Fl binary64 := dyadic 1 0 (by decide) (by decide)

theorem one_good : GoodPeriod (Flt.fl one : Flt A) :=
  ⟨_, rfl, dyadic_fin _ _, by rw [one, dyadic_val]; norm_num⟩

/-- A cycle in which all sensors report zero. -/
def input64 (c : Flt A) : Input (Flt A) := ⟨fun _ => zero, fun _ => c, Flt.fl one, false⟩

/-- The position of the joint behind the reducer is then measured as zero, whatever the controllers command. -/
theorem measured64 (k : Limits.Kind) (L : JointLimits (Fl binary64)) (nd : Bool) (cs : List (Flt A)) (m : Mem (Flt A))
    (q : Nat) (rec : Record (Flt A)) (hrec : ((robot64 k L).run nd (cs.map input64) m).1[q]? = some rec) :
    rec.measured 12 = zero := by
  have ht : ∀ i ∈ cs.map (input64 (A := A)), GoodPeriod i.period := by
    intro i hi
    obtain ⟨c, _, rfl⟩ := List.mem_map.1 hi
    exact one_good
  have hlen := (c106_completes nd _ (robot64_wired k L) _ ht m).2
  have hq : q < (cs.map (input64 (A := A))).length := by
    rw [← hlen]; exact (List.getElem?_eq_some_iff.1 hrec).1
  have hi := List.getElem?_eq_getElem hq
  obtain ⟨h1, _, _⟩ := run64_drive (nd := nd) (robot64_wired k L) _ (positive64 ht) m q _ rec hi hrec
  have h2 := h1 reducer64 (by simp [robot64, drives64])
  have h3 : rec.measured 12 = (cs.map (input64 (A := A)))[q].sense 0 / five + zero := by
    simpa [reducer64, Transmission.Maps.run, jointMaps] using h2
  have h4 : (cs.map (input64 (A := A)))[q].sense 0 = zero := by
    rw [List.getElem_map]; rfl
  have hz : A.rnd 0 = dyadic 0 0 (by decide) (by decide) := by
    rw [A.rnd_zero (by decide)]
    exact Subtype.ext (by rw [dyadic_val]; show (0 : ℚ) = _; norm_num)
  have e1 : (zero : Flt A) / five = zero := by
    refine (Limits.flt_div (dyadic_fin _ _) (dyadic_fin _ _) (by rw [dyadic_val]; norm_num)).trans ?_
    rw [dyadic_val, Int.cast_zero, zero_mul, zero_div, hz]
    rfl
  have e2 : (zero : Flt A) + zero = zero := by
    refine (Limits.flt_add (dyadic_fin _ _) (dyadic_fin _ _)).trans ?_
    rw [dyadic_val, Int.cast_zero, zero_mul, add_zero, hz]
    rfl
  rw [h3, h4, e1, e2]

/-- The conditions of `c106_position` hold for these cycles, whatever the controllers command: in particular for 50, NaN
and infinity, one after the other. -/
example (nd : Bool) (m : Mem (Flt A)) :
    let is := [Flt.fl (.int 50 (by decide)), (none : Option (Fl binary64)), Flt.fl Fl.infinity].map (input64 (A := A))
    (∀ i ∈ is, GoodPeriod i.period) ∧
    (∀ k rec, ((robot64 .posSat exDouble).run nd is m).1[k]? = some rec → Restarts is 21 k →
      ∃ x : Fl binary64, rec.measured 12 = Flt.fl x ∧ x.Fin ∧
        (exDouble.hasPosition = true → exDouble.minPosition.1 ≤ x.1 ∧ x.1 ≤ exDouble.maxPosition.1)) ∧
    mkLimiter (limitsArith A) .posSat ⟨"foo", 12, 15, 21⟩ exDouble.lift exDoubleSoft.lift =
      some ⟨⟨"foo", 12, 15, 21⟩, exDouble.lift, exDoubleSoft.lift, Limits.Kind.posSat.initial (limitsArith A)⟩ := by
  intro is
  refine ⟨?_, fun k rec hrec _ => ⟨_, measured64 .posSat exDouble nd _ m k rec hrec, dyadic_fin _ _, fun _ => ?_⟩, rfl⟩
  · intro i hi
    obtain ⟨c, _, rfl⟩ := List.mem_map.1 hi
    exact one_good
  · rw [dyadic_val]
    show ((-10 : ℤ) : ℚ) ≤ _ ∧ _ ≤ ((10 : ℤ) : ℚ)
    norm_num

/-- The parameters meet the conditions of the theorems about velocity, effort and soft limits, and the commands of
`c106_velocity` are numbers. -/
example (k : Limits.Kind) : (∃ h, ("foo", h) ∈ (robot64 (A := A) k exDouble).limits ∧
      mkLimiter (limitsArith A) k ⟨"foo", 12, 15, 21⟩ exDouble.lift exDoubleSoft.lift = some h) ∧
    exDouble.maxVelocity.Fin ∧ 0 ≤ exDouble.maxVelocity.1 ∧ exDouble.maxAcceleration.Fin ∧ 0 ≤ exDouble.maxAcceleration.1 ∧
    0 ≤ exDouble.maxEffort.1 ∧ exDouble.minPosition.1 ≤ exDouble.maxPosition.1 ∧
    exDoubleSoft.minPosition.Fin ∧ exDoubleSoft.maxPosition.Fin ∧ exDoubleSoft.kPosition.Fin ∧ 0 < exDoubleSoft.kPosition.1 ∧
    exDoubleSoft.kVelocity.Fin ∧ 0 < exDoubleSoft.kVelocity.1 ∧
    (∀ i ∈ [Flt.fl (.int 50 (by decide)), Flt.fl Fl.infinity].map (input64 (A := A)), ∃ c, i.wish 21 = Flt.fl c) := by
  have h1 : (0 : ℚ) < ((1 : ℤ) : ℚ) := by norm_num
  have h2 : (0 : ℚ) ≤ ((2 : ℤ) : ℚ) := by norm_num
  have h3 : (0 : ℚ) ≤ ((3 : ℤ) : ℚ) := by norm_num
  have h8 : (0 : ℚ) ≤ ((8 : ℤ) : ℚ) := by norm_num
  have h10 : ((-10 : ℤ) : ℚ) ≤ ((10 : ℤ) : ℚ) := by norm_num
  refine ⟨⟨⟨⟨"foo", 12, 15, 21⟩, exDouble.lift, exDoubleSoft.lift, k.initial (limitsArith A)⟩, by simp [robot64], ?_⟩,
    Fl.int_fin _ (by decide), h2, Fl.int_fin _ (by decide), h3, h8, h10, Fl.int_fin _ (by decide), Fl.int_fin _ (by decide),
    Fl.int_fin _ (by decide), h1, Fl.int_fin _ (by decide), h1, ?_⟩
  · cases k <;> rfl
  · intro i hi
    obtain ⟨c, hc, rfl⟩ := List.mem_map.1 hi
    simp only [List.mem_cons, List.not_mem_nil, or_false] at hc
    rcases hc with rfl | rfl
    · exact ⟨_, rfl⟩
    · exact ⟨_, rfl⟩

/-- The command of the reducer depends on the command of its joint, as in `c106_nan_sent`. -/
example : DependsOn (reducer64 (A := A)).trans 0 0 ∧ (reducer64 (A := A)).jCmd[0]? = some 21 ∧
    (reducer64 (A := A)).aCmd[0]? = some 9 ∧ IsNaN ((input64 (none : Option (Fl binary64)) : Input (Flt A)).wish 21) :=
  ⟨trivial, rfl, rfl, rfl⟩

/-- A little more than one: 1 + 3 * 2^-52. -/
def bit : Fl binary64 := dyadic (2 ^ 52 + 3) (-52) (by decide) (by decide)

/-- A velocity limit of `bit`. -/
def bitLimits : JointLimits (Fl binary64) := { exDouble with maxVelocity := bit, hasAcceleration := false }

theorem bit_val : bit.1 = 1 + 3 * 2 ^ (-52 : ℤ) := by
  rw [bit, dyadic_val]
  norm_num

/-- Five times as much, rounded, is too much. -/
theorem rnd_bit (A : Machine binary64) :
    A.rnd (bit.1 * 5) = dyadic (5 * 2 ^ 50 + 4) (-50) (by decide) (by decide) := by
  rw [bit_val]
  refine Limits.rnd_unique A.toRounding (lo := 2) (hi := 3) (n := 5 * 2 ^ 50 + 4) (by decide) (by decide) ?_ ?_ ?_ ?_
  · rw [abs_of_pos (by norm_num)]; norm_num
  · rw [abs_of_pos (by norm_num)]; norm_num
  · rw [dyadic_val]; norm_num
  · rw [dyadic_val, abs_lt]; norm_num

/-- **C106 does not hold without the error.** With velocity limits and a reducer by five, the actuator commands that are sent
can amount to a velocity that is above the maximum, by less than one unit in the last place. -/
theorem c106_error_needed (A : Machine binary64) :
    ∃ (r : Robot64 A) (is : List (Input (Flt A))) (rec : Record (Flt A)) (d : Drive (Flt A)) (t : Trans ℚ) (x : ℚ),
      Wired64 r ∧ r.kind = .velSat ∧ (∀ i ∈ is, GoodPeriod i.period) ∧ (r.run false is fun _ => zero).1 = [rec] ∧
      d ∈ r.drives ∧ SameTrans d.trans t ∧ d.jCmd = [21] ∧
      ("foo", ⟨⟨"foo", 12, 15, 21⟩, bitLimits.lift, exDoubleSoft.lift, some (limitsArith A).zero⟩) ∈ r.limits ∧
      SentMeans false r rec d t [x] ∧ bitLimits.maxVelocity.1 < x := by
  have hw := robot64_wired (A := A) .velSat bitLimits
  set r : Robot64 A := robot64 .velSat bitLimits with hr
  set is := [input64 (A := A) (Flt.fl Fl.infinity)] with his
  have ht : ∀ i ∈ is, GoodPeriod i.period := by
    intro i hi
    rw [his, List.mem_singleton] at hi
    subst hi
    exact one_good
  obtain ⟨rec, hrec⟩ : ∃ rec, (r.run false is fun _ => zero).1 = [rec] :=
    List.length_eq_one_iff.1 (c106_completes false r hw is ht _).2
  have h0 : (r.run false is fun _ => zero).1[0]? = some rec := by rw [hrec]; rfl
  have hd : reducer64 ∈ r.drives := by simp [hr, robot64, drives64]
  have hmem : ("foo", ⟨⟨"foo", 12, 15, 21⟩, bitLimits.lift, exDoubleSoft.lift, some (limitsArith A).zero⟩) ∈ r.limits := by
    simp [hr, robot64, Limits.Kind.initial]
  -- The command after the limits is the limit.
  obtain ⟨p, _, _, hl⟩ := run64_joint (nd := false) hw is (positive64 ht) _ _ _ hmem 0 _ rec rfl h0
  have hlim : rec.limited 21 = Flt.fl bit := by
    have e : Limits.velSat (limitsArith A) bitLimits.lift (effective r.kind false p)
        ⟨Flt.fl (A := A) Fl.infinity, rec.measured 12, rec.measured 15, Flt.fl (A := A) one⟩ =
        some (Limits.saturate (some Fl.infinity) (some ((limitsArith A).neg bit)) (some bit)) := by
      unfold Limits.velSat
      rw [if_neg]
      · rfl
      · show ¬(false = true)
        simp
    have h1 : some (rec.limited 21) = some (Limits.saturate (some Fl.infinity) (some ((limitsArith A).neg bit)) (some bit)) :=
      hl.symm.trans e
    have h2 := Option.some.inj h1
    rw [h2, Limits.saturate_some, min_eq_right]
    · rfl
    · exact le_max_of_le_left (bit.bounds.2)
  obtain ⟨_, h2, _⟩ := run64_drive (nd := false) hw is (positive64 ht) _ 0 _ rec rfl h0
  have hsent : rec.sent 9 = Flt.fl (dyadic (5 * 2 ^ 50 + 4) (-50) (by decide) (by decide)) := by
    have h3 := h2 reducer64 hd
    have h4 : rec.sent 9 = rec.limited 21 * five := by
      simpa [reducer64, Transmission.Maps.run, actuatorMaps, hr, robot64, Command.quantity] using h3
    rw [h4, hlim, ← rnd_bit A]
    refine (Limits.flt_mul (dyadic_fin _ _) (dyadic_fin _ _)).trans ?_
    rw [dyadic_val (m := 5) (e := 0), ← bit]
    norm_num
  refine ⟨r, is, rec, reducer64, .simple ⟨5, 0⟩, (5 * 2 ^ 50 + 4) * 2 ^ (-50 : ℤ) / 5, hw, rfl, ht, hrec, hd, same_reducer, rfl,
    hmem, (sentMeans_iff false hw rec hd same_reducer _).2 ⟨[(5 * 2 ^ 50 + 4) * 2 ^ (-50 : ℤ)], ?_, ?_⟩, ?_⟩
  · refine .cons ?_ .nil
    rw [hsent]
    refine ⟨_, rfl, ?_⟩
    rw [dyadic_val]
    norm_num
  · simp [Transmission.Maps.run, jointMaps, hr, robot64, Command.quantity]
  · show bit.1 < _
    rw [bit_val]
    norm_num

/-- The condition of `c106_halts`: a period of zero after two cycles, with soft position limits. -/
example (nd : Bool) (m : Mem (Flt A)) :
    let good := [Flt.fl (.int 50 (by decide)), (none : Option (Fl binary64))].map (input64 (A := A))
    let bad : Input (Flt A) := { input64 (none : Option (Fl binary64)) with period := Flt.fl (.int 0 (by decide)) }
    ((robot64 .posSoft exDouble).run nd (good ++ [bad]) m).2 = some .limits ∧
    ((robot64 .posSoft exDouble).run nd (good ++ [bad]) m).1.length = 2 := by
  intro good bad
  have hg : ∀ i ∈ good, GoodPeriod i.period := by
    intro i hi
    obtain ⟨c, _, rfl⟩ := List.mem_map.1 hi
    exact one_good
  have hb : ∀ d : Fl binary64, bad.period = Flt.fl d → d.1 ≤ 0 := by
    intro d hd
    have : Fl.int 0 (by decide) = d := Option.some.inj hd
    rw [← this]
    show ((0 : ℤ) : ℚ) ≤ 0
    norm_num
  obtain ⟨h1, _, h3⟩ := c106_halts nd (robot64 .posSoft exDouble) (robot64_wired .posSoft exDouble) good hg bad hb
    ⟨_, List.mem_of_mem_head? rfl, Or.inl rfl⟩ [] m
  exact ⟨h1, h3⟩

end Verif.Cycle
