import Verif.Lemmas.RobotCycle
import Verif.Lemmas.JointLimitsExact
import Verif.Props.JointLimitsEffort
import Verif.Props.JointLimitsVelocity
import Mathlib.Algebra.Order.Field.Basic
import Mathlib.Tactic.NormNum

/-!
Property C91: joint limits hold at the actuators.
-/

namespace Verif.Cycle

open Verif.Transmission (Mem Constructed toJoint toJoint_run jointMaps actuatorMaps run_inv regular)
open Verif.Limits (Arith JointLimits SoftLimits Limiter mkLimiter InRange range)

section

variable {K : Type} [Field K] [LinearOrder K] [IsStrictOrderedRing K]

theorem positive (huge : K) {is : List (Input K)} (ht : ∀ i ∈ is, 0 < i.period) :
    ∀ i ∈ is, Limits.dlt (some (Arith.exact huge).zero) (some i.period) = true :=
  fun i hi => decide_eq_true (ht i hi)

/-- The actuator commands amount to the limited joint commands. -/
theorem amounts_iff (nd : Bool) (huge : K) {r : Robot K} (hw : Wired r) (is : List (Input K))
    (ht : ∀ i ∈ is, 0 < i.period) (m : Mem K) (k : Nat) (i : Input K) (rec : Record K) (hi : is[k]? = some i)
    (hrec : (r.run nd (.exact huge) is m).1[k]? = some rec) (d : Drive K) (hd : d ∈ r.drives) (c : Nat)
    (hc : c ∈ d.jCmd) (x : K) : Amounts nd r rec c x ↔ x = rec.limited c := by
  obtain ⟨_, h2, _⟩ := run_drive (nd := nd) hw is (positive huge ht) m k i rec hi hrec
  have back : ∀ d' ∈ r.drives, ∃ m', toJoint nd r.sends.quantity d'.trans (r.sends.data d'.aCmd)
      (r.sends.data d'.jCmd) rec.sent = .ok m' ∧ d'.jCmd.map m' = d'.jCmd.map rec.limited := by
    intro d' hd'
    have hs := hw.sized d' hd'
    have hn := (List.nodup_flatMap.1 hw.distinct).1 d' hd'
    simp only [Drive.all, List.nodup_append, List.mem_append] at hn
    obtain ⟨⟨_, n4, _⟩, ⟨_, m4, _⟩, hnm⟩ := hn
    obtain ⟨m', e, v, _⟩ := toJoint_run nd r.sends.quantity d'.trans (act := r.sends.data d'.aCmd)
      (jnt := r.sends.data d'.jCmd) (as := d'.aCmd) (js := d'.jCmd) (by cases r.sends <;> rfl) (by cases r.sends <;> rfl)
      hs.aCmd hs.jCmd (List.nodup_append.2 ⟨n4, m4, fun a ha b hb => hnm a (by simp [ha]) b (by simp [hb])⟩) rec.sent
    refine ⟨m', e, ?_⟩
    rw [v, h2 d' hd', (run_inv _ (regular (hw.constructed d' hd')) _ ?_).2]
    rw [List.length_map, hs.jCmd]
    rcases d'.trans.one_num with ⟨_, e1, e2⟩ | ⟨_, e1, e2⟩ <;> rw [e1, e2]
  constructor
  · rintro ⟨d', hd', hc', m', e, rfl⟩
    obtain ⟨m'', e', v⟩ := back d' hd'
    rw [e] at e'
    cases e'
    exact List.map_inj_left.1 v c hc'
  · rintro rfl
    obtain ⟨m', e, v⟩ := back d hd
    exact ⟨d, hd, hc, m', e, List.map_inj_left.1 v c hc⟩

/-- **C91, no cycle is lost.** With positive periods every cycle is completed: no assertion of a limit
handle or a transmission fails, no memory fault occurs, and no NaN arises. -/
theorem c91_completes (nd : Bool) (huge : K) (r : Robot K) (hw : Wired r) (is : List (Input K))
    (ht : ∀ i ∈ is, 0 < i.period) (m : Mem K) :
    (r.run nd (.exact huge) is m).2 = none ∧ (r.run nd (.exact huge) is m).1.length = is.length := by
  obtain ⟨_, _, h1, h2, _⟩ := run_cycled (nd := nd) (A := .exact huge) hw is (positive huge ht) m
  exact ⟨h1, h2⟩

/-- **C91, joints without limits.** The actuator commands of every cycle amount to exactly one value for
each joint, whatever the transmission, and for a joint without limits this is what the controllers
commanded. -/
theorem c91_free_joints (nd : Bool) (huge : K) (r : Robot K) (hw : Wired r) (is : List (Input K))
    (ht : ∀ i ∈ is, 0 < i.period) (m : Mem K) (k : Nat) (i : Input K) (rec : Record K) (hi : is[k]? = some i)
    (hrec : (r.run nd (.exact huge) is m).1[k]? = some rec) (d : Drive K) (hd : d ∈ r.drives) (c : Nat)
    (hc : c ∈ d.jCmd) :
    (∃! x, Amounts nd r rec c x) ∧ ((∀ e ∈ r.limits, e.2.joint.cmd ≠ c) → Amounts nd r rec c (i.wish c)) := by
  have h := amounts_iff nd huge hw is ht m k i rec hi hrec d hd c hc
  refine ⟨⟨rec.limited c, (h _).2 rfl, fun y hy => (h y).1 hy⟩, fun hfree => (h _).2 ?_⟩
  obtain ⟨_, _, h3⟩ := run_drive (nd := nd) hw is (positive huge ht) m k i rec hi hrec
  exact (h3 d hd c hc hfree).symm

theorem amounts_joint (nd : Bool) (huge : K) {r : Robot K} (hw : Wired r) (is : List (Input K))
    (ht : ∀ i ∈ is, 0 < i.period) (m : Mem K) {n : String} {h : Limiter K} (hm : (n, h) ∈ r.limits)
    (k : Nat) (i : Input K) (rec : Record K) (hi : is[k]? = some i)
    (hrec : (r.run nd (.exact huge) is m).1[k]? = some rec) (x : K) :
    Amounts nd r rec h.joint.cmd x ↔ x = rec.limited h.joint.cmd := by
  obtain ⟨d, hd, j, _, _, hj⟩ := hw.joints _ hm
  exact amounts_iff nd huge hw is ht m k i rec hi hrec d hd _ (List.mem_of_getElem? hj) x

/-- One enforcement of position limits. -/
theorem position_step (huge : K) (k : Limits.Kind) (L : JointLimits K) (S : SoftLimits K) (prev : Limits.Dbl K)
    (c x v t p o : K) (ht : 0 < t) (hs : SaneLimits huge k L S t)
    (hp : (if prev.isNone then some x else prev) = some p) (hr : InRange (range (.exact huge) L) p)
    (h : k.limit (.exact huge) L.lift S.lift prev ⟨some c, some x, some v, some t⟩ = some (some o)) :
    InRange (range (.exact huge) L) o ∧ (L.hasVelocity = true → |o - p| ≤ L.maxVelocity * t) := by
  cases k with
  | posSat =>
    obtain ⟨h1, h2⟩ := hs
    obtain ⟨_, g⟩ := Limits.posSat_step (Limits.exact_sound huge) L h1 (fun hv => ⟨trivial, h2 hv⟩) prev
      ⟨some c, some x, some v, some t⟩ p t hp hr trivial rfl ⟨trivial, ht.le⟩
    obtain ⟨o', e, go, gv, _⟩ := g c rfl
    have : o' = o := by
      simp only [Limits.Kind.limit, e, Option.some.injEq] at h
      exact h
    subst this
    refine ⟨go, fun hv => ?_⟩
    obtain ⟨d, hd, y, z, hy, hz, b1, b2⟩ := gv hv
    cases hd; cases hy; cases hz
    rw [abs_le]
    constructor <;> linarith
  | posSoft =>
    obtain ⟨hP, _, hL, hv, hS, hk, hkt⟩ := hs
    have e := Limits.posSoft_exact huge L S prev ⟨some c, some x, some v, some t⟩ p t hp rfl ht
    simp only [Limits.Kind.limit] at h
    rw [e, Limits.saturate_some] at h
    have : o = Limits.sOut L S p t c := (Option.some.inj (Option.some.inj h)).symm
    subst this
    have hrange : range (.exact huge) L = (L.minPosition, L.maxPosition) := by rw [range, if_pos hP]
    rw [hrange] at hr ⊢
    have h1 := Limits.sOut_le (L := L) (S := S) (p := p) (c := c) ht.le hv
    have h2 := Limits.le_sOut (L := L) (S := S) (p := p) (c := c) ht.le hv (fun _ => hr.2)
    have h3 := Limits.min_le_sOut (L := L) (S := S) (p := p) (c := c) ht.le hv hk hkt hP hL hS hr.1
    refine ⟨⟨h3, h1.2.1 hP⟩, fun _ => ?_⟩
    rw [abs_le]
    constructor <;> linarith [h1.1]
  | effSat => cases hs
  | effSoft => cases hs
  | velSat => cases hs
  | velSoft => cases hs

/-- **C91, position limits.** The robot sends position commands and has position limit handles
(saturation or soft limits). Whatever the controllers command, whatever the sensors report, and whatever
other joints and transmissions there are: provided the measured position of the joint is within its
limits in the first cycle and in cycles with a reset, the actuator commands of every cycle amount to a
joint position within the limits; and with velocity limits it is at most `max_velocity * period` away
from what the commands of the cycle before amounted to (in the first cycle and after a reset: from the
measured position). -/
theorem c91_position (nd : Bool) (huge : K) (r : Robot K) (hw : Wired r) (is : List (Input K))
    (ht : ∀ i ∈ is, 0 < i.period) (m : Mem K) (n : String) (h : Limiter K) (hm : (n, h) ∈ r.limits) (j : Limits.Joint)
    (L : JointLimits K) (S : SoftLimits K) (hh : mkLimiter (.exact huge) r.kind j L.lift S.lift = some h)
    (hs : ∀ i ∈ is, SaneLimits huge r.kind L S i.period)
    (hstart : ∀ k i rec, is[k]? = some i → (r.run nd (.exact huge) is m).1[k]? = some rec → k = 0 ∨ i.reset = true →
      InRange (range (.exact huge) L) (rec.measured j.pos)) :
    ∀ (k : Nat) i rec, is[k]? = some i → (r.run nd (.exact huge) is m).1[k]? = some rec →
      ∃ x, Amounts nd r rec j.cmd x ∧ InRange (range (.exact huge) L) x ∧
        (L.hasVelocity = true → k = 0 ∨ i.reset = true → |x - rec.measured j.pos| ≤ L.maxVelocity * i.period) ∧
        (L.hasVelocity = true → i.reset = false → ∀ k' rec' x', k = k' + 1 →
          (r.run nd (.exact huge) is m).1[k']? = some rec' → Amounts nd r rec' j.cmd x' →
          |x - x'| ≤ L.maxVelocity * i.period) := by
  have hh' : h = ⟨j, L.lift, S.lift, r.kind.initial (.exact huge)⟩ := by
    unfold mkLimiter at hh
    split at hh
    · exact (Option.some.inj hh).symm
    · cases hh
  intro k
  induction k with
  | zero =>
    intro i rec hi hrec
    have hi' : i ∈ is := List.mem_of_getElem? hi
    obtain ⟨p, hp0, _, hl⟩ := run_joint (nd := nd) hw is (positive huge ht) m n h hm 0 i rec hi hrec
    have hr := hstart 0 i rec hi hrec (Or.inl rfl)
    have hkind : r.kind = .posSat ∨ r.kind = .posSoft := by
      have := hs i hi'
      revert this
      cases r.kind <;> simp [SaneLimits]
    have hnone : effective r.kind i.reset p = none := by
      have : p = none := by
        rw [hp0 rfl, hh']
        rcases hkind with e | e <;> rw [e] <;> rfl
      unfold effective
      split
      · rfl
      · exact this
    rw [hnone] at hl
    subst hh'
    obtain ⟨g1, g2⟩ := position_step huge r.kind L S none _ _ _ _ (rec.measured j.pos) _ (ht i hi') (hs i hi') rfl hr hl
    refine ⟨_, (amounts_joint nd huge hw is ht m hm 0 i rec hi hrec _).2 rfl, g1, fun hv _ => g2 hv, ?_⟩
    intro _ _ k' rec' x' e
    cases e
  | succ k ih =>
    intro i rec hi hrec
    have hi' : i ∈ is := List.mem_of_getElem? hi
    have hk1 : k + 1 < is.length := (List.getElem?_eq_some_iff.1 hi).1
    have hlen := (c91_completes nd huge r hw is ht m).2
    obtain ⟨p, _, hpj, hl⟩ := run_joint (nd := nd) hw is (positive huge ht) m n h hm (k + 1) i rec hi hrec
    have hkind : r.kind = .posSat ∨ r.kind = .posSoft := by
      have := hs i hi'
      revert this
      cases r.kind <;> simp [SaneLimits]
    have hrec' := List.getElem?_eq_getElem (l := (r.run nd (.exact huge) is m).1) (i := k) (by omega)
    set rec' := (r.run nd (.exact huge) is m).1[k]'(by omega) with hre
    have hik := List.getElem?_eq_getElem (l := is) (i := k) (by omega)
    obtain ⟨x', hx', hr', _⟩ := ih _ rec' hik hrec'
    rw [hh'] at hpj hl
    have hp := hpj k rec' rfl hrec'
    have hx'' := (amounts_joint nd huge hw is ht m hm k _ rec' hik hrec' x').1 (by rw [hh']; exact hx')
    rw [hh'] at hx''
    simp only at hx'' hp hl
    rw [← hx''] at hp
    have hamount := (amounts_joint nd huge hw is ht m hm (k + 1) i rec hi hrec (rec.limited h.joint.cmd)).2 rfl
    rw [hh'] at hamount
    cases hreset : i.reset with
    | true =>
      have hr := hstart (k + 1) i rec hi hrec (Or.inr hreset)
      have hnone : effective r.kind i.reset p = none := by
        unfold effective
        rw [if_pos ⟨hreset, hkind⟩]
      rw [hnone] at hl
      obtain ⟨g1, g2⟩ := position_step huge r.kind L S none _ _ _ _ (rec.measured j.pos) _ (ht i hi') (hs i hi') rfl hr hl
      exact ⟨_, hamount, g1, fun hv _ => g2 hv, fun _ h => (by cases h)⟩
    | false =>
      have hsome : effective r.kind i.reset p = some x' := by
        unfold effective
        rw [if_neg (by simp [hreset]), hp]
      rw [hsome] at hl
      obtain ⟨g1, g2⟩ := position_step huge r.kind L S (some x') _ _ _ _ x' _ (ht i hi') (hs i hi') rfl hr' hl
      refine ⟨_, hamount, g1, fun _ h => ?_, fun hv _ k'' rec'' y e hrec'' hy => ?_⟩
      · rcases h with h | h <;> cases h
      · have : k'' = k := by omega
        subst this
        rw [hrec'] at hrec''
        rw [← Option.some.inj hrec''] at hy
        have hy' := (amounts_joint nd huge hw is ht m hm k'' _ rec' hik hrec' y).1 (by rw [hh']; exact hy)
        rw [hh'] at hy'
        rw [hy', ← hx'']
        exact g2 hv

/-- With actuators that do what they are told, the measured joint positions are the limited commands of
the cycle before. -/
theorem follows_measured (nd : Bool) (huge : K) {r : Robot K} (hw : Wired r) (hsend : r.sends = .position)
    (is : List (Input K)) (ht : ∀ i ∈ is, 0 < i.period) (m : Mem K) (k : Nat) (i i' : Input K) (rec rec' : Record K)
    (hi : is[k]? = some i) (hrec : (r.run nd (.exact huge) is m).1[k]? = some rec) (hi' : is[k + 1]? = some i')
    (hrec' : (r.run nd (.exact huge) is m).1[k + 1]? = some rec') (hf : Follows r rec.sent i'.sense)
    {d : Drive K} (hd : d ∈ r.drives) {x : Nat} {j : Limits.Joint} (hj : d.Joint x j) :
    rec'.measured j.pos = rec.limited j.cmd := by
  obtain ⟨_, h2, _⟩ := run_drive (nd := nd) hw is (positive huge ht) m k i rec hi hrec
  obtain ⟨h1, _, _⟩ := run_drive (nd := nd) hw is (positive huge ht) m (k + 1) i' rec' hi' hrec'
  have hs := hw.sized d hd
  have e : d.aPos.map i'.sense = d.aCmd.map rec.sent := by
    apply List.ext_getElem (by rw [List.length_map, List.length_map, hs.aPos, hs.aCmd])
    intro q q1 q2
    rw [List.length_map] at q1 q2
    rw [List.getElem_map, List.getElem_map]
    exact hf d hd q _ _ (List.getElem?_eq_getElem q1) (List.getElem?_eq_getElem q2)
  have h2' := h2 d hd
  rw [hsend] at h2'
  have := h1 d hd
  rw [e, h2', show Command.quantity .position = .position from rfl,
    (run_inv _ (regular (hw.constructed d hd)) _ (by
      rw [List.length_map, hs.jCmd]
      rcases d.trans.one_num with ⟨_, e1, e2⟩ | ⟨_, e1, e2⟩ <;> rw [e1, e2])).2] at this
  have h3 : (d.jPos.map rec'.measured)[x]? = (d.jCmd.map rec.limited)[x]? := by rw [this]
  rw [List.getElem?_map, List.getElem?_map, hj.1, hj.2.2] at h3
  exact Option.some.inj h3

/-- **C91, closed loop.** The same robot, with actuators that reach the commanded positions by the next
cycle. If the joint starts within its position limits, its measured position stays within them for ever,
whatever the controllers command and whenever the limits are reset; with velocity limits it moves by at
most `max_velocity * period` per cycle; and it is always what the actuator commands of the cycle before
amount to. -/
theorem c91_closed_loop (nd : Bool) (huge : K) (r : Robot K) (hw : Wired r) (hsend : r.sends = .position)
    (is : List (Input K)) (ht : ∀ i ∈ is, 0 < i.period) (m : Mem K) (n : String) (h : Limiter K)
    (hm : (n, h) ∈ r.limits) (j : Limits.Joint) (L : JointLimits K) (S : SoftLimits K)
    (hh : mkLimiter (.exact huge) r.kind j L.lift S.lift = some h)
    (hs : ∀ i ∈ is, SaneLimits huge r.kind L S i.period)
    (hf : ∀ k i' rec, is[k + 1]? = some i' → (r.run nd (.exact huge) is m).1[k]? = some rec → Follows r rec.sent i'.sense)
    (hstart : ∀ rec, (r.run nd (.exact huge) is m).1[0]? = some rec → InRange (range (.exact huge) L) (rec.measured j.pos)) :
    ∀ (k : Nat) i rec, is[k]? = some i → (r.run nd (.exact huge) is m).1[k]? = some rec →
      InRange (range (.exact huge) L) (rec.measured j.pos) ∧
      ∀ rec', (r.run nd (.exact huge) is m).1[k + 1]? = some rec' →
        Amounts nd r rec j.cmd (rec'.measured j.pos) ∧
        (L.hasVelocity = true → |rec'.measured j.pos - rec.measured j.pos| ≤ L.maxVelocity * i.period) := by
  have hh' : h = ⟨j, L.lift, S.lift, r.kind.initial (.exact huge)⟩ := by
    unfold mkLimiter at hh
    split at hh
    · exact (Option.some.inj hh).symm
    · cases hh
  have hlen := (c91_completes nd huge r hw is ht m).2
  obtain ⟨d, hd, q, hj⟩ := hw.joints _ hm
  have hj : d.Joint q j := by rw [hh'] at hj; exact hj
  -- The reference of each enforcement is the measured position.
  have step : ∀ (k : Nat) i rec, is[k]? = some i → (r.run nd (.exact huge) is m).1[k]? = some rec →
      InRange (range (.exact huge) L) (rec.measured j.pos) →
      InRange (range (.exact huge) L) (rec.limited j.cmd) ∧
        (L.hasVelocity = true → |rec.limited j.cmd - rec.measured j.pos| ≤ L.maxVelocity * i.period) := by
    intro k i rec hi hrec hr
    have hi' : i ∈ is := List.mem_of_getElem? hi
    obtain ⟨p, hp0, hpj, hl⟩ := run_joint (nd := nd) hw is (positive huge ht) m n h hm k i rec hi hrec
    have hkind : r.kind = .posSat ∨ r.kind = .posSoft := by
      have := hs i hi'
      revert this
      cases r.kind <;> simp [SaneLimits]
    have hk : k < is.length := (List.getElem?_eq_some_iff.1 hi).1
    have href : (if (effective r.kind i.reset p).isNone then some (rec.measured j.pos) else effective r.kind i.reset p) =
        some (rec.measured j.pos) := by
      by_cases hnone : effective r.kind i.reset p = none
      · rw [hnone]; rfl
      · have he : effective r.kind i.reset p = p := by
          unfold effective at hnone ⊢
          split
          · rename_i hc; rw [if_pos hc] at hnone; exact absurd rfl hnone
          · rfl
        rw [he] at hnone ⊢
        cases k with
        | zero =>
          refine absurd ?_ hnone
          rw [hp0 rfl, hh']
          rcases hkind with e | e <;> rw [e] <;> rfl
        | succ k =>
          have hrec' := List.getElem?_eq_getElem (l := (r.run nd (.exact huge) is m).1) (i := k) (by omega)
          have hik := List.getElem?_eq_getElem (l := is) (i := k) (by omega)
          have hp := hpj k _ rfl hrec'
          rw [hh'] at hp
          have hmeas := follows_measured nd huge hw hsend is ht m k _ i _ rec hik hrec' hi hrec (hf k i _ hi hrec') hd hj
          rw [hp, hmeas]
          rfl
    rw [hh'] at hl
    exact position_step huge r.kind L S _ _ _ _ _ (rec.measured j.pos) _ (ht i hi') (hs i hi') href hr hl
  have next : ∀ (k : Nat) i rec rec', is[k]? = some i → (r.run nd (.exact huge) is m).1[k]? = some rec →
      (r.run nd (.exact huge) is m).1[k + 1]? = some rec' → rec'.measured j.pos = rec.limited j.cmd := by
    intro k i rec rec' hi hrec hrec'
    have hk : k + 1 < (r.run nd (.exact huge) is m).1.length := (List.getElem?_eq_some_iff.1 hrec').1
    have hi' := List.getElem?_eq_getElem (l := is) (i := k + 1) (by omega)
    exact follows_measured nd huge hw hsend is ht m k i _ rec rec' hi hrec hi' hrec' (hf k _ rec hi' hrec) hd hj
  have inr : ∀ (k : Nat) i rec, is[k]? = some i → (r.run nd (.exact huge) is m).1[k]? = some rec →
      InRange (range (.exact huge) L) (rec.measured j.pos) := by
    intro k
    induction k with
    | zero => exact fun i rec _ hrec => hstart rec hrec
    | succ k ih =>
      intro i rec hi hrec
      have hk : k + 1 < is.length := (List.getElem?_eq_some_iff.1 hi).1
      have hrec' := List.getElem?_eq_getElem (l := (r.run nd (.exact huge) is m).1) (i := k) (by omega)
      have hik := List.getElem?_eq_getElem (l := is) (i := k) (by omega)
      rw [next k _ _ rec hik hrec' hrec]
      exact (step k _ _ hik hrec' (ih _ _ hik hrec')).1
  intro k i rec hi hrec
  refine ⟨inr k i rec hi hrec, fun rec' hrec' => ?_⟩
  rw [next k i rec rec' hi hrec hrec']
  refine ⟨?_, (step k i rec hi hrec (inr k i rec hi hrec)).2⟩
  have := (amounts_joint nd huge hw is ht m hm k i rec hi hrec (rec.limited h.joint.cmd)).2 rfl
  rw [hh'] at this
  exact this

/-- **C91, velocity limits.** The robot sends velocity commands and has velocity saturation handles.
Whatever happens, the actuator commands of every cycle amount to a joint velocity within
`± max_velocity`, and with acceleration limits it differs from the one of the cycle before (at first:
from 0) by at most `max_acceleration * period`. -/
theorem c91_velocity (nd : Bool) (huge : K) (r : Robot K) (hw : Wired r) (hkind : r.kind = .velSat)
    (is : List (Input K)) (ht : ∀ i ∈ is, 0 < i.period) (m : Mem K) (n : String) (h : Limiter K)
    (hm : (n, h) ∈ r.limits) (j : Limits.Joint) (L : JointLimits K) (S : SoftLimits K)
    (hh : mkLimiter (.exact huge) r.kind j L.lift S.lift = some h) (hV : 0 ≤ L.maxVelocity)
    (hA : L.hasAcceleration = true → 0 ≤ L.maxAcceleration) :
    ∀ (k : Nat) i rec, is[k]? = some i → (r.run nd (.exact huge) is m).1[k]? = some rec →
      ∃ x, Amounts nd r rec j.cmd x ∧ |x| ≤ L.maxVelocity ∧
        (L.hasAcceleration = true → k = 0 → |x| ≤ L.maxAcceleration * i.period) ∧
        (L.hasAcceleration = true → ∀ k' rec' x', k = k' + 1 → (r.run nd (.exact huge) is m).1[k']? = some rec' →
          Amounts nd r rec' j.cmd x' → |x - x'| ≤ L.maxAcceleration * i.period) := by
  have hh' : h = ⟨j, L.lift, S.lift, some 0⟩ := by
    unfold mkLimiter at hh
    split at hh
    · rw [hkind] at hh; exact (Option.some.inj hh).symm
    · cases hh
  have hlen := (c91_completes nd huge r hw is ht m).2
  have step : ∀ (p : K) (i : Input K) (rec : Record K), i ∈ is → |p| ≤ L.maxVelocity →
      Limits.Kind.velSat.limit (.exact huge) L.lift S.lift (some p)
        ⟨some (i.wish j.cmd), some (rec.measured j.pos), some (rec.measured j.vel), some i.period⟩ =
          some (some (rec.limited j.cmd)) →
      |rec.limited j.cmd| ≤ L.maxVelocity ∧
        (L.hasAcceleration = true → |rec.limited j.cmd - p| ≤ L.maxAcceleration * i.period) := by
    intro p i rec hi hp hl
    obtain ⟨o, e, ho, ha, _⟩ := Limits.velSat_step (Limits.exact_sound huge) L ⟨trivial, hV⟩
      (fun h => ⟨trivial, hA h⟩) p i.period (abs_le.1 hp)
      ⟨some (i.wish j.cmd), some (rec.measured j.pos), some (rec.measured j.vel), some i.period⟩ _ rfl rfl
      ⟨trivial, ht i hi⟩
    simp only [Limits.Kind.limit] at hl
    rw [e] at hl
    have : o = rec.limited j.cmd := Option.some.inj (Option.some.inj hl)
    subst this
    refine ⟨abs_le.2 ho, fun hacc => ?_⟩
    obtain ⟨d, hd, y, z, hy, hz, b1, b2⟩ := ha hacc
    cases hd; cases hy; cases hz
    rw [abs_le]
    constructor <;> linarith
  intro k
  induction k with
  | zero =>
    intro i rec hi hrec
    obtain ⟨p, hp0, _, hl⟩ := run_joint (nd := nd) hw is (positive huge ht) m n h hm 0 i rec hi hrec
    have hp : p = some 0 := by rw [hp0 rfl, hh']
    have he : effective r.kind i.reset p = some 0 := by
      unfold effective
      rw [if_neg (by rw [hkind]; simp), hp]
    rw [he, hkind, hh'] at hl
    obtain ⟨g1, g2⟩ := step 0 i rec (List.mem_of_getElem? hi) (by simpa using hV) hl
    have ham := (amounts_joint nd huge hw is ht m hm 0 i rec hi hrec (rec.limited h.joint.cmd)).2 rfl
    rw [hh'] at ham
    refine ⟨_, ham, g1, fun ha _ => ?_, fun _ k' rec' x' e => (by cases e)⟩
    have := g2 ha
    rwa [sub_zero] at this
  | succ k ih =>
    intro i rec hi hrec
    have hk1 : k + 1 < is.length := (List.getElem?_eq_some_iff.1 hi).1
    obtain ⟨p, _, hpj, hl⟩ := run_joint (nd := nd) hw is (positive huge ht) m n h hm (k + 1) i rec hi hrec
    have hrec' := List.getElem?_eq_getElem (l := (r.run nd (.exact huge) is m).1) (i := k) (by omega)
    have hik := List.getElem?_eq_getElem (l := is) (i := k) (by omega)
    set rec' := (r.run nd (.exact huge) is m).1[k]'(by omega) with hre
    obtain ⟨x', hx', hb', _⟩ := ih _ rec' hik hrec'
    have ham' : ∀ y, Amounts nd r rec' j.cmd y → y = rec'.limited j.cmd := fun y hy => by
      have := (amounts_joint nd huge hw is ht m hm k _ rec' hik hrec' y).1 (by rw [hh']; exact hy)
      rw [hh'] at this
      exact this
    have hp := hpj k rec' rfl hrec'
    have he : effective r.kind i.reset p = some x' := by
      unfold effective
      rw [if_neg (by rw [hkind]; simp), hp, hh', ham' x' hx']
    rw [he, hkind, hh'] at hl
    obtain ⟨g1, g2⟩ := step x' i rec (List.mem_of_getElem? hi) hb' hl
    have ham := (amounts_joint nd huge hw is ht m hm (k + 1) i rec hi hrec (rec.limited h.joint.cmd)).2 rfl
    rw [hh'] at ham
    refine ⟨_, ham, g1, fun _ h => (by cases h), fun ha k'' rec'' y e hrec'' hy => ?_⟩
    have : k'' = k := by omega
    subst this
    rw [hrec'] at hrec''
    rw [← Option.some.inj hrec''] at hy
    rw [ham' y hy, ← ham' x' hx']
    exact g2 ha

/-- **C91, effort limits.** The robot sends effort commands and has effort limit handles (saturation or
soft limits). Whatever happens, the actuator commands of every cycle amount to a joint effort within
`± max_effort`; with saturation handles, if the measured position is beyond a position limit or the
measured velocity beyond the velocity limit, the effort does not push further; and with soft limit handles
the effort does not accelerate a joint at or above its velocity limit, nor push a joint outward that is at
or beyond a soft limit and not moving back. -/
theorem c91_effort (nd : Bool) (huge : K) (r : Robot K) (hw : Wired r) (hkind : r.kind = .effSat ∨ r.kind = .effSoft)
    (is : List (Input K)) (ht : ∀ i ∈ is, 0 < i.period) (m : Mem K) (n : String) (h : Limiter K)
    (hm : (n, h) ∈ r.limits) (j : Limits.Joint) (L : JointLimits K) (S : SoftLimits K)
    (hh : mkLimiter (.exact huge) r.kind j L.lift S.lift = some h) (hE : 0 ≤ L.maxEffort) (hV : 0 ≤ L.maxVelocity)
    (hP : L.minPosition ≤ L.maxPosition) :
    ∀ (k : Nat) i rec, is[k]? = some i → (r.run nd (.exact huge) is m).1[k]? = some rec →
      ∃ x, Amounts nd r rec j.cmd x ∧ |x| ≤ L.maxEffort ∧
        (r.kind = .effSat → (L.hasPosition = true → (rec.measured j.pos < L.minPosition → 0 ≤ x) ∧
          (L.maxPosition < rec.measured j.pos → x ≤ 0)) ∧
          (rec.measured j.vel < -L.maxVelocity → 0 ≤ x) ∧ (L.maxVelocity < rec.measured j.vel → x ≤ 0)) ∧
        (r.kind = .effSoft → 0 ≤ S.kVelocity →
          (L.maxVelocity ≤ rec.measured j.vel → x ≤ 0) ∧ (rec.measured j.vel ≤ -L.maxVelocity → 0 ≤ x) ∧
          (0 ≤ S.kPosition → S.minPosition ≤ S.maxPosition → L.hasPosition = true →
            (S.maxPosition ≤ rec.measured j.pos → 0 ≤ rec.measured j.vel → x ≤ 0) ∧
            (rec.measured j.pos ≤ S.minPosition → rec.measured j.vel ≤ 0 → 0 ≤ x))) := by
  have hh' : h = ⟨j, L.lift, S.lift, r.kind.initial (.exact huge)⟩ := by
    unfold mkLimiter at hh
    split at hh
    · exact (Option.some.inj hh).symm
    · cases hh
  intro k i rec hi hrec
  obtain ⟨p, _, _, hl⟩ := run_joint (nd := nd) hw is (positive huge ht) m n h hm k i rec hi hrec
  have ham := (amounts_joint nd huge hw is ht m hm k i rec hi hrec (rec.limited h.joint.cmd)).2 rfl
  rw [hh'] at ham hl
  refine ⟨_, ham, ?_⟩
  rcases hkind with e | e
  · rw [e] at hl
    obtain ⟨x, g, b1, b2, _, _, b5, b6⟩ := Limits.c41_effort_saturation_partial (.exact huge) L
      ⟨some (i.wish j.cmd), some (rec.measured j.pos), some (rec.measured j.vel), some i.period⟩ (i.wish j.cmd)
      ⟨neg_nonpos.2 hE, hE⟩ hP (by show -L.maxVelocity ≤ _; linarith) rfl
    simp only [Limits.Kind.limit, g, Option.some.injEq] at hl
    subst hl
    exact ⟨abs_le.2 ⟨b1, b2⟩, fun _ => ⟨fun hp => b5 hp _ rfl, b6 _ rfl⟩, fun h => (by rw [e] at h; cases h)⟩
  · rw [e] at hl
    obtain ⟨x, g, b, b1, b2⟩ := Limits.c42_effort_soft_partial huge L S
      ⟨some (i.wish j.cmd), some (rec.measured j.pos), some (rec.measured j.vel), some i.period⟩ _ _ (i.wish j.cmd)
      rfl rfl rfl hE hV
    simp only [Limits.Kind.limit, g, Option.some.injEq] at hl
    subst hl
    exact ⟨b, fun h => (by rw [e] at h; cases h), fun _ hv => ⟨(b1 hv).1, (b1 hv).2, fun hk hs hp => b2 hv hk hs hp⟩⟩

/-- **C91, soft velocity limits.** The robot sends velocity commands and has soft velocity limit handles. In every
cycle (with acceleration limits: in which the measured velocity is not below `-max_velocity`) the actuator commands
amount to a joint velocity within `± max_velocity` that is not positive at or beyond the upper soft limit, nor
negative at or beyond the lower soft limit (with acceleration limits: if the measured velocity is not negative
either); with acceleration limits it exceeds the measured velocity by at most `max_acceleration * period`. What a
measured velocity below these bounds does is in `c44_acceleration_negation`. -/
theorem c91_soft_velocity (nd : Bool) (huge : K) (r : Robot K) (hw : Wired r) (hkind : r.kind = .velSoft)
    (is : List (Input K)) (ht : ∀ i ∈ is, 0 < i.period) (m : Mem K) (n : String) (h : Limiter K)
    (hm : (n, h) ∈ r.limits) (j : Limits.Joint) (L : JointLimits K) (S : SoftLimits K)
    (hh : mkLimiter (.exact huge) r.kind j L.lift S.lift = some h) (hhas : L.hasVelocity = true)
    (hV : 0 ≤ L.maxVelocity) (hA : L.hasAcceleration = true → 0 ≤ L.maxAcceleration) :
    ∀ (k : Nat) i rec, is[k]? = some i → (r.run nd (.exact huge) is m).1[k]? = some rec →
      ∃ x, Amounts nd r rec j.cmd x ∧ x ≤ L.maxVelocity ∧
        ((L.hasAcceleration = true → -L.maxVelocity ≤ rec.measured j.vel) → -L.maxVelocity ≤ x) ∧
        (L.hasPosition = true → 0 ≤ S.kPosition → S.minPosition ≤ S.maxPosition →
          (S.maxPosition ≤ rec.measured j.pos → x ≤ 0) ∧
          (rec.measured j.pos ≤ S.minPosition → (L.hasAcceleration = true → 0 ≤ rec.measured j.vel) → 0 ≤ x)) ∧
        (L.hasAcceleration = true → x ≤ rec.measured j.vel + L.maxAcceleration * i.period) := by
  have hh' : h = ⟨j, L.lift, S.lift, r.kind.initial (.exact huge)⟩ := by
    unfold mkLimiter at hh
    split at hh
    · exact (Option.some.inj hh).symm
    · cases hh
  intro k i rec hi hrec
  obtain ⟨p, _, _, hl⟩ := run_joint (nd := nd) hw is (positive huge ht) m n h hm k i rec hi hrec
  have ham := (amounts_joint nd huge hw is ht m hm k i rec hi hrec (rec.limited h.joint.cmd)).2 rfl
  rw [hh'] at ham hl
  refine ⟨_, ham, ?_⟩
  rw [hkind] at hl
  have hlim : Limits.velocityLimit huge L = L.maxVelocity := by rw [Limits.velocityLimit, if_pos hhas]
  have ht0 := ht i (List.mem_of_getElem? hi)
  have hpos : L.hasAcceleration = true → 0 ≤ L.maxAcceleration * i.period := fun g => mul_nonneg (hA g) ht0.le
  obtain ⟨x, g, b1, b2, b3⟩ := Limits.c44_velocity_soft_partial huge L S
    ⟨some (i.wish j.cmd), some (rec.measured j.pos), some (rec.measured j.vel), some i.period⟩ _ _ _ (i.wish j.cmd)
    rfl rfl rfl rfl (by rw [hlim]; exact hV)
  have b4 : L.hasAcceleration = true → x ≤ rec.measured j.vel + L.maxAcceleration * i.period := fun ha => by
    obtain ⟨y, g', b⟩ := Limits.c44_acceleration_up huge L S
      ⟨some (i.wish j.cmd), some (rec.measured j.pos), some (rec.measured j.vel), some i.period⟩ _ _ _ (i.wish j.cmd)
      rfl rfl rfl rfl ha
    rw [g] at g'
    rw [Option.some.inj g']
    exact b
  rw [hlim] at b1 b2 b3
  simp only [Limits.Kind.limit, g, Option.some.injEq] at hl
  subst hl
  refine ⟨b1, fun h => b2 fun ha => ?_, fun hP hk hS => ⟨fun hx => ?_, fun hx hv => (b3 hP hk hS).2 hx fun ha => ?_⟩, b4⟩
  · have := h ha
    have := hpos ha
    linarith
  · have := (b3 hP hk hS).1 hx
    have : 0 ≤ min (S.kPosition * (rec.measured j.pos - S.maxPosition)) L.maxVelocity :=
      le_min (mul_nonneg hk (sub_nonneg.2 hx)) hV
    linarith
  · have := hv ha
    have := hpos ha
    linarith

end

/-! ### The robot of the documentation -/

/-- transmission_interface/mainpage.dox 97-101: a reducer and a differential. -/
def docDrives : List (Drive ℚ) :=
  [⟨.differential ⟨(5, 5), (1, 1), (0, 0), false⟩, [1, 2], [4, 5], [7, 8], [10, 11], [13, 14], [16, 17], [19, 20], [22, 23]⟩,
   ⟨.simple ⟨-10, 1⟩, [0], [3], [6], [9], [12], [15], [18], [21]⟩]

/-- Position range `[-1, 2]` and maximal velocity 1. -/
def docLimits : JointLimits ℚ := ⟨-1, 2, 1, 0, 0, true, true, false, false⟩

/-- The joint behind the reducer and the first one of the differential have limits, the other one has
none. -/
def docRobot (k : Limits.Kind) : Robot ℚ where
  sends := .position
  drives := docDrives
  kind := k
  limits := [("bar", ⟨⟨"bar", 13, 16, 22⟩, docLimits.lift, SoftLimits.lift ⟨0, 1, 1, 0⟩, none⟩),
    ("foo", ⟨⟨"foo", 12, 15, 21⟩, docLimits.lift, SoftLimits.lift ⟨0, 1, 1, 0⟩, none⟩)]

theorem docRobot_wired (k : Limits.Kind) : Wired (docRobot k) where
  constructed := by
    simp only [docRobot, docDrives, List.mem_cons, List.not_mem_nil, or_false, forall_eq_or_imp, forall_eq]
    exact ⟨.differential [5, 5] [1, 1] [0, 0] false _ rfl, .simple (-10) 1 _ rfl⟩
  sized := by
    simp only [docRobot, docDrives, List.mem_cons, List.not_mem_nil, or_false, forall_eq_or_imp, forall_eq]
    exact ⟨⟨rfl, rfl, rfl, rfl, rfl, rfl, rfl, rfl⟩, ⟨rfl, rfl, rfl, rfl, rfl, rfl, rfl, rfl⟩⟩
  distinct := by
    show (docDrives.flatMap Drive.all).Nodup
    decide
  sorted := by
    simp only [docRobot, KeysSorted, smapKeys, List.map_cons, List.map_nil, List.pairwise_cons, List.mem_cons,
      List.not_mem_nil, or_false, forall_eq]
    exact ⟨by decide, by simp⟩
  joints := by
    simp only [docRobot, docDrives, List.mem_cons, List.not_mem_nil, or_false, forall_eq_or_imp, forall_eq]
    exact ⟨⟨_, Or.inl rfl, 0, rfl, rfl, rfl⟩, ⟨_, Or.inr rfl, 0, rfl, rfl, rfl⟩⟩
  once := by
    simp [docRobot]

example (k : Limits.Kind) (hk : k = .posSat ∨ k = .posSoft) : SaneLimits 1000 k docLimits ⟨0, 1, 1, 0⟩ (1 / 2) := by
  rcases hk with rfl | rfl <;> norm_num [SaneLimits, docLimits, range]

/-- Three cycles in which the controllers want the joints to go to 100, -50 and 7; the actuators do what
they are told, starting with all joints at 1, 0 and 0. -/
def docInputs : List (Input ℚ) :=
  [⟨fun _ => 0, fun c => if c = 21 then 100 else if c = 22 then -50 else 7, 1 / 2, false⟩,
   ⟨fun c => if c = 0 then -5 else if c = 1 then 65 / 2 else -75 / 2, fun c => if c = 21 then 100 else if c = 22 then -50 else 7,
      1 / 2, true⟩,
   ⟨fun c => if c = 0 then -10 else if c = 1 then 30 else -40, fun c => if c = 21 then 100 else if c = 22 then -50 else 7,
      1 / 2, false⟩]

/-- What is seen in a cycle: the measured joint positions and the actuator commands. -/
def Record.shown (rec : Record ℚ) : List ℚ × List ℚ := ([12, 13, 14].map rec.measured, [9, 10, 11].map rec.sent)

example : ((docRobot .posSat).run false (.exact 1000) docInputs fun _ => 0).1.map Record.shown =
    [([1, 0, 0], [-5, 65 / 2, -75 / 2]), ([3 / 2, -1 / 2, 7], [-10, 30, -40]), ([2, -1, 7], [-10, 30, -40])] := by
  decide +kernel

theorem follows_iff {K : Type} (r : Robot K) (sent sense : Mem K) :
    Follows r sent sense ↔ ∀ d ∈ r.drives, ∀ p ∈ d.aPos.zip d.aCmd, sense p.1 = sent p.2 := by
  constructor
  · intro h d hd p hp
    obtain ⟨i, hi⟩ := List.getElem?_of_mem hp
    rw [List.getElem?_zip_eq_some] at hi
    exact h d hd i _ _ hi.1 hi.2
  · intro h d hd i a b ha hb
    exact h d hd (a, b) (List.mem_of_getElem? (i := i) (List.getElem?_zip_eq_some.2 ⟨ha, hb⟩))

instance {K : Type} [DecidableEq K] (r : Robot K) (sent sense : Mem K) : Decidable (Follows r sent sense) :=
  decidable_of_iff _ (follows_iff r sent sense).symm

/-- The hypotheses of `c91_closed_loop` hold for these cycles. -/
example : (∀ k i' rec, docInputs[k + 1]? = some i' →
      ((docRobot .posSat).run false (.exact 1000) docInputs fun _ => 0).1[k]? = some rec →
      Follows (docRobot .posSat) rec.sent i'.sense) ∧
    ∀ rec, ((docRobot .posSat).run false (.exact 1000) docInputs fun _ => 0).1[0]? = some rec →
      InRange (range (.exact 1000) docLimits) (rec.measured 12) := by
  have h1 : ∀ p ∈ (((docRobot .posSat).run false (.exact 1000) docInputs fun _ => 0).1).zip docInputs.tail,
      Follows (docRobot .posSat) p.1.sent p.2.sense := by decide +kernel
  have h2 : ∀ rec ∈ ((docRobot .posSat).run false (.exact 1000) docInputs fun _ => 0).1,
      -1 ≤ rec.measured 12 ∧ rec.measured 12 ≤ 2 := by decide +kernel
  refine ⟨fun k i' rec hi hr => ?_, fun rec hr => h2 rec (List.mem_of_getElem? hr)⟩
  exact h1 (rec, i') (List.mem_of_getElem? (i := k) (List.getElem?_zip_eq_some.2 ⟨hr, by rw [List.getElem?_tail, hi]⟩))

/-- The same robot sending velocities or efforts. -/
def docRobotFor (w : Command) (k : Limits.Kind) : Robot ℚ := { docRobot k with sends := w }

theorem docRobotFor_wired (w : Command) (k : Limits.Kind) : Wired (docRobotFor w k) :=
  let h := docRobot_wired k
  ⟨h.constructed, h.sized, h.distinct, h.sorted, h.joints, h.once⟩

/-- Soft velocity limits: beyond the upper soft limit the joint behind the reducer is sent back, whatever the
controllers want. -/
example : mkLimiter (.exact 1000) .velSoft ⟨"foo", 12, 15, 21⟩ docLimits.lift (SoftLimits.lift ⟨0, 1, 1, 0⟩) =
      some ⟨⟨"foo", 12, 15, 21⟩, docLimits.lift, SoftLimits.lift ⟨0, 1, 1, 0⟩, none⟩ ∧
    (((docRobotFor .velocity .velSoft).run false (.exact 1000)
      [⟨fun c => if c = 0 then -5 else 0, fun _ => 7, 1 / 2, false⟩] fun _ => 0).1.map
        fun rec => (rec.measured 12, rec.limited 21, rec.sent 9)) = [(3 / 2, -1 / 2, 5)] := by
  exact ⟨by rfl, by decide +kernel⟩

/-- **C91, why the start matters.** If a joint with velocity limits is measured below its position
limits, the actuator commands amount to a position outside the limits, although the controllers command
one inside. -/
theorem c91_start_negation :
    ∃ (r : Robot ℚ) (i : Input ℚ) (rec : Record ℚ) (x : ℚ), Wired r ∧ r.kind = .posSat ∧
      SaneLimits 1000 r.kind docLimits ⟨0, 1, 1, 0⟩ i.period ∧ InRange (range (.exact 1000) docLimits) (i.wish 21) ∧
      (r.run false (.exact 1000) [i] fun _ => 0).1 = [rec] ∧ Amounts false r rec 21 x ∧
      ¬InRange (range (.exact 1000) docLimits) x := by
  have hw := docRobot_wired .posSat
  set i : Input ℚ := ⟨fun c => if c = 0 then 50 else 0, fun _ => 1, 1 / 2, false⟩
  obtain ⟨rec, hrec⟩ : ∃ rec, ((docRobot .posSat).run false (.exact 1000) [i] fun _ => 0).1 = [rec] :=
    List.length_eq_one_iff.1 (c91_completes false 1000 _ hw [i] (by simp [i]) _).2
  have h0 : ((docRobot .posSat).run false (.exact 1000) [i] fun _ => 0).1[0]? = some rec := by rw [hrec]; rfl
  refine ⟨_, i, rec, _, hw, rfl, by norm_num [SaneLimits, docRobot, docLimits, range, i], by norm_num [InRange, range, docLimits, i], hrec,
    (amounts_iff false 1000 hw [i] (by simp [i]) _ 0 i rec rfl h0 docDrives[1] (by simp [docRobot, docDrives]) 21
      (by simp [docDrives]) _).2 rfl, ?_⟩
  have : (((docRobot .posSat).run false (.exact 1000) [i] fun _ => 0).1.map fun r => r.limited 21) = [-7 / 2] := by
    decide +kernel
  rw [hrec] at this
  have h9 : rec.limited 21 = -7 / 2 := by simpa using this
  rw [h9]
  norm_num [InRange, range, docLimits]

end Verif.Cycle
