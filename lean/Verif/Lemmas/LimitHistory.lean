import Verif.Lemmas.RobotCycleDouble
import Verif.Props.DoubleLimits
import Verif.Props.JointLimitsEffort

/-!
What a limit handle does to the commands of its joint in the course of a run with doubles, whatever the robot is like.
-/

namespace Verif.Cycle

open Verif.Transmission (Mem IsNaN)
open Verif.Limits (Machine Flt Fl Arith Dbl binary64 JointLimits SoftLimits Limiter mkLimiter Within)

variable {A : Machine binary64}

theorem limits_regular : Limits.Regular (limitsArith A) Fl.Fin := Limits.double_regular A.toRounding

theorem limit_nan {K : Type} [LinearOrder K] {B : Arith K} (k : Limits.Kind) (L : JointLimits (Dbl K)) (S : SoftLimits (Dbl K))
    (prev : Dbl K) (i : Limits.Input (Dbl K)) (hc : i.cmd = none) (out : Dbl K) (h : k.limit B L S prev i = some out) :
    out = none := by
  have key : ∀ lo hi, Limits.saturate i.cmd lo hi = none := fun lo hi => by rw [hc]; exact Limits.saturate_none lo hi
  cases k <;> simp only [Limits.Kind.limit, Limits.posSat, Limits.posSoft, Limits.effSat, Limits.effSoft, Limits.velSat,
    Limits.velSoft] at h
  case posSat => cases h; exact key _ _
  case posSoft => split at h; · cases h
                  · cases h; exact key _ _
  case effSat => cases h; exact key _ _
  case effSoft => cases h; exact key _ _
  case velSat =>
    split at h
    · split at h
      · cases h
      · cases h; exact key _ _
    · cases h; exact key _ _
  case velSoft => cases h; exact key _ _

theorem range_fin (L : JointLimits (Fl binary64))
    (hfin : L.hasPosition = true → L.minPosition.Fin ∧ L.maxPosition.Fin ∧ L.minPosition ≤ L.maxPosition) :
    Fl.Fin (Limits.range (limitsArith A) L).1 ∧ Fl.Fin (Limits.range (limitsArith A) L).2 ∧
      (Limits.range (limitsArith A) L).1 ≤ (Limits.range (limitsArith A) L).2 := by
  have hA := (limits_regular (A := A)).toSound
  unfold Limits.range
  by_cases h : L.hasPosition = true
  · rw [if_pos h]; exact hfin h
  · rw [if_neg h]
    refine ⟨hA.fin_neg _ hA.fin_huge, hA.fin_huge, ?_⟩
    have h0 : (limitsArith A).zero ≤ (limitsArith A).huge := by
      show (0 : ℚ) ≤ Limits.Format.max _
      unfold Limits.Format.max
      have : (1 : ℚ) ≤ 2 ^ binary64.prec := one_le_pow₀ (by norm_num)
      have h2 : (0 : ℚ) < 2 ^ binary64.emax := by positivity
      exact mul_nonneg (by linarith) h2.le
    exact (hA.neg_nonpos _ h0).trans h0

/-- The history of a limit handle for the joint variables `j`: in every cycle it computes from the command it left in the
cycle before. -/
structure Hist (kind : Limits.Kind) (j : Limits.Joint) (L : JointLimits (Fl binary64)) (S : SoftLimits (Dbl (Fl binary64)))
    (is : List (Input (Flt A))) (recs : List (Record (Flt A))) : Prop where
  len : recs.length = is.length
  good : ∀ i ∈ is, GoodPeriod i.period
  step : ∀ (k : Nat) i rec, is[k]? = some i → recs[k]? = some rec →
    ∃ p : Dbl (Fl binary64), (k = 0 → p = kind.initial (limitsArith A)) ∧
      (∀ k' rec', k = k' + 1 → recs[k']? = some rec' → p = rec'.limited j.cmd) ∧
      kind.limit (limitsArith A) L.lift S (effective kind i.reset p)
        ⟨i.wish j.cmd, rec.measured j.pos, rec.measured j.vel, i.period⟩ = some (rec.limited j.cmd)

namespace Hist

variable {kind : Limits.Kind} {j : Limits.Joint} {L : JointLimits (Fl binary64)} {S : SoftLimits (Dbl (Fl binary64))}
  {is : List (Input (Flt A))} {recs : List (Record (Flt A))}

theorem nan_iff (H : Hist kind j L S is recs) {k : Nat} {i : Input (Flt A)} {rec : Record (Flt A)}
    (hi : is[k]? = some i) (hrec : recs[k]? = some rec) : IsNaN (rec.limited j.cmd) ↔ IsNaN (i.wish j.cmd) := by
  obtain ⟨p, _, _, hl⟩ := H.step k i rec hi hrec
  constructor
  · intro hn
    unfold IsNaN at hn ⊢
    cases hwish : (i.wish j.cmd : Option (Fl binary64)) with
    | none => rfl
    | some x =>
      obtain ⟨o, ho⟩ := limit_number kind _ _ _ _ x hwish _ hl
      rw [hn] at ho
      cases ho
  · intro hn
    refine limit_nan kind _ _ _ _ ?_ _ hl
    exact hn

/-- What a position limit handle does, with its reference. -/
theorem position_limit (H : Hist kind j L S is recs) (hkind : kind = .posSat ∨ kind = .posSoft) {k : Nat}
    {i : Input (Flt A)} {rec : Record (Flt A)} (hi : is[k]? = some i) (hrec : recs[k]? = some rec) :
    ∃ prev : Dbl (Fl binary64),
      kind.limit (limitsArith A) L.lift S prev ⟨i.wish j.cmd, rec.measured j.pos, rec.measured j.vel, i.period⟩ =
        some (rec.limited j.cmd) ∧
      ∀ p, Reference is recs j k p → (if prev.isNone then rec.measured j.pos else prev) = some p := by
  obtain ⟨p, hp0, hpj, hl⟩ := H.step k i rec hi hrec
  refine ⟨_, hl, fun q hq => ?_⟩
  have hk : k < is.length := (List.getElem?_eq_some_iff.1 hi).1
  by_cases hr : Restarts is j.cmd k
  · have hm' := hq.1 hr rec hrec
    have hnone : effective kind i.reset p = none := by
      unfold effective
      split
      · rfl
      · rename_i hne
        rcases hr with rfl | ⟨i', hi', hreset⟩ | ⟨k', i', rfl, hi', hn⟩
        · rw [hp0 rfl]
          rcases hkind with e | e <;> rw [e] <;> rfl
        · rw [hi] at hi'
          cases hi'
          exact absurd ⟨hreset, hkind⟩ hne
        · have hrec' := List.getElem?_eq_getElem (l := recs) (i := k') (by have := H.len; omega)
          rw [hpj k' _ rfl hrec']
          exact (H.nan_iff hi' hrec').2 hn
    rw [hnone]
    exact hm'
  · cases k with
    | zero => exact absurd (Or.inl rfl) hr
    | succ k' =>
      have hrec' := List.getElem?_eq_getElem (l := recs) (i := k') (by have := H.len; omega)
      have hp := hpj k' _ rfl hrec'
      have hq' := hq.2 hr k' _ rfl hrec'
      have he : effective kind i.reset p = p := by
        unfold effective
        rw [if_neg]
        rintro ⟨hreset, _⟩
        exact hr (Or.inr (Or.inl ⟨i, hi, hreset⟩))
      rw [he, hp, hq']
      rfl

theorem position (H : Hist kind j L S is recs) (hkind : kind = .posSat)
    (hfin : L.hasPosition = true → L.minPosition.Fin ∧ L.maxPosition.Fin ∧ L.minPosition ≤ L.maxPosition)
    (hv : L.hasVelocity = true → L.maxVelocity.Fin ∧ 0 ≤ L.maxVelocity.1)
    (hstart : ∀ k rec, recs[k]? = some rec → Restarts is j.cmd k →
      ∃ x : Fl binary64, rec.measured j.pos = Flt.fl x ∧ x.Fin ∧
        (L.hasPosition = true → L.minPosition.1 ≤ x.1 ∧ x.1 ≤ L.maxPosition.1)) :
    ∀ (k : Nat) i rec, is[k]? = some i → recs[k]? = some rec → ∀ c, i.wish j.cmd = Flt.fl c →
      ∃ o : Fl binary64, rec.limited j.cmd = Flt.fl o ∧ o.Fin ∧
        (L.hasPosition = true → L.minPosition.1 ≤ o.1 ∧ o.1 ≤ L.maxPosition.1) ∧
        (L.hasVelocity = true → ∃ p t b, Reference is recs j k p ∧ i.period = Flt.fl t ∧
          (limitsArith A).mul L.maxVelocity t = some b ∧ Within (limitsArith A) p b o) ∧
        (c.Fin → (L.hasPosition = true → L.minPosition.1 ≤ c.1 ∧ c.1 ≤ L.maxPosition.1) →
          (L.hasVelocity = true → ∀ p t b, Reference is recs j k p → i.period = Flt.fl t →
            (limitsArith A).mul L.maxVelocity t = some b → Within (limitsArith A) p b c) → o = c) := by
  have hlen := H.len
  have ht := H.good
  have hA := (limits_regular (A := A)).toSound
  obtain ⟨f1, f2, f3⟩ := range_fin (A := A) L hfin
  have inr : ∀ x : Fl binary64, x.Fin → (L.hasPosition = true → L.minPosition.1 ≤ x.1 ∧ x.1 ≤ L.maxPosition.1) →
      Limits.InRange (Limits.range (limitsArith A) L) x := by
    intro x hx h
    unfold Limits.range
    by_cases hP : L.hasPosition = true
    · rw [if_pos hP]; exact h hP
    · rw [if_neg hP]
      exact abs_le.1 (fin_max hx)
  -- One cycle, given the reference.
  have step : ∀ (k : Nat) i rec p, is[k]? = some i → recs[k]? = some rec →
      Reference is recs j k p → Limits.InRange (Limits.range (limitsArith A) L) p →
      ∀ c, i.wish j.cmd = Flt.fl c → ∃ o : Fl binary64, rec.limited j.cmd = Flt.fl o ∧
        Limits.InRange (Limits.range (limitsArith A) L) o ∧ (L.hasVelocity = true → ∃ t b, i.period = Flt.fl t ∧
          (limitsArith A).mul L.maxVelocity t = some b ∧ Within (limitsArith A) p b o) ∧
        (Limits.InRange (Limits.range (limitsArith A) L) c → (L.hasVelocity = true → ∀ t b, i.period = Flt.fl t →
          (limitsArith A).mul L.maxVelocity t = some b → Within (limitsArith A) p b c) → o = c) := by
    intro k i rec p hi hrec href hpr c hc
    obtain ⟨prev, hl, hp⟩ := H.position_limit (Or.inl hkind) hi hrec
    obtain ⟨t, et, ft, ht0⟩ := ht i (List.mem_of_getElem? hi)
    obtain ⟨_, g⟩ := Limits.posSat_step hA L f3 hv prev
      ⟨i.wish j.cmd, rec.measured j.pos, rec.measured j.vel, i.period⟩ p t (hp p href) hpr
      (hA.fin_between _ _ _ f1 f2 hpr.1 hpr.2) et ⟨ft, le_of_lt ht0⟩
    obtain ⟨o, e, go, gv, gc⟩ := g c hc
    rw [hkind] at hl
    have hl' : some (Limits.posSat (limitsArith A) L.lift prev
      ⟨i.wish j.cmd, rec.measured j.pos, rec.measured j.vel, i.period⟩) = some (rec.limited j.cmd) := hl
    rw [e] at hl'
    refine ⟨o, (Option.some.inj hl').symm, go, fun hV => ?_, fun h1 h2 => gc h1 fun hV => ?_⟩
    · obtain ⟨b, hb, hw'⟩ := gv hV
      exact ⟨t, b, et, hb, hw'⟩
    · obtain ⟨b, hb, _⟩ := gv hV
      exact ⟨b, hb, h2 hV t b et hb⟩
  -- There is a reference, within the limits.
  have ref : ∀ (k : Nat) i rec, is[k]? = some i → recs[k]? = some rec →
      ∃ p, Reference is recs j k p ∧ Limits.InRange (Limits.range (limitsArith A) L) p := by
    intro k
    induction k with
    | zero =>
      intro i rec hi hrec
      obtain ⟨x, h1, h2, h3⟩ := hstart 0 rec hrec (Or.inl rfl)
      refine ⟨x, ⟨fun _ rec' h' => ?_, fun h' => absurd (Or.inl rfl) h'⟩, inr x h2 h3⟩
      rw [hrec] at h'
      cases h'
      exact h1
    | succ k ih =>
      intro i rec hi hrec
      have hk1 : k + 1 < is.length := (List.getElem?_eq_some_iff.1 hi).1
      by_cases hr : Restarts is j.cmd (k + 1)
      · obtain ⟨x, h1, h2, h3⟩ := hstart (k + 1) rec hrec hr
        refine ⟨x, ⟨fun _ rec' h' => ?_, fun h' => absurd hr h'⟩, inr x h2 h3⟩
        rw [hrec] at h'
        cases h'
        exact h1
      · have hrec' := List.getElem?_eq_getElem (l := recs) (i := k) (by omega)
        have hik := List.getElem?_eq_getElem (l := is) (i := k) (by omega)
        obtain ⟨p, hp, hpr⟩ := ih _ _ hik hrec'
        have hnum : ∃ c, is[k].wish j.cmd = Flt.fl c := by
          cases hwish : (is[k].wish j.cmd : Option (Fl binary64)) with
          | none => exact absurd (Or.inr (Or.inr ⟨k, _, rfl, hik, hwish⟩)) hr
          | some c => exact ⟨c, rfl⟩
        obtain ⟨c, hc⟩ := hnum
        obtain ⟨o, ho, hor, _⟩ := step k _ _ p hik hrec' hp hpr c hc
        refine ⟨o, ⟨fun h' => absurd h' hr, fun _ k' rec'' e h'' => ?_⟩, hor⟩
        have : k' = k := by omega
        subst this
        rw [hrec'] at h''
        cases h''
        exact ho
  intro k i rec hi hrec c hc
  obtain ⟨p, hp, hpr⟩ := ref k i rec hi hrec
  obtain ⟨o, ho, hor, hov, hoc⟩ := step k i rec p hi hrec hp hpr c hc
  refine ⟨o, ho, hA.fin_between _ _ _ f1 f2 hor.1 hor.2, fun hP => ?_, fun hV => ?_,
    fun h1 h2 h3 => hoc (inr c h1 h2) fun hV t b => h3 hV p t b hp⟩
  · have e : Limits.range (limitsArith A) L = (L.minPosition, L.maxPosition) := by unfold Limits.range; rw [if_pos hP]
    rw [e] at hor
    exact ⟨hor.1, hor.2⟩
  · obtain ⟨t, b, h1, h2, h3⟩ := hov hV
    exact ⟨p, t, b, hp, h1, h2, h3⟩

theorem velocity (H : Hist kind j L S is recs) (hkind : kind = .velSat) (hV : L.maxVelocity.Fin ∧ 0 ≤ L.maxVelocity.1)
    (ha : L.hasAcceleration = true → L.maxAcceleration.Fin ∧ 0 ≤ L.maxAcceleration.1)
    (hc : ∀ i ∈ is, ∃ c, i.wish j.cmd = Flt.fl c) :
    ∀ (k : Nat) i rec, is[k]? = some i → recs[k]? = some rec →
      ∃ o : Fl binary64, rec.limited j.cmd = Flt.fl o ∧ |o.1| ≤ L.maxVelocity.1 ∧
        (L.hasAcceleration = true → ∃ p t b, (k = 0 → p = (limitsArith A).zero) ∧
          (∀ k' rec', k = k' + 1 → recs[k']? = some rec' → rec'.limited j.cmd = Flt.fl p) ∧
          i.period = Flt.fl t ∧ (limitsArith A).mul L.maxAcceleration t = some b ∧ Within (limitsArith A) p b o) ∧
        (L.hasAcceleration = false → ∀ c, i.wish j.cmd = Flt.fl c → |c.1| ≤ L.maxVelocity.1 → o = c) := by
  have hlen := H.len
  have ht := H.good
  have hA := (limits_regular (A := A)).toSound
  have step : ∀ (k : Nat) i rec (p : Fl binary64), is[k]? = some i → recs[k]? = some rec →
      (k = 0 → p = (limitsArith A).zero) →
      (∀ k' rec', k = k' + 1 → recs[k']? = some rec' → rec'.limited j.cmd = Flt.fl p) →
      Limits.InRange ((limitsArith A).neg L.maxVelocity, L.maxVelocity) p →
      ∃ o : Fl binary64, rec.limited j.cmd = Flt.fl o ∧ Limits.InRange ((limitsArith A).neg L.maxVelocity, L.maxVelocity) o ∧
        (L.hasAcceleration = true → ∃ t b, i.period = Flt.fl t ∧ (limitsArith A).mul L.maxAcceleration t = some b ∧
          Within (limitsArith A) p b o) ∧
        (L.hasAcceleration = false → ∀ c, i.wish j.cmd = Flt.fl c → |c.1| ≤ L.maxVelocity.1 → o = c) := by
    intro k i rec p hi hrec hp0 hpj hpr
    obtain ⟨q, hq0, hqj, hl⟩ := H.step k i rec hi hrec
    have hk : k < is.length := (List.getElem?_eq_some_iff.1 hi).1
    have hq : q = some p := by
      cases k with
      | zero => rw [hq0 rfl, hp0 rfl, hkind]; rfl
      | succ k =>
        have hrec' := List.getElem?_eq_getElem (l := recs) (i := k) (by omega)
        rw [hqj k _ rfl hrec', hpj k _ rfl hrec']
        rfl
    have he : effective kind i.reset q = some p := by
      unfold effective
      rw [if_neg (by rw [hkind]; simp), hq]
    rw [he, hkind] at hl
    obtain ⟨t, et, ft, ht0⟩ := ht i (List.mem_of_getElem? hi)
    obtain ⟨c, hc'⟩ := hc i (List.mem_of_getElem? hi)
    obtain ⟨o, e, ho, hac, hpass⟩ := Limits.velSat_step hA L hV ha p t hpr
      ⟨i.wish j.cmd, rec.measured j.pos, rec.measured j.vel, i.period⟩ c hc' et ⟨ft, ht0⟩
    refine ⟨o, (Option.some.inj (e.symm.trans hl)).symm, ho, fun h' => ?_, fun hno c' hc'' hb => ?_⟩
    · obtain ⟨b, hb, hw'⟩ := hac h'
      exact ⟨t, b, et, hb, hw'⟩
    · rw [hc'] at hc''
      have e' : c = c' := Option.some.inj hc''
      rw [← e'] at hb ⊢
      exact hpass (abs_le.1 hb) fun h => by rw [hno] at h; cases h
  have ref : ∀ (k : Nat) i rec, is[k]? = some i → recs[k]? = some rec →
      ∃ p : Fl binary64, (k = 0 → p = (limitsArith A).zero) ∧
        (∀ k' rec', k = k' + 1 → recs[k']? = some rec' → rec'.limited j.cmd = Flt.fl p) ∧
        Limits.InRange ((limitsArith A).neg L.maxVelocity, L.maxVelocity) p := by
    intro k
    induction k with
    | zero =>
      intro i rec hi hrec
      exact ⟨_, fun _ => rfl, fun k' _ e => (by cases e), hA.neg_nonpos _ hV.2, hV.2⟩
    | succ k ih =>
      intro i rec hi hrec
      have hk1 : k + 1 < is.length := (List.getElem?_eq_some_iff.1 hi).1
      have hrec' := List.getElem?_eq_getElem (l := recs) (i := k) (by omega)
      have hik := List.getElem?_eq_getElem (l := is) (i := k) (by omega)
      obtain ⟨p, h1, h2, h3⟩ := ih _ _ hik hrec'
      obtain ⟨o, ho, hor, _⟩ := step k _ _ p hik hrec' h1 h2 h3
      refine ⟨o, fun e => (by cases e), fun k' rec'' e h'' => ?_, hor⟩
      have : k' = k := by omega
      subst this
      rw [hrec'] at h''
      cases h''
      exact ho
  intro k i rec hi hrec
  obtain ⟨p, h1, h2, h3⟩ := ref k i rec hi hrec
  obtain ⟨o, ho, hor, hac, hpass⟩ := step k i rec p hi hrec h1 h2 h3
  refine ⟨o, ho, abs_le.2 hor, fun h' => ?_, hpass⟩
  obtain ⟨t, b, g1, g2, g3⟩ := hac h'
  exact ⟨p, t, b, h1, h2, g1, g2, g3⟩

end Hist

end Verif.Cycle
