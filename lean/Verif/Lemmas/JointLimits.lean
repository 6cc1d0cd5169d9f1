import Verif.Spec.JointLimits
import Mathlib.Tactic.Linarith

/-!
Lemmas about the joint limit enforcers.
-/

namespace Verif.Limits

variable {K : Type} [LinearOrder K]

theorem dmax_some (a b : K) : dmax (some a) (some b) = some (max a b) := by
  simp only [dmax, dlt, decide_eq_true_eq]
  split <;> rename_i h
  · rw [max_eq_right h.le]
  · rw [max_eq_left (not_lt.1 h)]

theorem dmin_some (a b : K) : dmin (some a) (some b) = some (min a b) := by
  simp only [dmin, dlt, decide_eq_true_eq]
  split <;> rename_i h
  · rw [min_eq_right h.le]
  · rw [min_eq_left (not_lt.1 h)]

theorem saturate_some (v lo hi : K) :
    saturate (some v) (some lo) (some hi) = some (min (max v lo) hi) := by
  rw [saturate, dmax_some, dmin_some]

theorem saturate_none (lo hi : Dbl K) : saturate none lo hi = none := by
  simp [saturate, dmax, dmin, dlt]

theorem saturate_nan_bounds (v : Dbl K) : saturate v none none = v := by
  cases v <;> simp [saturate, dmax, dmin, dlt]

/-- The value of a saturation is the upper bound, or lies between the bounds. -/
theorem clamp_le (v lo hi : K) : min (max v lo) hi ≤ hi := min_le_right _ _

theorem le_clamp (v lo hi : K) : min lo hi ≤ min (max v lo) hi :=
  min_le_min_right _ (le_max_right _ _)

theorem clamp_of_mem {v lo hi : K} (h1 : lo ≤ v) (h2 : v ≤ hi) : min (max v lo) hi = v := by
  rw [max_eq_left h1, min_eq_left h2]

theorem clamp_idem (v lo hi : K) : min (max (min (max v lo) hi) lo) hi = min (max v lo) hi := by
  rcases le_total lo hi with h | h
  · rw [max_eq_left (le_min (le_max_right _ _) h), min_eq_left (min_le_right _ _)]
  · have : min (max v lo) hi = hi := min_eq_right (h.trans (le_max_right _ _))
    rw [this]
    exact min_eq_right (le_max_left _ _)

theorem saturate_idem (v lo hi : Dbl K) : saturate (saturate v lo hi) lo hi = saturate v lo hi := by
  cases v with
  | none => simp [saturate_none]
  | some v =>
    cases lo with
    | none =>
      cases hi with
      | none => simp [saturate_nan_bounds]
      | some hi =>
        have h : ∀ x : K, saturate (some x) none (some hi) = some (min x hi) := by
          intro x
          have : dmax (some x) none = some x := by simp [dmax, dlt]
          rw [saturate, this, dmin_some]
        simp [h]
    | some lo =>
      cases hi with
      | none =>
        have h : ∀ x : K, saturate (some x) (some lo) none = some (max x lo) := by
          intro x
          rw [saturate, dmax_some]
          simp [dmin, dlt]
        simp [h]
      | some hi => simp [saturate_some, clamp_idem]

variable {A : Arith K} {Fin : K → Prop}

theorem posSatRange_lift (L : JointLimits K) :
    posSatRange A L.lift = (some (range A L).1, some (range A L).2) := by
  unfold posSatRange range
  by_cases h : L.hasPosition = true
  · have h' : L.lift.hasPosition = true := h
    rw [if_pos h, if_pos h']
    rfl
  · have h' : ¬L.lift.hasPosition = true := h
    rw [if_neg h, if_neg h']

/-- One call of the position saturation with a reference inside the range. -/
theorem posSat_step (hA : Sound A Fin) (L : JointLimits K) (hr : (range A L).1 ≤ (range A L).2)
    (hv : L.hasVelocity = true → Fin L.maxVelocity ∧ A.zero ≤ L.maxVelocity) (prev : Dbl K) (i : Input (Dbl K))
    (p t : K) (hp : (if prev.isNone then i.pos else prev) = some p) (hpr : InRange (range A L) p)
    (hfin : Fin p) (ht : i.dt = some t) (htf : Fin t ∧ A.zero ≤ t) :
    (i.cmd = none → posSat A L.lift prev i = none) ∧
    (∀ c, i.cmd = some c → ∃ o, posSat A L.lift prev i = some o ∧ InRange (range A L) o ∧
      (L.hasVelocity = true → ∃ d, A.mul L.maxVelocity t = some d ∧ Within A p d o) ∧
      (InRange (range A L) c → (L.hasVelocity = true → ∃ d, A.mul L.maxVelocity t = some d ∧ Within A p d c) →
        o = c)) := by
  by_cases hV : L.hasVelocity = true
  · obtain ⟨d, hd, hd0⟩ := hA.mul_nonneg _ _ (hv hV).1 htf.1 (hv hV).2 htf.2
    obtain ⟨x, hx, hxp⟩ := hA.sub_le p d hfin hd0
    obtain ⟨y, hy, hyp⟩ := hA.add_ge p d hfin hd0
    have e : posSat A L.lift prev i = saturate i.cmd (some (max x (range A L).1)) (some (min y (range A L).2)) := by
      have e1 : L.lift.hasVelocity = true := hV
      have e2 : A.dmul L.lift.maxVelocity i.dt = some d := by
        rw [ht]; exact hd
      have e3 : A.dsub (some p) (some d) = some x := hx
      have e4 : A.dadd (some p) (some d) = some y := hy
      simp only [posSat, hp, e1, if_true, e2, e3, e4, posSatRange_lift, dmax_some, dmin_some]
    rw [e]
    refine ⟨fun h => by rw [h, saturate_none], fun c hc => ?_⟩
    rw [hc, saturate_some]
    have hlo : max x (range A L).1 ≤ min y (range A L).2 :=
      (max_le hxp hpr.1).trans (le_min hyp hpr.2)
    have h1 : max x (range A L).1 ≤ min (max c (max x (range A L).1)) (min y (range A L).2) :=
      le_min (le_max_right _ _) hlo
    have h2 : min (max c (max x (range A L).1)) (min y (range A L).2) ≤ min y (range A L).2 := min_le_right _ _
    refine ⟨_, rfl, ⟨(le_max_right _ _).trans h1, h2.trans (min_le_right _ _)⟩,
      fun _ => ⟨d, hd, x, y, hx, hy, (le_max_left _ _).trans h1, h2.trans (min_le_left _ _)⟩, ?_⟩
    intro hcr hcv
    obtain ⟨d', hd', x', y', hx', hy', h3, h4⟩ := hcv hV
    rw [hd] at hd'; cases hd'
    rw [hx] at hx'; cases hx'
    rw [hy] at hy'; cases hy'
    exact clamp_of_mem (max_le h3 hcr.1) (le_min h4 hcr.2)
  · have e : posSat A L.lift prev i = saturate i.cmd (some (range A L).1) (some (range A L).2) := by
      have e1 : L.lift.hasVelocity = false := by
        show L.hasVelocity = false
        simpa using hV
      simp only [posSat, e1, posSatRange_lift, Bool.false_eq_true, if_false]
    rw [e]
    refine ⟨fun h => by rw [h, saturate_none], fun c hc => ?_⟩
    rw [hc, saturate_some]
    exact ⟨_, rfl, ⟨le_min (le_max_right _ _) hr, min_le_right _ _⟩, fun h => absurd h hV,
      fun hcr _ => clamp_of_mem hcr.1 hcr.2⟩

/-! ### Histories -/

omit [LinearOrder K] in
/-- A history of an enforcer that keeps the previous command. -/
def runWith (f : Dbl K → Input (Dbl K) → Option (Dbl K)) : Dbl K → List (Call (Dbl K)) → List (Record (Dbl K))
  | _, [] => []
  | _, .reset :: cs => runWith f none cs
  | prev, .enforce i :: cs =>
    match f prev i with
    | none => []
    | some out => ⟨if prev.isNone then i.pos else prev, i, out⟩ :: runWith f out cs

theorem posSatRun_eq (L : JointLimits (Dbl K)) (prev : Dbl K) (cs : List (Call (Dbl K))) :
    posSatRun A L prev cs = runWith (fun prev i => some (posSat A L prev i)) prev cs := by
  induction cs generalizing prev with
  | nil => rfl
  | cons c cs ih => cases c <;> simp [posSatRun, runWith, ih]

theorem posSoftRun_eq (L : JointLimits (Dbl K)) (S : SoftLimits (Dbl K)) (prev : Dbl K)
    (cs : List (Call (Dbl K))) :
    posSoftRun A L S prev cs = runWith (posSoft A L S) prev cs := by
  induction cs generalizing prev with
  | nil => rfl
  | cons c cs ih =>
    cases c with
    | reset => simp [posSoftRun, runWith, ih]
    | enforce i =>
      simp only [posSoftRun, runWith]
      cases posSoft A L S prev i <;> simp [ih]

omit [LinearOrder K] in
/-- If every single call keeps the reference good, every record of a history is as the calls make
it. -/
theorem runWith_inv {f : Dbl K → Input (Dbl K) → Option (Dbl K)} {Good T : K → Prop}
    {Post : K → K → K → K → Prop}
    (hf : ∀ prev i p t, (if prev.isNone then i.pos else prev) = some p → Good p → i.dt = some t → T t →
      ∃ out, f prev i = some out ∧ (i.cmd = none → out = none) ∧
        ∀ c, i.cmd = some c → ∃ o, out = some o ∧ Good o ∧ Post p t c o)
    (cs : List (Call (Dbl K))) (prev : Dbl K) (hprev : ∀ p, prev = some p → Good p)
    (hs : StartsIn Good prev.isNone cs) (ht : Periods T cs) :
    ∀ r ∈ runWith f prev cs, ∃ p t, r.ref = some p ∧ Good p ∧ r.input.dt = some t ∧
      (r.input.cmd = none → r.out = none) ∧
      ∀ c, r.input.cmd = some c → ∃ o, r.out = some o ∧ Good o ∧ Post p t c o := by
  induction cs generalizing prev with
  | nil => simp [runWith]
  | cons c cs ih =>
    have ht' : Periods T cs := fun i hi => ht i (by simp [hi])
    cases c with
    | reset =>
      simp only [runWith]
      exact ih none (by simp) hs ht'
    | enforce i =>
      obtain ⟨h1, h2⟩ := hs
      obtain ⟨t, hit, htt⟩ := ht i (by simp)
      obtain ⟨p, hp, hg⟩ : ∃ p, (if prev.isNone then i.pos else prev) = some p ∧ Good p := by
        cases prev with
        | none => obtain ⟨p, hp, hg⟩ := h1 rfl; exact ⟨p, hp, hg⟩
        | some p => exact ⟨p, rfl, hprev p rfl⟩
      obtain ⟨out, ho, hn, hc⟩ := hf prev i p t hp hg hit htt
      simp only [runWith, ho]
      intro r hr
      rcases List.mem_cons.1 hr with rfl | hr
      · exact ⟨p, t, hp, hg, hit, hn, hc⟩
      · refine ih out ?_ ?_ ht' r hr
        · intro q hq
          cases hcmd : i.cmd with
          | none => rw [hn hcmd] at hq; cases hq
          | some c =>
            obtain ⟨o, ho', hgo, _⟩ := hc c hcmd
            rw [ho'] at hq; cases hq; exact hgo
        · cases hcmd : i.cmd with
          | none => rw [hn hcmd]; rw [hcmd] at h2; exact h2
          | some c =>
            obtain ⟨o, ho', _⟩ := hc c hcmd
            rw [ho']; rw [hcmd] at h2; exact h2

omit [LinearOrder K] in
theorem runWith_inputs {f : Dbl K → Input (Dbl K) → Option (Dbl K)} (cs : List (Call (Dbl K))) (prev : Dbl K)
    (hf : ∀ prev i, Call.enforce i ∈ cs → f prev i ≠ none) : (runWith f prev cs).map (·.input) = inputs cs := by
  induction cs generalizing prev with
  | nil => rfl
  | cons c cs ih =>
    cases c with
    | reset => exact ih none fun p i h => hf p i (by simp [h])
    | enforce i =>
      have h := hf prev i (by simp)
      obtain ⟨o, ho⟩ := Option.ne_none_iff_exists'.1 h
      simp only [runWith, ho, List.map_cons, inputs, List.filterMap_cons]
      rw [ih o fun p i h => hf p i (by simp [h])]
      rfl

omit [LinearOrder K] in
/-- What the reference of a record is: the command written by the call before it. -/
theorem runWith_pair {f : Dbl K → Input (Dbl K) → Option (Dbl K)} (cs : List (Call (Dbl K))) (prev : Dbl K)
    (l1 l2 : List (Call (Dbl K))) (i j : Input (Dbl K)) (hcs : cs = l1 ++ .enforce i :: .enforce j :: l2)
    (hf : ∀ prev i, Call.enforce i ∈ cs → f prev i ≠ none) :
    ∃ r1 r2 m1 m2, runWith f prev cs = m1 ++ r1 :: r2 :: m2 ∧ r1.input = i ∧ r2.input = j ∧
      r2.ref = if r1.out.isNone then j.pos else r1.out := by
  subst hcs
  induction l1 generalizing prev with
  | nil =>
    obtain ⟨o1, h1⟩ := Option.ne_none_iff_exists'.1 (hf prev i (by simp))
    obtain ⟨o2, h2⟩ := Option.ne_none_iff_exists'.1 (hf o1 j (by simp))
    exact ⟨⟨if prev.isNone then i.pos else prev, i, o1⟩, ⟨if o1.isNone then j.pos else o1, j, o2⟩, [],
      runWith f o2 l2, by simp [runWith, h1, h2], rfl, rfl, rfl⟩
  | cons c l1 ih =>
    cases c with
    | reset =>
      obtain ⟨r1, r2, m1, m2, e, h⟩ := ih none (fun prev k hk => hf prev k (by
        simp only [List.cons_append, List.mem_cons]; exact Or.inr hk))
      exact ⟨r1, r2, m1, m2, by simpa [runWith] using e, h⟩
    | enforce k =>
      obtain ⟨o, ho⟩ := Option.ne_none_iff_exists'.1 (hf prev k (by simp))
      obtain ⟨r1, r2, m1, m2, e, h⟩ := ih o (fun prev k hk => hf prev k (by
        simp only [List.cons_append, List.mem_cons]; exact Or.inr hk))
      exact ⟨r1, r2, ⟨if prev.isNone then k.pos else prev, k, o⟩ :: m1, m2, by simp [runWith, ho, e], h⟩

end Verif.Limits
