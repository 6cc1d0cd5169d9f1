import Verif.Lemmas.JointLimits

/-!
The soft limits in regular arithmetic (with rounding and overflow).
-/

namespace Verif.Limits

variable {K : Type} [LinearOrder K] {A : Arith K} {Fin : K → Prop}

/-- The soft limits are usable: finite, and with a positive gain. -/
structure SoftOk (A : Arith K) (Fin : K → Prop) (S : SoftLimits K) : Prop where
  min : Fin S.minPosition
  max : Fin S.maxPosition
  gain : Fin S.kPosition
  pos : A.zero < S.kPosition

/-- A bound on the velocity, from the distance to one soft limit. -/
theorem softBound (hA : Regular A Fin) {k s p v : K} (hk : Fin k) (h0 : A.zero < k) (hs : Fin s) (hp : Fin p) (hv : A.zero ≤ v) :
    ∃ b, saturate (A.dmul (A.dneg (some k)) (A.dsub (some p) (some s))) (A.dneg (some v)) (some v) = some b ∧
      A.neg v ≤ b ∧ b ≤ v ∧ (s ≤ p → b ≤ A.zero) ∧ (p ≤ s → A.zero ≤ b) := by
  obtain ⟨d, hd, d1, d2⟩ := hA.sub_sign p s hp hs
  obtain ⟨c, hc, c1, c2⟩ := hA.mul_sign k d hk h0
  have e1 : A.dsub (some p) (some s) = some d := hd
  have e2 : A.dmul (A.dneg (some k)) (some d) = some c := hc
  have e3 : A.dneg (some v) = some (A.neg v) := rfl
  have hn : A.neg v ≤ A.zero := hA.neg_nonpos v hv
  rw [e1, e2, e3, saturate_some]
  refine ⟨_, rfl, le_min (le_max_right _ _) (hn.trans hv), min_le_right _ _, fun h => ?_, fun h => ?_⟩
  · exact (min_le_left _ _).trans (max_le (c1 (d1 h)) hn)
  · exact le_min ((c2 (d2 h)).trans (le_max_left _ _)) hv

/-- The velocity bounds. -/
theorem softVel_regular (hA : Regular A Fin) (L : JointLimits K) (S : SoftLimits K) {v p : K} (hv : A.zero ≤ v)
    (hS : L.hasPosition = true → SoftOk A Fin S ∧ Fin p) :
    ∃ lo hi, softVel A L.lift S.lift (some v) (some p) = (some lo, some hi) ∧ A.neg v ≤ lo ∧ lo ≤ v ∧ A.neg v ≤ hi ∧ hi ≤ v ∧
      (L.hasPosition = true → (S.minPosition ≤ p → lo ≤ A.zero) ∧ (p ≤ S.minPosition → A.zero ≤ lo) ∧
        (S.maxPosition ≤ p → hi ≤ A.zero) ∧ (p ≤ S.maxPosition → A.zero ≤ hi)) := by
  have hn : A.neg v ≤ A.zero := hA.neg_nonpos v hv
  unfold softVel
  by_cases h : L.hasPosition = true
  · obtain ⟨hs, hp⟩ := hS h
    have h' : L.lift.hasPosition = true := h
    rw [if_pos h']
    obtain ⟨a, ha, a1, a2, a3, a4⟩ := softBound hA hs.gain hs.pos hs.min hp hv
    obtain ⟨b, hb, b1, b2, b3, b4⟩ := softBound hA hs.gain hs.pos hs.max hp hv
    refine ⟨a, b, ?_, a1, a2, b1, b2, fun _ => ⟨a3, a4, b3, b4⟩⟩
    exact Prod.ext ha hb
  · have h' : ¬ L.lift.hasPosition = true := h
    rw [if_neg h']
    exact ⟨_, _, rfl, le_refl _, hn.trans hv, hn.trans hv, le_refl _, fun hh => absurd hh h⟩

/-- One call of the soft position limiter. -/
theorem posSoft_regular (hA : Regular A Fin) (L : JointLimits K) (S : SoftLimits K) (hv : Fin L.maxVelocity ∧ A.zero ≤ L.maxVelocity)
    (hS : L.hasPosition = true → SoftOk A Fin S) (prev : Dbl K) (i : Input (Dbl K)) (p t c : K)
    (hp : (if prev.isNone then i.pos else prev) = some p) (hfp : Fin p) (hmax : L.hasPosition = true → p ≤ L.maxPosition)
    (ht : i.dt = some t) (hft : Fin t) (ht0 : A.zero < t) (hc : i.cmd = some c) :
    ∃ o x y low high, posSoft A L.lift S.lift prev i = some (some o) ∧
      A.mul (A.neg L.maxVelocity) t = some x ∧ A.mul L.maxVelocity t = some y ∧
      A.add p x = some low ∧ A.add p y = some high ∧ low ≤ o ∧ o ≤ high ∧
      (L.hasPosition = true → o ≤ L.maxPosition ∧ (S.maxPosition ≤ p → o ≤ p) ∧
        (p ≤ S.minPosition → S.minPosition ≤ S.maxPosition → p ≤ o)) := by
  obtain ⟨lo, hi, hs, l1, l2, h1, h2, hP⟩ := softVel_regular hA L S hv.2 (p := p) fun h => ⟨hS h, hfp⟩
  have hn : A.neg L.maxVelocity ≤ A.zero := hA.neg_nonpos _ hv.2
  have fV : Fin (A.neg L.maxVelocity) := hA.fin_neg _ hv.1
  have flo : Fin lo := hA.fin_between _ _ _ fV hv.1 l1 l2
  have fhi : Fin hi := hA.fin_between _ _ _ fV hv.1 h1 h2
  obtain ⟨x, dlo, hx, hdlo, xlo⟩ := hA.mul_mono _ _ t fV flo hft ht0.le l1
  obtain ⟨x', dhi, hx', hdhi, xhi⟩ := hA.mul_mono _ _ t fV fhi hft ht0.le h1
  rw [hx] at hx'; cases hx'
  obtain ⟨dhi', y, hh, hy, hiy⟩ := hA.mul_mono _ _ t fhi hv.1 hft ht0.le h2
  rw [hdhi] at hh; cases hh
  obtain ⟨dlo', y', hh, hy', loy⟩ := hA.mul_mono _ _ t flo hv.1 hft ht0.le l2
  rw [hdlo] at hh; cases hh
  rw [hy] at hy'; cases hy'
  obtain ⟨low, plo, hlow, hplo, lowlo⟩ := hA.add_mono p _ _ hfp xlo
  obtain ⟨low', phi, hh, hphi, lowhi⟩ := hA.add_mono p _ _ hfp xhi
  rw [hlow] at hh; cases hh
  obtain ⟨phi', high, hh, hhigh, hihigh⟩ := hA.add_mono p _ _ hfp hiy
  rw [hphi] at hh; cases hh
  -- signs of the products
  have up : ∀ a d q, Fin a → A.mul a t = some d → A.add p d = some q → A.zero ≤ a → p ≤ q := by
    intro a d q ha hd hq h
    obtain ⟨d', hd', h0⟩ := hA.mul_nonneg a t ha hft h ht0.le
    rw [hd] at hd'; cases hd'
    obtain ⟨q', hq', hpq⟩ := hA.add_ge p d hfp h0
    rw [hq] at hq'; cases hq'
    exact hpq
  have dn : ∀ a d q, Fin a → A.mul a t = some d → A.add p d = some q → a ≤ A.zero → q ≤ p := by
    intro a d q ha hd hq h
    obtain ⟨d', hd', h0⟩ := hA.mul_nonpos a t ha hft h ht0.le
    rw [hd] at hd'; cases hd'
    obtain ⟨q', hq', hpq⟩ := hA.add_le p d hfp h0
    rw [hq] at hq'; cases hq'
    exact hpq
  have lowp : low ≤ p := dn _ _ _ fV hx hlow hn
  have e0 : dlt (some A.zero) i.dt = true := by
    rw [ht]; exact decide_eq_true ht0
  have e1 : L.lift.maxVelocity = some L.maxVelocity := rfl
  have e2 : A.dadd (some p) (A.dmul (some lo) i.dt) = some plo := by
    rw [ht]
    show (A.mul lo t).bind _ = _
    rw [hdlo]; exact hplo
  have e3 : A.dadd (some p) (A.dmul (some hi) i.dt) = some phi := by
    rw [ht]
    show (A.mul hi t).bind _ = _
    rw [hdhi]; exact hphi
  by_cases h : L.hasPosition = true
  · have h' : L.lift.hasPosition = true := h
    have e4 : dmax (some plo) L.lift.minPosition = some (max plo L.minPosition) := dmax_some _ _
    have e5 : dmin (some phi) L.lift.maxPosition = some (min phi L.maxPosition) := dmin_some _ _
    have e : posSoft A L.lift S.lift prev i =
        some (some (min (max c (max plo L.minPosition)) (min phi L.maxPosition))) := by
      unfold posSoft
      rw [e0]
      simp only [hp, Bool.not_true, Bool.false_eq_true, if_false, e1, hs, e2, e3, h', if_true, e4, e5, hc, saturate_some]
    obtain ⟨g1, g2, g3, g4⟩ := hP h
    have hm := hmax h
    refine ⟨_, x, y, low, high, e, hx, hy, hlow, hhigh, ?_, ?_, fun _ => ⟨?_, fun hh => ?_, fun hh hh' => ?_⟩⟩
    · exact le_min (lowlo.trans ((le_max_left _ _).trans (le_max_right _ _))) (le_min lowhi (lowp.trans hm))
    · exact (min_le_right _ _).trans ((min_le_left _ _).trans hihigh)
    · exact (min_le_right _ _).trans (min_le_right _ _)
    · exact (min_le_right _ _).trans ((min_le_left _ _).trans (dn _ _ _ fhi hdhi hphi (g3 hh)))
    · refine le_min ?_ (le_min (up _ _ _ fhi hdhi hphi (g4 (hh.trans hh'))) hm)
      exact (up _ _ _ flo hdlo hplo (g2 hh)).trans ((le_max_left _ _).trans (le_max_right _ _))
  · have h' : L.lift.hasPosition = false := by
      show L.hasPosition = false
      simpa using h
    have e : posSoft A L.lift S.lift prev i = some (some (min (max c plo) phi)) := by
      unfold posSoft
      rw [e0]
      simp only [hp, Bool.not_true, Bool.false_eq_true, if_false, e1, hs, e2, e3, h', hc, saturate_some]
    refine ⟨_, x, y, low, high, e, hx, hy, hlow, hhigh, ?_, ?_, fun hh => absurd hh h⟩
    · exact le_min (lowlo.trans (le_max_right _ _)) lowhi
    · exact (min_le_right _ _).trans hihigh

/-- One call of the soft effort limiter. -/
theorem effSoft_regular (hA : Regular A Fin) (L : JointLimits K) (S : SoftLimits K) (hv : Fin L.maxVelocity ∧ A.zero ≤ L.maxVelocity)
    (he : A.zero ≤ L.maxEffort) (hS : L.hasPosition = true → SoftOk A Fin S) (hk : Fin S.kVelocity ∧ A.zero < S.kVelocity)
    (i : Input (Dbl K)) (x v c : K) (hx : i.pos = some x) (hfx : L.hasPosition = true → Fin x) (hvv : i.vel = some v) (hfv : Fin v)
    (hc : i.cmd = some c) :
    ∃ e, effSoft A L.lift S.lift i = some e ∧ A.neg L.maxEffort ≤ e ∧ e ≤ L.maxEffort ∧
      (L.maxVelocity ≤ v → e ≤ A.zero) ∧ (v ≤ A.neg L.maxVelocity → A.zero ≤ e) ∧
      (L.hasPosition = true → (S.maxPosition ≤ x → A.zero ≤ v → e ≤ A.zero) ∧
        (x ≤ S.minPosition → S.minPosition ≤ S.maxPosition → v ≤ A.zero → A.zero ≤ e)) := by
  obtain ⟨lo, hi, hs, l1, l2, h1, h2, hP⟩ := softVel_regular hA L S hv.2 (p := x) fun h => ⟨hS h, hfx h⟩
  have fV : Fin (A.neg L.maxVelocity) := hA.fin_neg _ hv.1
  have flo : Fin lo := hA.fin_between _ _ _ fV hv.1 l1 l2
  have fhi : Fin hi := hA.fin_between _ _ _ fV hv.1 h1 h2
  obtain ⟨a, ha, a1, a2, a3, a4⟩ := softBound hA hk.1 hk.2 flo hfv he
  obtain ⟨b, hb, b1, b2, b3, b4⟩ := softBound hA hk.1 hk.2 fhi hfv he
  have e : effSoft A L.lift S.lift i = some (min (max c a) b) := by
    have e1 : L.lift.maxVelocity = some L.maxVelocity := rfl
    have e2 : L.lift.maxEffort = some L.maxEffort := rfl
    have e3 : S.lift.kVelocity = some S.kVelocity := rfl
    unfold effSoft effSoftBounds
    simp only [hx, hvv, e1, e2, e3, hs, ha, hb, hc, saturate_some]
  refine ⟨_, e, le_min (a1.trans (le_max_right _ _)) b1, (min_le_right _ _).trans b2, fun h => ?_, fun h => ?_, fun h => ⟨fun h3 h4 => ?_, fun h3 h4 h5 => ?_⟩⟩
  · exact (min_le_right _ _).trans (b3 (h2.trans h))
  · exact le_min ((a4 (h.trans l1)).trans (le_max_right _ _)) (b4 (h.trans h1))
  · exact (min_le_right _ _).trans (b3 (((hP h).2.2.1 h3).trans h4))
  · exact le_min ((a4 (h5.trans ((hP h).2.1 h3))).trans (le_max_right _ _)) (b4 (h5.trans ((hP h).2.2.2 (h3.trans h4))))

/-- One call of the soft velocity limiter. -/
theorem velSoft_regular (hA : Regular A Fin) (L : JointLimits K) (S : SoftLimits K) {V : K}
    (hV : V = if L.hasVelocity then L.maxVelocity else A.huge) (hv : A.zero ≤ V)
    (hS : L.hasPosition = true → SoftOk A Fin S) (i : Input (Dbl K)) (x v t c : K) (hx : i.pos = some x)
    (hfx : L.hasPosition = true → Fin x) (hvv : i.vel = some v) (ht : i.dt = some t) (hc : i.cmd = some c)
    (ha : L.hasAcceleration = true → Fin v ∧ Fin L.maxAcceleration ∧ Fin t ∧ A.zero ≤ L.maxAcceleration ∧ A.zero ≤ t) :
    ∃ o, velSoft A L.lift S.lift i = some o ∧ o ≤ V ∧
      ((L.hasAcceleration = true → A.neg V ≤ v) → A.neg V ≤ o) ∧
      (L.hasPosition = true → (S.maxPosition ≤ x → o ≤ A.zero) ∧
        (x ≤ S.minPosition → S.minPosition ≤ S.maxPosition → (L.hasAcceleration = true → A.zero ≤ v) → A.zero ≤ o)) ∧
      (L.hasAcceleration = true → ∃ d y, A.mul L.maxAcceleration t = some d ∧ A.add v d = some y ∧ o ≤ y) := by
  obtain ⟨lo, hi, hs, l1, l2, h1, h2, hP⟩ := softVel_regular hA L S hv (p := x) fun h => ⟨hS h, hfx h⟩
  have e1 : velSoftLimit A L.lift = some V := by
    rw [hV]
    unfold velSoftLimit
    by_cases h : L.hasVelocity = true
    · have h' : L.lift.hasVelocity = true := h
      rw [if_pos h, if_pos h']; rfl
    · have h' : ¬ L.lift.hasVelocity = true := h
      rw [if_neg h, if_neg h']
  by_cases h : L.hasAcceleration = true
  · have h' : L.lift.hasAcceleration = true := h
    obtain ⟨fv, fa, ft, a0, t0⟩ := ha h
    obtain ⟨d, hd, d0⟩ := hA.mul_nonneg _ _ fa ft a0 t0
    obtain ⟨y, hy, hvy⟩ := hA.add_ge v d fv d0
    obtain ⟨w, hw, hwv⟩ := hA.sub_le v d fv d0
    have e2 : A.dmul L.lift.maxAcceleration (some t) = some d := hd
    have e3 : A.dsub (some v) (some d) = some w := hw
    have e4 : A.dadd (some v) (some d) = some y := hy
    have e : velSoft A L.lift S.lift i = some (min (max c (max w lo)) (min y hi)) := by
      unfold velSoft
      simp only [hx, e1, hs, h', if_true, hvv, ht, e2, e3, e4, dmax_some, dmin_some, hc, saturate_some]
    refine ⟨_, e, ?_, fun hh => ?_, fun hp => ⟨fun hh => ?_, fun hh hh' h0 => ?_⟩, fun _ => ⟨d, y, hd, hy, ?_⟩⟩
    · exact (min_le_right _ _).trans ((min_le_right _ _).trans h2)
    · exact le_min (l1.trans ((le_max_right _ _).trans (le_max_right _ _))) (le_min ((hh h).trans hvy) h1)
    · exact (min_le_right _ _).trans ((min_le_right _ _).trans ((hP hp).2.2.1 hh))
    · exact le_min (((hP hp).2.1 hh).trans ((le_max_right _ _).trans (le_max_right _ _)))
        (le_min ((h0 h).trans hvy) ((hP hp).2.2.2 (hh.trans hh')))
    · exact (min_le_right _ _).trans (min_le_left _ _)
  · have h' : L.lift.hasAcceleration = false := by
      show L.hasAcceleration = false
      simpa using h
    have e : velSoft A L.lift S.lift i = some (min (max c lo) hi) := by
      unfold velSoft
      simp only [hx, e1, hs, h', Bool.false_eq_true, if_false, hc, saturate_some]
    refine ⟨_, e, (min_le_right _ _).trans h2, fun _ => le_min (l1.trans (le_max_right _ _)) h1, fun hp => ⟨fun hh => ?_, fun hh hh' h0 => ?_⟩,
      fun hh => absurd hh h⟩
    · exact (min_le_right _ _).trans ((hP hp).2.2.1 hh)
    · exact le_min (((hP hp).2.1 hh).trans (le_max_right _ _)) ((hP hp).2.2.2 (hh.trans hh'))

end Verif.Limits
