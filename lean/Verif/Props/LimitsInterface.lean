import Verif.Lemmas.LimitsInterface
import Verif.Props.JointLimitsPosition
import Verif.Props.JointLimitsVelocity

/-!
Properties C78 and C79: the limit handles and the interfaces that hold them.
-/

namespace Verif.Limits

section C78

variable {K : Type} [LinearOrder K] (A : Arith K)

/-- **C78, constructors.** A handle can be made exactly if the limits it cannot do without are specified:
velocity limits for all but the position saturation and the soft velocity handles, and effort limits
for the effort handles. -/
theorem c78_constructor (k : Kind) (j : Joint) (L : JointLimits (Dbl K)) (S : SoftLimits (Dbl K)) :
    (∃ h, mkLimiter A k j L S = some h) ↔
      (k ∈ [Kind.posSoft, .effSat, .effSoft, .velSat] → L.hasVelocity = true) ∧
      (k ∈ [Kind.effSat, .effSoft] → L.hasEffort = true) := by
  have : (∃ h, mkLimiter A k j L S = some h) ↔ k.accepts L = true := by
    unfold mkLimiter
    split
    · rename_i h
      exact ⟨fun _ => h, fun _ => ⟨_, rfl⟩⟩
    · rename_i h
      exact ⟨fun ⟨_, e⟩ => (by cases e), fun e => absurd e h⟩
  rw [this]
  cases k <;> simp [Kind.accepts, posSoftOk, effortOk, velSatOk]

/-- **C78, only specified limits count.** Two handles made for the same joint from limits that say the
same treat every command alike, in every history of enforcements and resets: what the unspecified fields
contain does not matter. -/
theorem c78_only_specified (k : Kind) (j : Joint) (L L' : JointLimits (Dbl K)) (S : SoftLimits (Dbl K))
    (hL : Agree L L') (h h' : Limiter K) (hm : mkLimiter A k j L S = some h) (hm' : mkLimiter A k j L' S = some h')
    (cs : List (IfCall K)) (hc : ∀ h'', IfCall.register h'' ∉ cs) (m : Cells K) :
    ifRun A k (.register h :: cs) [] m = ifRun A k (.register h' :: cs) [] m := by
  have made : ∀ L h, mkLimiter A k j L S = some h → k.accepts L = true ∧ h = ⟨j, L, S, k.initial A⟩ := by
    intro L h hm
    unfold mkLimiter at hm
    split at hm
    · rename_i ha
      exact ⟨ha, (Option.some.inj hm).symm⟩
    · cases hm
  obtain ⟨ha, rfl⟩ := made L h hm
  obtain ⟨_, rfl⟩ := made L' h' hm'
  simp only [ifRun, registerLimiter, smapInsert]
  generalize (k.initial A : Dbl K) = prev
  induction cs generalizing prev m with
  | nil => rfl
  | cons c cs ih =>
    have ih := ih fun h'' hm => hc h'' (List.mem_cons_of_mem _ hm)
    cases c with
    | register h => exact absurd (List.mem_cons_self ..) (hc h)
    | world m' => exact ih m' prev
    | reset =>
      simp only [ifRun]
      cases k <;> exact congrArg _ (ih m _)
    | resetHandle n =>
      simp only [ifRun, getLimiter, smapFind]
      by_cases hn : n = j.name
      · simp only [hn, if_true]
        exact ih m prev
      · simp only [hn, if_false]
    | enforce dt =>
      simp only [ifRun, enforceAll, Limiter.enforce, Limiter.input, limit_agree (A := A) k L L' hL ha]
      cases k.limit A L' S prev ⟨m j.cmd, m j.pos, m j.vel, dt⟩ with
      | none => rfl
      | some out => exact congrArg _ (ih _ out)

/-- **C78, the limits asked for are needed.** For every class that insists on velocity limits (or on
effort limits) there are two sets of limits that say the same, specify everything but that, and differ
in the command: without the check, the class would use a value that nobody has specified. -/
theorem c78_needed (k : Kind) :
    (k ∈ [Kind.posSoft, .effSat, .effSoft, .velSat] →
      ∃ L L' : JointLimits ℤ, Agree L L' ∧ L.hasPosition = true ∧ L.hasAcceleration = true ∧ L.hasEffort = true ∧
        L.hasVelocity = false ∧
        ∃ S : SoftLimits ℤ, ∃ prev i, k.limit (.exact 1000) L.lift S.lift prev i ≠ k.limit (.exact 1000) L'.lift S.lift prev i) ∧
    (k ∈ [Kind.effSat, .effSoft] →
      ∃ L L' : JointLimits ℤ, Agree L L' ∧ L.hasPosition = true ∧ L.hasAcceleration = true ∧ L.hasVelocity = true ∧
        L.hasEffort = false ∧
        ∃ S : SoftLimits ℤ, ∃ prev i, k.limit (.exact 1000) L.lift S.lift prev i ≠ k.limit (.exact 1000) L'.lift S.lift prev i) := by
  have e1 : Agree (⟨-100, 100, 2, 50, 8, true, false, true, true⟩ : JointLimits ℤ)
      ⟨-100, 100, 4, 50, 8, true, false, true, true⟩ := by constructor <;> simp
  have e2 : Agree (⟨-100, 100, 4, 50, 8, true, true, true, false⟩ : JointLimits ℤ)
      ⟨-100, 100, 4, 50, 9, true, true, true, false⟩ := by constructor <;> simp
  cases k <;> simp only [List.mem_cons, List.not_mem_nil, reduceCtorEq, or_false, or_true,
    false_implies, true_implies, and_true]
  · exact ⟨_, _, e1, rfl, rfl, rfl, rfl, ⟨-90, 90, 1, 1⟩, some 0, ⟨some 50, some 0, some 0, some 1⟩, by decide⟩
  · exact ⟨⟨_, _, e1, rfl, rfl, rfl, rfl, ⟨-90, 90, 1, 1⟩, some 0, ⟨some 50, some 0, some 3, some 1⟩, by decide⟩,
      _, _, e2, rfl, rfl, rfl, rfl, ⟨-90, 90, 1, 1⟩, some 0, ⟨some 50, some 0, some 3, some 1⟩, by decide⟩
  · exact ⟨⟨_, _, e1, rfl, rfl, rfl, rfl, ⟨-90, 90, 1, 1⟩, some 0, ⟨some 50, some 0, some 0, some 1⟩, by decide⟩,
      _, _, e2, rfl, rfl, rfl, rfl, ⟨-90, 90, 1, 10⟩, some 0, ⟨some 50, some 0, some 0, some 1⟩, by decide⟩
  · exact ⟨_, _, e1, rfl, rfl, rfl, rfl, ⟨-90, 90, 1, 1⟩, some 0, ⟨some 50, some 0, some 0, some 1⟩, by decide⟩

/-- A handle without position limits: the unspecified positions differ, the commands do not. -/
example :
    ∃ h h' : Limiter ℤ,
      mkLimiter (.exact 1000) .posSoft ⟨"j", 0, 1, 2⟩ (JointLimits.lift ⟨0, 0, 2, 0, 0, false, true, false, false⟩)
        ⟨some 0, some 0, some 1, some 1⟩ = some h ∧
      mkLimiter (.exact 1000) .posSoft ⟨"j", 0, 1, 2⟩ (JointLimits.lift ⟨7, 9, 2, 5, 3, false, true, false, false⟩)
        ⟨some 0, some 0, some 1, some 1⟩ = some h' ∧
      Agree (JointLimits.lift ⟨0, 0, 2, 0, 0, false, true, false, false⟩ : JointLimits (Dbl ℤ))
        (JointLimits.lift ⟨7, 9, 2, 5, 3, false, true, false, false⟩) :=
  ⟨_, _, rfl, rfl, by constructor <;> simp [JointLimits.lift]⟩

end C78

section C79

variable {K : Type} [LinearOrder K] {A : Arith K}

/-- **C79, one enforcement.** `enforceLimits` of an interface gives every joint the command that its
handle gives for what the joint's variables contained before the call, provided no other handle of the
interface writes to these variables; the handle stays registered, with this command as its previous
one. No variable changes but the commands of the registered joints. -/
theorem c79_each_joint (k : Kind) (dt : Dbl K) (s s' : LimitsIface K) (m m' : Cells K) (hs : KeysSorted s)
    (he : enforceAll A k dt s m = some (s', m')) :
    (∀ n h, getLimiter n s = some h → Undisturbed n h s →
      ∃ out, k.limit A h.limits h.soft h.prev ⟨m h.joint.cmd, m h.joint.pos, m h.joint.vel, dt⟩ = some out ∧
        m' h.joint.cmd = out ∧ getLimiter n s' = some { h with prev := out }) ∧
    (∀ a, (∀ n h, getLimiter n s = some h → h.joint.cmd ≠ a) → m' a = m a) ∧
    (∀ n, getLimiter n s = none ↔ getLimiter n s' = none) := by
  refine ⟨fun n h hf hu => ?_, fun a ha => ?_, fun n => ?_⟩
  · obtain ⟨out, h1, h2, h3⟩ := InIface.enforced (A := A) (h := h) (prev := h.prev) ⟨hs, hf, hu⟩ he
    exact ⟨out, h1, h2, h3.found⟩
  · exact enforceAll_frame k dt s m s' m' he a fun e hm => ha e.1 e.2 (smapFind_of_mem hs hm)
  · have h1 := smapFind_isSome n s
    have h2 := smapFind_isSome n s'
    rw [enforceAll_keys k dt s m s' m' he] at h2
    have : (smapFind n s).isSome ↔ (smapFind n s').isSome := h1.trans h2.symm
    unfold getLimiter
    rw [← Option.not_isSome_iff_eq_none, ← Option.not_isSome_iff_eq_none, this]

/-- **C79, assertions.** An enforcement ends the program exactly if the period is not positive and a
handle that divides time by it is registered: a soft position handle, or a velocity saturation handle
with acceleration limits. -/
theorem c79_assertions (k : Kind) (dt : Dbl K) (s : LimitsIface K) (hs : KeysSorted s) (m : Cells K) :
    enforceAll A k dt s m = none ↔
      dlt (some A.zero) dt = false ∧
      ∃ n h, getLimiter n s = some h ∧ (k = .posSoft ∨ k = .velSat ∧ h.limits.hasAcceleration = true) := by
  rw [enforceAll_none]
  refine and_congr_right fun _ => ⟨?_, ?_⟩
  · rintro ⟨⟨n, h⟩, hm, h1⟩
    exact ⟨n, h, smapFind_of_mem hs hm, h1⟩
  · rintro ⟨n, h, hf, h1⟩
    exact ⟨(n, h), mem_of_smapFind hf, h1⟩

variable (A)

/-- **C79, histories.** From its registration on, the commands a joint gets from its interface are those
its handle gives when used alone, with the same variables, periods and resets: whatever else is
registered before or after, in whatever order the names come, and whatever happens to the variables
between the calls. This is stated for the six classes; the handles without previous command give what
they give for each input. So the properties of the handles (C39, C40, C43, C44, C41, C42) are properties
of the interfaces. -/
theorem c79_histories (k : Kind) (j : Joint) (L : JointLimits (Dbl K)) (S : SoftLimits (Dbl K)) (h : Limiter K)
    (hm : mkLimiter A k j L S = some h) (s : LimitsIface K) (hs : KeysSorted s) (hu : Undisturbed j.name h s)
    (cs : List (IfCall K)) (hc : NoIntruder j.name h cs) (m : Cells K) :
    let es := ifRun A k (.register h :: cs) s m
    match k with
    | .posSat => seen j es = (posSatRun A L none (calls j es)).map fun r => (r.input, r.out)
    | .posSoft => seen j es = (posSoftRun A L S none (calls j es)).map fun r => (r.input, r.out)
    | .velSat => seen j es = (velSatRun A L (some A.zero) (inputs (calls j es))).map fun r => (r.input, r.out)
    | .effSat => ∀ x ∈ seen j es, x.2 = effSat A L x.1
    | .effSoft => ∀ x ∈ seen j es, x.2 = effSoft A L S x.1
    | .velSoft => ∀ x ∈ seen j es, x.2 = velSoft A L S x.1 := by
  have hh : h = ⟨j, L, S, k.initial A⟩ := by
    unfold mkLimiter at hm
    split at hm
    · exact (Option.some.inj hm).symm
    · cases hm
  subst hh
  have H := ifRun_own (A := A) k j.name ⟨j, L, S, k.initial A⟩ cs hc (k.initial A) (registerLimiter ⟨j, L, S, k.initial A⟩ s) m
    (inIface_register s hs ⟨j, L, S, k.initial A⟩ hu)
  have stateless : ∀ f : Input (Dbl K) → Dbl K, (∀ prev i, k.limit A L S prev i = some (f i)) →
      ∀ x ∈ seen j (ifRun A k (.register ⟨j, L, S, k.initial A⟩ :: cs) s m), x.2 = f x.1 := by
    intro f hf x hx
    rw [ownOuts_stateless k f L S hf] at H
    have hx' : x ∈ seen j (ifRun A k cs (registerLimiter ⟨j, L, S, k.initial A⟩ s) m) := hx
    rw [← H] at hx'
    obtain ⟨i, _, e⟩ := List.mem_map.1 hx'
    rw [← e]
  cases k
  · exact H.symm.trans (ownOuts_posSat ..)
  · exact H.symm.trans (ownOuts_posSoft ..)
  · exact stateless (effSat A L) fun _ _ => rfl
  · exact stateless (effSoft A L S) fun _ _ => rfl
  · exact H.symm.trans (ownOuts_velSat ..)
  · exact stateless (velSoft A L S) fun _ _ => rfl

/-- An interface with two joints: `a` at the cells 0, 1 and 2, `b` at the cells 3, 4 and 5. -/
def exIfLimits : JointLimits (Dbl ℤ) := JointLimits.lift ⟨-10, 10, 2, 0, 0, true, true, false, false⟩

/-- The handle of `a`. -/
def exJointA : Limiter ℤ := ⟨⟨"a", 0, 1, 2⟩, exIfLimits, ⟨none, none, none, none⟩, none⟩

/-- The handle of `b`. -/
def exJointB : Limiter ℤ := ⟨⟨"b", 3, 4, 5⟩, exIfLimits, ⟨none, none, none, none⟩, none⟩

/-- A history: `a` is told to go to 9, `b` to -9; both start at 0. -/
def exIfHistory : List (IfCall ℤ) :=
  [.enforce (some 1), .world (fun n => if n = 2 then some 9 else if n = 5 then some (-9) else some 1),
    .enforce (some 2), .reset, .enforce (some 1)]

example : mkLimiter (.exact 1000) .posSat ⟨"a", 0, 1, 2⟩ exIfLimits ⟨none, none, none, none⟩ = some exJointA ∧
    KeysSorted [("b", exJointB)] ∧ Undisturbed "a" exJointA [("b", exJointB)] ∧ NoIntruder "a" exJointA exIfHistory := by
  refine ⟨rfl, by simp [KeysSorted, smapKeys], ?_, ?_⟩
  · intro n h hm _
    rcases List.mem_singleton.1 hm with e
    cases e
    simp [Leaves, exJointA, exJointB]
  · intro h hm
    simp [exIfHistory] at hm

example :
    (seen exJointA.joint (ifRun (.exact 1000) .posSat (.register exJointA :: exIfHistory) [("b", exJointB)] fun _ => some 0)).map
      Prod.snd = [some 0, some 4, some 3] ∧
    (seen exJointB.joint (ifRun (.exact 1000) .posSat (.register exJointA :: exIfHistory) [("b", exJointB)] fun _ => some 0)).map
      Prod.snd = [some 0, some (-4), some (-1)] := by decide

/-- **C79 does not extend to handles fetched by name.** `interface.getHandle(n).reset()` resets a copy:
the next enforcement still limits the velocity against the old command, here 0, although the joint has
been moved to 90, while a reset of the interface makes the joint stay where it is. -/
theorem c79_reset_handle_negation :
    ∃ (h : Limiter ℤ) (m m' : Cells ℤ),
      mkLimiter (.exact 1000) .posSat ⟨"j", 0, 1, 2⟩ (JointLimits.lift ⟨-100, 100, 2, 0, 0, true, true, false, false⟩)
        ⟨none, none, none, none⟩ = some h ∧ m' 0 = some 90 ∧
      (seen ⟨"j", 0, 1, 2⟩ (ifRun (.exact 1000) .posSat
        [.register h, .enforce (some 1), .world m', .resetHandle "j", .enforce (some 1)] [] m)).map Prod.snd =
        [some 0, some 2] ∧
      (seen ⟨"j", 0, 1, 2⟩ (ifRun (.exact 1000) .posSat
        [.register h, .enforce (some 1), .world m', .reset, .enforce (some 1)] [] m)).map Prod.snd =
        [some 0, some 90] :=
  ⟨_, fun _ => some 0, fun _ => some 90, rfl, rfl, by decide, by decide⟩

end C79

section C79exact

variable {K : Type} [CommRing K] [LinearOrder K] [IsStrictOrderedRing K]

/-- **C79, position limits.** In a position saturation interface with exact arithmetic, every command
that is a number is within the position limits of its joint after an enforcement, provided the joint is
within its limits whenever the measured position counts (C39, through the interface). -/
theorem c79_position_limits (huge : K) (j : Joint) (L : JointLimits K) (S : SoftLimits (Dbl K)) (h : Limiter K)
    (hm : mkLimiter (.exact huge) .posSat j L.lift S = some h)
    (hr : (range (.exact huge) L).1 ≤ (range (.exact huge) L).2) (hv : L.hasVelocity = true → 0 ≤ L.maxVelocity)
    (s : LimitsIface K) (hs : KeysSorted s) (hu : Undisturbed j.name h s)
    (cs : List (IfCall K)) (hc : NoIntruder j.name h cs) (m : Cells K)
    (hst : StartsIn (InRange (range (.exact huge) L)) true
      (calls j (ifRun (.exact huge) .posSat (.register h :: cs) s m)))
    (ht : ∀ dt, IfCall.enforce dt ∈ cs → ∃ t, dt = some t ∧ 0 ≤ t) :
    ∀ x ∈ seen j (ifRun (.exact huge) .posSat (.register h :: cs) s m), ∀ c, x.1.cmd = some c →
      ∃ o, x.2 = some o ∧ InRange (range (.exact huge) L) o := by
  intro x hx c hcx
  have H := c79_histories (.exact huge) .posSat j L.lift S h hm s hs hu cs hc m
  simp only at H
  rw [H] at hx
  obtain ⟨r, hr', e⟩ := List.mem_map.1 hx
  have hp : Periods (fun t : K => 0 ≤ t) (calls j (ifRun (.exact huge) .posSat (.register h :: cs) s m)) := by
    have gen : ∀ (cs : List (IfCall K)), (∀ dt, IfCall.enforce dt ∈ cs → ∃ t, dt = some t ∧ 0 ≤ t) →
        ∀ s m, Periods (fun t : K => 0 ≤ t) (calls j (ifRun (.exact huge) .posSat cs s m)) := by
      intro cs
      induction cs with
      | nil => intro _ s m i hi; cases hi
      | cons c cs ih =>
        intro ht s m
        have ih := ih fun dt hd => ht dt (List.mem_cons_of_mem _ hd)
        cases c with
        | register h => exact ih _ _
        | reset =>
          intro i hi
          rcases List.mem_cons.1 hi with e | hi
          · cases e
          · exact ih _ _ i hi
        | resetHandle n =>
          simp only [ifRun]
          split
          · intro i hi; cases hi
          · exact ih _ _
        | world m' => exact ih _ _
        | enforce dt =>
          simp only [ifRun]
          split
          · intro i hi; cases hi
          · intro i hi
            rcases List.mem_cons.1 hi with e | hi
            · cases e
              exact ht dt (List.mem_cons_self ..)
            · exact ih _ _ i hi
    exact gen _ (by
      intro dt hd
      rcases List.mem_cons.1 hd with e | hd
      · cases e
      · exact ht dt hd) s m
  obtain ⟨p, t, _, _, h3⟩ := c39_exact_partial huge L hr hv _ hst hp r hr'
  rw [← e] at hcx ⊢
  obtain ⟨o, h4, h5, _⟩ := h3 c hcx
  exact ⟨o, h4, h5⟩

/-- The history of `a` above meets the hypotheses. -/
example : StartsIn (InRange (range (.exact 1000) ⟨-10, 10, 2, 0, 0, true, true, false, false⟩)) true
    (calls exJointA.joint (ifRun (.exact 1000) .posSat (.register exJointA :: exIfHistory) [("b", exJointB)] fun _ => some (0 : ℤ))) :=
  ⟨fun _ => ⟨0, rfl, by decide, by decide⟩, fun h => (by cases h), fun _ => ⟨1, rfl, by decide, by decide⟩, trivial⟩

end C79exact

end Verif.Limits
