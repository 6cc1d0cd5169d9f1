import Verif.Spec.DescribedRobot
import Verif.Lemmas.RobotCycle
import Verif.Props.LoadedRobot

/-!
Lemmas about robots whose transmissions and joint limits come from the description.
-/

namespace Verif.Described

open Verif.Transmission (Mem Loader Cmd Quantity Doc TransInfo parse loadTransmission setAt rawCommand propagateAll)
open Verif.Transmission.Loader (Inv)
open Verif.Limits (Arith Dbl Cells UrdfJoint LimitsIface Limiter enforceAll mkLimiter)
open Verif.Cycle (Record Halt overwrite effective)

variable {T K : Type}

/-- The limit handles belong to joints the loader has made. -/
structure Made (r : Robot T K) : Prop where
  sorted : ∀ c, KeysSorted (r.limits c)
  joints : ∀ c n h, (n, h) ∈ r.limits c → ∃ b, smapFind n r.loader.raw = some b ∧
    h.joint = ⟨n, b, b + 1, rawCommand b c⟩ ∧ r.loader.commandCell c n = some (rawCommand b c)

theorem rawCommand_bounds (b : Nat) (c : Cmd) : b + 3 ≤ rawCommand b c ∧ rawCommand b c ≤ b + 5 := by
  cases c <;> simp [rawCommand]

theorem rawCommand_inj {b : Nat} {c c' : Cmd} (h : rawCommand b c = rawCommand b c') : c = c' := by
  cases c <;> cases c' <;> simp [rawCommand] at h ⊢

/-- The variables of different handles. -/
theorem Made.ne {L0 : Loader T} {r : Robot T K} (hm : Made r) (hi : Inv L0 r.loader) {c c' : Cmd} {n n' : String}
    {h h' : Limiter K} (h1 : (n, h) ∈ r.limits c) (h2 : (n', h') ∈ r.limits c') :
    (h'.joint.cmd = h.joint.cmd → c = c' ∧ n = n') ∧ h'.joint.cmd ≠ h.joint.pos ∧ h'.joint.cmd ≠ h.joint.vel := by
  obtain ⟨b, hb, e, -⟩ := hm.joints c n h h1
  obtain ⟨b', hb', e', -⟩ := hm.joints c' n' h' h2
  rw [e, e']
  have w1 := rawCommand_bounds b c
  have w2 := rawCommand_bounds b' c'
  by_cases hn : n = n'
  · subst hn
    rw [hb] at hb'
    cases hb'
    refine ⟨fun g => ⟨(rawCommand_inj g).symm, rfl⟩, ?_, ?_⟩
    · show rawCommand b c' ≠ b
      omega
    · show rawCommand b c' ≠ b + 1
      omega
  · have := hi.rawApart n n' b b' hn hb hb'
    refine ⟨fun g => absurd g ?_, ?_, ?_⟩
    · show rawCommand b' c' ≠ rawCommand b c
      omega
    · show rawCommand b' c' ≠ b
      omega
    · show rawCommand b' c' ≠ b + 1
      omega

section

variable [LinearOrder K] {A : Arith K}

/-- The limits make values with a property of commands with the property. -/
def Closed (A : Arith K) (P : Dbl K → Prop) : Prop :=
  ∀ (k : Limits.Kind) L S prev (i : Limits.Input (Dbl K)) out, P i.cmd → k.limit A L S prev i = some out → P out

theorem enforceAll_closed {P : Dbl K → Prop} (hP : Closed A P) (k : Limits.Kind) (dt : Dbl K) (s s' : LimitsIface K)
    (m m' : Cells K) (h : enforceAll A k dt s m = some (s', m')) (hm : ∀ a, P (m a)) : ∀ a, P (m' a) := by
  induction s generalizing m s' with
  | nil => cases h; exact hm
  | cons e t ih =>
    obtain ⟨n, l⟩ := e
    simp only [enforceAll, Limiter.enforce] at h
    cases hl : k.limit A l.limits l.soft l.prev (l.input m dt) with
    | none => simp [hl] at h
    | some out =>
      simp only [hl] at h
      split at h
      · cases h
      · rename_i t' m'' ht
        cases h
        refine ih _ _ ht fun a => ?_
        by_cases ha : a = l.joint.cmd
        · rw [if_pos ha]
          exact hP k _ _ _ _ _ (hm l.joint.cmd) hl
        · rw [if_neg ha]
          exact hm a

/-- What the variables hold and what the limits see fits together. -/
structure Lawful (S : Setting T K) : Prop where
  back : ∀ x, S.store (S.see x) = some x
  closed : Closed S.toArith fun y => ∃ x, y = S.see x

theorem exact_lawful {K : Type} [Field K] [LinearOrder K] (huge : K) : Lawful (Setting.exact huge) :=
  ⟨fun _ => rfl, fun k _ _ _ _ out ⟨c, hc⟩ h => Cycle.limit_number k _ _ _ _ c hc out h⟩

/-- Enforcing the limits of one kind keeps what is known of the handles. -/
theorem Made.enforced {r : Robot T K} (hm : Made r) {c : Cmd} {dt : Dbl K} {m m' : Cells K} {s : LimitsIface K}
    (he : enforceAll A (r.kind c) dt (r.limits c) m = some (s, m')) : Made { r with limits := setAt r.limits c s } := by
  have hk := Limits.enforceAll_keys _ _ _ _ _ _ he
  refine ⟨fun c' => ?_, fun c' n h hh => ?_⟩
  · show KeysSorted (setAt r.limits c s c')
    unfold setAt
    split
    · have := hm.sorted c
      unfold KeysSorted at this ⊢
      rwa [hk]
    · exact hm.sorted c'
  · replace hh : (n, h) ∈ setAt r.limits c s c' := hh
    unfold setAt at hh
    split at hh
    · rename_i e
      subst e
      obtain ⟨l, hl, e, -⟩ := Limits.enforceAll_joint _ _ _ _ _ _ he n h hh
      obtain ⟨b, hb, e'⟩ := hm.joints _ n l hl
      exact ⟨b, hb, e ▸ e'.1, e'.2⟩
    · exact hm.joints c' n h hh

/-- What enforcing the limits interfaces of a list does. -/
theorem enforce_facts {L0 : Loader T} (dt : Dbl K) (cs : List Cmd) (hn : cs.Nodup) {r r' : Robot T K} (hm : Made r)
    (hi : Inv L0 r.loader) {m m' : Cells K} (h : r.enforce A dt cs m = some (r', m'))
    {P : Dbl K → Prop} (hP : Closed A P)
    (hnum : ∀ a, P (m a)) :
    r'.loader = r.loader ∧ r'.kind = r.kind ∧ Made r' ∧ (∀ a, P (m' a)) ∧
    (∀ c ∈ cs, ∀ n l, (n, l) ∈ r.limits c → ∃ out, (r.kind c).limit A l.limits l.soft l.prev (l.input m dt) = some out ∧
      m' l.joint.cmd = out ∧ (n, { l with prev := out }) ∈ r'.limits c) ∧
    (∀ c, c ∉ cs → r'.limits c = r.limits c) ∧
    (∀ a, (∀ c ∈ cs, ∀ e ∈ r.limits c, e.2.joint.cmd ≠ a) → m' a = m a) ∧
    (∀ c n l', (n, l') ∈ r'.limits c → ∃ l, (n, l) ∈ r.limits c ∧ l.joint = l'.joint) := by
  induction cs generalizing r m with
  | nil =>
    simp only [Robot.enforce, Option.some.injEq, Prod.mk.injEq] at h
    obtain ⟨rfl, rfl⟩ := h
    exact ⟨rfl, rfl, hm, hnum, fun c hc => (by cases hc), fun _ _ => rfl, fun _ _ => rfl, fun c n l h => ⟨l, h, rfl⟩⟩
  | cons c cs ih =>
    obtain ⟨hc, hn⟩ := List.nodup_cons.1 hn
    unfold Robot.enforce at h
    cases he : enforceAll A (r.kind c) dt (r.limits c) m with
    | none => rw [he] at h; cases h
    | some p =>
      obtain ⟨s, m1⟩ := p
      rw [he] at h
      have hnum1 := enforceAll_closed hP _ _ _ _ _ _ he hnum
      obtain ⟨g1, g2, g3, g4, g5, g6, g7, g8⟩ := ih hn (hm.enforced he) hi h hnum1
      have same : ∀ c', c' ≠ c → setAt r.limits c s c' = r.limits c' := fun c' h => by unfold setAt; rw [if_neg h]
      have this : setAt r.limits c s c = s := by unfold setAt; rw [if_pos rfl]
      refine ⟨g1, g2, g3, g4, ?_, ?_, ?_, ?_⟩
      · intro c' hc' n l hl
        by_cases hcc : c' = c
        · subst hcc
          obtain ⟨out, o1, o2, o3⟩ := Limits.enforceAll_one _ _ _ _ _ _ he (Limits.sorted_nodup (hm.sorted c')) n l hl (by
            intro n' l' hl' hne
            obtain ⟨q1, q2, q3⟩ := hm.ne hi hl hl'
            exact ⟨fun e => hne (q1 e).2.symm, q2, q3⟩)
          refine ⟨out, o1, ?_, ?_⟩
          · rw [← o2]
            refine g7 _ fun c'' hc'' e he' => ?_
            have hne : c'' ≠ c' := fun h => hc (h ▸ hc'')
            replace he' : e ∈ setAt r.limits c' s c'' := he'
            rw [same _ hne] at he'
            obtain ⟨n', l'⟩ := e
            exact fun e => hne ((hm.ne hi hl he').1 e).1.symm
          · rw [g6 _ hc]
            show _ ∈ setAt r.limits c' s c'
            rw [this]
            exact o3
        · have hc'' : c' ∈ cs := by
            rcases List.mem_cons.1 hc' with h | h
            · exact absurd h hcc
            · exact h
          obtain ⟨out, o1, o2, o3⟩ := g5 c' hc'' n l (by
            show _ ∈ setAt r.limits c s c'
            rw [same _ hcc]; exact hl)
          refine ⟨out, ?_, o2, o3⟩
          have hin : l.input m1 dt = l.input m dt := by
            have key : ∀ a, (∀ n' l', (n', l') ∈ r.limits c → l'.joint.cmd ≠ a) → m1 a = m a := fun a ha =>
              Limits.enforceAll_frame _ _ _ _ _ _ he a fun e h => ha e.1 e.2 h
            unfold Limiter.input
            rw [key _ fun n' l' h' e => hcc ((hm.ne hi hl h').1 e).1, key _ fun n' l' h' => (hm.ne hi hl h').2.1,
              key _ fun n' l' h' => (hm.ne hi hl h').2.2]
          rw [hin] at o1
          exact o1
      · intro c' hc'
        rw [List.mem_cons, not_or] at hc'
        rw [g6 c' hc'.2]
        exact same c' hc'.1
      · intro a ha
        rw [g7 a, Limits.enforceAll_frame _ _ _ _ _ _ he a (ha c (by simp))]
        intro c' hc' e he'
        replace he' : e ∈ setAt r.limits c s c' := he'
        rw [same c' fun h => hc (h ▸ hc')] at he'
        exact ha c' (by simp [hc']) e he'
      · intro c' n l' hl'
        obtain ⟨l, hl, e⟩ := g8 c' n l' hl'
        replace hl : (n, l) ∈ setAt r.limits c s c' := hl
        by_cases hcc : c' = c
        · subst hcc
          rw [this] at hl
          obtain ⟨l0, h0, e0, -⟩ := Limits.enforceAll_joint _ _ _ _ _ _ he n l hl
          exact ⟨l0, h0, e0.trans e⟩
        · rw [same c' hcc] at hl
          exact ⟨l, hl, e⟩

/-- The limits of the robot accept a period: it is positive, or no handle needs it. -/
def Accepts (A : Arith K) (r : Robot T K) (dt : Dbl K) : Prop :=
  Limits.dlt (some A.zero) dt = true ∨
    ∀ c, ∀ e ∈ r.limits c, ¬(r.kind c = .posSoft ∨ r.kind c = .velSat ∧ e.2.limits.hasAcceleration = true)

/-- If the limits accept the period, no assertion fails. -/
theorem enforce_accepted (dt : Dbl K) (cs : List Cmd) (hn : cs.Nodup) (r : Robot T K)
    (hp : Limits.dlt (some A.zero) dt = true ∨ ∀ c ∈ cs, ∀ e ∈ r.limits c,
      ¬(r.kind c = .posSoft ∨ r.kind c = .velSat ∧ e.2.limits.hasAcceleration = true))
    (m : Cells K) : ∃ p, r.enforce A dt cs m = some p := by
  induction cs generalizing r m with
  | nil => exact ⟨_, rfl⟩
  | cons c cs ih =>
    unfold Robot.enforce
    cases he : enforceAll A (r.kind c) dt (r.limits c) m with
    | none =>
      rw [Limits.enforceAll_none] at he
      obtain ⟨h1, e, h2, h3⟩ := he
      rcases hp with hp | hp
      · rw [hp] at h1; cases h1
      · exact absurd h3 (hp c List.mem_cons_self e h2)
    | some p =>
      refine ih (List.nodup_cons.1 hn).2 _ ?_ _
      rcases hp with hp | hp
      · exact Or.inl hp
      · refine Or.inr fun c' hc' e hm => ?_
        have hne : c' ≠ c := fun h => (List.nodup_cons.1 hn).1 (h ▸ hc')
        have hs : setAt r.limits c p.1 c' = r.limits c' := by simp [setAt, hne]
        dsimp only at hm ⊢
        rw [hs] at hm
        exact hp c' (List.mem_cons_of_mem _ hc') e hm

/-- The limits do not accept the period. -/
theorem enforce_none (dt : Dbl K) (hp : Limits.dlt (some A.zero) dt = false) (cs : List Cmd) (hn : cs.Nodup) (r : Robot T K)
    (m : Cells K) (h : ∃ c ∈ cs, ∃ e ∈ r.limits c, r.kind c = .posSoft ∨ r.kind c = .velSat ∧ e.2.limits.hasAcceleration = true) :
    r.enforce A dt cs m = none := by
  induction cs generalizing r m with
  | nil => obtain ⟨c, hc, -⟩ := h; cases hc
  | cons c cs ih =>
    unfold Robot.enforce
    cases he : enforceAll A (r.kind c) dt (r.limits c) m with
    | none => rfl
    | some p =>
      refine ih (List.nodup_cons.1 hn).2 _ _ ?_
      obtain ⟨c', hc', e, hm, hk⟩ := h
      rcases List.mem_cons.1 hc' with rfl | hc'
      · have := (Limits.enforceAll_none (r.kind c') dt (r.limits c') m).2 ⟨hp, e, hm, hk⟩
        rw [he] at this
        cases this
      · have hne : c' ≠ c := fun h => (List.nodup_cons.1 hn).1 (h ▸ hc')
        have hs : setAt r.limits c p.1 c' = r.limits c' := by simp [setAt, hne]
        exact ⟨c', hc', e, by dsimp only; rw [hs]; exact hm, hk⟩

end

end Verif.Described
