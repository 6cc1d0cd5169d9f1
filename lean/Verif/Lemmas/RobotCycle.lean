import Verif.Spec.RobotCycle
import Verif.Lemmas.LimitsInterface
import Verif.Lemmas.Transmission
import Verif.Lemmas.TransmissionLocal
import Mathlib.Data.List.Nodup

/-!
Lemmas about the control cycle of a robot.
-/

namespace Verif.Cycle

open Verif.Transmission (Trans Handle Mem Constructed Quantity cells toJoint toActuator propagateAll Separate
  jointMaps actuatorMaps toJoint_run toActuator_run propagateAll_local)

variable {K : Type}

/-- The joint variables that `read` fills. -/
def Drive.derived (d : Drive K) : List Nat := d.jPos ++ d.jVel ++ d.jEff

section

variable [Add K] [Sub K] [Mul K] [Div K] [OfNat K 2]

theorem stateHandle_run (nd : Bool) (d : Drive K) (hs : d.Sized) (hn : d.all.Nodup) (m : Mem K) :
    ∃ m', d.stateHandle.propagate nd .actuatorToJointState m = .ok m' ∧
      d.jPos.map m' = (jointMaps .position d.trans).run (d.aPos.map m) ∧
      ∀ c, c ∉ d.derived → m' c = m c := by
  simp only [Drive.all, List.nodup_append, List.mem_append] at hn
  obtain ⟨⟨⟨⟨n1, n2, n12⟩, n3, n123⟩, n4, n1234⟩, ⟨⟨⟨m1, m2, m12⟩, m3, m123⟩, m4, m1234⟩, hnm⟩ := hn
  obtain ⟨x1, e1, v1, f1⟩ := toJoint_run nd .position d.trans (act := d.stateHandle.act) (jnt := d.stateHandle.jnt)
    rfl rfl hs.aPos hs.jPos (List.nodup_append.2 ⟨n1, m1, fun a ha b hb => hnm a (by simp [ha]) b (by simp [hb])⟩) m
  obtain ⟨x2, e2, v2, f2⟩ := toJoint_run nd .velocity d.trans (act := d.stateHandle.act) (jnt := d.stateHandle.jnt)
    rfl rfl hs.aVel hs.jVel (List.nodup_append.2 ⟨n2, m2, fun a ha b hb => hnm a (by simp [ha]) b (by simp [hb])⟩) x1
  obtain ⟨x3, e3, v3, f3⟩ := toJoint_run nd .effort d.trans (act := d.stateHandle.act) (jnt := d.stateHandle.jnt)
    rfl rfl hs.aEff hs.jEff (List.nodup_append.2 ⟨n3, m3, fun a ha b hb => hnm a (by simp [ha]) b (by simp [hb])⟩) x2
  refine ⟨x3, ?_, ?_, fun c hc => ?_⟩
  · simp only [toJoint] at e1 e2 e3
    have h1 : d.stateHandle.trans = d.trans := rfl
    have h2 : d.stateHandle.act.absolutePosition.isEmpty = true := rfl
    have h3 : d.stateHandle.act.torqueSensor.isEmpty = true := rfl
    simp only [Handle.propagate, h1, e1, e2, e3, h2, h3, bind, Except.bind, pure, Except.pure, if_true]
  · rw [← v1]
    refine List.map_congr_left fun c hc => ?_
    rw [f3 c fun h => m123 c (Or.inl hc) c h rfl, f2 c fun h => m12 c hc c h rfl]
  · simp only [Drive.derived, List.mem_append, not_or] at hc
    rw [f3 c hc.2, f2 c hc.1.2, f1 c hc.1.1]

theorem commandHandle_run (nd : Bool) (q : Command) (d : Drive K) (hs : d.Sized) (hn : d.all.Nodup) (m : Mem K) :
    ∃ m', (d.commandHandle q).propagate nd q.kind m = .ok m' ∧
      d.aCmd.map m' = (actuatorMaps q.quantity d.trans).run (d.jCmd.map m) ∧
      ∀ c, c ∉ d.aCmd → m' c = m c := by
  simp only [Drive.all, List.nodup_append, List.mem_append] at hn
  obtain ⟨⟨⟨⟨n1, n2, n12⟩, n3, n123⟩, n4, n1234⟩, ⟨⟨⟨m1, m2, m12⟩, m3, m123⟩, m4, m1234⟩, hnm⟩ := hn
  obtain ⟨x1, e1, v1, f1⟩ := toActuator_run nd q.quantity d.trans (act := (d.commandHandle q).act)
    (jnt := (d.commandHandle q).jnt) (as := d.aCmd) (js := d.jCmd) (by cases q <;> rfl) (by cases q <;> rfl)
    hs.aCmd hs.jCmd (List.nodup_append.2 ⟨n4, m4, fun a ha b hb => hnm a (by simp [ha]) b (by simp [hb])⟩) m
  refine ⟨x1, ?_, v1, f1⟩
  rw [← e1]
  cases q <;> rfl

end

theorem data_has (q : Command) (l : List Nat) (c : Nat) : (q.data l).Has c ↔ c ∈ l := by
  cases q <;> simp [Command.data, Transmission.Data.Has]

theorem stateHandle_target (d : Drive K) (c : Nat) :
    d.stateHandle.Target .actuatorToJointState c ↔ c ∈ d.derived := by
  simp [Handle.Target, Drive.stateHandle, Drive.derived, Transmission.Data.Has]

theorem commandHandle_target (q : Command) (d : Drive K) (c : Nat) :
    (d.commandHandle q).Target q.kind c ↔ c ∈ d.aCmd := by
  rw [← data_has q]
  cases q <;> rfl

theorem stateHandle_has (d : Drive K) (c : Nat) (h : d.stateHandle.Has c) : c ∈ d.all := by
  simp only [Handle.Has, Drive.stateHandle, Transmission.Data.Has, List.mem_map, Option.some.injEq, exists_eq_right,
    List.not_mem_nil, or_false] at h
  simp only [Drive.all, List.mem_append]
  tauto

theorem commandHandle_has (q : Command) (d : Drive K) (c : Nat) (h : (d.commandHandle q).Has c) : c ∈ d.all := by
  simp only [Handle.Has, Drive.commandHandle, data_has] at h
  simp only [Drive.all, List.mem_append]
  tauto

theorem separate_of {k : Transmission.Kind} {f : Drive K → Handle K} (hhas : ∀ d c, (f d).Has c → c ∈ d.all)
    (htgt : ∀ d c, (f d).Target k c → c ∈ d.all) (ds : List (Drive K)) (hn : (ds.flatMap Drive.all).Nodup) :
    Separate k (ds.map f) := by
  unfold Separate
  rw [List.pairwise_map]
  refine (List.nodup_flatMap.1 hn).2.imp fun hdis => ⟨fun c h g => ?_, fun c h g => ?_⟩
  · exact hdis (htgt _ c h) (hhas _ c g)
  · exact hdis (hhas _ c g) (htgt _ c h)

section

variable [Add K] [Sub K] [Mul K] [Div K] [OfNat K 2]

/-- What `read` computes. -/
theorem read_run (nd : Bool) (ds : List (Drive K)) (hs : ∀ d ∈ ds, d.Sized) (hn : (ds.flatMap Drive.all).Nodup)
    (m : Mem K) :
    ∃ m', propagateAll nd .actuatorToJointState (ds.map Drive.stateHandle) m = .ok m' ∧
      (∀ d ∈ ds, d.jPos.map m' = (jointMaps .position d.trans).run (d.aPos.map m)) ∧
      ∀ c, (∀ d ∈ ds, c ∉ d.derived) → m' c = m c := by
  have hnd := (List.nodup_flatMap.1 hn).1
  obtain ⟨m', e, h1, h2⟩ := propagateAll_local nd .actuatorToJointState (ds.map Drive.stateHandle)
    (separate_of stateHandle_has (fun d c h => by
      rw [stateHandle_target] at h
      simp only [Drive.derived, Drive.all, List.mem_append] at h ⊢
      tauto) ds hn) m (by
      intro h hh
      obtain ⟨d, hd, rfl⟩ := List.mem_map.1 hh
      obtain ⟨m', e, _⟩ := stateHandle_run nd d (hs d hd) (hnd d hd) m
      exact ⟨m', e⟩)
  refine ⟨m', e, fun d hd => ?_, fun c hc => h2 c ?_⟩
  · obtain ⟨x, e, v, _⟩ := stateHandle_run nd d (hs d hd) (hnd d hd) m
    rw [← v]
    refine List.map_congr_left fun c hc => ?_
    have ht : d.stateHandle.Target .actuatorToJointState c := (stateHandle_target d c).2 (by simp [Drive.derived, hc])
    exact h1 _ (List.mem_map_of_mem hd) x e c (Or.inr ht) (Or.inl ht)
  · intro h hh
    obtain ⟨d, hd, rfl⟩ := List.mem_map.1 hh
    rw [stateHandle_target]
    exact hc d hd

/-- What the last part of `write` computes. -/
theorem send_run (nd : Bool) (q : Command) (ds : List (Drive K)) (hs : ∀ d ∈ ds, d.Sized)
    (hn : (ds.flatMap Drive.all).Nodup) (m : Mem K) :
    ∃ m', propagateAll nd q.kind (ds.map (Drive.commandHandle q)) m = .ok m' ∧
      (∀ d ∈ ds, d.aCmd.map m' = (actuatorMaps q.quantity d.trans).run (d.jCmd.map m)) ∧
      ∀ c, (∀ d ∈ ds, c ∉ d.aCmd) → m' c = m c := by
  have hnd := (List.nodup_flatMap.1 hn).1
  obtain ⟨m', e, h1, h2⟩ := propagateAll_local nd q.kind (ds.map (Drive.commandHandle q))
    (separate_of (commandHandle_has q) (fun d c h => by
      rw [commandHandle_target] at h
      simp only [Drive.all, List.mem_append]
      tauto) ds hn) m (by
      intro h hh
      obtain ⟨d, hd, rfl⟩ := List.mem_map.1 hh
      obtain ⟨m', e, _⟩ := commandHandle_run nd q d (hs d hd) (hnd d hd) m
      exact ⟨m', e⟩)
  refine ⟨m', e, fun d hd => ?_, fun c hc => h2 c ?_⟩
  · obtain ⟨x, e, v, _⟩ := commandHandle_run nd q d (hs d hd) (hnd d hd) m
    rw [← v]
    refine List.map_congr_left fun c hc => ?_
    have ht : (d.commandHandle q).Target q.kind c := (commandHandle_target q d c).2 hc
    have hh : (d.commandHandle q).Has c := Or.inl ((data_has q _ c).2 hc)
    exact h1 _ (List.mem_map_of_mem hd) x e c hh (Or.inl ht)
  · intro h hh
    obtain ⟨d, hd, rfl⟩ := List.mem_map.1 hh
    rw [commandHandle_target]
    exact hc d hd

end

/-! ### Limits -/

section

open Verif.Limits

variable [LinearOrder K] {A : Arith K}

theorem saturate_number (c : K) (lo hi : Dbl K) : ∃ o, saturate (some c) lo hi = some o := by
  have h1 : ∃ x, dmax (some c) lo = some x := by
    cases lo with
    | none => exact ⟨c, rfl⟩
    | some l => exact ⟨_, dmax_some c l⟩
  obtain ⟨x, hx⟩ := h1
  rw [saturate, hx]
  cases hi with
  | none => exact ⟨x, rfl⟩
  | some h => exact ⟨_, dmin_some x h⟩

theorem limit_number (k : Limits.Kind) (L : JointLimits (Dbl K)) (S : SoftLimits (Dbl K)) (prev : Dbl K)
    (i : Limits.Input (Dbl K)) (c : K) (hc : i.cmd = some c) (out : Dbl K) (h : k.limit A L S prev i = some out) :
    ∃ o, out = some o := by
  have key : ∀ lo hi, ∃ o, saturate i.cmd lo hi = some o := fun lo hi => by rw [hc]; exact saturate_number c lo hi
  cases k <;> simp only [Kind.limit, posSat, posSoft, effSat, effSoft, velSat, velSoft] at h
  case posSat => cases h; exact key _ _
  case posSoft => split at h; · cases h
                  · cases h; exact key _ _
  case effSat => cases h; exact key _ _
  case effSoft => cases h; exact key _ _
  case velSat =>
    split at h
    · split at h
      · cases h
      · cases h; exact key _ _
    · cases h; exact key _ _
  case velSoft => cases h; exact key _ _

theorem enforceAll_numbers (k : Limits.Kind) (dt : Dbl K) (s s' : LimitsIface K) (m m' : Cells K)
    (h : enforceAll A k dt s m = some (s', m')) (hm : ∀ a, ∃ x, m a = some x) : ∀ a, ∃ x, m' a = some x := by
  induction s generalizing m s' with
  | nil => cases h; exact hm
  | cons e t ih =>
    obtain ⟨n, l⟩ := e
    simp only [enforceAll, Limiter.enforce] at h
    cases hl : k.limit A l.limits l.soft l.prev (l.input m dt) with
    | none => simp [hl] at h
    | some out =>
      simp only [hl] at h
      split at h
      · cases h
      · rename_i t' m'' ht
        cases h
        refine ih _ _ ht fun a => ?_
        by_cases ha : a = l.joint.cmd
        · rw [if_pos ha]
          obtain ⟨c, hc⟩ := hm l.joint.cmd
          exact limit_number k _ _ _ _ c hc out hl
        · rw [if_neg ha]
          exact hm a

end

/-! ### Variables -/

theorem same_drive {ds : List (Drive K)} (hn : (ds.flatMap Drive.all).Nodup) {d d' : Drive K} (hd : d ∈ ds)
    (hd' : d' ∈ ds) {c : Nat} (h : c ∈ d.all) (h' : c ∈ d'.all) : d = d' := by
  by_contra hne
  have hp := (List.nodup_flatMap.1 hn).2
  have : Std.Symm (Function.onFun List.Disjoint (Drive.all (K := K))) := ⟨fun _ _ h _ h1 h2 => h h2 h1⟩
  exact hp.forall hd hd' hne h h'

theorem jCmd_all {d : Drive K} {c : Nat} (h : c ∈ d.jCmd) : c ∈ d.all := by
  simp [Drive.all, h]

theorem jPos_all {d : Drive K} {c : Nat} (h : c ∈ d.jPos) : c ∈ d.all := by
  simp [Drive.all, h]

theorem jVel_all {d : Drive K} {c : Nat} (h : c ∈ d.jVel) : c ∈ d.all := by
  simp [Drive.all, h]

theorem aCmd_all {d : Drive K} {c : Nat} (h : c ∈ d.aCmd) : c ∈ d.all := by
  simp [Drive.all, h]

theorem derived_all {d : Drive K} {c : Nat} (h : c ∈ d.derived) : c ∈ d.all := by
  simp only [Drive.derived, List.mem_append] at h
  simp only [Drive.all, List.mem_append]
  tauto

theorem sensed_all {d : Drive K} {c : Nat} (h : c ∈ d.sensed) : c ∈ d.all := by
  simp only [Drive.sensed, List.mem_append] at h
  simp only [Drive.all, List.mem_append]
  tauto

/-- The parts of the variables are disjoint. -/
theorem parts {ds : List (Drive K)} (hn : (ds.flatMap Drive.all).Nodup) {d d' : Drive K} (hd : d ∈ ds)
    (hd' : d' ∈ ds) (c : Nat) :
    (c ∈ d.jCmd → c ∉ d'.derived) ∧ (c ∈ d.jCmd → c ∉ d'.aCmd) ∧ (c ∈ d.derived → c ∉ d'.aCmd) ∧
    (c ∈ d.sensed → c ∉ d'.derived) := by
  have key : ∀ {P Q : Drive K → List Nat}, (∀ x : Drive K, x.all.Nodup → ∀ c, c ∈ P x → c ∉ Q x) →
      (∀ x : Drive K, ∀ c, c ∈ P x → c ∈ x.all) → (∀ x : Drive K, ∀ c, c ∈ Q x → c ∈ x.all) → c ∈ P d → c ∉ Q d' := by
    intro P Q h hP hQ h1 h2
    have := same_drive hn hd hd' (hP d c h1) (hQ d' c h2)
    subst this
    exact h d ((List.nodup_flatMap.1 hn).1 d hd) c h1 h2
  refine ⟨key ?_ (fun _ _ => jCmd_all) (fun _ _ => derived_all), key ?_ (fun _ _ => jCmd_all) (fun _ _ => aCmd_all),
    key ?_ (fun _ _ => derived_all) (fun _ _ => aCmd_all), key ?_ (fun _ _ => sensed_all) (fun _ _ => derived_all)⟩
  all_goals
    intro x hx c h1 h2
    simp only [Drive.all, List.nodup_append, List.mem_append] at hx
    try simp only [Drive.derived, Drive.sensed, List.mem_append] at h1
    try simp only [Drive.derived, List.mem_append] at h2
    obtain ⟨⟨_, _, n1234⟩, ⟨_, _, m1234⟩, hnm⟩ := hx
  · exact m1234 c h2 c h1 rfl
  · exact hnm c (Or.inr h2) c (Or.inr h1) rfl
  · exact hnm c (Or.inr h2) c (Or.inl h1) rfl
  · exact hnm c (Or.inl h1) c (Or.inl h2) rfl

/-! ### Cycles -/

section

variable [Field K] [LinearOrder K] {A : Limits.Arith K} {nd : Bool}

/-- The previous command a limit handle has when the limits are enforced. -/
def effective (k : Limits.Kind) (reset : Bool) (prev : Limits.Dbl K) : Limits.Dbl K :=
  if reset = true ∧ (k = .posSat ∨ k = .posSoft) then none else prev

/-- The limits interface when the limits are enforced. -/
def atEnforce (k : Limits.Kind) (reset : Bool) (s : Limits.LimitsIface K) : Limits.LimitsIface K :=
  if reset then Limits.resetAll k s else s

omit [Field K] [LinearOrder K] in
theorem atEnforce_eq (k : Limits.Kind) (reset : Bool) (s : Limits.LimitsIface K) :
    atEnforce k reset s = s.map fun e => (e.1, { e.2 with prev := effective k reset e.2.prev }) := by
  cases reset with
  | false => simp [atEnforce, effective]
  | true =>
    cases k <;> simp [atEnforce, Limits.resetAll, effective, Limits.Limiter.reset]

/-- What a cycle does. -/
structure Cycled (A : Limits.Arith K) (r : Robot K) (i : Input K) (r' : Robot K) (rec : Record K) : Prop where
  wired : Wired r'
  drives : r'.drives = r.drives
  sends : r'.sends = r.sends
  kind : r'.kind = r.kind
  enforced : ∀ n h, (n, h) ∈ r.limits → ∃ o, r.kind.limit A h.limits h.soft (effective r.kind i.reset h.prev)
      ⟨some (i.wish h.joint.cmd), some (rec.measured h.joint.pos), some (rec.measured h.joint.vel), some i.period⟩ =
        some (some o) ∧ rec.limited h.joint.cmd = o ∧ (n, { h with prev := some o }) ∈ r'.limits
  limits : ∀ n h', (n, h') ∈ r'.limits → ∃ h, (n, h) ∈ r.limits ∧ h' = { h with prev := some (rec.limited h.joint.cmd) }
  measured : ∀ d ∈ r.drives, d.jPos.map rec.measured = (jointMaps .position d.trans).run (d.aPos.map i.sense)
  sent : ∀ d ∈ r.drives, d.aCmd.map rec.sent = (actuatorMaps r.sends.quantity d.trans).run (d.jCmd.map rec.limited)
  keeps : ∀ d ∈ r.drives, ∀ c ∈ d.jCmd, rec.sent c = rec.limited c
  wished : ∀ d ∈ r.drives, ∀ c ∈ d.jCmd, rec.wished c = i.wish c
  free : ∀ d ∈ r.drives, ∀ c ∈ d.jCmd, (∀ e ∈ r.limits, e.2.joint.cmd ≠ c) → rec.limited c = i.wish c

theorem cycle_run {r : Robot K} (hw : Wired r) (i : Input K)
    (hp : Limits.dlt (some A.zero) (some i.period) = true) (m : Mem K) :
    ∃ r' rec, r.cycle nd A i m = .ok (r', rec) ∧ Cycled A r i r' rec := by
  obtain ⟨m1, e1, v1, f1⟩ := read_run nd r.drives hw.sized hw.distinct
    (overwrite (r.drives.flatMap Drive.sensed) i.sense m)
  have eread : r.read nd i.sense m = .ok m1 := by simp only [Robot.read, e1]
  set m2 := r.control i.wish m1 with hm2
  set s0 := atEnforce r.kind i.reset r.limits with hs0
  have hk0 : smapKeys s0 = smapKeys r.limits := by
    rw [hs0, atEnforce_eq]
    simp [smapKeys, List.map_map, Function.comp_def]
  have hsort0 : KeysSorted s0 := by
    have := hw.sorted
    unfold KeysSorted at this ⊢
    rwa [hk0]
  cases he : Limits.enforceAll A r.kind (some i.period) s0 (fun a => some (m2 a)) with
  | none =>
    rw [Limits.enforceAll_none] at he
    rw [hp] at he
    cases he.1
  | some p =>
    obtain ⟨s', c⟩ := p
    have hnum := Limits.enforceAll_keys r.kind _ _ _ _ _ he
    have hc : ∀ a, ∃ x, c a = some x := enforceAll_numbers r.kind _ _ _ _ _ he fun a => ⟨_, rfl⟩
    have hall : (s'.all fun e => (c e.2.joint.cmd).isSome) = true := by
      rw [List.all_eq_true]
      intro e _
      obtain ⟨x, hx⟩ := hc e.2.joint.cmd
      rw [hx]; rfl
    set m3 : Mem K := fun a => (c a).getD (m2 a) with hm3
    have hc3 : ∀ a, c a = some (m3 a) := fun a => by
      obtain ⟨x, hx⟩ := hc a
      simp [hm3, hx]
    obtain ⟨m4, e4, v4, f4⟩ := send_run nd r.sends r.drives hw.sized hw.distinct m3
    have mem0 : ∀ n h, (n, h) ∈ r.limits → (n, { h with prev := effective r.kind i.reset h.prev }) ∈ s0 := by
      intro n h hm
      rw [hs0, atEnforce_eq]
      exact List.mem_map.2 ⟨(n, h), hm, rfl⟩
    have mem0' : ∀ n h0, (n, h0) ∈ s0 → ∃ h, (n, h) ∈ r.limits ∧ h0 = { h with prev := effective r.kind i.reset h.prev } := by
      intro n h0 hm
      rw [hs0, atEnforce_eq] at hm
      obtain ⟨⟨n', h⟩, hmem, e⟩ := List.mem_map.1 hm
      cases e
      exact ⟨h, hmem, rfl⟩
    have key : ∀ n h, (n, h) ∈ r.limits → ∃ o, r.kind.limit A h.limits h.soft (effective r.kind i.reset h.prev)
        ⟨some (i.wish h.joint.cmd), some (m1 h.joint.pos), some (m1 h.joint.vel), some i.period⟩ =
          some (some o) ∧ m3 h.joint.cmd = o ∧ (n, { h with prev := some o }) ∈ s' := by
      intro n h hm
      obtain ⟨d, hd, j, hj1, hj2, hj3⟩ := hw.joints _ hm
      have hj1' := List.mem_of_getElem? hj1
      have hj2' := List.mem_of_getElem? hj2
      have hj3' := List.mem_of_getElem? hj3
      obtain ⟨out, g1, g2, g3⟩ := Limits.enforceAll_one r.kind _ s0 _ s' c he (Limits.sorted_nodup hsort0) n _ (mem0 n h hm) (by
        intro n' h0' hm' hne
        obtain ⟨h', hm'', rfl⟩ := mem0' n' h0' hm'
        obtain ⟨d', hd', j', _, _, hj'⟩ := hw.joints _ hm''
        have hj' := List.mem_of_getElem? hj'
        have hpart := (parts hw.distinct hd' hd h'.joint.cmd).1 hj'
        refine ⟨fun e => hne ?_, fun e => ?_, fun e => ?_⟩
        · exact hw.once _ hm'' _ hm e
        · exact hpart (by simp only [Drive.derived, List.mem_append]; left; left; rw [e]; exact hj1')
        · exact hpart (by simp only [Drive.derived, List.mem_append]; left; right; rw [e]; exact hj2'))
      have ein : Limits.Limiter.input { h with prev := effective r.kind i.reset h.prev } (fun a => some (m2 a)) (some i.period) =
          ⟨some (i.wish h.joint.cmd), some (m1 h.joint.pos), some (m1 h.joint.vel), some i.period⟩ := by
        have w1 : m2 h.joint.cmd = i.wish h.joint.cmd := by
          rw [hm2, Robot.control, overwrite, if_pos (List.mem_flatMap.2 ⟨d, hd, hj3'⟩)]
        have w2 : ∀ a, a ∈ d.derived → m2 a = m1 a := by
          intro a ha
          rw [hm2, Robot.control, overwrite, if_neg]
          intro hm
          obtain ⟨d', hd', ha'⟩ := List.mem_flatMap.1 hm
          exact (parts hw.distinct hd' hd a).1 ha' ha
        simp only [Limits.Limiter.input, w1, w2 _ (show h.joint.pos ∈ d.derived by simp [Drive.derived, hj1']),
          w2 _ (show h.joint.vel ∈ d.derived by simp [Drive.derived, hj2'])]
      rw [ein] at g1
      obtain ⟨o, rfl⟩ := limit_number r.kind _ _ _ _ _ rfl out g1
      refine ⟨o, g1, ?_, g3⟩
      have := hc3 h.joint.cmd
      rw [g2] at this
      exact (Option.some.inj this).symm
    have ewrite : (if i.reset = true then { r with limits := Limits.resetAll r.kind r.limits } else r).write nd A i.period m2 =
        .ok ({ r with limits := s' }, m3, m4) := by
      have hr : (if i.reset = true then { r with limits := Limits.resetAll r.kind r.limits } else r) =
          { r with limits := s0 } := by
        rw [hs0, atEnforce]; split <;> rfl
      rw [hr]
      simp only [Robot.write, he, hall, if_true, e4, ← hm3]
    have hlim : ∀ n h', (n, h') ∈ s' → ∃ h, (n, h) ∈ r.limits ∧ h' = { h with prev := some (m3 h.joint.cmd) } := by
      intro n h' hm'
      obtain ⟨h0, hm0, hjj, _, _⟩ := Limits.enforceAll_joint r.kind _ _ _ _ _ he n h' hm'
      obtain ⟨h, hm, e⟩ := mem0' n h0 hm0
      obtain ⟨o, _, g2, g3⟩ := key n h hm
      have hsort' : KeysSorted s' := by
        unfold KeysSorted at hsort0 ⊢
        rwa [hnum]
      have h1 := smapFind_of_mem hsort' hm'
      have h2 := smapFind_of_mem hsort' g3
      rw [h1] at h2
      refine ⟨h, hm, ?_⟩
      rw [g2]
      exact Option.some.inj h2
    refine ⟨{ r with limits := s' }, ⟨m1, m2, m3, m4⟩, ?_, ⟨?_, rfl, rfl, rfl, key, hlim, ?_, v4, ?_, ?_, ?_⟩⟩
    rotate_left
    · refine ⟨hw.constructed, hw.sized, hw.distinct, ?_, ?_, ?_⟩
      · have := hsort0
        unfold KeysSorted at this ⊢
        show (smapKeys s').Pairwise _
        rwa [hnum]
      · rintro ⟨n, h'⟩ hm'
        obtain ⟨h, hm, rfl⟩ := hlim n h' hm'
        exact hw.joints (n, h) hm
      · rintro ⟨n, h'⟩ hm' ⟨n2, h2'⟩ hm2' e
        obtain ⟨h, hm, rfl⟩ := hlim n h' hm'
        obtain ⟨h2, hm2, rfl⟩ := hlim n2 h2' hm2'
        exact hw.once (n, h) hm (n2, h2) hm2 e
    · intro d hd
      show d.jPos.map m1 = _
      rw [v1 d hd]
      congr 1
      refine List.map_congr_left fun c hc => ?_
      rw [overwrite, if_pos (List.mem_flatMap.2 ⟨d, hd, by simp [Drive.sensed, hc]⟩)]
    · intro d hd c hc'
      exact f4 c fun d' hd' => (parts hw.distinct hd hd' c).2.1 hc'
    · intro d hd c hc'
      show m2 c = _
      rw [hm2, Robot.control, overwrite, if_pos (List.mem_flatMap.2 ⟨d, hd, hc'⟩)]
    · intro d hd c' hc' hfree
      show m3 c' = _
      have := Limits.enforceAll_frame r.kind _ _ _ _ _ he c' (fun e hm => by
        obtain ⟨n, h0⟩ := e
        obtain ⟨h, hm', rfl⟩ := mem0' n h0 hm
        exact hfree (n, h) hm')
      rw [hc3] at this
      rw [Option.some.inj this, hm2, Robot.control, overwrite, if_pos (List.mem_flatMap.2 ⟨d, hd, hc'⟩)]
    · simp only [Robot.cycle, eread, bind, Except.bind, ← hm2, ewrite, pure, Except.pure]

/-- A run: every cycle is completed, and they are as `Cycled` says. -/
theorem run_cycled {r : Robot K} (hw : Wired r) (is : List (Input K))
    (hp : ∀ i ∈ is, Limits.dlt (some A.zero) (some i.period) = true) (m : Mem K) :
    ∃ st : Nat → Robot K, st 0 = r ∧ (r.run nd A is m).2 = none ∧ (r.run nd A is m).1.length = is.length ∧
      ∀ k i rec, is[k]? = some i → (r.run nd A is m).1[k]? = some rec → Cycled A (st k) i (st (k + 1)) rec := by
  induction is generalizing r m with
  | nil => exact ⟨fun _ => r, rfl, rfl, rfl, fun k i rec h => by simp at h⟩
  | cons i is ih =>
    obtain ⟨r', rec, e, hc⟩ := cycle_run (nd := nd) hw i (hp i (by simp)) m
    obtain ⟨st, h0, h1, h2, h3⟩ := ih hc.wired (fun j hj => hp j (by simp [hj])) rec.sent
    have erun : r.run nd A (i :: is) m = (rec :: (r'.run nd A is rec.sent).1, (r'.run nd A is rec.sent).2) := by
      rw [Robot.run, e]
    refine ⟨fun k => match k with | 0 => r | k + 1 => st k, rfl, by rw [erun]; exact h1,
      by rw [erun]; simp [h2], fun k j rec' hj hrec => ?_⟩
    rw [erun] at hrec
    cases k with
    | zero =>
      simp only [List.getElem?_cons_zero, Option.some.injEq] at hj hrec
      subst hj hrec
      show Cycled A r i (st 0) rec
      rw [h0]
      exact hc
    | succ k =>
      simp only [List.getElem?_cons_succ] at hj hrec
      exact h3 k j rec' hj hrec

/-- The handle of a joint in the course of a run: nothing changes but the previous command, which is the
one of the cycle before. -/
theorem track {r : Robot K} {is : List (Input K)} {recs : List (Record K)} {st : Nat → Robot K} (h0 : st 0 = r)
    (hlen : recs.length = is.length)
    (hst : ∀ k i rec, is[k]? = some i → recs[k]? = some rec → Cycled A (st k) i (st (k + 1)) rec)
    (n : String) (h : Limits.Limiter K) (hm : (n, h) ∈ r.limits) (k : Nat) (hk : k ≤ is.length) :
    (st k).kind = r.kind ∧ (st k).drives = r.drives ∧ (st k).sends = r.sends ∧
    ∃ p, (n, { h with prev := p }) ∈ (st k).limits ∧ (k = 0 → p = h.prev) ∧
      ∀ j rec, k = j + 1 → recs[j]? = some rec → p = some (rec.limited h.joint.cmd) := by
  induction k with
  | zero =>
    rw [h0]
    exact ⟨rfl, rfl, rfl, h.prev, hm, fun _ => rfl, fun j rec e => by cases e⟩
  | succ k ih =>
    obtain ⟨e1, e2, e3, p, hp, _⟩ := ih (by omega)
    have hk' : k < is.length := hk
    have hc := hst k is[k] recs[k] (List.getElem?_eq_getElem hk') (List.getElem?_eq_getElem (by omega))
    obtain ⟨o, _, g2, g3⟩ := hc.enforced n _ hp
    refine ⟨hc.kind.trans e1, hc.drives.trans e2, hc.sends.trans e3, some o, g3, by simp, fun j rec e hj => ?_⟩
    have : j = k := by omega
    subst this
    rw [List.getElem?_eq_getElem (by omega)] at hj
    cases hj
    rw [← g2]

/-- The parts of a run that do not belong to a joint. -/
theorem track_robot {r : Robot K} {is : List (Input K)} {recs : List (Record K)} {st : Nat → Robot K} (h0 : st 0 = r)
    (hlen : recs.length = is.length)
    (hst : ∀ k i rec, is[k]? = some i → recs[k]? = some rec → Cycled A (st k) i (st (k + 1)) rec)
    (k : Nat) (hk : k ≤ is.length) :
    (st k).kind = r.kind ∧ (st k).drives = r.drives ∧ (st k).sends = r.sends ∧
    ∀ e ∈ (st k).limits, ∃ e' ∈ r.limits, e'.2.joint = e.2.joint := by
  induction k with
  | zero =>
    rw [h0]
    exact ⟨rfl, rfl, rfl, fun e he => ⟨e, he, rfl⟩⟩
  | succ k ih =>
    obtain ⟨e1, e2, e3, e4⟩ := ih (by omega)
    have hk' : k < is.length := hk
    have hc := hst k is[k] recs[k] (List.getElem?_eq_getElem hk') (List.getElem?_eq_getElem (by omega))
    refine ⟨hc.kind.trans e1, hc.drives.trans e2, hc.sends.trans e3, fun e he => ?_⟩
    obtain ⟨h, hm, hh⟩ := hc.limits e.1 e.2 he
    obtain ⟨e', he', hj⟩ := e4 _ hm
    exact ⟨e', he', by rw [hj, hh]⟩

/-- What the handle of a joint does in each cycle of a run. -/
theorem run_joint {r : Robot K} (hw : Wired r) (is : List (Input K))
    (hp : ∀ i ∈ is, Limits.dlt (some A.zero) (some i.period) = true) (m : Mem K)
    (n : String) (h : Limits.Limiter K) (hm : (n, h) ∈ r.limits) (k : Nat) (i : Input K) (rec : Record K)
    (hi : is[k]? = some i) (hrec : (r.run nd A is m).1[k]? = some rec) :
    ∃ p, (k = 0 → p = h.prev) ∧
      (∀ j rec', k = j + 1 → (r.run nd A is m).1[j]? = some rec' → p = some (rec'.limited h.joint.cmd)) ∧
      r.kind.limit A h.limits h.soft (effective r.kind i.reset p)
        ⟨some (i.wish h.joint.cmd), some (rec.measured h.joint.pos), some (rec.measured h.joint.vel), some i.period⟩ =
          some (some (rec.limited h.joint.cmd)) := by
  obtain ⟨st, h0, _, h2, h3⟩ := run_cycled (nd := nd) hw is hp m
  have hk : k < is.length := (List.getElem?_eq_some_iff.1 hi).1
  obtain ⟨e1, _, _, p, hp, hp0, hpj⟩ := track h0 h2 h3 n h hm k hk.le
  obtain ⟨o, g1, g2, _⟩ := (h3 k i rec hi hrec).enforced n _ hp
  rw [e1] at g1
  refine ⟨p, hp0, hpj, ?_⟩
  rw [g1]
  rw [← g2]

theorem run_drive {r : Robot K} (hw : Wired r) (is : List (Input K))
    (hp : ∀ i ∈ is, Limits.dlt (some A.zero) (some i.period) = true) (m : Mem K)
    (k : Nat) (i : Input K) (rec : Record K) (hi : is[k]? = some i) (hrec : (r.run nd A is m).1[k]? = some rec) :
    (∀ d ∈ r.drives, d.jPos.map rec.measured = (jointMaps .position d.trans).run (d.aPos.map i.sense)) ∧
    (∀ d ∈ r.drives, d.aCmd.map rec.sent = (actuatorMaps r.sends.quantity d.trans).run (d.jCmd.map rec.limited)) ∧
    (∀ d ∈ r.drives, ∀ c ∈ d.jCmd, (∀ e ∈ r.limits, e.2.joint.cmd ≠ c) → rec.limited c = i.wish c) := by
  obtain ⟨st, h0, _, h2, h3⟩ := run_cycled (nd := nd) hw is hp m
  have hk : k < is.length := (List.getElem?_eq_some_iff.1 hi).1
  obtain ⟨_, e2, e3, e4⟩ := track_robot h0 h2 h3 k hk.le
  have hc := h3 k i rec hi hrec
  refine ⟨?_, ?_, fun d hd c hcm hfree => ?_⟩
  · rw [← e2]; exact hc.measured
  · rw [← e2, ← e3]; exact hc.sent
  · refine hc.free d (e2 ▸ hd) c hcm fun e he => ?_
    obtain ⟨e', he', hj⟩ := e4 e he
    rw [← hj]
    exact hfree e' he'

end

end Verif.Cycle
