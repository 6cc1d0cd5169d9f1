import Verif.Lemmas.Transmission
import Mathlib.Data.List.Perm.Basic

/-!
What memory a transmission handle reads and writes.
-/

namespace Verif.Transmission

section

variable {K : Type}

/-- A computation whose result on the cells `R` depends only on the cells `R`, that writes only cells in
`W`, and whose success does not depend on the memory outside `R`. -/
structure Local (R W : Nat → Prop) (f : Mem K → Except Fault (Mem K)) : Prop where
  frame : ∀ m m', f m = .ok m' → ∀ c, ¬W c → m' c = m c
  agree : ∀ m1 m2 m1', (∀ c, R c → m1 c = m2 c) → f m1 = .ok m1' → ∃ m2', f m2 = .ok m2' ∧ ∀ c, R c → m1' c = m2' c

variable {R W : Nat → Prop}

theorem Local.pure : Local R W (fun m : Mem K => .ok m) where
  frame m m' h c _ := by cases h; rfl
  agree m1 m2 m1' h he := by cases he; exact ⟨m2, rfl, h⟩

theorem Local.bind {f g : Mem K → Except Fault (Mem K)} (hf : Local R W f) (hg : Local R W g) :
    Local R W (fun m => f m >>= g) where
  frame m m' h c hc := by
    cases h1 : f m with
    | error e => rw [h1] at h; cases h
    | ok m1 =>
      rw [h1] at h
      have h : g m1 = .ok m' := h
      rw [hg.frame _ _ h c hc, hf.frame _ _ h1 c hc]
  agree m1 m2 m1' h he := by
    cases h1 : f m1 with
    | error e => rw [h1] at he; cases he
    | ok n1 =>
      rw [h1] at he
      have he : g n1 = .ok m1' := he
      obtain ⟨n2, e2, a2⟩ := hf.agree _ _ _ h h1
      obtain ⟨m2', e3, a3⟩ := hg.agree _ _ _ a2 he
      refine ⟨m2', ?_, a3⟩
      show f m2 >>= g = _
      rw [e2]; exact e3

/-- A check before the computation. -/
theorem Local.check {f : Mem K → Except Fault (Mem K)} (hf : Local R W f) (e : Except Fault Unit) :
    Local R W (fun m => e >>= fun _ => f m) := by
  cases e with
  | error x => exact ⟨fun _ _ h => (by cases h), fun _ _ _ _ h => (by cases h)⟩
  | ok u => exact hf

theorem deref_mem {v : List Ptr} {i a : Nat} (h : deref v i = .ok a) : some a ∈ v := by
  unfold deref at h
  split at h
  · cases h
  · cases h
  · rename_i b hb
    cases h
    exact List.mem_of_getElem? hb

/-- A load followed by a local computation. -/
theorem Local.load {v : List Ptr} {i : Nat} {f : K → Mem K → Except Fault (Mem K)} (hR : ∀ a, some a ∈ v → R a)
    (hf : ∀ x, Local R W (f x)) : Local R W (fun m => load v i m >>= fun x => f x m) := by
  unfold Transmission.load
  cases h : deref v i with
  | error e => exact ⟨fun _ _ h => (by cases h), fun _ _ _ _ h => (by cases h)⟩
  | ok a =>
    have ha := hR a (deref_mem h)
    constructor
    · intro m m' he c hc
      exact (hf (m a)).frame m m' he c hc
    · intro m1 m2 m1' hm he
      have he : f (m1 a) m1 = .ok m1' := he
      rw [hm a ha] at he
      exact (hf (m2 a)).agree m1 m2 m1' hm he

theorem Local.store {v : List Ptr} {i : Nat} {x : K} (hW : ∀ a, some a ∈ v → W a) :
    Local R W (Transmission.store v i x) := by
  unfold Transmission.store
  cases h : deref v i with
  | error e => exact ⟨fun _ _ h => (by cases h), fun _ _ _ _ h => (by cases h)⟩
  | ok a =>
    have ha := hW a (deref_mem h)
    constructor
    · intro m m' he c hc
      cases he
      have : c ≠ a := by rintro rfl; exact hc ha
      simp [this]
    · intro m1 m2 m1' hm he
      cases he
      refine ⟨_, rfl, fun c hc => ?_⟩
      by_cases hca : c = a
      · simp [hca]
      · simp [hca, hm c hc]

variable {d s : List Ptr} (hd : ∀ a, some a ∈ d → W a) (hs : ∀ a, some a ∈ s → R a)

include hd hs

theorem Local.assign1 (f : K → K) : Local R W (Transmission.assign1 d s f) :=
  Local.load hs fun _ => Local.store hd

theorem Local.assign2 (f g : K → K → K) : Local R W (Transmission.assign2 d s f g) :=
  Local.load hs fun x => Local.load hs fun y =>
    Local.bind (f := Transmission.store d 0 (f x y)) (Local.store hd)
      (g := fun m => Transmission.load s 0 m >>= fun x => Transmission.load s 1 m >>= fun y =>
        Transmission.store d 1 (g x y) m)
      (Local.load hs fun _ => Local.load hs fun _ => Local.store hd)

theorem Local.assign2Once (f g : K → K → K) : Local R W (Transmission.assign2Once d s f g) :=
  Local.load hs fun x => Local.load hs fun y =>
    Local.bind (f := Transmission.store d 0 (f x y)) (Local.store hd)
      (g := Transmission.store d 1 (g x y)) (Local.store hd)

end

section

variable {K : Type} [Add K] [Sub K] [Mul K] [Div K] [OfNat K 2] (nd : Bool) (T : Trans K) (act jnt : Data) {R W : Nat → Prop}

theorem local_toJoint (q : Quantity) (hd : ∀ a, some a ∈ jnt.get q → W a) (hs : ∀ a, some a ∈ act.get q → R a) :
    Local R W (toJoint nd q T act jnt) := by
  cases T <;> cases q
  all_goals first
    | exact Local.check (Local.assign1 hd hs _) _
    | exact Local.check (Local.assign2 hd hs _ _) _

theorem local_toActuator (q : Quantity) (hd : ∀ a, some a ∈ act.get q → W a) (hs : ∀ a, some a ∈ jnt.get q → R a) :
    Local R W (toActuator nd q T jnt act) := by
  cases T <;> cases q
  all_goals first
    | exact Local.check (Local.assign1 hd hs _) _
    | exact Local.check (Local.assign2 hd hs _ _) _
    | exact Local.check (Local.assign2Once hd hs _ _) _

theorem local_torque (hd : ∀ a, some a ∈ jnt.torqueSensor → W a) (hs : ∀ a, some a ∈ act.torqueSensor → R a) :
    Local R W (actuatorToJointTorqueSensor nd T act jnt) := by
  cases T
  all_goals first
    | exact Local.check (Local.assign1 hd hs _) _
    | exact Local.check (Local.assign2 hd hs _ _) _

theorem local_absolute (hd : ∀ a, some a ∈ jnt.absolutePosition → W a)
    (hs : ∀ a, some a ∈ act.absolutePosition → R a) :
    Local R W (actuatorToJointAbsolutePosition nd T act jnt) := by
  cases T with
  | simple t => exact Local.check (Local.assign1 hd hs _) _
  | fourBar t => exact Local.check (Local.assign2 hd hs _ _) _
  | differential t =>
    refine Local.check ?_ _
    split
    · exact Local.assign2 hd hs _ _
    · exact Local.assign2 hd hs _ _

theorem local_propagate (k : Kind) (h : Handle K) : Local h.Has (h.Target k) (h.propagate nd k) := by
  cases k with
  | actuatorToJointPosition =>
    exact local_toJoint nd _ _ _ .position (fun a h => Or.inl h) (fun a h => Or.inl (Or.inl h))
  | actuatorToJointVelocity =>
    exact local_toJoint nd _ _ _ .velocity (fun a h => Or.inr (Or.inl h)) (fun a h => Or.inl (Or.inr (Or.inl h)))
  | actuatorToJointEffort =>
    exact local_toJoint nd _ _ _ .effort (fun a h => Or.inr (Or.inr (Or.inl h)))
      (fun a h => Or.inl (Or.inr (Or.inr (Or.inl h))))
  | jointToActuatorPosition =>
    exact local_toActuator nd _ _ _ .position (fun a h => Or.inl h) (fun a h => Or.inr (Or.inl h))
  | jointToActuatorVelocity =>
    exact local_toActuator nd _ _ _ .velocity (fun a h => Or.inr (Or.inl h)) (fun a h => Or.inr (Or.inr (Or.inl h)))
  | jointToActuatorEffort =>
    exact local_toActuator nd _ _ _ .effort (fun a h => Or.inr (Or.inr (Or.inl h)))
      (fun a h => Or.inr (Or.inr (Or.inr (Or.inl h))))
  | jointToActuatorState =>
    exact Local.bind (local_toActuator nd _ _ _ .position (fun a h => Or.inl h) (fun a h => Or.inr (Or.inl h)))
      (Local.bind (local_toActuator nd _ _ _ .velocity (fun a h => Or.inr (Or.inl h))
        (fun a h => Or.inr (Or.inr (Or.inl h))))
      (local_toActuator nd _ _ _ .effort (fun a h => Or.inr (Or.inr (Or.inl h)))
        (fun a h => Or.inr (Or.inr (Or.inr (Or.inl h))))))
  | actuatorToJointState =>
    have := Local.bind (R := h.Has) (W := h.jnt.Has)
      (local_toJoint nd h.trans h.act h.jnt .position (fun a h => Or.inl h) (fun a h => Or.inl (Or.inl h)))
      (Local.bind (local_toJoint nd h.trans h.act h.jnt .velocity (fun a h => Or.inr (Or.inl h))
        (fun a h => Or.inl (Or.inr (Or.inl h))))
      (Local.bind (local_toJoint nd h.trans h.act h.jnt .effort (fun a h => Or.inr (Or.inr (Or.inl h)))
        (fun a h => Or.inl (Or.inr (Or.inr (Or.inl h)))))
      (Local.bind (f := fun m => if h.act.absolutePosition.isEmpty then pure m
          else actuatorToJointAbsolutePosition nd h.trans h.act h.jnt m) (by
          split
          · exact Local.pure
          · exact local_absolute nd h.trans h.act h.jnt (fun a h => Or.inr (Or.inr (Or.inr (Or.inl h))))
              (fun a h => Or.inl (Or.inr (Or.inr (Or.inr (Or.inl h))))))
        (g := fun m => if h.act.torqueSensor.isEmpty then pure m
          else actuatorToJointTorqueSensor nd h.trans h.act h.jnt m) (by
          split
          · exact Local.pure
          · exact local_torque nd h.trans h.act h.jnt (fun a h => Or.inr (Or.inr (Or.inr (Or.inr h))))
              (fun a h => Or.inl (Or.inr (Or.inr (Or.inr (Or.inr h)))))))))
    have e : h.propagate nd .actuatorToJointState = _ := funext (propagate_state nd h)
    rw [e]
    exact this

theorem target_has (k : Kind) (h : Handle K) (c : Nat) (hc : h.Target k c) : h.Has c := by
  cases k <;> first | exact Or.inr hc | exact Or.inl hc

/-- All handles can be propagated from `m`; then they can be propagated one after the other, and each
leaves in the cells it has pointers to what it leaves there alone. -/
theorem propagateAll_local (k : Kind) (hs : List (Handle K)) (hsep : Separate k hs) (m : Mem K)
    (hok : ∀ h ∈ hs, ∃ m', h.propagate nd k m = .ok m') :
    ∃ m', propagateAll nd k hs m = .ok m' ∧
      (∀ h ∈ hs, ∀ m1, h.propagate nd k m = .ok m1 → ∀ c, h.Has c → (h.Target k c ∨ ∀ g ∈ hs, ¬g.Target k c) → m' c = m1 c) ∧
      ∀ c, (∀ h ∈ hs, ¬h.Target k c) → m' c = m c := by
  induction hs generalizing m with
  | nil => exact ⟨m, rfl, by simp, fun _ _ => rfl⟩
  | cons h hs ih =>
    obtain ⟨hp, hsep⟩ := List.pairwise_cons.1 hsep
    obtain ⟨m1, e1⟩ := hok h (List.mem_cons_self ..)
    have hL := local_propagate nd k h
    have key : ∀ g ∈ hs, ∀ c, g.Has c → m c = m1 c := fun g hg c hc => by
      by_contra hne
      have : h.Target k c := by
        by_contra ht
        exact hne (hL.frame _ _ e1 c ht).symm
      exact (hp g hg).1 c this hc
    obtain ⟨m', e', h1, h2⟩ := ih hsep m1 fun g hg => by
      obtain ⟨n, en⟩ := hok g (List.mem_cons_of_mem _ hg)
      obtain ⟨n', en', _⟩ := (local_propagate nd k g).agree m m1 n (key g hg) en
      exact ⟨n', en'⟩
    refine ⟨m', ?_, ?_, ?_⟩
    · rw [propagateAll, e1]; exact e'
    · intro g hg n en c hc ht
      rcases List.mem_cons.1 hg with rfl | hg
      · rw [e1] at en; cases en
        apply h2
        intro g' hg' ht'
        rcases ht with ht | ht
        · exact (hp g' hg').1 c ht (target_has k g' c ht')
        · exact ht g' (List.mem_cons_of_mem _ hg') ht'
      · obtain ⟨n', en', ha⟩ := (local_propagate nd k g).agree m m1 n (key g hg) en
        rw [h1 g hg n' en' c hc (ht.imp id fun h g hg => h g (List.mem_cons_of_mem _ hg)), ha c hc]
    · intro c hc
      rw [h2 c fun g hg => hc g (List.mem_cons_of_mem _ hg), hL.frame _ _ e1 c (hc h (List.mem_cons_self ..))]

end

end Verif.Transmission
