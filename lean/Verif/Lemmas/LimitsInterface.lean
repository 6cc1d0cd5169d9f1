import Verif.Spec.LimitsInterface
import Verif.Lemmas.JointLimits
import Verif.Lemmas.Containers

/-!
Lemmas about the joint limit interfaces.
-/

namespace Verif.Limits

variable {K : Type} [LinearOrder K] {A : Arith K}

/-! ### One enforcement -/

theorem enforceAll_keys (k : Kind) (dt : Dbl K) (s : LimitsIface K) (m : Cells K) (s' : LimitsIface K)
    (m' : Cells K) (h : enforceAll A k dt s m = some (s', m')) : smapKeys s' = smapKeys s := by
  induction s generalizing m s' with
  | nil => cases h; rfl
  | cons e t ih =>
    obtain ⟨n, l⟩ := e
    simp only [enforceAll] at h
    split at h
    · cases h
    · split at h
      · cases h
      · rename_i h2
        cases h
        simp only [smapKeys, List.map_cons]
        exact congrArg _ (ih _ _ h2)

/-- The handles keep their joints. -/
theorem enforceAll_joint (k : Kind) (dt : Dbl K) (s : LimitsIface K) (m : Cells K) (s' : LimitsIface K)
    (m' : Cells K) (h : enforceAll A k dt s m = some (s', m')) (n : String) (l' : Limiter K) (hm : (n, l') ∈ s') :
    ∃ l, (n, l) ∈ s ∧ l.joint = l'.joint ∧ l.limits = l'.limits ∧ l.soft = l'.soft := by
  induction s generalizing m s' with
  | nil => cases h; cases hm
  | cons e t ih =>
    obtain ⟨n0, l0⟩ := e
    simp only [enforceAll] at h
    split at h
    · cases h
    · rename_i h1
      split at h
      · cases h
      · rename_i h2
        cases h
        rcases List.mem_cons.1 hm with e | hm
        · cases e
          refine ⟨l0, List.mem_cons_self .., ?_⟩
          unfold Limiter.enforce at h1
          split at h1
          · cases h1
          · cases h1; exact ⟨rfl, rfl, rfl⟩
        · obtain ⟨l, h3, h4⟩ := ih _ _ h2 hm
          exact ⟨l, List.mem_cons_of_mem _ h3, h4⟩

/-- A variable that is not the command of a handle keeps its value. -/
theorem enforceAll_frame (k : Kind) (dt : Dbl K) (s : LimitsIface K) (m : Cells K) (s' : LimitsIface K)
    (m' : Cells K) (h : enforceAll A k dt s m = some (s', m')) (a : Nat)
    (ha : ∀ e ∈ s, e.2.joint.cmd ≠ a) : m' a = m a := by
  induction s generalizing m s' with
  | nil => cases h; rfl
  | cons e t ih =>
    obtain ⟨n0, l0⟩ := e
    simp only [enforceAll] at h
    split at h
    · cases h
    · rename_i h1
      split at h
      · cases h
      · rename_i h2
        cases h
        rw [ih _ _ h2 fun e he => ha e (List.mem_cons_of_mem _ he)]
        unfold Limiter.enforce at h1
        split at h1
        · cases h1
        · cases h1
          exact if_neg (Ne.symm (ha _ (List.mem_cons_self ..)))

/-- A handle whose variables the others leave alone gives what it would give alone. -/
theorem enforceAll_one (k : Kind) (dt : Dbl K) (s : LimitsIface K) (m : Cells K) (s' : LimitsIface K)
    (m' : Cells K) (h : enforceAll A k dt s m = some (s', m')) (hk : (smapKeys s).Nodup) (n : String) (l : Limiter K)
    (hl : (n, l) ∈ s) (hu : Undisturbed n l s) :
    ∃ out, k.limit A l.limits l.soft l.prev (l.input m dt) = some out ∧ m' l.joint.cmd = out ∧
      (n, { l with prev := out }) ∈ s' := by
  induction s generalizing m s' with
  | nil => cases hl
  | cons e t ih =>
    obtain ⟨n0, l0⟩ := e
    simp only [smapKeys, List.map_cons, List.nodup_cons] at hk
    simp only [enforceAll] at h
    split at h
    · cases h
    · rename_i h1
      split at h
      · cases h
      · rename_i l1 m1 h1' t1 m2 h2
        cases h
        unfold Limiter.enforce at h1
        split at h1
        · cases h1
        · rename_i out hout
          cases h1
          rcases List.mem_cons.1 hl with e | hl
          · cases e
            refine ⟨out, hout, ?_, List.mem_cons_self ..⟩
            rw [enforceAll_frame k dt t _ _ _ h2]
            · simp
            · intro e he heq
              refine (hu e.1 e.2 (List.mem_cons_of_mem _ he) ?_).1 heq
              rintro rfl
              exact hk.1 (List.mem_map_of_mem (f := Prod.fst) he)
          · have hne : n0 ≠ n := by
              rintro rfl
              exact hk.1 (List.mem_map_of_mem (f := Prod.fst) hl)
            obtain ⟨out', g1, g2, g3⟩ := ih _ _ h2 hk.2 hl fun n' h' hm =>
              hu n' h' (List.mem_cons_of_mem _ hm)
            obtain ⟨u1, u2, u3⟩ := hu n0 l0 (List.mem_cons_self ..) hne
            refine ⟨out', ?_, g2, List.mem_cons_of_mem _ g3⟩
            rw [← g1]
            simp only [Limiter.input]
            rw [if_neg u1.symm, if_neg u2.symm, if_neg u3.symm]

/-- An enforcement fails exactly if an assertion of one of the handles does. -/
theorem limit_none (k : Kind) (L : JointLimits (Dbl K)) (S : SoftLimits (Dbl K)) (prev : Dbl K) (i : Input (Dbl K)) :
    k.limit A L S prev i = none ↔
      (k = .posSoft ∨ k = .velSat ∧ L.hasAcceleration = true) ∧ dlt (some A.zero) i.dt = false := by
  cases k <;> simp [Kind.limit, posSoft, velSat]
  all_goals first
    | (split <;> simp_all)
    | skip

theorem enforceAll_none (k : Kind) (dt : Dbl K) (s : LimitsIface K) (m : Cells K) :
    enforceAll A k dt s m = none ↔
      dlt (some A.zero) dt = false ∧ ∃ e ∈ s, k = .posSoft ∨ k = .velSat ∧ e.2.limits.hasAcceleration = true := by
  induction s generalizing m with
  | nil => simp [enforceAll]
  | cons e t ih =>
    obtain ⟨n0, l0⟩ := e
    simp only [enforceAll, Limiter.enforce]
    split
    · rename_i h1
      split at h1
      · rename_i h2
        have := (limit_none k _ _ _ _).1 h2
        simp only [true_iff]
        exact ⟨this.2, _, List.mem_cons_self .., this.1⟩
      · cases h1
    · rename_i h1
      split at h1
      · cases h1
      · rename_i out hout
        cases h1
        have hn : ¬((k = .posSoft ∨ k = .velSat ∧ l0.limits.hasAcceleration = true) ∧
            dlt (some A.zero) dt = false) := by
          intro hc
          have := (limit_none (A := A) k l0.limits l0.soft l0.prev (l0.input m dt)).2 hc
          rw [this] at hout
          cases hout
        have key := ih (fun a => if a = l0.joint.cmd then out else m a)
        split
        · rename_i h3
          simp only [true_iff]
          obtain ⟨g1, e, he, g2⟩ := key.1 h3
          exact ⟨g1, e, List.mem_cons_of_mem _ he, g2⟩
        · rename_i h3
          simp only [reduceCtorEq, false_iff]
          rintro ⟨g1, e, he, g2⟩
          rcases List.mem_cons.1 he with rfl | he
          · exact hn ⟨g2, g1⟩
          · have := key.2 ⟨g1, e, he, g2⟩
            rw [this] at h3
            cases h3

/-! ### Histories -/

omit [LinearOrder K] in
theorem resetAll_keys (k : Kind) (s : LimitsIface K) : smapKeys (resetAll k s) = smapKeys s := by
  unfold resetAll
  split <;> simp [smapKeys, List.map_map, Function.comp_def]

omit [LinearOrder K] in
theorem mem_resetAll (k : Kind) (s : LimitsIface K) (n : String) (l' : Limiter K) (h : (n, l') ∈ resetAll k s) :
    ∃ l, (n, l) ∈ s ∧ l.joint = l'.joint := by
  unfold resetAll at h
  split at h
  case h_3 => exact ⟨l', h, rfl⟩
  all_goals
    obtain ⟨e, he, h⟩ := List.mem_map.1 h
    cases h
    exact ⟨e.2, he, rfl⟩

theorem smapInsert_mem {κ β : Type} [LinearOrder κ] (k : κ) (v : β) (m : List (κ × β)) (e : κ × β)
    (h : e ∈ smapInsert k v m) : e = (k, v) ∨ e ∈ m := by
  induction m with
  | nil => simpa [smapInsert] using h
  | cons x t ih =>
    obtain ⟨xk, xv⟩ := x
    unfold smapInsert at h
    split at h
    · exact (List.mem_cons.1 h).imp id id
    · split at h
      · rcases List.mem_cons.1 h with h | h
        · exact Or.inr (h ▸ List.mem_cons_self ..)
        · exact (ih h).imp id (List.mem_cons_of_mem _)
      · exact (List.mem_cons.1 h).imp id (List.mem_cons_of_mem _)

theorem sorted_nodup {κ β : Type} [LinearOrder κ] {m : List (κ × β)} (h : KeysSorted m) : (smapKeys m).Nodup :=
  h.imp fun hab => ne_of_lt hab

/-- The limiter `h` as it is in the interface, with another previous command. -/
structure InIface (n : String) (h : Limiter K) (prev : Dbl K) (s : LimitsIface K) : Prop where
  sorted : KeysSorted s
  found : smapFind n s = some { h with prev := prev }
  undisturbed : Undisturbed n h s

omit [LinearOrder K] in
theorem InIface.register {n : String} {h : Limiter K} {prev : Dbl K} {s : LimitsIface K} (H : InIface n h prev s)
    (h' : Limiter K) (hn : h'.joint.name ≠ n) (hl : Leaves h' h) : InIface n h prev (registerLimiter h' s) where
  sorted := keysSorted_insert _ _ H.sorted
  found := by
    unfold registerLimiter
    rw [smapFind_insert, if_neg (Ne.symm hn)]
    exact H.found
  undisturbed n' l' hm hne := by
    rcases smapInsert_mem _ _ _ _ hm with e | hm
    · cases e; exact hl
    · exact H.undisturbed n' l' hm hne

theorem InIface.enforced {n : String} {h : Limiter K} {prev : Dbl K} {s s' : LimitsIface K} {m m' : Cells K}
    {k : Kind} {dt : Dbl K} (H : InIface n h prev s) (he : enforceAll A k dt s m = some (s', m')) :
    ∃ out, k.limit A h.limits h.soft prev ⟨m h.joint.cmd, m h.joint.pos, m h.joint.vel, dt⟩ = some out ∧
      m' h.joint.cmd = out ∧ InIface n h out s' := by
  obtain ⟨out, g1, g2, g3⟩ := enforceAll_one k dt s m s' m' he (sorted_nodup H.sorted) n _
    (mem_of_smapFind H.found) H.undisturbed
  have hs : KeysSorted s' := by
    have := H.sorted
    unfold KeysSorted at this ⊢
    rwa [enforceAll_keys k dt s m s' m' he]
  refine ⟨out, g1, g2, hs, smapFind_of_mem hs g3, ?_⟩
  intro n' l' hm hne
  obtain ⟨l, h1, h2, _⟩ := enforceAll_joint k dt s m s' m' he n' l' hm
  have := H.undisturbed n' l h1 hne
  unfold Leaves at this ⊢
  rwa [← h2]

theorem InIface.reset {n : String} {h : Limiter K} {prev : Dbl K} {s : LimitsIface K} (H : InIface n h prev s)
    (k : Kind) : InIface n h (if k = .posSat ∨ k = .posSoft then none else prev) (resetAll k s) where
  sorted := by
    have := H.sorted
    unfold KeysSorted at this ⊢
    rwa [resetAll_keys]
  found := by
    have hs : KeysSorted (resetAll k s) := by
      have := H.sorted
      unfold KeysSorted at this ⊢
      rwa [resetAll_keys]
    apply smapFind_of_mem hs
    have hm := mem_of_smapFind H.found
    cases k
    case posSat => exact List.mem_map.2 ⟨_, hm, rfl⟩
    case posSoft => exact List.mem_map.2 ⟨_, hm, rfl⟩
    all_goals exact hm
  undisturbed n' l' hm hne := by
    obtain ⟨l, h1, h2⟩ := mem_resetAll k s n' l' hm
    have := H.undisturbed n' l h1 hne
    unfold Leaves at this ⊢
    rwa [← h2]

/-- What one handle does in a history of its interface. -/
def ownOuts (k : Kind) (L : JointLimits (Dbl K)) (S : SoftLimits (Dbl K)) (A : Arith K) :
    Dbl K → List (Call (Dbl K)) → List (Dbl K × Input (Dbl K) × Dbl K)
  | _, [] => []
  | prev, .reset :: cs => ownOuts k L S A (if k = .posSat ∨ k = .posSoft then none else prev) cs
  | prev, .enforce i :: cs =>
    match k.limit A L S prev i with
    | none => []
    | some out => (prev, i, out) :: ownOuts k L S A out cs

theorem ifRun_own (k : Kind) (n : String) (h : Limiter K) (cs : List (IfCall K)) (hc : NoIntruder n h cs)
    (prev : Dbl K) (s : LimitsIface K) (m : Cells K) (H : InIface n h prev s) :
    (ownOuts k h.limits h.soft A prev (calls h.joint (ifRun A k cs s m))).map (fun r => r.2) =
      seen h.joint (ifRun A k cs s m) := by
  induction cs generalizing prev s m with
  | nil => rfl
  | cons c cs ih =>
    have hc' : NoIntruder n h cs := fun h' hm => hc h' (List.mem_cons_of_mem _ hm)
    cases c with
    | register h' =>
      obtain ⟨h1, h2⟩ := hc h' (List.mem_cons_self ..)
      exact ih hc' prev _ m (H.register h' h1 h2)
    | reset => exact ih hc' _ _ m (H.reset k)
    | resetHandle n' =>
      simp only [ifRun]
      split
      · rfl
      · exact ih hc' prev s m H
    | world m' => exact ih hc' prev s m' H
    | enforce dt =>
      simp only [ifRun]
      split
      · rfl
      · rename_i s' m' he
        obtain ⟨out, g1, g2, g3⟩ := H.enforced he
        have := ih hc' out s' m' g3
        simp only [calls, List.map_cons, ownOuts, g1, seen, List.filterMap_cons, g2]
        exact congrArg _ this

theorem ownOuts_posSat (L : JointLimits (Dbl K)) (S : SoftLimits (Dbl K)) (prev : Dbl K) (cs : List (Call (Dbl K))) :
    (ownOuts .posSat L S A prev cs).map (fun r => r.2) =
      (posSatRun A L prev cs).map (fun r => (r.input, r.out)) := by
  induction cs generalizing prev with
  | nil => rfl
  | cons c cs ih =>
    cases c with
    | reset => simpa [ownOuts, posSatRun] using ih none
    | enforce i => simpa [ownOuts, posSatRun, Kind.limit] using ih _

theorem ownOuts_posSoft (L : JointLimits (Dbl K)) (S : SoftLimits (Dbl K)) (prev : Dbl K) (cs : List (Call (Dbl K))) :
    (ownOuts .posSoft L S A prev cs).map (fun r => r.2) =
      (posSoftRun A L S prev cs).map (fun r => (r.input, r.out)) := by
  induction cs generalizing prev with
  | nil => rfl
  | cons c cs ih =>
    cases c with
    | reset => simpa [ownOuts, posSoftRun] using ih none
    | enforce i =>
      simp only [ownOuts, posSoftRun, Kind.limit]
      cases posSoft A L S prev i with
      | none => rfl
      | some out => simpa using ih out

theorem ownOuts_velSat (L : JointLimits (Dbl K)) (S : SoftLimits (Dbl K)) (prev : Dbl K) (cs : List (Call (Dbl K))) :
    (ownOuts .velSat L S A prev cs).map (fun r => r.2) =
      (velSatRun A L prev (inputs cs)).map (fun r => (r.input, r.out)) := by
  induction cs generalizing prev with
  | nil => rfl
  | cons c cs ih =>
    cases c with
    | reset => simpa [ownOuts, inputs] using ih prev
    | enforce i =>
      simp only [ownOuts, velSatRun, Kind.limit, inputs, List.filterMap_cons]
      cases velSat A L prev i with
      | none => rfl
      | some out => simpa [inputs] using ih out

/-- The handles without state. -/
theorem ownOuts_stateless (k : Kind) (f : Input (Dbl K) → Dbl K) (L : JointLimits (Dbl K)) (S : SoftLimits (Dbl K))
    (hf : ∀ prev i, k.limit A L S prev i = some (f i)) (prev : Dbl K) (cs : List (Call (Dbl K))) :
    (ownOuts k L S A prev cs).map (fun r => r.2) = (inputs cs).map (fun i => (i, f i)) := by
  induction cs generalizing prev with
  | nil => rfl
  | cons c cs ih =>
    cases c with
    | reset => simpa [ownOuts, inputs] using ih _
    | enforce i =>
      simp only [ownOuts, hf, inputs, List.filterMap_cons]
      simpa [inputs] using ih _

omit [LinearOrder K] in
theorem inputs_calls (j : Joint) (es : List (IfEvent K)) : inputs (calls j es) = (seen j es).map Prod.fst := by
  induction es with
  | nil => rfl
  | cons e es ih =>
    cases e with
    | reset => simpa [calls, inputs, seen] using ih
    | enforced dt m m' => simpa [calls, inputs, seen] using ih

/-- The state of the interface after a handle has been registered. -/
theorem inIface_register (s : LimitsIface K) (hs : KeysSorted s) (h : Limiter K)
    (hu : Undisturbed h.joint.name h s) : InIface h.joint.name h h.prev (registerLimiter h s) where
  sorted := keysSorted_insert _ _ hs
  found := by unfold registerLimiter; rw [smapFind_insert, if_pos rfl]
  undisturbed n' l' hm hne := by
    rcases smapInsert_mem _ _ _ _ hm with e | hm
    · cases e; exact absurd rfl hne
    · exact hu n' l' hm hne

/-! ### Unspecified limits -/

theorem limit_agree (k : Kind) (L L' : JointLimits (Dbl K)) (h : Agree L L') (ha : k.accepts L = true)
    (S : SoftLimits (Dbl K)) (prev : Dbl K) (i : Input (Dbl K)) :
    k.limit A L S prev i = k.limit A L' S prev i := by
  obtain ⟨h1, h2, h3, h4, p1, p2, v, a, e⟩ := h
  cases k <;> simp only [Kind.accepts, posSoftOk, effortOk, velSatOk, Bool.and_eq_true] at ha <;>
    simp only [Kind.limit, posSat, posSoft, effSat, effSoft, effSoftBounds, velSat, velSoft, velSoftLimit, softVel,
      posSatRange, ← h1, ← h2, ← h3]
  all_goals
    cases hp : L.hasPosition <;> cases hv : L.hasVelocity <;> cases hac : L.hasAcceleration <;> simp_all
end Verif.Limits
