import Verif.Lemmas.TransmissionLoader
import Verif.Lemmas.TransmissionParser

/-!
Lemmas about `load`: transmissions, hardware interfaces, sequences of calls.
-/

namespace Verif.Transmission

section

variable {K : Type} [OfNat K 0] [OfNat K 1] [DecidableEq K] {stod : String → Option K}

theorem getNumber_error {tag : String} {req : Bool} {old : K} {e : Elem} {c : Crash}
    (h : getNumber stod tag req old e = .error c) : c = .nullText ∧ ∃ r, e.first tag = some r ∧ r.text = none := by
  unfold getNumber at h
  split at h
  · cases h
  · rename_i r hr
    split at h
    · rename_i ht; cases h; exact ⟨rfl, r, hr, ht⟩
    · cases h

theorem byRole_mem {r1 r2 : String} {e0 e1 x0 x1 : Elem} (h : byRole r1 r2 e0 e1 = some (x0, x1)) :
    (x0 = e0 ∧ x1 = e1) ∨ (x0 = e1 ∧ x1 = e0) := by
  unfold byRole at h
  split at h
  · cases h
  · split at h
    · cases h
    · split at h
      · cases h
      · split at h
        · cases h
        · split at h
          · cases h
          · split at h
            · cases h; exact .inl ⟨rfl, rfl⟩
            · cases h; exact .inr ⟨rfl, rfl⟩

theorem actuatorConfig_error {e0 e1 : Elem} {c : Crash} (h : actuatorConfig stod e0 e1 = .error c) :
    c = .nullText ∧ ∃ e, (e = e0 ∨ e = e1) ∧ ∃ tag r, (tag = "mechanicalReduction" ∨ tag = "offset") ∧ e.first tag = some r ∧ r.text = none := by
  unfold actuatorConfig at h
  split at h
  · cases h
  · rename_i x0 x1 hb
    have hm := byRole_mem hb
    cases h0 : getNumber stod "mechanicalReduction" true 0 x0 with
    | error c' =>
      rw [h0] at h; cases h
      obtain ⟨rfl, r, hr⟩ := getNumber_error h0
      exact ⟨rfl, x0, by tauto, _, r, by tauto, hr⟩
    | ok v =>
      rw [h0] at h
      cases v with
      | none => cases h
      | some v =>
        cases h1 : getNumber stod "mechanicalReduction" true 0 x1 with
        | error c' =>
          simp only [bind, Except.bind, h1] at h; cases h
          obtain ⟨rfl, r, hr⟩ := getNumber_error h1
          exact ⟨rfl, x1, by tauto, _, r, by tauto, hr⟩
        | ok w =>
          simp only [bind, Except.bind, h1] at h
          cases w <;> cases h

theorem jointConfig_error {e0 e1 : Elem} {c : Crash} (h : jointConfig stod e0 e1 = .error c) :
    c = .nullText ∧ ∃ e, (e = e0 ∨ e = e1) ∧ ∃ tag r, (tag = "mechanicalReduction" ∨ tag = "offset") ∧ e.first tag = some r ∧ r.text = none := by
  unfold jointConfig at h
  split at h
  · cases h
  · rename_i x0 x1 hb
    have hm := byRole_mem hb
    cases h0 : getNumber stod "mechanicalReduction" false 1 x0 with
    | error c' =>
      rw [h0] at h; cases h
      obtain ⟨rfl, r, hr⟩ := getNumber_error h0
      exact ⟨rfl, x0, by tauto, _, r, by tauto, hr⟩
    | ok v =>
      rw [h0] at h
      cases v with
      | none => cases h
      | some v =>
        cases h1 : getNumber stod "offset" false 0 x0 with
        | error c' =>
          simp only [bind, Except.bind, h1] at h; cases h
          obtain ⟨rfl, r, hr⟩ := getNumber_error h1
          exact ⟨rfl, x0, by tauto, _, r, by tauto, hr⟩
        | ok w =>
          simp only [bind, Except.bind, h1] at h
          cases w with
          | none => cases h
          | some w =>
            cases h2 : getNumber stod "mechanicalReduction" false 1 x1 with
            | error c' =>
              simp only [h2] at h; cases h
              obtain ⟨rfl, r, hr⟩ := getNumber_error h2
              exact ⟨rfl, x1, by tauto, _, r, by tauto, hr⟩
            | ok w =>
              simp only [h2] at h
              cases w with
              | none => cases h
              | some w =>
                cases h3 : getNumber stod "offset" false 0 x1 with
                | error c' =>
                  simp only [h3] at h; cases h
                  obtain ⟨rfl, r, hr⟩ := getNumber_error h3
                  exact ⟨rfl, x1, by tauto, _, r, by tauto, hr⟩
                | ok w =>
                  simp only [h3] at h
                  cases w <;> cases h

theorem loadSimple_error {i : TransInfo} {c : Crash} (h : loadSimple stod i = .error c) :
    c = .nullText ∧ ¬i.TextsPresent := by
  unfold loadSimple at h
  split at h
  · rename_i a j ha hj
    cases h0 : getNumber stod "mechanicalReduction" true 0 a.xml with
    | error c' =>
      rw [h0] at h; cases h
      obtain ⟨rfl, r, hr, ht⟩ := getNumber_error h0
      exact ⟨rfl, fun hp => hp a.xml (by simp [ha]) _ (.inl rfl) r (first_eq_child _ _ ▸ hr) ht⟩
    | ok v =>
      rw [h0] at h
      cases v with
      | none => cases h
      | some v =>
        cases h1 : getNumber stod "offset" false 0 j.xml with
        | error c' =>
          simp only [bind, Except.bind, h1] at h; cases h
          obtain ⟨rfl, r, hr, ht⟩ := getNumber_error h1
          exact ⟨rfl, fun hp => hp j.xml (by simp [hj]) _ (.inr rfl) r (first_eq_child _ _ ▸ hr) ht⟩
        | ok w =>
          simp only [bind, Except.bind, h1] at h
          cases w <;> cases h
  · cases h

theorem loadTwo_error {i : TransInfo} {c : Crash} {f : List K → List K → List K → Option (Trans K)}
    (h : (match i.actuators, i.joints with
      | [a0, a1], [j0, j1] => do
        match ← actuatorConfig stod a0.xml a1.xml with
        | none => return none
        | some ar =>
          match ← jointConfig stod j0.xml j1.xml with
          | none => return none
          | some (jr, off) => return f ar jr off
      | _, _ => .ok none : Except Crash (Option (Trans K))) = .error c) :
    c = .nullText ∧ ¬i.TextsPresent := by
  split at h
  · rename_i a0 a1 j0 j1 ha hj
    cases h0 : actuatorConfig stod a0.xml a1.xml with
    | error c' =>
      rw [h0] at h; cases h
      obtain ⟨rfl, e, he, tag, r, htag, hr, ht⟩ := actuatorConfig_error h0
      refine ⟨rfl, fun hp => hp e ?_ _ htag r (first_eq_child _ _ ▸ hr) ht⟩
      rcases he with rfl | rfl <;> simp [ha]
    | ok v =>
      rw [h0] at h
      cases v with
      | none => cases h
      | some v =>
        cases h1 : jointConfig stod j0.xml j1.xml with
        | error c' =>
          simp only [bind, Except.bind, h1] at h; cases h
          obtain ⟨rfl, e, he, tag, r, htag, hr, ht⟩ := jointConfig_error h1
          refine ⟨rfl, fun hp => hp e ?_ _ htag r (first_eq_child _ _ ▸ hr) ht⟩
          rcases he with rfl | rfl <;> simp [hj]
        | ok w =>
          simp only [bind, Except.bind, h1] at h
          cases w <;> cases h
  · cases h

theorem loadTransmission_error {i : TransInfo} {c : Crash} (h : loadTransmission stod i = .error c) :
    c = .nullText ∧ ¬i.TextsPresent := by
  unfold loadTransmission at h
  split at h
  · exact loadSimple_error h
  · split at h
    · unfold loadDifferential at h
      split at h
      · rename_i a0 a1 j0 j1 ha hj
        refine loadTwo_error (K := K) (stod := stod) (f := fun ar jr off =>
          (mkTwo (· == 0) ar jr (ignoreFlag j0.xml j1.xml) off).map .differential) ?_
        rw [ha, hj]
        exact h
      · cases h
    · split at h
      · exact loadTwo_error h
      · cases h

theorem loadTransmission_some {i : TransInfo} {t : Trans K} (h : loadTransmission stod i = .ok (some t)) :
    i.actuators.length = t.numActuators ∧ i.joints.length = t.numJoints ∧ Constructed t := by
  unfold loadTransmission at h
  split at h
  · unfold loadSimple at h
    split at h
    · rename_i a j ha hj
      cases h0 : getNumber stod "mechanicalReduction" true 0 a.xml with
      | error c' => rw [h0] at h; cases h
      | ok v =>
        rw [h0] at h
        cases v with
        | none => cases h
        | some v =>
          cases h1 : getNumber stod "offset" false 0 j.xml with
          | error c' => simp only [bind, Except.bind, h1] at h; cases h
          | ok w =>
            simp only [bind, Except.bind, h1] at h
            cases w with
            | none => cases h
            | some w =>
              simp only [pure, Except.pure, Except.ok.injEq, Option.map_eq_some_iff] at h
              obtain ⟨s, hs, rfl⟩ := h
              exact ⟨by simp [ha, Trans.numActuators], by simp [hj, Trans.numJoints], .simple _ _ _ hs⟩
    · cases h
  · split at h
    · unfold loadDifferential at h
      split at h
      · rename_i a0 a1 j0 j1 ha hj
        cases h0 : actuatorConfig stod a0.xml a1.xml with
        | error c' => rw [h0] at h; cases h
        | ok v =>
          rw [h0] at h
          cases v with
          | none => cases h
          | some v =>
            cases h1 : jointConfig stod j0.xml j1.xml with
            | error c' => simp only [bind, Except.bind, h1] at h; cases h
            | ok w =>
              simp only [bind, Except.bind, h1] at h
              cases w with
              | none => cases h
              | some w =>
                obtain ⟨jr, off⟩ := w
                simp only [pure, Except.pure, Except.ok.injEq, Option.map_eq_some_iff] at h
                obtain ⟨s, hs, rfl⟩ := h
                exact ⟨by simp [ha, Trans.numActuators], by simp [hj, Trans.numJoints], .differential _ _ _ _ _ hs⟩
      · cases h
    · split at h
      · unfold loadFourBar at h
        split at h
        · rename_i a0 a1 j0 j1 ha hj
          cases h0 : actuatorConfig stod a0.xml a1.xml with
          | error c' => rw [h0] at h; cases h
          | ok v =>
            rw [h0] at h
            cases v with
            | none => cases h
            | some v =>
              cases h1 : jointConfig stod j0.xml j1.xml with
              | error c' => simp only [bind, Except.bind, h1] at h; cases h
              | ok w =>
                simp only [bind, Except.bind, h1] at h
                cases w with
                | none => cases h
                | some w =>
                  obtain ⟨jr, off⟩ := w
                  simp only [pure, Except.pure, Except.ok.injEq, Option.map_eq_some_iff] at h
                  obtain ⟨s, hs, rfl⟩ := h
                  exact ⟨by simp [ha, Trans.numActuators], by simp [hj, Trans.numJoints], .fourBar _ _ _ _ hs⟩
        · cases h
      · cases h

end

namespace Loader

variable {K : Type}

/-- The handle is made from this transmission and the data of its actuators and joints. -/
def IsFor (L : Loader K) (k : Kind) (i : TransInfo) (t : Trans K) (h : Handle K) : Prop :=
  h.trans = t ∧ L.Wired k h i.acts i.jnts

/-- The providers of the interfaces. -/
def provs (ifaces : List String) : List Provider := ifaces.filterMap providerOf

/-- What has happened after the interfaces with the providers `ps` have been processed. -/
structure Processed (L0 L L' : Loader K) (i : TransInfo) (t : Trans K) (ps : List Provider) : Prop where
  inv : Inv L0 L'
  grows : Grows L L'
  other : ∀ k n, n ≠ i.name → smapFind n (L'.handles k) = smapFind n (L.handles k)
  this : ∀ k, smapFind i.name (L'.handles k) = smapFind i.name (L.handles k) ∨
    ∃ h, smapFind i.name (L'.handles k) = some h ∧ L'.IsFor k i t h

theorem Processed.refl {L0 L : Loader K} (hi : Inv L0 L) (i : TransInfo) (t : Trans K) (ps : List Provider) :
    Processed L0 L L i t ps := ⟨hi, .refl L, fun _ _ _ => rfl, fun _ => .inl rfl⟩

theorem IsFor.grows {L L' : Loader K} (g : Grows L L') {k : Kind} {i : TransInfo} {t : Trans K} {h : Handle K}
    (hf : L.IsFor k i t h) : L'.IsFor k i t h := ⟨hf.1, g.wired hf.2⟩

theorem DataOk.isFor {L : Loader K} {p : Provider} {d : HandleData K} {i : TransInfo}
    (hd : DataOk L p d i.acts i.jnts) {k : Kind} (hk : replaces p k ∨ ensures p k) :
    L.IsFor k i d.trans (handleFor d k) := by
  cases p with
  | state =>
    have : k = .actuatorToJointState := by simpa [replaces, ensures] using hk
    subst this
    exact ⟨rfl, hd.numA, hd.numJ, hd.actState, hd.jntState⟩
  | command c x =>
    cases hc : k.cmd with
    | none =>
      simp only [handleFor, hc]
      refine ⟨rfl, hd.numA, hd.numJ, ?_⟩
      rw [hc]
      exact ⟨hd.actState, hd.jntState⟩
    | some c' =>
      have : c' = c := by
        cases k <;> cases c <;> simp [Kind.cmd] at hc <;>
          simp [replaces, ensures, Cmd.toActuator, Cmd.toJoint] at hk <;> exact hc.symm
      subst this
      simp only [handleFor, hc]
      refine ⟨rfl, hd.numA, hd.numJ, ?_⟩
      rw [hc]
      exact ⟨hd.actCmd c' x rfl, hd.jntCmd c' x rfl⟩

theorem Done.processed {L0 L L' : Loader K} {p : Provider} {i : TransInfo} {t : Trans K} (h : Done L0 L L' p i t)
    (ps : List Provider) : Processed L0 L L' i t ps := by
  obtain ⟨d, hn, ht, hd, hr⟩ := h.data
  refine ⟨h.inv, h.grows, fun k n hne => hr.other k n (hn ▸ hne), fun k => ?_⟩
  have := hr.this k
  rw [hn] at this
  by_cases h1 : replaces p k
  · rw [if_pos h1] at this
    exact .inr ⟨_, this, ht ▸ hd.isFor (.inl h1)⟩
  · rw [if_neg h1] at this
    by_cases h2 : ensures p k
    · rw [if_pos h2] at this
      cases ho : smapFind i.name (L.handles k) with
      | none =>
        rw [ho] at this
        exact .inr ⟨_, this, ht ▸ hd.isFor (.inr h2)⟩
      | some g => rw [ho] at this; exact .inl this
    · rw [if_neg h2] at this
      exact .inl this

theorem Processed.tr {L0 A B C : Loader K} {i : TransInfo} {t : Trans K} {ps qs rs : List Provider}
    (h : Processed L0 A B i t ps) (g : Processed L0 B C i t qs) : Processed L0 A C i t rs where
  inv := g.inv
  grows := h.grows.tr g.grows
  other k n hn := (g.other k n hn).trans (h.other k n hn)
  this k := by
    rcases g.this k with e | e
    · rcases h.this k with e' | ⟨x, hx, hf⟩
      · exact .inl (e.trans e')
      · exact .inr ⟨x, e.trans hx, hf.grows g.grows⟩
    · exact .inr e

/-- The general outcome of the loop over the interfaces. -/
theorem loadIfaces_general {L0 : Loader K} {i : TransInfo} {t : Trans K}
    (hA : i.actuators.length = t.numActuators) (hJ : i.joints.length = t.numJoints) (ifaces : List String)
    {L : Loader K} (hi : Inv L0 L) (any : Bool) :
    (loadIfaces i t ifaces (L, any) = .error .jointStateMissing ∧ L.ownState.isSome) ∨
    ∃ L' b, loadIfaces i t ifaces (L, any) = .ok (L', b) ∧ Processed L0 L L' i t (provs ifaces) := by
  induction ifaces generalizing L any with
  | nil => exact .inr ⟨L, any, rfl, .refl hi i t _⟩
  | cons f rest ih =>
    rw [loadIfaces]
    cases hp : providerOf f with
    | none =>
      rcases ih hi any with ⟨h, ho⟩ | ⟨L', b, h, hpr⟩
      · exact .inl ⟨h, ho⟩
      · exact .inr ⟨L', b, h, hpr.inv, hpr.grows, hpr.other, hpr.this⟩
    | some p =>
      dsimp only
      rcases loadMaps_spec hi (p := p) hA hJ with ⟨-, he⟩ | ⟨-, ho, he | ⟨L1, he, hu⟩⟩ | ⟨-, L1, he, hd⟩
      · rw [he]
        simp only [bind, Except.bind]
        rcases ih hi (any || false) with ⟨h, ho⟩ | ⟨L', b, h, hpr⟩
        · exact .inl ⟨h, ho⟩
        · exact .inr ⟨L', b, h, hpr.inv, hpr.grows, hpr.other, hpr.this⟩
      · rw [he]; exact .inl ⟨rfl, ho⟩
      · rw [he]
        simp only [bind, Except.bind]
        have hpu : Processed L0 L L1 i t [] :=
          ⟨hu.inv, hu.grows, fun k n _ => by rw [hu.handles], fun k => .inl (by rw [hu.handles])⟩
        rcases ih hu.inv (any || false) with ⟨h, ho⟩ | ⟨L', b, h, hpr⟩
        · exact .inl ⟨h, by rw [← hu.grows.ownState]; exact ho⟩
        · exact .inr ⟨L', b, h, hpu.tr hpr⟩
      · rw [he]
        simp only [bind, Except.bind]
        rcases ih hd.inv (any || true) with ⟨h, ho⟩ | ⟨L', b, h, hpr⟩
        · exact .inl ⟨h, by rw [← hd.grows.ownState]; exact ho⟩
        · exact .inr ⟨L', b, h, (hd.processed []).tr hpr⟩

/-- The outcome of the loop over the interfaces if the robot has no joint state interface of its own. -/
theorem loadIfaces_noOwn {L0 : Loader K} {i : TransInfo} {t : Trans K}
    (hA : i.actuators.length = t.numActuators) (hJ : i.joints.length = t.numJoints) (ifaces : List String)
    {L : Loader K} (hi : Inv L0 L) (ho : L.ownState = none) (any : Bool) :
    ∃ L', loadIfaces i t ifaces (L, any) = .ok (L', any || (provs ifaces).any fun p => L.offers p i.acts) ∧
      Processed L0 L L' i t (provs ifaces) ∧
      (((provs ifaces).any fun p => L.offers p i.acts) = false → L' = L) ∧
      (∀ p ∈ provs ifaces, L.offers p i.acts = true →
        (∀ n ∈ i.jnts, n ∈ smapKeys L'.robotState) ∧
        (∀ c x, p = .command c x → ∀ n ∈ i.jnts, n ∈ smapKeys (L'.robotCommand c)) ∧
        (∀ k, replaces p k = true → ∃ h, smapFind i.name (L'.handles k) = some h ∧ L'.IsFor k i t h) ∧
        (∀ k, ensures p k = true → ∃ h, smapFind i.name (L'.handles k) = some h)) ∧
      (∀ k, (∀ p ∈ provs ifaces, L.offers p i.acts = true → replaces p k = false ∧ ensures p k = false) →
        smapFind i.name (L'.handles k) = smapFind i.name (L.handles k)) := by
  induction ifaces generalizing L any with
  | nil => exact ⟨L, by simp [loadIfaces, provs], .refl hi i t _, fun _ => rfl, by simp [provs], fun _ _ => rfl⟩
  | cons f rest ih =>
    rw [loadIfaces]
    cases hp : providerOf f with
    | none =>
      have : provs (f :: rest) = provs rest := by simp [provs, hp]
      rw [this]
      exact ih hi ho any
    | some p =>
      have : provs (f :: rest) = p :: provs rest := by simp [provs, hp]
      rw [this]
      dsimp only
      rcases loadMaps_spec hi (p := p) hA hJ with ⟨hof, he⟩ | ⟨-, ho', -⟩ | ⟨hof, L1, he, hd⟩
      · rw [he]
        simp only [bind, Except.bind]
        obtain ⟨L', h1, h2, h3, h4, h5⟩ := ih hi ho (any || false)
        refine ⟨L', by rw [h1]; simp [hof], ⟨h2.inv, h2.grows, h2.other, h2.this⟩, ?_, ?_, ?_⟩
        · intro hh
          apply h3
          simpa [hof] using hh
        · intro q hq hqo
          rcases List.mem_cons.1 hq with rfl | hq
          · rw [hof] at hqo; cases hqo
          · exact h4 q hq hqo
        · intro k hk
          exact h5 k fun q hq => hk q (by simp [hq])
      · rw [ho] at ho'; cases ho'
      · rw [he]
        simp only [bind, Except.bind]
        have ho1 : L1.ownState = none := by
          have := hd.grows.ownState
          rw [ho] at this
          cases hs : L1.ownState with
          | none => rfl
          | some _ => rw [hs] at this; cases this
        obtain ⟨L', h1, h2, h3, h4, h5⟩ := ih hd.inv ho1 (any || true)
        have hoff : ∀ q, L1.offers q i.acts = L.offers q i.acts := fun q => hd.grows.offers q _
        refine ⟨L', ?_, (hd.processed []).tr h2, ?_, ?_, ?_⟩
        · rw [h1]
          simp [hof]
        · intro hh
          simp [hof] at hh
        · intro q hq hqo
          rcases List.mem_cons.1 hq with rfl | hq
          · obtain ⟨d, hn, ht, hdd, hr⟩ := hd.data
            refine ⟨?_, ?_, ?_, ?_⟩
            · intro n hn
              have := hd.state n hn
              rw [← smapFind_isSome, Option.isSome_iff_exists] at this ⊢
              obtain ⟨s, hs⟩ := this
              exact ⟨s, h2.grows.state n s hs⟩
            · intro c x hp n hn
              have := hd.command c x hp n hn
              rw [← smapFind_isSome, Option.isSome_iff_exists] at this ⊢
              obtain ⟨s, hs⟩ := this
              exact ⟨s, h2.grows.command c n s hs⟩
            · intro k hk
              rcases h2.this k with e | ⟨h, e, hf⟩
              · have := hr.this k
                rw [hn, if_pos hk] at this
                exact ⟨_, e.trans this, ht ▸ (hdd.isFor (.inl hk)).grows h2.grows⟩
              · exact ⟨h, e, hf⟩
            · intro k hk
              rcases h2.this k with e | ⟨h, e, hf⟩
              · have := hr.this k
                rw [hn] at this
                by_cases hrk : replaces q k
                · rw [if_pos hrk] at this; exact ⟨_, e.trans this⟩
                · rw [if_neg hrk, if_pos hk] at this; exact ⟨_, e.trans this⟩
              · exact ⟨h, e⟩
          · exact h4 q hq (by rw [hoff]; exact hqo)
        · intro k hk
          rw [h5 k fun q hq hqo => hk q (by simp [hq]) (by rw [← hoff]; exact hqo)]
          obtain ⟨d, hn, ht, hdd, hr⟩ := hd.data
          have := hr.this k
          obtain ⟨k1, k2⟩ := hk p (by simp) hof
          rw [hn, k1, k2] at this
          simpa using this

variable [OfNat K 0] [OfNat K 1] [DecidableEq K] {stod : String → Option K}

/-- The interfaces of the joints fit together. -/
def ifacesOk (i : TransInfo) (j : JointInfo) : Bool := i.joints.all (fun k => k.hwIfaces.isPerm j.hwIfaces)

/-- `load` of a transmission with joints. -/
theorem load_eq (L : Loader K) (i : TransInfo) {j : JointInfo} {js : List JointInfo} (hj : i.joints = j :: js)
    (hn : j.hwIfaces ≠ []) :
    L.load stod i = (loadTransmission stod i >>= fun
      | none => .ok (L, false)
      | some t => if ifacesOk i j then loadIfaces i t j.hwIfaces (L, false) else .ok (L, false)) := by
  unfold Loader.load
  congr 1
  funext r
  cases r with
  | none => rfl
  | some t =>
    dsimp only
    rw [hj]
    have : j.hwIfaces.isEmpty = false := by simpa using hn
    simp only [this, Bool.false_eq_true, if_false, ifacesOk, hj]
    rfl

theorem load_inv {L0 L L' : Loader K} {i : TransInfo} {b : Bool} (hi : Inv L0 L) (h : L.load stod i = .ok (L', b)) :
    Inv L0 L' ∧ Grows L L' ∧ (∀ k n, n ≠ i.name → smapFind n (L'.handles k) = smapFind n (L.handles k)) ∧
    ∃ t, (loadTransmission stod i = .ok (some t) ∨ L' = L) ∧
      ∀ k, smapFind i.name (L'.handles k) = smapFind i.name (L.handles k) ∨
        ∃ g, smapFind i.name (L'.handles k) = some g ∧ L'.IsFor k i t g := by
  have dflt : Trans K := .simple ⟨0, 0⟩
  have triv : Inv L0 L ∧ Grows L L ∧ (∀ k n, n ≠ i.name → smapFind n (L.handles k) = smapFind n (L.handles k)) ∧
      ∃ t, (loadTransmission stod i = .ok (some t) ∨ L = L) ∧
      ∀ k, smapFind i.name (L.handles k) = smapFind i.name (L.handles k) ∨
        ∃ g, smapFind i.name (L.handles k) = some g ∧ L.IsFor k i t g :=
    ⟨hi, .refl L, fun _ _ _ => rfl, dflt, .inr rfl, fun _ => .inl rfl⟩
  unfold Loader.load at h
  cases ht : loadTransmission stod i with
  | error e => rw [ht] at h; cases h
  | ok r =>
    rw [ht] at h
    simp only [bind, Except.bind, pure, Except.pure] at h
    cases r with
    | none => cases h; rw [ht] at triv; exact triv
    | some t =>
      dsimp only at h
      obtain ⟨hA, hJ, -⟩ := loadTransmission_some ht
      split at h
      · cases h
      · split at h
        · cases h
        · split at h
          · rename_i j js hj _ _
            rcases loadIfaces_general hA hJ j.hwIfaces hi false with ⟨he, -⟩ | ⟨L1, b1, he, hp⟩
            · rw [he] at h; cases h
            · rw [he] at h
              cases h
              exact ⟨hp.inv, hp.grows, hp.other, t, .inl rfl, hp.this⟩
          · cases h; rw [ht] at triv; exact triv

theorem loadAll_inv {L0 : Loader K} (l : List TransInfo) {L L' : Loader K} {b : Bool} (hi : Inv L0 L)
    (h : loadAll stod l L = .ok (L', b)) : Inv L0 L' ∧ Grows L L' ∧
      ∀ k n, (∀ i ∈ l, i.name ≠ n) → smapFind n (L'.handles k) = smapFind n (L.handles k) := by
  induction l generalizing L with
  | nil => cases h; exact ⟨hi, .refl _, fun _ _ _ => rfl⟩
  | cons i rest ih =>
    rw [loadAll] at h
    cases hl : L.load stod i with
    | error e => rw [hl] at h; cases h
    | ok r =>
      obtain ⟨L1, ok⟩ := r
      rw [hl] at h
      simp only [bind, Except.bind, pure, Except.pure] at h
      obtain ⟨i1, g1, o1, -⟩ := load_inv hi hl
      split at h
      · obtain ⟨i2, g2, o2⟩ := ih i1 h
        exact ⟨i2, g1.tr g2, fun k n hn => (o2 k n fun j hj => hn j (by simp [hj])).trans
          (o1 k n (hn i (by simp)).symm)⟩
      · cases h
        exact ⟨i1, g1, fun k n hn => o1 k n (hn i (by simp)).symm⟩

theorem loads_inv {L0 : Loader K} (calls : List (List TransInfo)) {L L' : Loader K} (hi : Inv L0 L)
    (h : loads stod calls L = .ok L') : Inv L0 L' ∧ Grows L L' ∧
      ∀ k n, (∀ l ∈ calls, ∀ i ∈ l, i.name ≠ n) → smapFind n (L'.handles k) = smapFind n (L.handles k) := by
  induction calls generalizing L with
  | nil => cases h; exact ⟨hi, .refl _, fun _ _ _ => rfl⟩
  | cons l rest ih =>
    rw [loads] at h
    cases hl : loadAll stod l L with
    | error e => rw [hl] at h; cases h
    | ok r =>
      obtain ⟨L1, ok⟩ := r
      rw [hl] at h
      simp only [bind, Except.bind] at h
      obtain ⟨i1, g1, o1⟩ := loadAll_inv l hi hl
      obtain ⟨i2, g2, o2⟩ := ih i1 h
      exact ⟨i2, g1.tr g2, fun k n hn => (o2 k n fun l hl => hn l (by simp [hl])).trans (o1 k n (hn l (by simp)))⟩

theorem Reached.inv {L0 L : Loader K} (h : Reached stod L0 L) : Inv L0 L := by
  obtain ⟨hf, calls, hc⟩ := h
  exact (loads_inv calls hf.inv hc).1

/-! ### From the loader's data to the robot's interfaces -/

section

omit [OfNat K 0] [OfNat K 1] [DecidableEq K]

theorem actuatorStateData_ptrs {L : Loader K} {an : List String} {d : Data} (h : L.actuatorStateData an = some d) :
    ∃ m, L.actuators.state = some m ∧ StatePtrs m an d := by
  unfold actuatorStateData at h
  split at h
  · cases h
  · rename_i m hm
    refine ⟨m, hm, ?_⟩
    split at h
    · cases h
    · rename_i hs hms
      cases h
      have key := (mapM_some hms).2
      have kmem := mapM_mem hms
      have all1 : hs.all (·.absolutePosition.isSome) = true ↔
          ∀ n ∈ an, ∀ s, smapFind n m = some s → s.absolutePosition ≠ none := by
        rw [List.all_eq_true]
        constructor
        · intro ha n hn s hf
          obtain ⟨x, hx⟩ := List.getElem?_of_mem hn
          obtain ⟨b, hb, hfb⟩ := key x n hx
          rw [hf] at hfb; cases hfb
          have := ha s (List.mem_of_getElem? hb)
          rw [Option.isSome_iff_ne_none] at this; exact this
        · intro ha s hsm
          obtain ⟨n, hn, hf⟩ := kmem.2 s hsm
          rw [Option.isSome_iff_ne_none]; exact ha n hn s hf
      have all2 : hs.all (·.torqueSensor.isSome) = true ↔
          ∀ n ∈ an, ∀ s, smapFind n m = some s → s.torqueSensor ≠ none := by
        rw [List.all_eq_true]
        constructor
        · intro ha n hn s hf
          obtain ⟨x, hx⟩ := List.getElem?_of_mem hn
          obtain ⟨b, hb, hfb⟩ := key x n hx
          rw [hf] at hfb; cases hfb
          have := ha s (List.mem_of_getElem? hb)
          rw [Option.isSome_iff_ne_none] at this; exact this
        · intro ha s hsm
          obtain ⟨n, hn, hf⟩ := kmem.2 s hsm
          rw [Option.isSome_iff_ne_none]; exact ha n hn s hf
      constructor
      · intro x n hx
        obtain ⟨s, hs', hf⟩ := key x n hx
        exact ⟨s, hf, by simp [hs'], by simp [hs'], by simp [hs']⟩
      · intro ha x n hx
        obtain ⟨s, hs', hf⟩ := key x n hx
        refine ⟨s, hf, ?_⟩
        dsimp only
        rw [if_pos (all1.2 ha)]
        simp [hs']
      · intro ha x n hx
        obtain ⟨s, hs', hf⟩ := key x n hx
        refine ⟨s, hf, ?_⟩
        dsimp only
        rw [if_pos (all2.2 ha)]
        simp [hs']
      · rintro ⟨n, hn, s, hf, ha⟩
        dsimp only
        rw [if_neg]
        intro hh
        exact all1.1 hh n hn s hf ha
      · rintro ⟨n, hn, s, hf, ha⟩
        dsimp only
        rw [if_neg]
        intro hh
        exact all2.1 hh n hn s hf ha

theorem jointStateData_ptrs {L0 L : Loader K} (hi : Inv L0 L) {jn : List String} {d : Data}
    (h : L.jointStateData jn = some d) : StatePtrs L.robotState jn d := by
  unfold jointStateData at h
  split at h
  · cases h
  · rename_i bs hms
    cases h
    have key := (mapM_some hms).2
    have hno1 : ∀ n ∈ jn, ∀ s, smapFind n L.robotState = some s → s.absolutePosition ≠ none ∧ s.torqueSensor ≠ none := by
      intro n hn s hs
      obtain ⟨b, hb⟩ := (mapM_mem hms).1 n hn
      rw [(hi.rawState n b hb).1] at hs
      cases hs
      simp [Transmission.rawState]
    constructor
    · intro x n hx
      obtain ⟨b, hb, hf⟩ := key x n hx
      exact ⟨_, (hi.rawState n b hf).1, by simp [hb], by simp [hb], by simp [hb]⟩
    · intro _ x n hx
      obtain ⟨b, hb, hf⟩ := key x n hx
      exact ⟨_, (hi.rawState n b hf).1, by simp [hb]⟩
    · intro _ x n hx
      obtain ⟨b, hb, hf⟩ := key x n hx
      exact ⟨_, (hi.rawState n b hf).1, by simp [hb]⟩
    · rintro ⟨n, hn, s, hs, h0⟩
      exact absurd h0 (hno1 n hn s hs).1
    · rintro ⟨n, hn, s, hs, h0⟩
      exact absurd h0 (hno1 n hn s hs).2

theorem cmd_cmdData (c : Cmd) (l : List Ptr) : (cmdData c l).cmd c = l := by cases c <;> rfl

theorem actuatorCommandData_ptrs {L : Loader K} {c : Cmd} {an : List String} {d : Data}
    (h : L.actuatorCommandData c an = some d) : CommandPtrs c (L.actuatorCell c) an d := by
  unfold actuatorCommandData at h
  split at h
  · cases h
  · rename_i m hm
    split at h
    · cases h
    · rename_i hs hms
      cases h
      intro x n hx
      obtain ⟨a, ha, hf⟩ := (mapM_some hms).2 x n hx
      exact ⟨a, by simp [actuatorCell, hm, hf], by rw [cmd_cmdData]; simp [ha]⟩

theorem jointCommandData_ptrs {L0 L : Loader K} (hi : Inv L0 L) {c : Cmd} (h0 : L0.robotCommand c = [])
    {jn : List String} {d : Data} (h : L.jointCommandData c jn = some d)
    (hn : ∀ n ∈ jn, n ∈ smapKeys (L.robotCommand c)) : CommandPtrs c (L.commandCell c) jn d := by
  unfold jointCommandData at h
  split at h
  · cases h
  · rename_i bs hms
    cases h
    intro x n hx
    obtain ⟨b, hb, hf⟩ := (mapM_some hms).2 x n hx
    have := hn n (List.mem_of_getElem? hx)
    rw [← smapFind_isSome, Option.isSome_iff_exists] at this
    obtain ⟨s, hs⟩ := this
    refine ⟨rawCommand b c, ?_, by rw [cmd_cmdData]; simp [hb]⟩
    rcases hi.command c n s hs with h | ⟨-, b', hb', rfl⟩
    · rw [h0] at h; simp [smapFind] at h
    · rw [hf] at hb'; cases hb'
      simp [commandCell, hs]

theorem actuatorStateData_isSome {L : Loader K} {i : TransInfo} :
    (L.actuatorStateData i.acts).isSome ↔ L.HasStates i := by
  unfold actuatorStateData HasStates
  constructor
  · intro h
    split at h
    · cases h
    · rename_i m hm
      refine ⟨m, hm, fun a ha => ?_⟩
      split at h
      · cases h
      · rename_i hs hms
        obtain ⟨b, hb⟩ := (mapM_mem hms).1 a.name (List.mem_map_of_mem ha)
        rw [← smapFind_isSome, hb]; rfl
  · rintro ⟨m, hm, ha⟩
    rw [hm]
    obtain ⟨r, hr⟩ := mapM_isSome (f := fun n => smapFind n m) (l := i.acts) fun n hn => by
      obtain ⟨a, ham, rfl⟩ := List.mem_map.1 hn
      have := ha a ham
      rwa [← smapFind_isSome, Option.isSome_iff_exists] at this
    dsimp only
    rw [hr]; rfl

theorem actuatorCommandData_isSome {L : Loader K} {c : Cmd} {i : TransInfo} :
    (L.actuatorCommandData c i.acts).isSome ↔ L.HasCommands c i := by
  unfold actuatorCommandData HasCommands
  constructor
  · intro h
    split at h
    · cases h
    · rename_i m hm
      refine ⟨m, hm, fun a ha => ?_⟩
      split at h
      · cases h
      · rename_i hs hms
        obtain ⟨b, hb⟩ := (mapM_mem hms).1 a.name (List.mem_map_of_mem ha)
        rw [← smapFind_isSome, hb]; rfl
  · rintro ⟨m, hm, ha⟩
    rw [hm]
    obtain ⟨r, hr⟩ := mapM_isSome (f := fun n => smapFind n m) (l := i.acts) fun n hn => by
      obtain ⟨a, ham, rfl⟩ := List.mem_map.1 hn
      have := ha a ham
      rwa [← smapFind_isSome, Option.isSome_iff_exists] at this
    dsimp only
    rw [hr]; rfl

theorem providerOf_iface (c : Cmd) (x : Bool) : providerOf (Cmd.iface c x) = some (.command c x) := by
  cases c <;> cases x <;> decide

theorem providerOf_some {f : String} {p : Provider} (h : providerOf f = some p) :
    (f = "hardware_interface/JointStateInterface" ∧ p = .state) ∨ ∃ c x, f = Cmd.iface c x ∧ p = .command c x := by
  unfold providerOf at h
  split at h
  · rename_i hf; cases h; exact .inl ⟨hf, rfl⟩
  · split at h
    · rename_i hf; cases h; exact .inr ⟨.position, false, hf, rfl⟩
    · split at h
      · rename_i hf; cases h; exact .inr ⟨.velocity, false, hf, rfl⟩
      · split at h
        · rename_i hf; cases h; exact .inr ⟨.effort, false, hf, rfl⟩
        · split at h
          · rename_i hf; cases h; exact .inr ⟨.position, true, hf, rfl⟩
          · split at h
            · rename_i hf; cases h; exact .inr ⟨.velocity, true, hf, rfl⟩
            · split at h
              · rename_i hf; cases h; exact .inr ⟨.effort, true, hf, rfl⟩
              · cases h

theorem offered_iff {L : Loader K} {i : TransInfo} {f : String} :
    L.Offered i f ↔ ∃ p, providerOf f = some p ∧ L.offers p i.acts = true := by
  unfold Offered offers
  simp only [Bool.and_eq_true, actuatorStateData_isSome]
  constructor
  · rintro ⟨h1, rfl | ⟨c, x, rfl, h2⟩⟩
    · exact ⟨.state, by decide, h1, rfl⟩
    · exact ⟨_, providerOf_iface c x, h1, actuatorCommandData_isSome.2 h2⟩
  · rintro ⟨p, hp, h1, h2⟩
    refine ⟨h1, ?_⟩
    rcases providerOf_some hp with ⟨hf, -⟩ | ⟨c, x, hf, rfl⟩
    · exact .inl hf
    · exact .inr ⟨c, x, hf, actuatorCommandData_isSome.1 h2⟩

/-! ### Handles -/

theorem Wired.mkHandle {L : Loader K} {k : Kind} {h : Handle K} {an jn : List String} (hw : L.Wired k h an jn) :
    mkHandle (some h.trans) h.act h.jnt = some h := by
  obtain ⟨h1, h2, h3⟩ := hw
  have : newHandle h.trans h.act h.jnt = .ok h := by
    cases hk : k.cmd with
    | none => rw [hk] at h3; exact newHandle_state h3.1 h3.2 h1 h2
    | some c => rw [hk] at h3; exact newHandle_command h3.1 h3.2 h1 h2
  unfold newHandle at this
  split at this
  · cases this
  · rename_i g hg; cases this; exact hg

theorem Wired.complete {L : Loader K} {k : Kind} {h : Handle K} {an jn : List String} (hw : L.Wired k h an jn)
    (nd : Bool) : Complete nd k h := by
  obtain ⟨h1, h2, h3⟩ := hw
  have hp := num_pos h.trans
  have hp' : 0 < h.trans.numJoints := by rw [num_eq]; exact hp
  have ne : ∀ (l : List Ptr) (n : Nat), l.length = n → 0 < n → l ≠ [] := fun l n hl hn => by
    rw [← List.length_pos_iff]; omega
  have st : L.actuatorStateData an = some h.act → L.jointStateData jn = some h.jnt →
      Complete nd .actuatorToJointState h ∧ Complete nd .jointToActuatorState h := by
    intro ha hj
    obtain ⟨⟨a1, a2, a3, a4, a5⟩, -⟩ := actuatorStateData_some ha
    obtain ⟨⟨c1, c2, c3, c4, c5⟩, -⟩ := jointStateData_some hj
    have q1 := ne _ _ (a1.trans h1) hp
    have q2 := ne _ _ (a2.trans h1) hp
    have q3 := ne _ _ (a3.trans h1) hp
    have q4 := ne _ _ (c1.trans h2) hp'
    have q5 := ne _ _ (c2.trans h2) hp'
    have q6 := ne _ _ (c3.trans h2) hp'
    have q7 := ne _ _ (c4.trans h2) hp'
    have q8 := ne _ _ (c5.trans h2) hp'
    refine ⟨⟨⟨q1, q4⟩, ⟨q2, q5⟩, ⟨q3, q6⟩, fun _ => q7, fun ht => ⟨q8, ?_⟩⟩, ⟨q1, q4⟩, ⟨q2, q5⟩, q3, q6⟩
    rcases a5 with a5 | a5
    · exact absurd a5 ht
    · unfold Fits; split <;> omega
  have cm : ∀ c, L.actuatorCommandData c an = some h.act → L.jointCommandData c jn = some h.jnt →
      h.act.cmd c ≠ [] ∧ h.jnt.cmd c ≠ [] := by
    intro c ha hj
    obtain ⟨l, hl, e1⟩ := actuatorCommandData_some ha
    obtain ⟨l', hl', e2⟩ := jointCommandData_some hj
    rw [e1, e2, cmd_cmdData, cmd_cmdData]
    exact ⟨ne _ l.length (by simp [cells]) (by omega), ne _ l'.length (by simp [cells]) (by omega)⟩
  cases k with
  | actuatorToJointState => exact (st h3.1 h3.2).1
  | jointToActuatorState => exact (st h3.1 h3.2).2
  | actuatorToJointPosition => exact cm .position h3.1 h3.2
  | actuatorToJointVelocity => exact cm .velocity h3.1 h3.2
  | actuatorToJointEffort => exact cm .effort h3.1 h3.2
  | jointToActuatorPosition => exact cm .position h3.1 h3.2
  | jointToActuatorVelocity => exact cm .velocity h3.1 h3.2
  | jointToActuatorEffort => exact cm .effort h3.1 h3.2

/-- A cell of the joint data of a wired handle belongs to the raw data of one of its joints. -/
theorem Wired.jntHas {L : Loader K} {k : Kind} {h : Handle K} {an jn : List String} (hw : L.Wired k h an jn)
    {a : Nat} (ha : h.jnt.Has a) : ∃ n ∈ jn, ∃ b, smapFind n L.raw = some b ∧ b ≤ a ∧ a < b + 8 := by
  obtain ⟨h1, h2, h3⟩ := hw
  cases hk : k.cmd with
  | none =>
    rw [hk] at h3
    have h3 := h3.2
    unfold jointStateData at h3
    split at h3
    · cases h3
    · rename_i bs hms
      rw [← Option.some.inj h3] at ha
      unfold Data.Has at ha
      simp only [List.mem_map, Transmission.rawState, Option.some.injEq] at ha
      have : ∃ b ∈ bs, b ≤ a ∧ a < b + 8 := by
        rcases ha with ⟨b, hb, e⟩ | ⟨b, hb, e⟩ | ⟨b, hb, e⟩ | ⟨b, hb, e⟩ | ⟨b, hb, e⟩ <;>
          exact ⟨b, hb, by omega, by omega⟩
      obtain ⟨b, hb, hle⟩ := this
      obtain ⟨n, hn, hf⟩ := (mapM_mem hms).2 b hb
      exact ⟨n, hn, b, hf, hle⟩
  | some c =>
    rw [hk] at h3
    have h3 := h3.2
    unfold jointCommandData at h3
    split at h3
    · cases h3
    · rename_i bs hms
      rw [← Option.some.inj h3] at ha
      have : ∃ b ∈ bs, b ≤ a ∧ a < b + 8 := by
        unfold Data.Has at ha
        cases c <;> simp [cmdData, rawCommand] at ha <;> obtain ⟨b, hb, e⟩ := ha <;>
          exact ⟨b, hb, by omega, by omega⟩
      obtain ⟨b, hb, hle⟩ := this
      obtain ⟨n, hn, hf⟩ := (mapM_mem hms).2 b hb
      exact ⟨n, hn, b, hf, hle⟩

/-- A cell of the actuator data of a wired handle belongs to an actuator of the robot. -/
theorem Wired.actHas {L : Loader K} {k : Kind} {h : Handle K} {an jn : List String} (hw : L.Wired k h an jn)
    {a : Nat} (ha : h.act.Has a) : L.ActuatorCell a := by
  obtain ⟨h1, h2, h3⟩ := hw
  cases hk : k.cmd with
  | none =>
    rw [hk] at h3
    have h3 := h3.1
    unfold actuatorStateData at h3
    split at h3
    · cases h3
    · rename_i m hm
      split at h3
      · cases h3
      · rename_i hs hms
        rw [← Option.some.inj h3] at ha
        have : ∃ s ∈ hs, s.Has a := by
          unfold Data.Has at ha
          dsimp only at ha
          rcases ha with ha | ha | ha | ha | ha
          · obtain ⟨s, h, e⟩ := List.mem_map.1 ha; exact ⟨s, h, .inl (Option.some.inj e).symm⟩
          · obtain ⟨s, h, e⟩ := List.mem_map.1 ha; exact ⟨s, h, .inr (.inl (Option.some.inj e).symm)⟩
          · obtain ⟨s, h, e⟩ := List.mem_map.1 ha; exact ⟨s, h, .inr (.inr (.inl (Option.some.inj e).symm))⟩
          · split at ha
            · obtain ⟨s, h, e⟩ := List.mem_map.1 ha; exact ⟨s, h, .inr (.inr (.inr (.inl e.symm)))⟩
            · simp at ha
          · split at ha
            · obtain ⟨s, h, e⟩ := List.mem_map.1 ha; exact ⟨s, h, .inr (.inr (.inr (.inr e.symm)))⟩
            · simp at ha
        obtain ⟨s, hs', hh⟩ := this
        obtain ⟨n, hn, hf⟩ := (mapM_mem hms).2 s hs'
        exact .inl ⟨m, n, s, hm, mem_of_smapFind hf, hh⟩
  | some c =>
    rw [hk] at h3
    have h3 := h3.1
    unfold actuatorCommandData at h3
    split at h3
    · cases h3
    · rename_i m hm
      split at h3
      · cases h3
      · rename_i hs hms
        rw [← Option.some.inj h3] at ha
        have : a ∈ hs := by
          unfold Data.Has at ha
          cases c <;> simpa [cmdData] using ha
        obtain ⟨n, hn, hf⟩ := (mapM_mem hms).2 a this
        exact .inr ⟨c, m, n, hm, mem_of_smapFind hf⟩

end

/-- The handles of a loader come from the transmissions it was given. -/
def Origin (L : Loader K) (stod : String → Option K) (infos : List TransInfo) : Prop :=
  ∀ k n h, (n, h) ∈ L.handles k → ∃ i ∈ infos, i.name = n ∧ L.Wired k h i.acts i.jnts ∧
    loadTransmission stod i = .ok (some h.trans)

theorem Origin.mono {L L' : Loader K} {l l' : List TransInfo} (h : L.Origin stod l) (hg : Grows L L')
    (he : L'.handles = L.handles) (hl : ∀ i ∈ l, i ∈ l') : L'.Origin stod l' := by
  intro k n g hm
  rw [he] at hm
  obtain ⟨i, hi, hn, hw, ht⟩ := h k n g hm
  exact ⟨i, hl i hi, hn, hg.wired hw, ht⟩

theorem load_origin {L0 L L' : Loader K} {l : List TransInfo} {i : TransInfo} {b : Bool} (hi : Inv L0 L)
    (ho : L.Origin stod l) (h : L.load stod i = .ok (L', b)) : L'.Origin stod (l ++ [i]) := by
  obtain ⟨i1, g1, o1, t, hlt, th⟩ := load_inv hi h
  intro k n g hm
  have hf := smapFind_of_mem (i1.sorted k) hm
  have old : smapFind n (L'.handles k) = smapFind n (L.handles k) → ∃ i' ∈ l ++ [i], i'.name = n ∧
      L'.Wired k g i'.acts i'.jnts ∧ loadTransmission stod i' = .ok (some g.trans) := by
    intro e
    rw [e] at hf
    obtain ⟨i', hi', hn, hw, ht⟩ := ho k n g (mem_of_smapFind hf)
    exact ⟨i', List.mem_append_left _ hi', hn, g1.wired hw, ht⟩
  by_cases hn : n = i.name
  · subst hn
    rcases th k with e | ⟨g', e, hfor⟩
    · exact old e
    · rcases hlt with hlt | rfl
      · rw [e] at hf; cases hf
        exact ⟨i, by simp, rfl, hfor.2, by rw [hfor.1]; exact hlt⟩
      · exact old rfl
  · exact old (o1 k n hn)

theorem loadAll_origin {L0 : Loader K} (l : List TransInfo) {L L' : Loader K} {pre : List TransInfo} {b : Bool}
    (hi : Inv L0 L) (ho : L.Origin stod pre) (h : loadAll stod l L = .ok (L', b)) : L'.Origin stod (pre ++ l) := by
  induction l generalizing L pre with
  | nil => cases h; simpa using ho
  | cons i rest ih =>
    rw [loadAll] at h
    cases hl : L.load stod i with
    | error e => rw [hl] at h; cases h
    | ok r =>
      obtain ⟨L1, ok⟩ := r
      rw [hl] at h
      simp only [bind, Except.bind, pure, Except.pure] at h
      have o1 := load_origin hi ho hl
      have i1 := (load_inv hi hl).1
      split at h
      · have := ih i1 o1 h
        simpa using this
      · cases h
        exact o1.mono (.refl _) rfl (by simp; tauto)

theorem loads_origin {L0 : Loader K} (calls : List (List TransInfo)) {L L' : Loader K} {pre : List TransInfo}
    (hi : Inv L0 L) (ho : L.Origin stod pre) (h : loads stod calls L = .ok L') : L'.Origin stod (pre ++ calls.flatten) := by
  induction calls generalizing L pre with
  | nil => cases h; simpa using ho
  | cons l rest ih =>
    rw [loads] at h
    cases hl : loadAll stod l L with
    | error e => rw [hl] at h; cases h
    | ok r =>
      obtain ⟨L1, ok⟩ := r
      rw [hl] at h
      simp only [bind, Except.bind] at h
      have := ih (loadAll_inv l hi hl).1 (loadAll_origin l hi ho hl) h
      simpa using this

end Loader

end Verif.Transmission
