import Verif.Lemmas.LoadedRobotAll

/-!
A loader makes a handle of a kind only for transmissions whose joints list an interface that needs it.
-/

namespace Verif.Transmission

namespace Loader

theorem mapM_congr_mem {A B : Type} {l : List A} {f g : A → Option B} (h : ∀ x ∈ l, f x = g x) : l.mapM f = l.mapM g := by
  induction l with
  | nil => rfl
  | cons x l ih =>
    rw [List.mapM_cons, List.mapM_cons, h x List.mem_cons_self, ih fun y hy => h y (List.mem_cons_of_mem _ hy)]

/-- The provider makes handles of this kind. -/
def makes (p : Provider) (k : Kind) : Bool := replaces p k || ensures p k

theorem makes_toActuator {p : Provider} {c : Cmd} (h : makes p c.toActuator = true) : ∃ x, p = .command c x := by
  cases p with
  | state => cases c <;> simp [makes, replaces, ensures, Cmd.toActuator] at h
  | command d x =>
    refine ⟨x, ?_⟩
    cases c <;> cases d <;> first | rfl | simp [makes, replaces, ensures, Cmd.toActuator, Cmd.toJoint] at h

theorem makes_toJoint {p : Provider} {c : Cmd} (h : makes p c.toJoint = true) : p = .command c true := by
  cases p with
  | state => cases c <;> simp [makes, replaces, ensures, Cmd.toJoint] at h
  | command d x =>
    cases c <;> cases d <;> cases x <;> first | rfl | simp [makes, replaces, ensures, Cmd.toActuator, Cmd.toJoint] at h

theorem makes_back {p : Provider} (h : makes p .jointToActuatorState = true) : ∃ c, p = .command c true := by
  cases p with
  | state => simp [makes, replaces, ensures] at h
  | command d x =>
    refine ⟨d, ?_⟩
    cases d <;> cases x <;> first | rfl | simp [makes, replaces, ensures, Cmd.toActuator, Cmd.toJoint] at h

section

variable {K : Type} {L0 L L' : Loader K} {i : TransInfo} {t : Trans K}

theorem Registered.keys {p : Provider} {d : HandleData K} (h : Registered L L' p d) {k : Kind} {n : String}
    (hk : (smapFind n (L'.handles k)).isSome) :
    (smapFind n (L.handles k)).isSome ∨ n = d.name ∧ makes p k = true := by
  by_cases hn : n = d.name
  · subst hn
    rw [h.this k] at hk
    unfold makes
    cases hr : replaces p k with
    | true => exact .inr ⟨rfl, rfl⟩
    | false =>
      cases he : ensures p k with
      | true => exact .inr ⟨rfl, rfl⟩
      | false => rw [hr, he] at hk; exact .inl hk
  · rw [h.other k n hn] at hk; exact .inl hk

theorem loadIfaces_keys (hA : i.actuators.length = t.numActuators) (hJ : i.joints.length = t.numJoints)
    (ifaces : List String) (hi : Inv L0 L) {any b : Bool} (h : loadIfaces i t ifaces (L, any) = .ok (L', b))
    {k : Kind} {n : String} (hk : (smapFind n (L'.handles k)).isSome) :
    (smapFind n (L.handles k)).isSome ∨ n = i.name ∧ ∃ f ∈ ifaces, ∃ p, providerOf f = some p ∧ makes p k = true := by
  induction ifaces generalizing L any with
  | nil => cases h; exact .inl hk
  | cons f rest ih =>
    rw [loadIfaces] at h
    have up : (∃ g ∈ rest, ∃ p, providerOf g = some p ∧ makes p k = true) →
        ∃ g ∈ f :: rest, ∃ p, providerOf g = some p ∧ makes p k = true :=
      fun ⟨g, hg, r⟩ => ⟨g, List.mem_cons_of_mem _ hg, r⟩
    cases hp : providerOf f with
    | none =>
      rw [hp] at h
      exact (ih hi h).imp_right (And.imp_right up)
    | some p =>
      rw [hp] at h
      dsimp only at h
      rcases loadMaps_spec hi (p := p) hA hJ with ⟨-, he⟩ | ⟨-, ho, he | ⟨L1, he, hu⟩⟩ | ⟨-, L1, he, hd⟩
      · rw [he] at h
        exact (ih hi h).imp_right (And.imp_right up)
      · rw [he] at h; cases h
      · rw [he] at h
        rcases ih hu.inv h with h1 | ⟨h1, h2⟩
        · rw [hu.handles] at h1; exact .inl h1
        · exact .inr ⟨h1, up h2⟩
      · rw [he] at h
        rcases ih hd.inv h with h1 | ⟨h1, h2⟩
        · obtain ⟨d, hdn, -, -, hr⟩ := hd.data
          rcases hr.keys h1 with h3 | ⟨h3, h4⟩
          · exact .inl h3
          · exact .inr ⟨h3.trans hdn, f, List.mem_cons_self, p, hp, h4⟩
        · exact .inr ⟨h1, up h2⟩

end

section

variable {K : Type} [Add K] [Sub K] [Mul K] [Div K] [OfNat K 0] [OfNat K 1] [OfNat K 2] [DecidableEq K] {stod : String → Option K} {L0 L L' : Loader K} {infos : List TransInfo}

/-- A joint of the transmission lists an interface that needs handles of this kind. -/
def Asks (i : TransInfo) (k : Kind) : Prop :=
  ∃ j ∈ i.joints, ∃ f ∈ j.hwIfaces, ∃ p, providerOf f = some p ∧ makes p k = true

theorem load_keys {i : TransInfo} {b : Bool} (hi : Inv L0 L) (h : L.load stod i = .ok (L', b)) {k : Kind} {n : String}
    (hk : (smapFind n (L'.handles k)).isSome) : (smapFind n (L.handles k)).isSome ∨ n = i.name ∧ Asks i k := by
  unfold Loader.load at h
  cases ht : loadTransmission stod i with
  | error e => rw [ht] at h; cases h
  | ok r =>
    rw [ht] at h
    simp only [bind, Except.bind, pure, Except.pure] at h
    cases r with
    | none => cases h; exact .inl hk
    | some t =>
      dsimp only at h
      obtain ⟨hA, hJ, -⟩ := loadTransmission_some ht
      split at h
      · cases h
      · rename_i j js hj
        split at h
        · cases h
        · split at h
          · rcases loadIfaces_keys hA hJ j.hwIfaces hi h hk with h1 | ⟨h1, h2⟩
            · exact .inl h1
            · exact .inr ⟨h1, j, by rw [hj]; exact List.mem_cons_self, h2⟩
          · cases h; exact .inl hk

theorem loadAll_keys (l : List TransInfo) {b : Bool} (hi : Inv L0 L) (h : loadAll stod l L = .ok (L', b)) {k : Kind}
    {n : String} (hk : (smapFind n (L'.handles k)).isSome) :
    (smapFind n (L.handles k)).isSome ∨ ∃ i ∈ l, i.name = n ∧ Asks i k := by
  induction l generalizing L with
  | nil => cases h; exact .inl hk
  | cons i rest ih =>
    rw [loadAll] at h
    cases hl : L.load stod i with
    | error e => rw [hl] at h; cases h
    | ok r =>
      obtain ⟨L1, ok⟩ := r
      rw [hl] at h
      simp only [bind, Except.bind, pure, Except.pure] at h
      have step : (smapFind n (L1.handles k)).isSome →
          (smapFind n (L.handles k)).isSome ∨ ∃ i' ∈ i :: rest, i'.name = n ∧ Asks i' k := fun h1 => by
        rcases load_keys hi hl h1 with h2 | ⟨h2, h3⟩
        · exact .inl h2
        · exact .inr ⟨i, List.mem_cons_self, h2.symm, h3⟩
      cases ok with
      | false => simp only [Bool.false_eq_true, if_false] at h; cases h; exact step hk
      | true =>
        simp only [if_true] at h
        rcases ih (load_inv hi hl).1 h with h1 | ⟨i', h1, h2⟩
        · exact step h1
        · exact .inr ⟨i', List.mem_cons_of_mem _ h1, h2⟩

/-- The transmission that a handle belongs to asks for handles of its kind. -/
theorem loaded_asked (hf : L0.Fresh) (hn : (infos.map (·.name)).Nodup) {b : Bool}
    (h : loadAll stod infos L0 = .ok (L, b)) {k : Kind} {n : String} {g : Handle K} (hg : (n, g) ∈ L.handles k) :
    ∃ i ∈ infos, i.name = n ∧ L.Wired k g i.acts i.jnts ∧ Asks i k := by
  obtain ⟨i, hi, hin, hw, -⟩ := loaded_origin hf h k n g hg
  have hk : (smapFind n (L.handles k)).isSome := by
    rw [smapFind_of_mem ((loaded_inv hf h).sorted k) hg]; rfl
  rcases loadAll_keys infos hf.inv h hk with h1 | ⟨i', hi', hin', has⟩
  · rw [hf.handles] at h1; cases h1
  · have : i' = i := List.inj_on_of_nodup_map hn hi' hi (hin'.trans hin.symm)
    subst this
    exact ⟨i', hi, hin, hw, has⟩

theorem Asks.commanded {i : TransInfo} {c : Cmd} (h : Asks i c.toActuator) : i.Commanded c := by
  obtain ⟨j, hj, f, hf, p, hp, hm⟩ := h
  obtain ⟨x, rfl⟩ := makes_toActuator hm
  rcases providerOf_some hp with ⟨-, e⟩ | ⟨c', x', rfl, e⟩
  · cases e
  · cases e; exact ⟨j, hj, x, hf⟩

theorem Asks.bothWays {i : TransInfo} {c : Cmd} (h : Asks i c.toJoint) : i.BothWays c := by
  obtain ⟨j, hj, f, hf, p, hp, hm⟩ := h
  cases makes_toJoint hm
  rcases providerOf_some hp with ⟨-, e⟩ | ⟨c', x', rfl, e⟩
  · cases e
  · cases e; exact ⟨j, hj, hf⟩

theorem Asks.back {i : TransInfo} (h : Asks i .jointToActuatorState) : ∃ c, i.BothWays c := by
  obtain ⟨j, hj, f, hf, p, hp, hm⟩ := h
  obtain ⟨c, rfl⟩ := makes_back hm
  rcases providerOf_some hp with ⟨-, e⟩ | ⟨c', x', rfl, e⟩
  · cases e
  · cases e; exact ⟨c, j, hj, hf⟩

end

end Loader

end Verif.Transmission
