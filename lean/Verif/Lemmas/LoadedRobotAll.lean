import Verif.Lemmas.LoadedRobotNames
import Mathlib.Data.List.Nodup

/-!
Loading all transmissions of a description: each gets its handles, and the handles do not meet.
-/

namespace Verif.Transmission

namespace Loader

variable {K : Type} [Add K] [Sub K] [Mul K] [Div K] [OfNat K 0] [OfNat K 1] [OfNat K 2] [DecidableEq K] {stod : String → Option K} {L0 L L' : Loader K} {infos : List TransInfo}

theorem loadAll_append (l l' : List TransInfo) (h : loadAll stod (l ++ l') L0 = .ok (L, true)) :
    ∃ L1, loadAll stod l L0 = .ok (L1, true) ∧ loadAll stod l' L1 = .ok (L, true) := by
  induction l generalizing L0 with
  | nil => exact ⟨L0, rfl, h⟩
  | cons i l ih =>
    rw [List.cons_append, loadAll] at h
    rw [loadAll]
    cases hl : L0.load stod i with
    | error e => rw [hl] at h; cases h
    | ok r =>
      obtain ⟨L1, ok⟩ := r
      rw [hl] at h
      simp only [bind, Except.bind, pure, Except.pure] at h ⊢
      cases ok with
      | false => simp at h
      | true =>
        simp only [if_true] at h ⊢
        exact ih h

theorem loads_one {l : List TransInfo} {b : Bool} (h : loadAll stod l L0 = .ok (L, b)) : loads stod [l] L0 = .ok L := by
  rw [loads, h]; rfl

/-- The handles come from the transmissions loaded. -/
theorem loaded_origin (hf : L0.Fresh) {b : Bool} (h : loadAll stod infos L0 = .ok (L, b)) : L.Origin stod infos := by
  have := loads_origin [infos] hf.inv (pre := []) (fun k n g hg => by rw [hf.handles] at hg; cases hg) (loads_one h)
  simpa using this

theorem loaded_inv (hf : L0.Fresh) {b : Bool} (h : loadAll stod infos L0 = .ok (L, b)) : Inv L0 L :=
  (loads_inv [infos] hf.inv (loads_one h)).1

/-- After loading all, each transmission is connected. -/
theorem loaded_connected_all (hf : L0.Fresh) (h0 : L0.NoOwn) (hw : ∀ i ∈ infos, i.WellFormed)
    (hn : (infos.map (·.name)).Nodup) (h : loadAll stod infos L0 = .ok (L, true)) {i : TransInfo} (hi : i ∈ infos) :
    ∃ t, loadTransmission stod i = .ok (some t) ∧ L.StateConnected .actuatorToJointState i t ∧
      ∀ j ∈ i.joints, ∀ c x, Cmd.iface c x ∈ j.hwIfaces → L0.HasCommands c i →
        L.CommandConnected c.toActuator c i t ∧
        (x = true → L.CommandConnected c.toJoint c i t ∧ L.StateConnected .jointToActuatorState i t) := by
  obtain ⟨pre, post, rfl⟩ := List.append_of_mem hi
  obtain ⟨L1, h1, h2⟩ := loadAll_append pre (i :: post) h
  obtain ⟨L2, h3, h4⟩ := loadAll_append [i] post h2
  have h3 : L1.load stod i = .ok (L2, true) := by
    rw [loadAll] at h3
    cases hl : L1.load stod i with
    | error e => rw [hl] at h3; cases h3
    | ok r =>
      obtain ⟨L3, ok⟩ := r
      rw [hl] at h3
      simp only [bind, Except.bind, pure, Except.pure] at h3
      cases ok with
      | false => simp at h3
      | true =>
        simp only [if_true, loadAll] at h3
        cases h3; rfl
  have hr1 : Reached stod L0 L1 := ⟨hf, [pre], loads_one h1⟩
  have hr2 : Reached stod L0 L2 := ⟨hf, [pre ++ [i]], by
    have : ∀ (pre : List TransInfo) (L0 L1 : Loader K), loadAll stod pre L0 = .ok (L1, true) →
        L1.load stod i = .ok (L2, true) → loadAll stod (pre ++ [i]) L0 = .ok (L2, true) := by
      intro pre
      induction pre with
      | nil => intro L0 L1 e e'; cases e; rw [List.nil_append, loadAll, e']; rfl
      | cons j pre ih =>
        intro L0 L1 e e'
        rw [List.cons_append, loadAll]
        rw [loadAll] at e
        cases hl : L0.load stod j with
        | error x => rw [hl] at e; cases e
        | ok r =>
          obtain ⟨L3, ok⟩ := r
          rw [hl] at e
          simp only [bind, Except.bind, pure, Except.pure] at e ⊢
          cases ok with
          | false => simp at e
          | true =>
            simp only [if_true] at e ⊢
            exact ih _ _ e e'
    exact loads_one (this pre L0 L1 h1 h3)⟩
  rw [List.map_append, List.map_cons, List.nodup_append] at hn
  obtain ⟨hn1, hn2, hn3⟩ := hn
  obtain ⟨hn4, hn5⟩ := List.nodup_cons.1 hn2
  have hnew : ∀ k, i.name ∉ smapKeys (L1.handles k) := by
    intro k hk
    obtain ⟨⟨n, g⟩, hg, e⟩ := List.mem_map.1 hk
    obtain ⟨i', hi', hname, -⟩ := loaded_origin hf h1 k n g hg
    have e : n = i.name := e
    exact hn3 i'.name (List.mem_map_of_mem hi') i.name (by simp) (hname.trans e)
  obtain ⟨t, ht, hs, hc⟩ := c66_connected_partial hr1 h0 (hw i hi) hnew h3
  have stay := c66_stay_connected (i := i) hr2 [post] (loads_one h4) (by
    intro l hl i' hi' e
    rw [List.mem_singleton] at hl
    subst hl
    exact hn4 (e ▸ List.mem_map_of_mem hi')) t
  refine ⟨t, ht, (stay _).1 hs, ?_⟩
  intro j hj c x hx hcm
  have := hc j hj c x hx (by unfold HasCommands; rw [hr1.inv.grows.acts]; exact hcm)
  exact ⟨(stay _).2 c this.1, fun hxt => ⟨(stay _).2 c (this.2 hxt).1, (stay _).1 (this.2 hxt).2⟩⟩

theorem loaded_connected (hf : L0.Fresh) (h0 : L0.NoOwn) (hw : ∀ i ∈ infos, i.WellFormed)
    (hn : (infos.map (·.name)).Nodup) (h : loadAll stod infos L0 = .ok (L, true)) {i : TransInfo} (hi : i ∈ infos) :
    ∃ t, loadTransmission stod i = .ok (some t) ∧ L.StateConnected .actuatorToJointState i t ∧
      ∀ c, i.Commanded c → L0.HasCommands c i → L.CommandConnected c.toActuator c i t := by
  obtain ⟨t, ht, hs, hc⟩ := loaded_connected_all hf h0 hw hn h hi
  exact ⟨t, ht, hs, fun c ⟨j, hj, x, hx⟩ hcm => (hc j hj c x hx hcm).1⟩

/-- The handle of a transmission, found by its name, is wired to the names of that transmission. -/
theorem loaded_wired (hf : L0.Fresh) (hn : (infos.map (·.name)).Nodup) {b : Bool}
    (h : loadAll stod infos L0 = .ok (L, b)) {i : TransInfo} (hi : i ∈ infos) {k : Kind} {g : Handle K}
    (hg : smapFind i.name (L.handles k) = some g) :
    (i.name, g) ∈ L.handles k ∧ L.Wired k g i.actuatorNames i.jointNames := by
  have hm := mem_of_smapFind hg
  obtain ⟨i', hi', hname, hw, -⟩ := loaded_origin hf h k _ _ hm
  have : i' = i := List.inj_on_of_nodup_map hn hi' hi hname
  subst this
  exact ⟨hm, hw⟩

theorem flat_apart {f : TransInfo → List String} (h : (infos.flatMap f).Nodup) :
    (∀ i ∈ infos, (f i).Nodup) ∧ ∀ i ∈ infos, ∀ i' ∈ infos, i ≠ i' → ∀ n ∈ f i, n ∉ f i' := by
  rw [List.nodup_flatMap] at h
  refine ⟨h.1, fun i hi i' hi' hne n hn hn' => ?_⟩
  have : Std.Symm (Function.onFun List.Disjoint f) := ⟨fun _ _ h _ ha hb => h hb ha⟩
  exact List.Pairwise.forall h.2 hi hi' hne hn hn'

/-- Handles that write joint data do not meet. -/
theorem loaded_separate_state (hf : L0.Fresh) (ha : JointsApart infos) (hm : L0.ActuatorsBelow) {b : Bool}
    (h : loadAll stod infos L0 = .ok (L, b)) :
    Separate .actuatorToJointState ((L.handles .actuatorToJointState).map (·.2)) := by
  refine c67_separate_partial hf [infos] (loads_one h) ?_ hm _ rfl
  intro i hi i' hi' hne n hn
  simp only [List.flatten_cons, List.flatten_nil, List.append_nil] at hi hi'
  exact (flat_apart ha.joints).2 i hi i' hi' (fun e => hne (by rw [e])) n hn

/-- Handles that write actuator commands do not meet. -/
theorem loaded_separate_command (hf : L0.Fresh) (ha : (infos.flatMap TransInfo.actuatorNames).Nodup)
    (hm : L0.ActuatorsBelow) (hca : L0.CommandsApart) {b : Bool}
    (h : loadAll stod infos L0 = .ok (L, b)) (c : Cmd) :
    Separate c.toActuator ((L.handles c.toActuator).map (·.2)) := by
  have hi := loaded_inv hf h
  have ho := loaded_origin hf h
  have hcell0 : L.actuatorCell c = L0.actuatorCell c := by
    funext n; unfold actuatorCell; rw [hi.grows.acts]
  have key : ∀ n g n' g', (n, g) ∈ L.handles c.toActuator → (n', g') ∈ L.handles c.toActuator → n ≠ n' →
      ∀ a, g.Target c.toActuator a → ¬g'.Has a := by
    intro n g n' g' hg hg' hne a hc hc'
    obtain ⟨i, hi1, rfl, hw, -⟩ := ho _ n g hg
    obtain ⟨i', hi1', rfl, hw', -⟩ := ho _ n' g' hg'
    rw [toActuator_target] at hc
    rcases hc' with hc' | hc'
    · obtain ⟨as, bs, has, -, -, -, ea, -⟩ := hw.command (toActuator_cmd c)
      obtain ⟨as', bs', has', -, -, -, ea', -⟩ := hw'.command (toActuator_cmd c)
      rw [ea, cmdData_has] at hc
      rw [ea', cmdData_has] at hc'
      obtain ⟨x, hx, e⟩ := List.mem_map.1 hc
      obtain ⟨x', hx', e'⟩ := List.mem_map.1 hc'
      cases e; cases e'
      obtain ⟨y, hy, ey⟩ := (mapM_mem has).2 a hx
      obtain ⟨y', hy', ey'⟩ := (mapM_mem has').2 a hx'
      rw [hcell0] at ey ey'
      have := hca c y y' a ey ey'
      subst this
      exact (flat_apart ha).2 i hi1 i' hi1' (fun e => hne (by rw [e])) y hy hy'
    · obtain ⟨x', hx', b', hb', hle', hlt'⟩ := hw'.jntHas hc'
      have := act_below hi hm hw hc
      have := (hi.rawBounds x' b' hb').1
      omega
  unfold Separate
  rw [List.pairwise_map]
  have hs := hi.sorted c.toActuator
  unfold KeysSorted smapKeys at hs
  rw [List.pairwise_map] at hs
  have := List.Pairwise.and_mem.1 hs
  refine this.imp ?_
  rintro ⟨n, g⟩ ⟨n', g'⟩ ⟨h1, h2, hlt⟩
  have hne : n ≠ n' := ne_of_lt hlt
  exact ⟨key n g n' g' h1 h2 hne, key n' g' n g h2 h1 hne.symm⟩

/-- Each handle can be propagated. -/
theorem loaded_ok (hf : L0.Fresh) {b : Bool} (h : loadAll stod infos L0 = .ok (L, b)) (nd : Bool) (k : Kind) (m : Mem K) :
    ∀ g ∈ (L.handles k).map (·.2), ∃ m', g.propagate nd k m = .ok m' := by
  intro g hg
  obtain ⟨⟨n, g'⟩, hg', rfl⟩ := List.mem_map.1 hg
  obtain ⟨an, jn, hw⟩ := (loaded_inv hf h).handles k n g' hg'
  exact (c49_propagate_partial nd hw.mkHandle k m).2 (hw.complete nd)

/-- Without own interfaces, a joint's command lies in its raw data. -/
theorem commandCell_raw (hi : Inv L0 L) (hf : L0.Fresh) (h0 : L0.NoOwn) {c : Cmd} {n : String} {a : Nat}
    (h : L.commandCell c n = some a) : ∃ b, smapFind n L.raw = some b ∧ a = rawCommand b c := by
  unfold commandCell at h
  obtain ⟨s, hs, rfl⟩ := Option.map_eq_some_iff.1 h
  rcases hi.command c n s hs with h | ⟨-, b, hb, rfl⟩
  · rw [robotCommand_nil hf h0 c] at h; cases h
  · exact ⟨b, hb, rfl⟩

end Loader

end Verif.Transmission
