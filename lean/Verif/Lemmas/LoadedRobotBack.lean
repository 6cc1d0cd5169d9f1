import Verif.Lemmas.LoadedRobotAll

/-!
The handles of a loaded robot that work in the opposite direction: states from joints to actuators, commands from
actuators to joints.
-/

namespace Verif.Transmission

section

variable {K : Type} [Add K] [Sub K] [Mul K] [Div K] [OfNat K 2]

theorem gives_toActuator (nd : Bool) (q : Quantity) (T : Trans K) {act jnt : Data} {as js : List Nat}
    (ha : act.get q = cells as) (hj : jnt.get q = cells js) (la : as.length = T.numActuators)
    (lj : js.length = T.numJoints) (hd : ∀ a ∈ as, a ∉ js) (hn : js.Nodup) (hna : as.Nodup) :
    Gives (toActuator nd q T jnt act) as js (T.actuatorsFrom q) := by
  intro m
  have ln : T.numActuators = T.numJoints := by
    rcases T.one_num with ⟨-, h1, h2⟩ | ⟨-, h1, h2⟩ <;> rw [h1, h2]
  obtain ⟨m', e, v, f⟩ := toActuator_run nd q T ha hj la lj
    (List.nodup_append.2 ⟨hna, hn, fun a h b hb e => hd a h (e ▸ hb)⟩) m
  rw [run_actuatorsFrom _ _ _ (by rw [List.length_map, lj, ln])] at v
  exact ⟨m', e, v, f⟩

/-- What propagating a state handle backwards leaves in the actuator data. -/
theorem propagate_back_values (nd : Bool) (g : Handle K) {ap av ae bs : List Nat}
    (h1 : g.act.position = cells ap) (h2 : g.act.velocity = cells av) (h3 : g.act.effort = cells ae)
    (j1 : g.jnt.position = cells (col bs 0)) (j2 : g.jnt.velocity = cells (col bs 1))
    (j3 : g.jnt.effort = cells (col bs 2)) (l1 : ap.length = g.trans.numActuators)
    (l2 : av.length = g.trans.numActuators) (l3 : ae.length = g.trans.numActuators)
    (lj : bs.length = g.trans.numJoints) (hb : RawApart bs)
    (hd : ∀ a ∈ ap ++ av ++ ae, ∀ b ∈ bs, a < b) (hn : (ap ++ av ++ ae).Nodup) (m : Mem K) :
    ∃ m', g.propagate nd .jointToActuatorState m = .ok m' ∧
      ap.map m' = g.trans.actuatorsFrom .position ((col bs 0).map m) ∧
      av.map m' = g.trans.actuatorsFrom .velocity ((col bs 1).map m) ∧
      ae.map m' = g.trans.actuatorsFrom .effort ((col bs 2).map m) ∧
      ∀ c, c ∉ ap → c ∉ av → c ∉ ae → m' c = m c := by
  have dis : ∀ k, ∀ a ∈ ap ++ av ++ ae, a ∉ col bs k := by
    intro k a ha hc
    obtain ⟨b, hb', rfl⟩ := List.mem_map.1 hc
    have := hd _ ha b hb'
    omega
  have d1 : ∀ k, ∀ a ∈ ap, a ∉ col bs k := fun k a ha => dis k a (by simp [ha])
  have d2 : ∀ k, ∀ a ∈ av, a ∉ col bs k := fun k a ha => dis k a (by simp [ha])
  have d3 : ∀ k, ∀ a ∈ ae, a ∉ col bs k := fun k a ha => dis k a (by simp [ha])
  have r1 : ∀ k, ∀ c ∈ col bs k, c ∉ ap := fun k c hc hc' => d1 k c hc' hc
  have r2 : ∀ k, ∀ c ∈ col bs k, c ∉ av := fun k c hc hc' => d2 k c hc' hc
  rw [List.append_assoc, List.nodup_append] at hn
  obtain ⟨n1, n23, n4⟩ := hn
  rw [List.nodup_append] at n23
  obtain ⟨n2, n3, n5⟩ := n23
  have pv : ∀ a ∈ ap, a ∉ av := fun a h h' => n4 a h a (by simp [h']) rfl
  have pe : ∀ a ∈ ap, a ∉ ae := fun a h h' => n4 a h a (by simp [h']) rfl
  have ve : ∀ a ∈ av, a ∉ ae := fun a h h' => n5 a h a h' rfl
  have lc : ∀ k, (col bs k).length = g.trans.numJoints := fun k => by rw [col, List.length_map]; exact lj
  obtain ⟨m1, e1, v1, f1⟩ := gives_toActuator nd .position g.trans (act := g.act) (jnt := g.jnt) h1 j1 l1 (lc 0)
    (d1 0) (col_nodup hb 0) n1 m
  obtain ⟨m2, e2, v2, f2⟩ := gives_toActuator nd .velocity g.trans (act := g.act) (jnt := g.jnt) h2 j2 l2 (lc 1)
    (d2 1) (col_nodup hb 1) n2 m1
  obtain ⟨m3, e3, v3, f3⟩ := gives_toActuator nd .effort g.trans (act := g.act) (jnt := g.jnt) h3 j3 l3 (lc 2)
    (d3 2) (col_nodup hb 2) n3 m2
  refine ⟨m3, ?_, ?_, ?_, ?_, ?_⟩
  · have e1 : jointToActuatorPosition nd g.trans g.jnt g.act m = .ok m1 := e1
    have e2 : jointToActuatorVelocity nd g.trans g.jnt g.act m1 = .ok m2 := e2
    have e3 : jointToActuatorEffort nd g.trans g.jnt g.act m2 = .ok m3 := e3
    simp only [Handle.propagate, e1, e2, e3, bind, Except.bind]
  · rw [map_frame pe f3, map_frame pv f2, v1]
  · rw [map_frame ve f3, v2, map_frame (r1 1) f1]
  · rw [v3, map_frame (r2 2) f2, map_frame (r1 2) f1]
  · intro c c1 c2 c3
    rw [f3 c c3, f2 c c2, f1 c c1]

end

namespace Loader

section

variable {K : Type} [Add K] [Sub K] [Mul K] [Div K] [OfNat K 2] {L0 L : Loader K}

/-- The cells of the actuators of a state handle. -/
theorem Wired.actCell {g : Handle K} {k : Kind} (hk : k.cmd = none) {an jn : List String} (hw : L.Wired k g an jn)
    {a : Nat} (ha : g.act.Has a) : ∃ r, L.actuators.state = some r ∧ ∃ n ∈ an, ∃ s, smapFind n r = some s ∧ a ∈ s.all := by
  obtain ⟨r, hs, bs, hr, hms, hbs, l1, l2, p1, p2, p3, p4, p5, -⟩ := hw.state hk
  refine ⟨r, hr, ?_⟩
  have plain : ∀ f : StateCells → Nat, (∀ s, f s ∈ s.all) → some a ∈ cells (hs.map f) →
      ∃ n ∈ an, ∃ s, smapFind n r = some s ∧ a ∈ s.all := by
    intro f hfs h
    obtain ⟨x, hx, e⟩ := List.mem_map.1 h
    cases e
    obtain ⟨s, hs', rfl⟩ := List.mem_map.1 hx
    obtain ⟨n, hn, e⟩ := (mapM_mem hms).2 s hs'
    exact ⟨n, hn, s, e, hfs s⟩
  have opt : ∀ f : StateCells → Option Nat, (∀ s x, f s = some x → x ∈ s.all) →
      some a ∈ (if hs.all (fun s => (f s).isSome) then hs.map f else []) →
      ∃ n ∈ an, ∃ s, smapFind n r = some s ∧ a ∈ s.all := by
    intro f hfs h
    split at h
    · obtain ⟨s, hs', e⟩ := List.mem_map.1 h
      obtain ⟨n, hn, e'⟩ := (mapM_mem hms).2 s hs'
      exact ⟨n, hn, s, e', hfs s a e⟩
    · cases h
  unfold Data.Has at ha
  rw [p1, p2, p3, p4, p5] at ha
  rcases ha with h | h | h | h | h
  · exact plain (·.position) (fun s => by simp [StateCells.all]) h
  · exact plain (·.velocity) (fun s => by simp [StateCells.all]) h
  · exact plain (·.effort) (fun s => by simp [StateCells.all]) h
  · exact opt (·.absolutePosition) (fun s x e => by simp [StateCells.all, e]) h
  · exact opt (·.torqueSensor) (fun s x e => by simp [StateCells.all, e]) h

/-- The three values of some actuators are different variables. -/
theorem states_nodup {r : List (String × StateCells)} (hap : L0.StatesApart) (hr : L0.actuators.state = some r)
    {an : List String} (hna : an.Nodup) {hs : List StateCells} (h : an.mapM (fun n => smapFind n r) = some hs) :
    (hs.map (·.position) ++ hs.map (·.velocity) ++ hs.map (·.effort)).Nodup := by
  have one : ∀ s ∈ hs, s.all.Nodup := fun s hs' => by
    obtain ⟨n, -, e⟩ := (mapM_mem h).2 s hs'
    exact hap.one r n s hr e
  have two : hs.Pairwise fun s s' => (∀ a ∈ s.all, a ∉ s'.all) :=
    mapM_pairwise h hna fun n n' s s' hne e e' => hap.two r n n' s s' hr e e' hne
  have sym : Std.Symm fun s s' : StateCells => (∀ a ∈ s.all, a ∉ s'.all) := ⟨fun _ _ h a ha ha' => h a ha' ha⟩
  have pm : ∀ s : StateCells, s.position ∈ s.all := fun s => by simp [StateCells.all]
  have vm : ∀ s : StateCells, s.velocity ∈ s.all := fun s => by simp [StateCells.all]
  have em : ∀ s : StateCells, s.effort ∈ s.all := fun s => by simp [StateCells.all]
  have self : ∀ f : StateCells → Nat, (∀ s, f s ∈ s.all) → (hs.map f).Nodup := by
    intro f hf
    unfold List.Nodup
    rw [List.pairwise_map]
    exact two.imp fun {s s'} h (e : f s = f s') => h (f s) (hf s) (by rw [e]; exact hf s')
  have cross : ∀ f f' : StateCells → Nat, (∀ s, f s ∈ s.all) → (∀ s, f' s ∈ s.all) → (∀ s ∈ hs, f s ≠ f' s) →
      ∀ a ∈ hs.map f, ∀ b ∈ hs.map f', a ≠ b := by
    intro f f' hf hf' hne a ha b hb e
    obtain ⟨s, hs1, rfl⟩ := List.mem_map.1 ha
    obtain ⟨s', hs2, rfl⟩ := List.mem_map.1 hb
    by_cases hss : s = s'
    · subst hss; exact hne s hs1 e
    · exact List.Pairwise.forall two hs1 hs2 hss (f s) (hf s) (e ▸ hf' s')
  rw [List.append_assoc, List.nodup_append, List.nodup_append]
  refine ⟨self _ pm, ⟨self _ vm, self _ em, cross _ _ vm em ?_⟩, ?_⟩
  · intro s hs' e
    have := one s hs'
    simp [StateCells.all, e] at this
  · intro a ha b hb
    rcases List.mem_append.1 hb with hb | hb
    · refine cross _ _ pm vm ?_ a ha b hb
      intro s hs' e
      have := one s hs'
      simp [StateCells.all, e] at this
    · refine cross _ _ pm em ?_ a ha b hb
      intro s hs' e
      have := one s hs'
      simp [StateCells.all, e] at this

/-- What propagating a state handle backwards leaves, by names. -/
theorem wired_back_values (hi : Inv L0 L) (hm : L0.ActuatorsBelow) (hap : L0.StatesApart) {g : Handle K}
    {an jn : List String} (hw : L.Wired .jointToActuatorState g an jn) (hn : jn.Nodup) (hna : an.Nodup) (nd : Bool)
    (m : Mem K) :
    ∃ m1, g.propagate nd .jointToActuatorState m = .ok m1 ∧
      (∀ c, (∀ n ∈ an, ∀ q, L.actuatorStateCell q n ≠ some c) → m1 c = m c) ∧
      ∀ m', (∀ c, g.act.Has c → m' c = m1 c) →
      ∀ q, ∃ v, L.jointValues q jn m = some v ∧ v.length = g.trans.numJoints ∧
        L.actuatorValues q an m' = some (g.trans.actuatorsFrom q v) := by
  obtain ⟨r, hs, bs, hr, hms, hbs, l1, l2, p1, p2, p3, p4, p5, j1, j2, j3, j4, j5⟩ := hw.state rfl
  have hbe : ∀ a ∈ hs.map (·.position) ++ hs.map (·.velocity) ++ hs.map (·.effort), ∀ b ∈ bs, a < b := by
    intro a ha b hb
    refine lt_of_lt_of_le (act_below hi hm hw (a := a) ?_) (raws_above hi hbs b hb)
    rw [List.mem_append, List.mem_append] at ha
    unfold Data.Has
    rw [p1, p2, p3]
    rcases ha with (ha | ha) | ha
    · exact .inl (mem_cells ha)
    · exact .inr (.inl (mem_cells ha))
    · exact .inr (.inr (.inl (mem_cells ha)))
  have hr0 : L0.actuators.state = some r := by rw [← hi.grows.acts]; exact hr
  obtain ⟨m1, e, v1, v2, v3, fr⟩ := propagate_back_values nd g p1 p2 p3 j1 j2 j3
    (by rw [List.length_map]; exact l1) (by rw [List.length_map]; exact l1) (by rw [List.length_map]; exact l1)
    l2 (rawApart_of hi hn hbs) hbe (states_nodup hap hr0 hna hms) m
  refine ⟨m1, e, ?_, fun m' hag q => ?_⟩
  · intro c hc
    have key : ∀ q, c ∉ hs.map (·.get q) := by
      intro q hcq
      obtain ⟨s, hs', rfl⟩ := List.mem_map.1 hcq
      obtain ⟨n, hn', en⟩ := (mapM_mem hms).2 s hs'
      exact hc n hn' q (by unfold actuatorStateCell; rw [hr, Option.bind_some, en]; rfl)
    exact fr c (key .position) (key .velocity) (key .effort)
  · refine ⟨_, jointValues_eq hi hbs q m, by rw [List.length_map, col, List.length_map, l2], ?_⟩
    rw [actuatorValues_eq hr hms]
    have cong : ∀ l : List Nat, (∀ c ∈ l, g.act.Has c) → l.map m' = l.map m1 := fun l hl =>
      List.map_congr_left fun c hc => hag c (hl c hc)
    cases q
    · exact congrArg some ((cong _ fun c hc => .inl (by rw [p1]; exact mem_cells hc)).trans v1)
    · exact congrArg some ((cong _ fun c hc => .inr (.inl (by rw [p2]; exact mem_cells hc))).trans v2)
    · exact congrArg some ((cong _ fun c hc => .inr (.inr (.inl (by rw [p3]; exact mem_cells hc)))).trans v3)

theorem toJoint_cmd (c : Cmd) : c.toJoint.cmd = some c := by cases c <;> rfl

omit [Add K] [Sub K] [Mul K] [Div K] [OfNat K 2] in
theorem toJoint_target {c : Cmd} {g : Handle K} {a : Nat} : g.Target c.toJoint a ↔ g.jnt.Has a := by
  cases c <;> rfl

theorem propagate_toJoint (nd : Bool) (c : Cmd) (g : Handle K) (m : Mem K) :
    g.propagate nd c.toJoint m = toJoint nd c.quantity g.trans g.act g.jnt m := by cases c <;> rfl

/-- What propagating a command handle backwards leaves, by names. -/
theorem wired_inverse_values (hi : Inv L0 L) (hm : L0.ActuatorsBelow) {c : Cmd} {g : Handle K}
    {an jn : List String} (hw : L.Wired c.toJoint g an jn) (hnj : jn.Nodup)
    (hcell : ∀ n ∈ jn, ∀ b, smapFind n L.raw = some b → L.commandCell c n = some (rawCommand b c))
    (nd : Bool) (m : Mem K) :
    ∃ m1, g.propagate nd c.toJoint m = .ok m1 ∧ ∀ m', (∀ a, g.jnt.Has a → m' a = m1 a) →
      ∃ v, L.actuatorCommands c an m = some v ∧ v.length = g.trans.numActuators ∧
        L.jointCommands c jn m' = some (g.trans.jointsFrom c.quantity v) := by
  obtain ⟨as, bs, has, hbs, l1, l2, ea, ej⟩ := hw.command (toJoint_cmd c)
  have ndj : (bs.map fun b => rawCommand b c).Nodup := by
    unfold List.Nodup
    rw [List.pairwise_map]
    exact (rawApart_of hi hnj hbs).imp fun h => by cases c <;> simp only [rawCommand] <;> omega
  have hd : ∀ a ∈ as, a ∉ bs.map fun b => rawCommand b c := by
    intro a ha hx
    obtain ⟨b, hb, rfl⟩ := List.mem_map.1 hx
    have h1 := act_below hi hm hw (a := rawCommand b c) (by rw [ea, cmdData_has]; exact mem_cells ha)
    have h2 := raws_above hi hbs b hb
    cases c <;> simp only [rawCommand] at h1 <;> omega
  obtain ⟨m1, e, v, -⟩ := gives_toJoint nd c.quantity g.trans (act := g.act) (jnt := g.jnt)
    (as := as) (js := bs.map fun b => rawCommand b c) (by rw [ea, cmdData_get]) (by rw [ej, cmdData_get]) l1
    (by rw [List.length_map]; exact l2) hd ndj m
  refine ⟨m1, by rw [propagate_toJoint]; exact e, fun m' hag => ⟨as.map m, ?_, ?_, ?_⟩⟩
  · unfold actuatorCommands
    rw [mapM_map_fun, has, Option.map_some]
  · rw [List.length_map, l1]
  · unfold jointCommands
    rw [mapM_rel (u := fun b => m' (rawCommand b c)) hbs, ← v, List.map_map]
    · refine congrArg some (List.map_congr_left fun b hb => hag _ ?_)
      rw [ej, cmdData_has]
      exact mem_cells (List.mem_map_of_mem (f := fun b => rawCommand b c) hb)
    · intro n hn b hb
      rw [hcell n hn b hb]
      rfl

/-- What a command handle writes in the joint data are commands of its kind. -/
theorem inverse_target {c : Cmd} {g : Handle K} {an jn : List String} (hw : L.Wired c.toJoint g an jn) {a : Nat}
    (ha : g.jnt.Has a) : ∃ n ∈ jn, ∃ b, smapFind n L.raw = some b ∧ a = rawCommand b c := by
  obtain ⟨as, bs, has, hbs, l1, l2, ea, ej⟩ := hw.command (toJoint_cmd c)
  rw [ej, cmdData_has] at ha
  obtain ⟨x, hx, e⟩ := List.mem_map.1 ha
  cases e
  obtain ⟨b, hb, rfl⟩ := List.mem_map.1 hx
  obtain ⟨n, hn, e⟩ := (mapM_mem hbs).2 b hb
  exact ⟨n, hn, b, e, rfl⟩

end

section

variable {K : Type} [Add K] [Sub K] [Mul K] [Div K] [OfNat K 0] [OfNat K 1] [OfNat K 2] [DecidableEq K] {stod : String → Option K} {L0 L L' : Loader K} {infos : List TransInfo}

/-- Handles that write joint commands do not meet. -/
theorem loaded_separate_inverse (hf : L0.Fresh) (ha : JointsApart infos) (hm : L0.ActuatorsBelow) {b : Bool}
    (h : loadAll stod infos L0 = .ok (L, b)) (c : Cmd) :
    Separate c.toJoint ((L.handles c.toJoint).map (·.2)) := by
  refine c67_separate_partial hf [infos] (loads_one h) ?_ hm _ (by cases c <;> rfl)
  intro i hi i' hi' hne n hn
  simp only [List.flatten_cons, List.flatten_nil, List.append_nil] at hi hi'
  exact (flat_apart ha.joints).2 i hi i' hi' (fun e => hne (by rw [e])) n hn

/-- Handles that write actuator states do not meet. -/
theorem loaded_separate_back (hf : L0.Fresh) (ha : (infos.flatMap TransInfo.actuatorNames).Nodup)
    (hm : L0.ActuatorsBelow) (hap : L0.StatesApart) {b : Bool} (h : loadAll stod infos L0 = .ok (L, b)) :
    Separate .jointToActuatorState ((L.handles .jointToActuatorState).map (·.2)) := by
  have hi := loaded_inv hf h
  have ho := loaded_origin hf h
  have key : ∀ n g n' g', (n, g) ∈ L.handles .jointToActuatorState → (n', g') ∈ L.handles .jointToActuatorState → n ≠ n' →
      ∀ a, g.Target .jointToActuatorState a → ¬g'.Has a := by
    intro n g n' g' hg hg' hne a hc hc'
    obtain ⟨i, hi1, rfl, hw, -⟩ := ho _ n g hg
    obtain ⟨i', hi1', rfl, hw', -⟩ := ho _ n' g' hg'
    have hc : g.act.Has a := hc
    rcases hc' with hc' | hc'
    · obtain ⟨r, hr, x, hx, s, hs, has⟩ := hw.actCell rfl hc
      obtain ⟨r', hr', x', hx', s', hs', has'⟩ := hw'.actCell rfl hc'
      rw [hr] at hr'
      cases hr'
      rw [hi.grows.acts] at hr
      by_cases hxx : x = x'
      · subst hxx
        exact (flat_apart ha).2 i hi1 i' hi1' (fun e => hne (by rw [e])) x hx hx'
      · exact hap.two r x x' s s' hr hs hs' hxx a has has'
    · obtain ⟨x', hx', b', hb', hle', hlt'⟩ := hw'.jntHas hc'
      have := act_below hi hm hw hc
      have := (hi.rawBounds x' b' hb').1
      omega
  unfold Separate
  rw [List.pairwise_map]
  have hs := hi.sorted .jointToActuatorState
  unfold KeysSorted smapKeys at hs
  rw [List.pairwise_map] at hs
  have := List.Pairwise.and_mem.1 hs
  refine this.imp ?_
  rintro ⟨n, g⟩ ⟨n', g'⟩ ⟨h1, h2, hlt⟩
  have hne : n ≠ n' := ne_of_lt hlt
  exact ⟨key n g n' g' h1 h2 hne, key n' g' n g h2 h1 hne.symm⟩

end

end Loader

end Verif.Transmission
