import Verif.Lemmas.LoadedRobot

/-!
The handles of a loaded robot, in terms of the names of joints and actuators.
-/

namespace Verif.Transmission

namespace Loader

variable {K : Type}

/-! ### Handles and values by name -/

theorem rawState_get (q : Quantity) (b : Nat) :
    (Transmission.rawState b).get q = b + (match q with | .position => 0 | .velocity => 1 | .effort => 2) := by
  cases q <;> rfl

theorem rawApart_of {L0 L : Loader K} (hi : Inv L0 L) {jn : List String} {bs : List Nat} (hn : jn.Nodup)
    (h : jn.mapM (fun n => smapFind n L.raw) = some bs) : RawApart bs :=
  mapM_pairwise h hn fun n n' b b' hne hb hb' => hi.rawApart n n' b b' hne hb hb'

theorem jointValues_eq {L0 L : Loader K} (hi : Inv L0 L) {jn : List String} {bs : List Nat}
    (h : jn.mapM (fun n => smapFind n L.raw) = some bs) (q : Quantity) (m : Mem K) :
    L.jointValues q jn m = some ((col bs (match q with | .position => 0 | .velocity => 1 | .effort => 2)).map m) := by
  rw [jointValues, mapM_rel (u := fun b => m ((Transmission.rawState b).get q)) h]
  · rw [col, List.map_map]
    congr 1
    exact List.map_congr_left fun b _ => by rw [rawState_get]; rfl
  · intro n _ b hb
    rw [(hi.rawState n b hb).1]
    rfl

theorem jointAbsolute_eq {L0 L : Loader K} (hi : Inv L0 L) {jn : List String} {bs : List Nat}
    (h : jn.mapM (fun n => smapFind n L.raw) = some bs) (m : Mem K) :
    L.jointAbsolute jn m = some ((col bs 6).map m) := by
  rw [jointAbsolute, mapM_rel (u := fun b => m (b + 6)) h]
  · rw [col, List.map_map]; rfl
  · intro n _ b hb
    rw [(hi.rawState n b hb).1]
    rfl

theorem jointTorque_eq {L0 L : Loader K} (hi : Inv L0 L) {jn : List String} {bs : List Nat}
    (h : jn.mapM (fun n => smapFind n L.raw) = some bs) (m : Mem K) :
    L.jointTorque jn m = some ((col bs 7).map m) := by
  rw [jointTorque, mapM_rel (u := fun b => m (b + 7)) h]
  · rw [col, List.map_map]; rfl
  · intro n _ b hb
    rw [(hi.rawState n b hb).1]
    rfl

/-- The parts of a state handle. -/
theorem Wired.state {L : Loader K} {k : Kind} (hk : k.cmd = none) {g : Handle K} {an jn : List String}
    (hw : L.Wired k g an jn) : ∃ r hs bs, L.actuators.state = some r ∧ an.mapM (fun n => smapFind n r) = some hs ∧
      jn.mapM (fun n => smapFind n L.raw) = some bs ∧ hs.length = g.trans.numActuators ∧
      bs.length = g.trans.numJoints ∧
      g.act.position = cells (hs.map (·.position)) ∧ g.act.velocity = cells (hs.map (·.velocity)) ∧
      g.act.effort = cells (hs.map (·.effort)) ∧
      g.act.absolutePosition = (if hs.all (·.absolutePosition.isSome) then hs.map (·.absolutePosition) else []) ∧
      g.act.torqueSensor = (if hs.all (·.torqueSensor.isSome) then hs.map (·.torqueSensor) else []) ∧
      g.jnt.position = cells (col bs 0) ∧ g.jnt.velocity = cells (col bs 1) ∧ g.jnt.effort = cells (col bs 2) ∧
      g.jnt.absolutePosition = cells (col bs 6) ∧ g.jnt.torqueSensor = cells (col bs 7) := by
  obtain ⟨h1, h2, h3⟩ := hw
  rw [hk] at h3
  obtain ⟨h3, h4⟩ := h3
  unfold actuatorStateData at h3
  unfold jointStateData at h4
  split at h3
  · cases h3
  · rename_i r hr
    split at h3
    · cases h3
    · rename_i hs hms
      split at h4
      · cases h4
      · rename_i bs hbs
        have h3 := Option.some.inj h3
        have h4 := Option.some.inj h4
        refine ⟨r, hs, bs, hr, hms, hbs, ?_, ?_, ?_, ?_, ?_, ?_, ?_, ?_, ?_, ?_, ?_, ?_⟩
        · rw [← h1]; exact (mapM_some hms).1.symm
        · rw [← h2]; exact (mapM_some hbs).1.symm
        · rw [← h3, cells, List.map_map]; rfl
        · rw [← h3, cells, List.map_map]; rfl
        · rw [← h3, cells, List.map_map]; rfl
        · rw [← h3]
        · rw [← h3]
        · rw [← h4, cells, col, List.map_map]; rfl
        · rw [← h4, cells, col, List.map_map]; rfl
        · rw [← h4, cells, col, List.map_map]; rfl
        · rw [← h4, cells, col, List.map_map]; rfl
        · rw [← h4, cells, col, List.map_map]; rfl

/-- Optional cells, all of them there. -/
theorem all_cells {A : Type} (f : A → Option Nat) (l : List A) :
    (∃ as, (if l.all (fun x => (f x).isSome) then l.map f else []) = cells as ∧ (as ≠ [] → as.length = l.length) ∧
      l.mapM f = some as ∧ (l = [] → as = []) ∧ (as = [] → l = [])) ∨
    ((if l.all (fun x => (f x).isSome) then l.map f else []) = [] ∧ l.mapM f = none) := by
  by_cases h : l.all (fun x => (f x).isSome) = true
  · left
    rw [if_pos h]
    rw [List.all_eq_true] at h
    obtain ⟨as, ha⟩ := mapM_isSome (f := f) (l := l) fun a ha => Option.isSome_iff_exists.1 (h a ha)
    have hl := (mapM_some ha).1
    refine ⟨as, ?_, fun _ => hl.symm, ha, ?_, ?_⟩
    · clear h hl
      induction l generalizing as with
      | nil => simp at ha; subst ha; rfl
      | cons x l ih =>
        simp only [List.mapM_cons, Option.bind_eq_bind, Option.bind_eq_some_iff, Option.pure_def, Option.some.injEq] at ha
        obtain ⟨b, hb, bs, hbs, rfl⟩ := ha
        rw [List.map_cons, hb, ih bs hbs]
        rfl
    · rintro rfl; exact List.length_eq_zero_iff.1 hl.symm
    · rintro rfl; exact List.length_eq_zero_iff.1 hl
  · right
    rw [if_neg h]
    refine ⟨rfl, ?_⟩
    cases hm : l.mapM f with
    | none => rfl
    | some as =>
      exfalso
      apply h
      rw [List.all_eq_true]
      intro x hx
      obtain ⟨b, hb⟩ := (mapM_mem hm).1 x hx
      rw [hb]; rfl

theorem mapM_comp {A B C : Type} {f : A → Option B} {l : List A} {r : List B} (h : l.mapM f = some r) (g : B → Option C) :
    l.mapM (fun a => (f a).bind g) = r.mapM g := by
  induction l generalizing r with
  | nil => simp at h; subst h; rfl
  | cons a l ih =>
    simp only [List.mapM_cons, Option.bind_eq_bind, Option.bind_eq_some_iff, Option.pure_def, Option.some.injEq] at h ⊢
    obtain ⟨b, hb, bs, hbs, rfl⟩ := h
    rw [hb, ih hbs]
    simp [List.mapM_cons]

theorem mapM_map_fun {A B C : Type} {f : A → Option B} {l : List A} (u : B → C) :
    l.mapM (fun a => (f a).map u) = (l.mapM f).map (List.map u) := by
  induction l with
  | nil => rfl
  | cons a l ih =>
    rw [List.mapM_cons, List.mapM_cons, ih]
    cases f a <;> cases l.mapM f <;> rfl

theorem actuatorValues_eq {L : Loader K} {r : List (String × StateCells)} (hr : L.actuators.state = some r)
    {an : List String} {hs : List StateCells} (h : an.mapM (fun n => smapFind n r) = some hs) (q : Quantity) (m : Mem K) :
    L.actuatorValues q an m = some ((hs.map (·.get q)).map m) := by
  unfold actuatorValues
  rw [hr]
  simp only [Option.bind_some]
  rw [mapM_map_fun (f := fun n => smapFind n r), h, List.map_map]
  rfl

theorem actuatorOptional_eq {L : Loader K} {r : List (String × StateCells)} (hr : L.actuators.state = some r)
    {an : List String} {hs : List StateCells} (h : an.mapM (fun n => smapFind n r) = some hs)
    (f : StateCells → Option Nat) (m : Mem K) :
    (an.mapM fun n => (L.actuators.state.bind (smapFind n)).bind fun s => (f s).map m) =
      (hs.mapM f).map (List.map m) := by
  rw [hr]
  simp only [Option.bind_some]
  rw [mapM_comp (f := fun n => smapFind n r) h (fun s => (f s).map m), mapM_map_fun]

/-! ### Propagating states -/

section

variable [Add K] [Sub K] [Mul K] [Div K] [OfNat K 2] {L0 L : Loader K}

/-- The cells of actuator data lie below the joint data. -/
theorem act_below (hi : Inv L0 L) (hm : L0.ActuatorsBelow) {k : Kind} {g : Handle K} {an jn : List String}
    (hw : L.Wired k g an jn) {a : Nat} (ha : g.act.Has a) : a < L0.next := by
  have hc := hw.actHas ha
  apply hm
  unfold ActuatorCell at hc ⊢
  rw [hi.grows.acts] at hc
  exact hc

theorem raws_above (hi : Inv L0 L) {jn : List String} {bs : List Nat}
    (h : jn.mapM (fun n => smapFind n L.raw) = some bs) : ∀ b ∈ bs, L0.next ≤ b := by
  intro b hb
  obtain ⟨n, -, hn⟩ := (mapM_mem h).2 b hb
  exact (hi.rawBounds n b hn).1

theorem mem_cells {l : List Nat} {a : Nat} (h : a ∈ l) : some a ∈ cells l := List.mem_map_of_mem h

/-- What propagating a state handle leaves, by names. -/
theorem wired_state_values (hi : Inv L0 L) (hm : L0.ActuatorsBelow) {g : Handle K} {an jn : List String}
    (hw : L.Wired .actuatorToJointState g an jn) (hn : jn.Nodup) (nd : Bool) (m : Mem K) :
    ∃ m1, g.propagate nd .actuatorToJointState m = .ok m1 ∧ ∀ m', (∀ c, g.jnt.Has c → m' c = m1 c) →
      (∀ q, ∃ v, L.actuatorValues q an m = some v ∧ L.jointValues q jn m' = some (g.trans.jointsFrom q v)) ∧
      ((∀ v, L.actuatorAbsolute an m = some v → L.jointAbsolute jn m' = some (g.trans.absoluteFrom v)) ∧
        (L.actuatorAbsolute an m = none → L.jointAbsolute jn m' = L.jointAbsolute jn m)) ∧
      ((∀ v, L.actuatorTorque an m = some v → L.jointTorque jn m' = some (g.trans.jointsFrom .effort v)) ∧
        (L.actuatorTorque an m = none → L.jointTorque jn m' = L.jointTorque jn m)) := by
  obtain ⟨r, hs, bs, hr, hms, hbs, l1, l2, p1, p2, p3, p4, p5, j1, j2, j3, j4, j5⟩ := hw.state rfl
  have hpos : hs ≠ [] := by
    rintro rfl
    rcases g.trans.one_num with ⟨-, e, -⟩ | ⟨-, e, -⟩ <;> rw [e] at l1 <;> cases l1
  have hab := all_cells (·.absolutePosition) hs
  have hto := all_cells (·.torqueSensor) hs
  obtain ⟨aa, ea, la, sa⟩ : ∃ aa, g.act.absolutePosition = cells aa ∧ (aa ≠ [] → aa.length = g.trans.numActuators) ∧
      ((aa ≠ [] ∧ hs.mapM (·.absolutePosition) = some aa) ∨ (aa = [] ∧ hs.mapM (·.absolutePosition) = none)) := by
    rcases hab with ⟨as, h1, h2, h3, h4, h5⟩ | ⟨h1, h2⟩
    · exact ⟨as, p4.trans h1, fun h => (h2 h).trans l1, .inl ⟨fun h => hpos (h5 h), h3⟩⟩
    · exact ⟨[], p4.trans h1, fun h => absurd rfl h, .inr ⟨rfl, h2⟩⟩
  obtain ⟨at', et, lt, st⟩ : ∃ at', g.act.torqueSensor = cells at' ∧ (at' ≠ [] → at'.length = g.trans.numActuators) ∧
      ((at' ≠ [] ∧ hs.mapM (·.torqueSensor) = some at') ∨ (at' = [] ∧ hs.mapM (·.torqueSensor) = none)) := by
    rcases hto with ⟨as, h1, h2, h3, h4, h5⟩ | ⟨h1, h2⟩
    · exact ⟨as, p5.trans h1, fun h => (h2 h).trans l1, .inl ⟨fun h => hpos (h5 h), h3⟩⟩
    · exact ⟨[], p5.trans h1, fun h => absurd rfl h, .inr ⟨rfl, h2⟩⟩
  have hbe : ∀ a ∈ hs.map (·.position) ++ hs.map (·.velocity) ++ hs.map (·.effort) ++ aa ++ at', ∀ b ∈ bs, a < b := by
    intro a ha b hb
    refine lt_of_lt_of_le (act_below hi hm hw (a := a) ?_) (raws_above hi hbs b hb)
    rw [List.mem_append, List.mem_append, List.mem_append, List.mem_append] at ha
    unfold Data.Has
    rw [p1, p2, p3, ea, et]
    rcases ha with (((ha | ha) | ha) | ha) | ha
    · exact .inl (mem_cells ha)
    · exact .inr (.inl (mem_cells ha))
    · exact .inr (.inr (.inl (mem_cells ha)))
    · exact .inr (.inr (.inr (.inl (mem_cells ha))))
    · exact .inr (.inr (.inr (.inr (mem_cells ha))))
  obtain ⟨m1, e, v1, v2, v3, v4, v5, -⟩ := propagate_state_values nd g p1 p2 p3 ea et j1 j2 j3 j4 j5
    (by rw [List.length_map]; exact l1) (by rw [List.length_map]; exact l1) (by rw [List.length_map]; exact l1)
    la lt l2 (rawApart_of hi hn hbs) hbe m
  refine ⟨m1, e, fun m' hag => ?_⟩
  have cong : ∀ k, (∀ c, c ∈ col bs k → g.jnt.Has c) → (col bs k).map m' = (col bs k).map m1 := fun k hk =>
    List.map_congr_left fun c hc => hag c (hk c hc)
  have c0 := cong 0 fun c hc => .inl (by rw [j1]; exact mem_cells hc)
  have c1 := cong 1 fun c hc => .inr (.inl (by rw [j2]; exact mem_cells hc))
  have c2 := cong 2 fun c hc => .inr (.inr (.inl (by rw [j3]; exact mem_cells hc)))
  have c6 := cong 6 fun c hc => .inr (.inr (.inr (.inl (by rw [j4]; exact mem_cells hc))))
  have c7 := cong 7 fun c hc => .inr (.inr (.inr (.inr (by rw [j5]; exact mem_cells hc))))
  refine ⟨?_, ?_, ?_⟩
  · intro q
    refine ⟨_, actuatorValues_eq hr hms q m, ?_⟩
    rw [jointValues_eq hi hbs]
    cases q
    · exact congrArg some (c0.trans v1)
    · exact congrArg some (c1.trans v2)
    · exact congrArg some (c2.trans v3)
  · have hx : L.actuatorAbsolute an m = (hs.mapM StateCells.absolutePosition).map (List.map m) :=
      actuatorOptional_eq hr hms (·.absolutePosition) m
    rw [hx, jointAbsolute_eq hi hbs, jointAbsolute_eq hi hbs, c6]
    rcases sa with ⟨hne, hsome⟩ | ⟨he, hnone⟩
    · rw [hsome]
      refine ⟨fun v hv => ?_, fun h => by cases h⟩
      cases hv
      exact congrArg some (v4.1 hne)
    · rw [hnone]
      exact ⟨fun v hv => (by cases hv), fun _ => congrArg some (v4.2 he)⟩
  · have hx : L.actuatorTorque an m = (hs.mapM StateCells.torqueSensor).map (List.map m) :=
      actuatorOptional_eq hr hms (·.torqueSensor) m
    rw [hx, jointTorque_eq hi hbs, jointTorque_eq hi hbs, c7]
    rcases st with ⟨hne, hsome⟩ | ⟨he, hnone⟩
    · rw [hsome]
      refine ⟨fun v hv => ?_, fun h => by cases h⟩
      cases hv
      exact congrArg some (v5.1 hne)
    · rw [hnone]
      exact ⟨fun v hv => (by cases hv), fun _ => congrArg some (v5.2 he)⟩

/-- State handles do not write commands of joints. -/
theorem state_target_command (hi : Inv L0 L) {g : Handle K} {an jn : List String}
    (hw : L.Wired .actuatorToJointState g an jn) {a : Nat} (ha : g.jnt.Has a) {n : String} {b : Nat}
    (hb : smapFind n L.raw = some b) (c : Cmd) : a ≠ rawCommand b c := by
  obtain ⟨r, hs, bs, hr, hms, hbs, l1, l2, p1, p2, p3, p4, p5, j1, j2, j3, j4, j5⟩ := hw.state rfl
  have : ∃ b' ∈ bs, ∃ k, a = b' + k ∧ k ∈ [0, 1, 2, 6, 7] := by
    unfold Data.Has at ha
    rw [j1, j2, j3, j4, j5] at ha
    have key : ∀ k, some a ∈ cells (col bs k) → ∃ b' ∈ bs, a = b' + k := by
      intro k h
      obtain ⟨x, hx, e⟩ := List.mem_map.1 h
      obtain ⟨b', hb', rfl⟩ := List.mem_map.1 hx
      exact ⟨b', hb', (Option.some.inj e).symm⟩
    rcases ha with h | h | h | h | h
    · obtain ⟨b', h1, h2⟩ := key _ h; exact ⟨b', h1, _, h2, by simp⟩
    · obtain ⟨b', h1, h2⟩ := key _ h; exact ⟨b', h1, _, h2, by simp⟩
    · obtain ⟨b', h1, h2⟩ := key _ h; exact ⟨b', h1, _, h2, by simp⟩
    · obtain ⟨b', h1, h2⟩ := key _ h; exact ⟨b', h1, _, h2, by simp⟩
    · obtain ⟨b', h1, h2⟩ := key _ h; exact ⟨b', h1, _, h2, by simp⟩
  obtain ⟨b', hb', k, rfl, hk⟩ := this
  obtain ⟨n', -, hn'⟩ := (mapM_mem hbs).2 b' hb'
  have hb8 : b' = b ∨ b + 8 ≤ b' ∨ b' + 8 ≤ b := by
    by_cases he : n = n'
    · subst he; rw [hb] at hn'; exact .inl (Option.some.inj hn').symm
    · exact .inr (hi.rawApart n n' b b' he hb hn')
  simp only [List.mem_cons, List.not_mem_nil, or_false] at hk
  cases c <;> simp only [rawCommand] <;> omega

/-! ### Propagating commands -/

/-- The parts of a command handle. -/
theorem Wired.command {k : Kind} {c : Cmd} (hk : k.cmd = some c) {g : Handle K} {an jn : List String}
    (hw : L.Wired k g an jn) : ∃ as bs, an.mapM (L.actuatorCell c) = some as ∧
      jn.mapM (fun n => smapFind n L.raw) = some bs ∧ as.length = g.trans.numActuators ∧
      bs.length = g.trans.numJoints ∧ g.act = cmdData c (cells as) ∧
      g.jnt = cmdData c (cells (bs.map fun b => rawCommand b c)) := by
  obtain ⟨h1, h2, h3⟩ := hw
  rw [hk] at h3
  obtain ⟨h3, h4⟩ := h3
  unfold actuatorCommandData at h3
  unfold jointCommandData at h4
  split at h3
  · cases h3
  · rename_i r hr
    split at h3
    · cases h3
    · rename_i as hms
      split at h4
      · cases h4
      · rename_i bs hbs
        have e : L.actuatorCell c = fun n => smapFind n r := by
          funext n; unfold actuatorCell; rw [hr]
        refine ⟨as, bs, by rw [e]; exact hms, hbs, ?_, ?_, (Option.some.inj h3).symm, ?_⟩
        · rw [← h1]; exact (mapM_some hms).1.symm
        · rw [← h2]; exact (mapM_some hbs).1.symm
        · rw [← Option.some.inj h4, cells, List.map_map]; rfl

theorem cmdData_get (c : Cmd) (l : List Ptr) : (cmdData c l).get c.quantity = l := by cases c <;> rfl

theorem cmdData_has {c : Cmd} {l : List Ptr} {a : Nat} : (cmdData c l).Has a ↔ some a ∈ l := by
  cases c <;> simp [Data.Has, cmdData]

theorem propagate_toActuator (nd : Bool) (c : Cmd) (g : Handle K) (m : Mem K) :
    g.propagate nd c.toActuator m = toActuator nd c.quantity g.trans g.jnt g.act m := by cases c <;> rfl

theorem toActuator_cmd (c : Cmd) : c.toActuator.cmd = some c := by cases c <;> rfl

theorem toActuator_target {c : Cmd} {g : Handle K} {a : Nat} : g.Target c.toActuator a ↔ g.act.Has a := by
  cases c <;> rfl

/-- What propagating a command handle leaves, by names. -/
theorem wired_command_values (hi : Inv L0 L) (hm : L0.ActuatorsBelow) (hc : L0.CommandsApart) {c : Cmd} {g : Handle K}
    {an jn : List String} (hw : L.Wired c.toActuator g an jn) (hnj : jn.Nodup) (hna : an.Nodup)
    (hcell : ∀ n ∈ jn, ∀ b, smapFind n L.raw = some b → L.commandCell c n = some (rawCommand b c))
    (nd : Bool) (m : Mem K) :
    ∃ m1, g.propagate nd c.toActuator m = .ok m1 ∧ ∀ m', (∀ a, g.act.Has a → m' a = m1 a) →
      ∃ v, L.jointCommands c jn m = some v ∧ v.length = g.trans.numJoints ∧
        L.actuatorCommands c an m' = some (g.trans.actuatorsFrom c.quantity v) := by
  obtain ⟨as, bs, has, hbs, l1, l2, ea, ej⟩ := hw.command (toActuator_cmd c)
  have hcell0 : L.actuatorCell c = L0.actuatorCell c := by
    funext n; unfold actuatorCell; rw [hi.grows.acts]
  have nda : as.Nodup := mapM_pairwise has hna fun n n' b b' hne hb hb' => by
    rintro rfl
    rw [hcell0] at hb hb'
    exact hne (hc c n n' b hb hb')
  have ndj : (bs.map fun b => rawCommand b c).Nodup := by
    unfold List.Nodup
    rw [List.pairwise_map]
    exact (rawApart_of hi hnj hbs).imp fun h => by cases c <;> simp only [rawCommand] <;> omega
  have hnd : (as ++ bs.map fun b => rawCommand b c).Nodup := by
    rw [List.nodup_append]
    refine ⟨nda, ndj, ?_⟩
    rintro a ha x hx rfl
    obtain ⟨b, hb, rfl⟩ := List.mem_map.1 hx
    have h1 := act_below hi hm hw (a := rawCommand b c) (by rw [ea, cmdData_has]; exact mem_cells ha)
    have h2 := raws_above hi hbs b hb
    cases c <;> simp only [rawCommand] at h1 <;> omega
  obtain ⟨m1, e, v, -⟩ := toActuator_run nd c.quantity g.trans (act := g.act) (jnt := g.jnt)
    (as := as) (js := bs.map fun b => rawCommand b c) (by rw [ea, cmdData_get]) (by rw [ej, cmdData_get]) l1
    (by rw [List.length_map]; exact l2) hnd m
  have ln : g.trans.numActuators = g.trans.numJoints := by
    rcases g.trans.one_num with ⟨-, h1, h2⟩ | ⟨-, h1, h2⟩ <;> rw [h1, h2]
  rw [run_actuatorsFrom _ _ _ (by rw [List.length_map, List.length_map, l2, ln])] at v
  refine ⟨m1, by rw [propagate_toActuator]; exact e, fun m' hag =>
    ⟨(bs.map fun b => rawCommand b c).map m, ?_, ?_, ?_⟩⟩
  · unfold jointCommands
    rw [mapM_rel (u := fun b => m (rawCommand b c)) hbs, List.map_map]
    · rfl
    · intro n hn b hb
      rw [hcell n hn b hb]
      rfl
  · rw [List.length_map, List.length_map, l2]
  · unfold actuatorCommands
    rw [mapM_map_fun, has, ← v, Option.map_some]
    exact congrArg some (List.map_congr_left fun a ha => hag a (by rw [ea, cmdData_has]; exact mem_cells ha))

end

end Loader

end Verif.Transmission
