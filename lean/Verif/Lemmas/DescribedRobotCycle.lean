import Verif.Lemmas.DescribedRobot

/-!
What a cycle of a robot put together from its description does.
-/

namespace Verif.Described

open Verif.Transmission (Mem Loader Cmd Quantity Doc TransInfo StateCells parse loadTransmission setAt rawCommand
  propagateAll)
open Verif.Transmission.Loader (Inv mapM_congr_mem loadDoc_loadAll loaded_inv commandCell_raw c109_reading c109_writing)
open Verif.Limits (Arith Dbl Cells UrdfJoint LimitsIface Limiter enforceAll mkLimiter)
open Verif.Cycle (Record Halt overwrite effective)

variable {T K : Type} [Add T] [Sub T] [Mul T] [Div T] [OfNat T 0] [OfNat T 1] [OfNat T 2] [DecidableEq T] [LinearOrder K]

variable {stod : String → Option T} {L0 L : Loader T} {d : Doc} {infos : List TransInfo} {S : Setting T K} {nd : Bool}

theorem Base.inv (hb : Base stod L0 d infos L) : Inv L0 L := loaded_inv hb.fresh (loadDoc_loadAll hb.loaded hb.parsed)

theorem actuatorCell_below (hm : L0.ActuatorsBelow) {c : Cmd} {n : String} {a : Nat} (h : L0.actuatorCell c n = some a) :
    a < L0.next := by
  apply hm
  unfold Loader.actuatorCell at h
  split at h
  · cases h
  · rename_i l hl
    exact Or.inr ⟨c, l, n, hl, mem_of_smapFind h⟩

theorem Base.command_above (hb : Base stod L0 d infos L) {c : Cmd} {n : String} {a : Nat}
    (h : L.commandCell c n = some a) : ∃ b, smapFind n L.raw = some b ∧ a = rawCommand b c ∧ L0.next ≤ a := by
  obtain ⟨b, h1, rfl⟩ := commandCell_raw hb.inv hb.fresh hb.noOwn h
  have := (hb.inv.rawBounds n b h1).1
  have := rawCommand_bounds b c
  exact ⟨b, h1, rfl, by omega⟩

/-- What is sent. -/
theorem send_run (hb : Base stod L0 d infos L) {r : Robot T K} (hr : r.loader = L) (cs : List Cmd) (hn : cs.Nodup)
    (m : Mem T) :
    ∃ m', r.send nd cs m = .ok m' ∧
      (∀ c ∈ cs, ∀ i ∈ infos, i.Commanded c → L0.HasCommands c i → ∃ t v, loadTransmission stod i = .ok (some t) ∧
        L.jointCommands c i.jointNames m = some v ∧ v.length = t.numJoints ∧
        L0.actuatorCommands c i.actuatorNames m' = some (t.actuatorsFrom c.quantity v)) ∧
      ∀ a, (∀ c ∈ cs, ∀ n, L0.actuatorCell c n ≠ some a) → m' a = m a := by
  induction cs generalizing m with
  | nil => exact ⟨m, rfl, fun c hc => (by cases hc), fun _ _ => rfl⟩
  | cons c cs ih =>
    obtain ⟨hc, hn⟩ := List.nodup_cons.1 hn
    obtain ⟨m1, e1, w1, f1⟩ := c109_writing hb.fresh hb.noOwn hb.below hb.commandsApart hb.loaded hb.parsed hb.apart
      hb.actuators c nd m
    obtain ⟨m', e', w', f'⟩ := ih hn m1
    refine ⟨m', ?_, ?_, ?_⟩
    · rw [Robot.send, hr, e1]
      exact e'
    · intro c' hc' i hi h1 h2
      rcases List.mem_cons.1 hc' with rfl | hc''
      · obtain ⟨t, v, ht, hv, hl, ha⟩ := w1 i hi h1 h2
        refine ⟨t, v, ht, hv, hl, ?_⟩
        rw [← ha]
        refine mapM_congr_mem fun n _ => ?_
        cases hcell : L0.actuatorCell c' n with
        | none => rfl
        | some a =>
          refine congrArg some (f' a fun c'' hc'' n' => ?_)
          exact hb.kindsApart c' c'' n n' a (fun h => hc (h ▸ hc'')) hcell
      · obtain ⟨t, v, ht, hv, hl, ha⟩ := w' c' hc'' i hi h1 h2
        refine ⟨t, v, ht, ?_, hl, ha⟩
        rw [← hv]
        refine mapM_congr_mem fun n _ => ?_
        cases hcell : L.commandCell c' n with
        | none => rfl
        | some a =>
          obtain ⟨b, -, -, hge⟩ := hb.command_above hcell
          refine congrArg some (f1 a fun i _ _ n' _ h => ?_).symm
          have := actuatorCell_below hb.below h
          omega
    · intro a ha
      rw [f' a fun c' hc' => ha c' (List.mem_cons_of_mem _ hc'), f1 a fun i _ _ n _ => ha c List.mem_cons_self n]

/-- What a cycle does. -/
structure Cycled (stod : String → Option T) (S : Setting T K) (L0 : Loader T) (infos : List TransInfo) (r : Robot T K)
    (i : Cycle.Input T) (r' : Robot T K) (rec : Record T) : Prop where
  loader : r'.loader = r.loader
  kind : r'.kind = r.kind
  made : Made r'
  enforced : ∀ c n h, (n, h) ∈ r.limits c → ∃ o, (r.kind c).limit S.toArith h.limits h.soft (effective (r.kind c) i.reset h.prev)
      ⟨S.see (i.wish h.joint.cmd), S.see (rec.measured h.joint.pos), S.see (rec.measured h.joint.vel), S.see i.period⟩ =
        some (S.see o) ∧ rec.limited h.joint.cmd = o ∧ (n, { h with prev := S.see o }) ∈ r'.limits c
  limits : ∀ c n h', (n, h') ∈ r'.limits c → ∃ h, (n, h) ∈ r.limits c ∧ h.joint = h'.joint
  measured : ∀ j ∈ infos, ∃ t, loadTransmission stod j = .ok (some t) ∧
    ∀ q, ∃ v, L0.actuatorValues q j.actuatorNames i.sense = some v ∧
      r.loader.jointValues q j.jointNames rec.measured = some (t.jointsFrom q v)
  sent : ∀ c, ∀ j ∈ infos, j.Commanded c → L0.HasCommands c j → ∃ t v, loadTransmission stod j = .ok (some t) ∧
    r.loader.jointCommands c j.jointNames rec.limited = some v ∧ v.length = t.numJoints ∧
    L0.actuatorCommands c j.actuatorNames rec.sent = some (t.actuatorsFrom c.quantity v)
  free : ∀ c n a, r.loader.commandCell c n = some a → (∀ e ∈ r.limits c, e.1 ≠ n) → rec.limited a = i.wish a

theorem mem_commanded {r : Robot T K} {c : Cmd} {n : String} {a : Nat} (h : r.loader.commandCell c n = some a) :
    a ∈ r.commanded := by
  refine List.mem_flatMap.2 ⟨c, by cases c <;> simp, List.mem_filterMap.2 ⟨n, ?_, h⟩⟩
  obtain ⟨s, hs, -⟩ := Option.map_eq_some_iff.1 h
  exact List.mem_map.2 ⟨_, mem_of_smapFind hs, rfl⟩

theorem of_mem_commanded {r : Robot T K} {a : Nat} (h : a ∈ r.commanded) : ∃ c n, r.loader.commandCell c n = some a := by
  obtain ⟨c, -, h⟩ := List.mem_flatMap.1 h
  obtain ⟨n, -, h⟩ := List.mem_filterMap.1 h
  exact ⟨c, n, h⟩

/-- Positions and velocities of the limited joints are not commands. -/
theorem not_commanded (hb : Base stod L0 d infos L) {r : Robot T K} (hr : r.loader = L) {n : String} {b : Nat}
    (h : smapFind n L.raw = some b) : b ∉ r.commanded ∧ b + 1 ∉ r.commanded := by
  have key : ∀ x, x ≤ 1 → b + x ∉ r.commanded := by
    intro x hx hm
    obtain ⟨c, n', hc⟩ := of_mem_commanded hm
    rw [hr] at hc
    obtain ⟨b', hb', e, -⟩ := hb.command_above hc
    have := rawCommand_bounds b' c
    by_cases hn : n = n'
    · subst hn
      rw [h] at hb'
      cases hb'
      omega
    · have := hb.inv.rawApart n n' b b' hn h hb'
      omega
  exact ⟨key 0 (by omega), key 1 (by omega)⟩

theorem actuatorValues_sense (hb : Base stod L0 d infos L) {r : Robot T K} (hr : r.loader = L) (q : Quantity)
    (names : List String) (sense m : Mem T) :
    L0.actuatorValues q names (overwrite r.sensed sense m) = L0.actuatorValues q names sense := by
  refine mapM_congr_mem fun n _ => ?_
  cases hs : L0.actuators.state.bind (smapFind n) with
  | none => rfl
  | some s =>
    refine congrArg some ?_
    obtain ⟨l, hl, hs⟩ := Option.bind_eq_some_iff.1 hs
    show overwrite r.sensed sense m (s.get q) = sense (s.get q)
    rw [overwrite, if_pos]
    unfold Robot.sensed
    rw [hr, hb.inv.grows.acts, hl]
    refine List.mem_flatMap.2 ⟨_, mem_of_smapFind hs, ?_⟩
    cases q <;> simp [StateCells.get]

theorem cycle_accepted (hS : Lawful S) (hb : Base stod L0 d infos L) {r : Robot T K} (hr : r.loader = L) (hm : Made r)
    (i : Cycle.Input T) (hp : Accepts S.toArith r (S.see i.period)) (m : Mem T) :
    ∃ r' rec, r.cycle S nd i m = .ok (r', rec) ∧ Cycled stod S L0 infos r i r' rec := by
  obtain ⟨m1, e1, v1, -, -⟩ := c109_reading hb.fresh hb.noOwn hb.below hb.loaded hb.parsed hb.apart nd
    (overwrite r.sensed i.sense m)
  have eread : r.read nd i.sense m = .ok m1 := by rw [Robot.read, hr, e1]
  set m2 := overwrite r.commanded i.wish m1 with hm2
  -- The limits interfaces when the limits are enforced.
  set r1 : Robot T K := if i.reset then { r with limits := fun c => Limits.resetAll (r.kind c) (r.limits c) } else r with hr1
  have l1 : r1.loader = r.loader := by rw [hr1]; split <;> rfl
  have k1 : r1.kind = r.kind := by rw [hr1]; split <;> rfl
  have s1 : ∀ c, r1.limits c = (r.limits c).map fun e => (e.1, { e.2 with prev := effective (r.kind c) i.reset e.2.prev }) := by
    intro c
    rw [← Cycle.atEnforce_eq, hr1, Cycle.atEnforce]
    split <;> rfl
  have made1 : Made r1 := by
    refine ⟨fun c => ?_, fun c n h hh => ?_⟩
    · have := hm.sorted c
      unfold KeysSorted at this ⊢
      rw [s1, smapKeys, List.map_map]
      exact this
    · rw [s1] at hh
      obtain ⟨⟨n', h'⟩, hh', e⟩ := List.mem_map.1 hh
      cases e
      rw [l1]
      exact hm.joints c _ h' hh'
  obtain ⟨⟨r2, cells⟩, he⟩ := enforce_accepted (A := S.toArith) (S.see i.period) [.position, .velocity, .effort] (by decide) r1
    (hp.imp_right fun h c _ e he => by
      rw [s1] at he
      obtain ⟨e', he', rfl⟩ := List.mem_map.1 he
      rw [k1]
      exact h c e' he') fun a => S.see (m2 a)
  have hi1 : Inv L0 r1.loader := by rw [l1, hr]; exact hb.inv
  obtain ⟨g1, g2, g3, g4, g5, -, g7, g8⟩ := enforce_facts (S.see i.period) _ (by decide) made1 hi1 he hS.closed fun a => ⟨_, rfl⟩
  have mem3 : ∀ c : Cmd, c ∈ [Cmd.position, .velocity, .effort] := fun c => by cases c <;> simp
  have hall : ([Cmd.position, .velocity, .effort].all fun q => (r2.limits q).all fun e => (S.store (cells e.2.joint.cmd)).isSome) = true := by
    rw [List.all_eq_true]
    intro q _
    rw [List.all_eq_true]
    intro e _
    obtain ⟨x, hx⟩ := g4 e.2.joint.cmd
    rw [hx, hS.back]; rfl
  set m3 : Mem T := fun a => (S.store (cells a)).getD (m2 a) with hm3
  have hc3 : ∀ a, cells a = S.see (m3 a) := fun a => by
    obtain ⟨x, hx⟩ := g4 a
    simp [hm3, hx, hS.back]
  have inj : ∀ {x y}, S.see x = S.see y → x = y := fun {x y} h => by
    have := hS.back x
    rw [h, hS.back] at this
    exact (Option.some.inj this).symm
  have hr2 : r2.loader = L := by rw [g1, l1, hr]
  obtain ⟨m4, e4, w4, -⟩ := send_run (nd := nd) hb hr2 [.position, .velocity, .effort] (by decide) m3
  have ewrite : r1.write S nd i.period m2 = .ok (r2, m3, m4) := by
    simp only [Robot.write, he, hall, if_true, e4, ← hm3]
  refine ⟨r2, ⟨m1, m2, m3, m4⟩, ?_, ⟨by rw [g1, l1], by rw [g2, k1], g3, ?_, ?_, ?_, ?_, ?_⟩⟩
  · simp only [Robot.cycle, eread, bind, Except.bind, ← hm2, ← hr1, ewrite, pure, Except.pure]
  · intro c n h hh
    obtain ⟨b, hraw, hj, hcell⟩ := hm.joints c n h hh
    obtain ⟨out, o1, o2, o3⟩ := g5 c (mem3 c) n { h with prev := effective (r.kind c) i.reset h.prev } (by
      rw [s1]; exact List.mem_map.2 ⟨_, hh, rfl⟩)
    have w1 : m2 h.joint.cmd = i.wish h.joint.cmd := by
      rw [hm2, overwrite, if_pos (by rw [hj]; exact mem_commanded hcell)]
    rw [hr] at hraw
    obtain ⟨nb, nb1⟩ := not_commanded hb hr hraw
    have w2 : m2 h.joint.pos = m1 h.joint.pos := by rw [hm2, overwrite, if_neg (by rw [hj]; exact nb)]
    have w3 : m2 h.joint.vel = m1 h.joint.vel := by rw [hm2, overwrite, if_neg (by rw [hj]; exact nb1)]
    have ein : Limiter.input { h with prev := effective (r.kind c) i.reset h.prev } (fun a => S.see (m2 a)) (S.see i.period) =
        ⟨S.see (i.wish h.joint.cmd), S.see (m1 h.joint.pos), S.see (m1 h.joint.vel), S.see i.period⟩ := by
      simp only [Limiter.input, w1, w2, w3]
    rw [ein, k1] at o1
    obtain ⟨o, rfl⟩ := hS.closed _ _ _ _ _ out ⟨_, rfl⟩ o1
    refine ⟨o, o1, ?_, o3⟩
    have := hc3 h.joint.cmd
    rw [o2] at this
    exact (inj this).symm
  · intro c n h' hh'
    obtain ⟨h1, hh1, e⟩ := g8 c n h' hh'
    rw [s1] at hh1
    obtain ⟨⟨n', h⟩, hh, e'⟩ := List.mem_map.1 hh1
    cases e'
    exact ⟨h, hh, e⟩
  · intro j hj
    obtain ⟨t, ht, hv, -⟩ := v1 j hj
    refine ⟨t, ht, fun q => ?_⟩
    obtain ⟨v, hv1, hv2⟩ := hv q
    rw [actuatorValues_sense hb hr] at hv1
    exact ⟨v, hv1, by rw [hr]; exact hv2⟩
  · intro c j hj h1 h2
    rw [hr]
    exact w4 c (mem3 c) j hj h1 h2
  · intro c n a hcell hfree
    have hcell' := hcell
    rw [hr] at hcell'
    obtain ⟨b, hraw, rfl, -⟩ := hb.command_above hcell'
    have := g7 (rawCommand b c) fun c' _ e he' => by
      obtain ⟨n', h'⟩ := e
      obtain ⟨b', hb', hj', -⟩ := made1.joints c' n' h' he'
      rw [l1, hr] at hb'
      show h'.joint.cmd ≠ _
      rw [hj']
      show rawCommand b' c' ≠ rawCommand b c
      have w1 := rawCommand_bounds b c
      have w2 := rawCommand_bounds b' c'
      by_cases hn : n' = n
      · subst hn
        rw [hraw] at hb'
        cases hb'
        intro e
        have := rawCommand_inj e
        subst this
        rw [s1] at he'
        obtain ⟨e0, h0, e1⟩ := List.mem_map.1 he'
        have := hfree e0 h0
        cases e1
        exact this rfl
      · have := hb.inv.rawApart n' n b' b hn hb' hraw
        omega
    rw [hc3] at this
    show m3 _ = _
    rw [inj this, hm2, overwrite, if_pos (mem_commanded hcell)]

theorem cycle_run (hS : Lawful S) (hb : Base stod L0 d infos L) {r : Robot T K} (hr : r.loader = L) (hm : Made r) (i : Cycle.Input T)
    (hp : Limits.dlt (some S.zero) (S.see i.period) = true) (m : Mem T) :
    ∃ r' rec, r.cycle S nd i m = .ok (r', rec) ∧ Cycled stod S L0 infos r i r' rec :=
  cycle_accepted hS hb hr hm i (Or.inl hp) m

/-- If the limits do not accept the period, the assertion of a handle fails in `write`. -/
theorem write_halts {r : Robot T K} {dt : T} (hp : ¬Accepts S.toArith r (S.see dt)) (reset : Bool) (m : Mem T) :
    (if reset then { r with limits := fun c => Limits.resetAll (r.kind c) (r.limits c) } else r : Robot T K).write S nd dt m =
      .error .limits := by
  unfold Accepts at hp
  push Not at hp
  obtain ⟨hp, c, e, he, hk⟩ := hp
  have hp : Limits.dlt (some S.zero) (S.see dt) = false := by simpa using hp
  set r1 : Robot T K := if reset then { r with limits := fun c => Limits.resetAll (r.kind c) (r.limits c) } else r with hr1
  have k1 : r1.kind = r.kind := by rw [hr1]; split <;> rfl
  have s1 : ∀ c, r1.limits c = (r.limits c).map fun e => (e.1, { e.2 with prev := effective (r.kind c) reset e.2.prev }) := by
    intro c
    rw [← Cycle.atEnforce_eq, hr1, Cycle.atEnforce]
    split <;> rfl
  have hn := enforce_none (A := S.toArith) (S.see dt) hp [.position, .velocity, .effort] (by decide) r1 (fun a => S.see (m a))
    ⟨c, by cases c <;> simp, _, by rw [s1]; exact List.mem_map.2 ⟨e, he, rfl⟩, by rw [k1]; exact hk⟩
  simp only [Robot.write, hn]

/-- A cycle whose period the limits do not accept halts. -/
theorem cycle_halts (hb : Base stod L0 d infos L) {r : Robot T K} (hr : r.loader = L) (i : Cycle.Input T)
    (hp : ¬Accepts S.toArith r (S.see i.period)) (m : Mem T) : r.cycle S nd i m = .error .limits := by
  obtain ⟨m1, e1, -⟩ := c109_reading hb.fresh hb.noOwn hb.below hb.loaded hb.parsed hb.apart nd (overwrite r.sensed i.sense m)
  have eread : r.read nd i.sense m = .ok m1 := by rw [Robot.read, hr, e1]
  simp only [Robot.cycle, eread, bind, Except.bind, write_halts (nd := nd) hp]

/-- What the limits accept does not change. -/
theorem Cycled.accepts {r r' : Robot T K} {i : Cycle.Input T} {rec : Record T} (h : Cycled stod S L0 infos r i r' rec) (dt : Dbl K) :
    Accepts S.toArith r' dt ↔ Accepts S.toArith r dt := by
  unfold Accepts
  refine or_congr_right ⟨fun ha c e he => ?_, fun ha c e he => ?_⟩
  · obtain ⟨o, -, -, hm⟩ := h.enforced c e.1 e.2 he
    have := ha c _ hm
    rw [h.kind] at this
    exact this
  · obtain ⟨h0, hm, -⟩ := h.limits c e.1 e.2 he
    obtain ⟨o, -, -, hm'⟩ := h.enforced c e.1 h0 hm
    have e1 := smapFind_of_mem (h.made.sorted c) hm'
    have e2 := smapFind_of_mem (h.made.sorted c) (k := e.1) he
    rw [e1] at e2
    have := ha c _ hm
    rw [h.kind, ← Option.some.inj e2]
    exact this

/-- A run, whatever the periods: the first cycle whose period is not accepted is its end. -/
theorem run_periods (hS : Lawful S) (hb : Base stod L0 d infos L) {r : Robot T K} (hr : r.loader = L) (hm : Made r)
    (is : List (Cycle.Input T)) (hp : ∀ i ∈ is, Accepts S.toArith r (S.see i.period)) (m : Mem T) :
    ((r.run S nd is m).2 = none ∧ (r.run S nd is m).1.length = is.length) ∧
    ∀ i js, ¬Accepts S.toArith r (S.see i.period) → r.run S nd (is ++ i :: js) m = ((r.run S nd is m).1, some .limits) := by
  induction is generalizing r m with
  | nil =>
    refine ⟨⟨rfl, rfl⟩, fun i js hi => ?_⟩
    simp only [List.nil_append, Robot.run, cycle_halts (nd := nd) hb hr i hi m]
  | cons j is ih =>
    obtain ⟨r', rec, e, hc⟩ := cycle_accepted (nd := nd) hS hb hr hm j (hp j (by simp)) m
    obtain ⟨⟨h1, h2⟩, h3⟩ := ih (hc.loader.trans hr) hc.made (fun i hi => (hc.accepts _).2 (hp i (by simp [hi]))) rec.sent
    refine ⟨?_, fun i js hi => ?_⟩
    · simp [Robot.run, e, h1, h2]
    · have := h3 i js ((hc.accepts _).not.2 hi)
      simp only [List.cons_append, Robot.run, e, this]

/-- A run: every cycle is completed, and they are as `Cycled` says. -/
theorem run_cycled (hS : Lawful S) (hb : Base stod L0 d infos L) {r : Robot T K} (hr : r.loader = L) (hm : Made r)
    (is : List (Cycle.Input T)) (hp : ∀ i ∈ is, Limits.dlt (some S.zero) (S.see i.period) = true) (m : Mem T) :
    ∃ st : Nat → Robot T K, st 0 = r ∧ (r.run S nd is m).2 = none ∧ (r.run S nd is m).1.length = is.length ∧
      ∀ k i rec, is[k]? = some i → (r.run S nd is m).1[k]? = some rec →
        Cycled stod S L0 infos (st k) i (st (k + 1)) rec := by
  induction is generalizing r m with
  | nil => exact ⟨fun _ => r, rfl, rfl, rfl, fun k i rec h => by simp at h⟩
  | cons i is ih =>
    obtain ⟨r', rec, e, hc⟩ := cycle_run (nd := nd) hS hb hr hm i (hp i (by simp)) m
    obtain ⟨st, h0, h1, h2, h3⟩ := ih (hc.loader.trans hr) hc.made (fun j hj => hp j (by simp [hj])) rec.sent
    have erun : r.run S nd (i :: is) m = (rec :: (r'.run S nd is rec.sent).1, (r'.run S nd is rec.sent).2) := by
      rw [Robot.run, e]
    refine ⟨fun k => match k with | 0 => r | k + 1 => st k, rfl, by rw [erun]; exact h1,
      by rw [erun]; simp [h2], fun k j rec' hj hrec => ?_⟩
    rw [erun] at hrec
    cases k with
    | zero =>
      simp only [List.getElem?_cons_zero, Option.some.injEq] at hj hrec
      subst hj hrec
      show Cycled stod S L0 infos r i (st 0) rec
      rw [h0]
      exact hc
    | succ k =>
      simp only [List.getElem?_cons_succ] at hj hrec
      exact h3 k j rec' hj hrec

/-- The handle of a joint in the course of a run. -/
theorem track {r : Robot T K} {is : List (Cycle.Input T)} {recs : List (Record T)} {st : Nat → Robot T K} (h0 : st 0 = r)
    (hlen : recs.length = is.length)
    (hst : ∀ k i rec, is[k]? = some i → recs[k]? = some rec → Cycled stod S L0 infos (st k) i (st (k + 1)) rec)
    (c : Cmd) (n : String) (h : Limiter K) (hm : (n, h) ∈ r.limits c) (k : Nat) (hk : k ≤ is.length) :
    ∃ p, (n, { h with prev := p }) ∈ (st k).limits c ∧ (k = 0 → p = h.prev) ∧
      ∀ j rec, k = j + 1 → recs[j]? = some rec → p = S.see (rec.limited h.joint.cmd) := by
  induction k with
  | zero =>
    rw [h0]
    exact ⟨h.prev, hm, fun _ => rfl, fun j rec e => by cases e⟩
  | succ k ih =>
    obtain ⟨p, hp, _⟩ := ih (by omega)
    have hk' : k < is.length := hk
    have hc := hst k is[k] recs[k] (List.getElem?_eq_getElem hk') (List.getElem?_eq_getElem (by omega))
    obtain ⟨o, _, g2, g3⟩ := hc.enforced c n _ hp
    refine ⟨S.see o, g3, by simp, fun j rec e hj => ?_⟩
    have : j = k := by omega
    subst this
    rw [List.getElem?_eq_getElem (by omega)] at hj
    cases hj
    rw [← g2]

/-- The parts of a run that do not change. -/
theorem track_robot {r : Robot T K} {is : List (Cycle.Input T)} {recs : List (Record T)} {st : Nat → Robot T K} (h0 : st 0 = r)
    (hlen : recs.length = is.length)
    (hst : ∀ k i rec, is[k]? = some i → recs[k]? = some rec → Cycled stod S L0 infos (st k) i (st (k + 1)) rec)
    (k : Nat) (hk : k ≤ is.length) :
    (st k).loader = r.loader ∧ (st k).kind = r.kind ∧ ∀ c, ∀ e ∈ (st k).limits c, ∃ e' ∈ r.limits c, e'.1 = e.1 := by
  induction k with
  | zero =>
    rw [h0]
    exact ⟨rfl, rfl, fun c e he => ⟨e, he, rfl⟩⟩
  | succ k ih =>
    obtain ⟨e1, e2, e4⟩ := ih (by omega)
    have hk' : k < is.length := hk
    have hc := hst k is[k] recs[k] (List.getElem?_eq_getElem hk') (List.getElem?_eq_getElem (by omega))
    refine ⟨hc.loader.trans e1, hc.kind.trans e2, fun c e he => ?_⟩
    obtain ⟨h, hm, -⟩ := hc.limits c e.1 e.2 he
    obtain ⟨e', he', hj⟩ := e4 c _ hm
    exact ⟨e', he', hj⟩

/-- What the handle of a joint does in each cycle of a run. -/
theorem run_joint (hS : Lawful S) (hb : Base stod L0 d infos L) {r : Robot T K} (hr : r.loader = L) (hmade : Made r)
    (is : List (Cycle.Input T)) (hp : ∀ i ∈ is, Limits.dlt (some S.zero) (S.see i.period) = true) (m : Mem T)
    (c : Cmd) (n : String) (h : Limiter K) (hm : (n, h) ∈ r.limits c) (k : Nat) (i : Cycle.Input T) (rec : Record T)
    (hi : is[k]? = some i) (hrec : (r.run S nd is m).1[k]? = some rec) :
    ∃ p, (k = 0 → p = h.prev) ∧
      (∀ j rec', k = j + 1 → (r.run S nd is m).1[j]? = some rec' → p = S.see (rec'.limited h.joint.cmd)) ∧
      (r.kind c).limit S.toArith h.limits h.soft (effective (r.kind c) i.reset p)
        ⟨S.see (i.wish h.joint.cmd), S.see (rec.measured h.joint.pos), S.see (rec.measured h.joint.vel), S.see i.period⟩ =
          some (S.see (rec.limited h.joint.cmd)) := by
  obtain ⟨st, h0, _, h2, h3⟩ := run_cycled (nd := nd) hS hb hr hmade is hp m
  have hk : k < is.length := (List.getElem?_eq_some_iff.1 hi).1
  obtain ⟨p, hp, hp0, hpj⟩ := track h0 h2 h3 c n h hm k hk.le
  obtain ⟨-, e1, -⟩ := track_robot h0 h2 h3 k hk.le
  obtain ⟨o, g1, g2, _⟩ := (h3 k i rec hi hrec).enforced c n _ hp
  rw [e1] at g1
  refine ⟨p, hp0, hpj, ?_⟩
  rw [g1]
  rw [← g2]

/-- What the transmissions do in each cycle of a run. -/
theorem run_transmissions (hS : Lawful S) (hb : Base stod L0 d infos L) {r : Robot T K} (hr : r.loader = L) (hmade : Made r)
    (is : List (Cycle.Input T)) (hp : ∀ i ∈ is, Limits.dlt (some S.zero) (S.see i.period) = true) (m : Mem T)
    (k : Nat) (i : Cycle.Input T) (rec : Record T) (hi : is[k]? = some i) (hrec : (r.run S nd is m).1[k]? = some rec) :
    (∀ j ∈ infos, ∃ t, loadTransmission stod j = .ok (some t) ∧
      ∀ q, ∃ v, L0.actuatorValues q j.actuatorNames i.sense = some v ∧
        r.loader.jointValues q j.jointNames rec.measured = some (t.jointsFrom q v)) ∧
    (∀ c, ∀ j ∈ infos, j.Commanded c → L0.HasCommands c j → ∃ t v, loadTransmission stod j = .ok (some t) ∧
      r.loader.jointCommands c j.jointNames rec.limited = some v ∧ v.length = t.numJoints ∧
      L0.actuatorCommands c j.actuatorNames rec.sent = some (t.actuatorsFrom c.quantity v)) ∧
    ∀ c n a, r.loader.commandCell c n = some a → (∀ e ∈ r.limits c, e.1 ≠ n) → rec.limited a = i.wish a := by
  obtain ⟨st, h0, _, h2, h3⟩ := run_cycled (nd := nd) hS hb hr hmade is hp m
  have hk : k < is.length := (List.getElem?_eq_some_iff.1 hi).1
  obtain ⟨e1, -, e3⟩ := track_robot h0 h2 h3 k hk.le
  have hc := h3 k i rec hi hrec
  rw [← e1]
  refine ⟨hc.measured, hc.sent, fun c n a hcell hfree => hc.free c n a hcell fun e he => ?_⟩
  obtain ⟨e', he', e⟩ := e3 c e he
  rw [← e]
  exact hfree e' he'

end Verif.Described
