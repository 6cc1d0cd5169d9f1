import Verif.Lemmas.WholeRobot

/-!
Lemmas about whole robots: what controllers find in the joint interfaces at any time.
-/

namespace Verif.Whole

open Verif.Transmission (Loader Cmd)
open Heap (SameIfaces sameIfaces_set)

variable {K : Type}

theorem get_flat (env : TypeEnv) (T : String) (i c : List (String × ObjId)) (n : List (String × Nat))
    (r : List (String × List String)) (h : Heap) :
    IMan.get env T (.node i c n r []) h = (smapFind T i, .node i c n r [], h) := by
  rw [IMan.get, IMan.getSubs]
  cases smapFind T i <;> rfl

theorem hasInterfaces_flat (env : TypeEnv) (Ts : List String) (i c : List (String × ObjId)) (n : List (String × Nat))
    (r : List (String × List String)) (h : Heap) :
    (hasInterfaces env Ts (.node i c n r []) h).2 = (.node i c n r [], h) := by
  induction Ts with
  | nil => rfl
  | cons T Ts ih =>
    rw [hasInterfaces, get_flat]
    cases smapFind T i
    · rfl
    · exact ih

theorem extract_flat (env : TypeEnv) (Ts : List String) (i c : List (String × ObjId)) (n : List (String × Nat))
    (r : List (String × List String)) (ctrl : IMan) (h : Heap) :
    (extractInterfaceResources env Ts (.node i c n r []) ctrl h).1 = .node i c n r [] ∧
      (extractInterfaceResources env Ts (.node i c n r []) ctrl h).2.2 = h := by
  induction Ts generalizing ctrl with
  | nil => exact ⟨rfl, rfl⟩
  | cons T Ts ih =>
    rw [extractInterfaceResources, get_flat]
    cases smapFind T i <;> exact ih _

/-- On a robot without parts, controllers leave the interfaces as they are, except for the claims. -/
theorem init_flat (env : TypeEnv) (cls : CtrlClass) (i c : List (String × ObjId)) (n : List (String × Nat))
    (r : List (String × List String)) (h : Heap) :
    (cls.initRequest env (.node i c n r []) h).robot = .node i c n r [] ∧
      h.SameIfaces (cls.initRequest env (.node i c n r []) h).heap := by
  cases cls with
  | single T p1 p2 =>
    show (controllerInit env T p1 p2 _ _ h []).robot = _ ∧ h.SameIfaces (controllerInit env T p1 p2 _ _ h []).heap
    unfold controllerInit
    split
    · exact ⟨rfl, SameIfaces.refl h⟩
    · rw [get_flat]
      cases smapFind T i with
      | none => exact ⟨rfl, SameIfaces.refl h⟩
      | some hw =>
        simp only
        have e1 : h.SameIfaces (h.set hw (h.objs hw).clearClaims) :=
          sameIfaces_set (by simp [Iface.clearClaims]) (by simp [Iface.clearClaims])
        have e2 := e1.trans (runInits_same (p1 hw) (p2 hw) _)
        split
        · exact ⟨rfl, e2⟩
        · exact ⟨rfl, e2⟩
        · exact ⟨rfl, e2.trans (sameIfaces_set (by simp [Iface.clearClaims]) (by simp [Iface.clearClaims]))⟩
  | multi Ts o p1 p2 =>
    show (multiInit env Ts o p1 p2 _ _ h []).robot = _ ∧ h.SameIfaces (multiInit env Ts o p1 p2 _ _ h []).heap
    unfold multiInit
    split
    · exact ⟨rfl, SameIfaces.refl h⟩
    · have h1 : (if o = true then (true, .node i c n r [], h) else hasInterfaces env Ts (.node i c n r []) h).2 =
          (.node i c n r [], h) := by
        split
        · rfl
        · exact hasInterfaces_flat env Ts i c n r h
      revert h1
      generalize (if o = true then (true, .node i c n r [], h) else hasInterfaces env Ts (.node i c n r []) h) = p
      obtain ⟨has, robot1, h1'⟩ := p
      intro h1
      obtain ⟨rfl, rfl⟩ := Prod.mk.inj h1
      simp only
      split
      · exact ⟨rfl, SameIfaces.refl _⟩
      · have h2 := extract_flat env Ts i c n r .empty h1'
        revert h2
        rcases extractInterfaceResources env Ts (.node i c n r []) .empty h1' with ⟨robot2, ctrl, h2'⟩
        rintro ⟨rfl, rfl⟩
        simp only
        have e2 := (clearClaimsAll_same (ctrlGet env ctrl h2') Ts h2').trans
          (runInits_same (p1 (ctrlGet env ctrl h2')) (p2 (ctrlGet env ctrl h2')) _)
        split
        · exact ⟨rfl, e2⟩
        · exact ⟨rfl, e2⟩
        · exact ⟨rfl, e2.trans (clearClaimsAll_same _ _ _)⟩

/-- The interfaces are those of the loader. -/
structure Offers (L : Loader K) (s : Sys) : Prop where
  robot : s.robot = registered L
  heap : (interfaces L).SameIfaces s.heap

theorem offers_step {L : Loader K} {s : Sys} (h : Offers L s) (conf : List ControllerInfo → Bool) (op : SysOp) :
    Offers L (s.step stdEnv conf op) := by
  cases op with
  | load n r =>
    show Offers L (s.load stdEnv n r)
    unfold Sys.load
    split
    · have hf : (r.cls.initRequest stdEnv s.robot s.heap).robot = registered L ∧
          s.heap.SameIfaces (r.cls.initRequest stdEnv s.robot s.heap).heap := by
        rw [h.robot]
        exact init_flat stdEnv r.cls _ _ _ _ s.heap
      simp only
      split
      · exact ⟨hf.1, h.heap.trans hf.2⟩
      · exact ⟨hf.1, h.heap.trans hf.2⟩
    · exact ⟨h.robot, h.heap⟩
  | _ => exact ⟨h.robot, h.heap⟩

theorem offers_reached {L : Loader K} {s : Sys} (h : Sys.Reached stdEnv (registered L) (interfaces L) s) : Offers L s := by
  obtain ⟨ops, -, rfl⟩ := h
  induction ops using List.reverseRecOn with
  | nil => exact ⟨rfl, SameIfaces.refl _⟩
  | append_singleton ops op ih =>
    rw [Sys.run_append]
    exact offers_step ih _ op

theorem smapFind_tagged {α : Type} (f : String → Option α) (ks : List String) (n : String) :
    smapFind n (ks.filterMap fun k => (f k).map fun e => (k, e)) = if n ∈ ks then f n else none := by
  induction ks with
  | nil => rfl
  | cons k ks ih =>
    rw [List.filterMap_cons]
    cases hk : f k with
    | none =>
      simp only [Option.map_none, ih]
      by_cases hn : n = k
      · subst hn
        simp [hk]
      · simp [hn]
    | some e =>
      simp only [Option.map_some, smapFind]
      by_cases hn : n = k
      · subst hn
        simp [hk]
      · simp [hn, ih]

theorem find_commandHandles (L : Loader K) (c : Cmd) (n : String) :
    smapFind n (commandHandles L c) = (L.commandCell c n).map fun a => ⟨n, a⟩ := by
  have e : commandHandles L c = (smapKeys (L.robotCommand c)).filterMap fun k =>
      ((smapFind k (L.robotCommand c)).map fun e => (⟨k, e.2⟩ : Handle)).map fun e => (k, e) := by
    unfold commandHandles
    simp only [Option.map_map]
    rfl
  rw [e, smapFind_tagged]
  unfold Transmission.Loader.commandCell
  cases h : smapFind n (L.robotCommand c) with
  | none => simp
  | some s =>
    have : n ∈ smapKeys (L.robotCommand c) := List.mem_map.2 ⟨_, mem_of_smapFind h, rfl⟩
    rw [if_pos this]
    rfl

/-- The interface for commands of a kind, and its handles. -/
theorem Offers.get {L : Loader K} {s : Sys} (h : Offers L s) (q : Cmd) :
    ∃ o, s.robot.get stdEnv (interfaceName q) s.heap = (some o, s.robot, s.heap) ∧ (s.heap.objs o).claiming = true ∧
      ∀ n, (s.heap.objs o).rmGetHandle n = (L.commandCell q n).map fun a => ⟨n, a⟩ := by
  have key : ∀ o, s.robot.get stdEnv (interfaceName q) s.heap = (some o, s.robot, s.heap) →
      ((interfaces L).objs o).claiming = true → ((interfaces L).objs o).handles = commandHandles L q →
      ∃ o, s.robot.get stdEnv (interfaceName q) s.heap = (some o, s.robot, s.heap) ∧ (s.heap.objs o).claiming = true ∧
        ∀ n, (s.heap.objs o).rmGetHandle n = (L.commandCell q n).map fun a => ⟨n, a⟩ := by
    intro o h1 h2 h3
    refine ⟨o, h1, by rw [h.heap.claiming, h2], fun n => ?_⟩
    rw [Iface.rmGetHandle, h.heap.handles, h3, find_commandHandles]
  have hget : s.robot.get stdEnv (interfaceName q) s.heap =
      (smapFind (interfaceName q) [("hardware_interface::EffortJointInterface", 2),
        ("hardware_interface::JointStateInterface", 3), ("hardware_interface::PositionJointInterface", 0),
        ("hardware_interface::VelocityJointInterface", 1)], s.robot, s.heap) := by
    rw [h.robot]
    exact get_flat _ _ _ _ _ _ _
  cases q with
  | position => exact key 0 (hget.trans (by simp [interfaceName, smapFind])) rfl rfl
  | velocity => exact key 1 (hget.trans (by simp [interfaceName, smapFind])) rfl rfl
  | effort => exact key 2 (hget.trans (by simp [interfaceName, smapFind])) rfl rfl

/-- The interface for the states of the joints. -/
theorem Offers.get_state {L : Loader K} {s : Sys} (h : Offers L s) :
    ∃ o, s.robot.get stdEnv "hardware_interface::JointStateInterface" s.heap = (some o, s.robot, s.heap) ∧
      (s.heap.objs o).claiming = false ∧
      ∀ n, (s.heap.objs o).rmGetHandle n = (smapFind n L.jointState).map fun st => ⟨n, st.position⟩ := by
  have hget : s.robot.get stdEnv "hardware_interface::JointStateInterface" s.heap =
      (smapFind "hardware_interface::JointStateInterface" [("hardware_interface::EffortJointInterface", 2),
        ("hardware_interface::JointStateInterface", 3), ("hardware_interface::PositionJointInterface", 0),
        ("hardware_interface::VelocityJointInterface", 1)], s.robot, s.heap) := by
    rw [h.robot]
    exact get_flat _ _ _ _ _ _ _
  refine ⟨3, hget.trans (by simp [smapFind]), by rw [h.heap.claiming]; rfl, fun n => ?_⟩
  rw [Iface.rmGetHandle, h.heap.handles]
  show smapFind n (L.jointState.map fun e => (e.1, (⟨e.1, e.2.position⟩ : Handle))) = _
  induction L.jointState with
  | nil => rfl
  | cons e l ih =>
    rw [List.map_cons, smapFind, smapFind, ih]
    by_cases hn : n = e.1
    · simp [hn]
    · simp [hn]

/-- The `init` of a controller that asks for one handle. -/
theorem init_one {env : TypeEnv} {robot robot' : IMan} {h0 h : Heap} {T n : String} {o : ObjId}
    (hget : robot.get env T h0 = (some o, robot', h)) :
    let out := (CtrlClass.single T (fun o => .getHandle o n fun h => .done h.isSome) fun _ => .done true).initRequest env robot h0
    (∀ hd, (h.objs o).rmGetHandle n = some hd → out.ret = some true ∧
      out.claimed = [⟨T, if (h.objs o).claiming then [n] else []⟩] ∧
      gotten out.heap out.log = [⟨(h.objs o).claiming, hd⟩]) ∧
    ((h.objs o).rmGetHandle n = none → out.ret = some false) := by
  intro out
  have e : out = controllerInit env T (fun o => .getHandle o n fun h => .done h.isSome) (fun _ => .done true) .constructed robot h0 [] := rfl
  rw [e]
  unfold controllerInit
  rw [if_neg (by simp), hget]
  constructor
  · intro hd hh
    have hh' : smapFind n (h.objs o).handles = some hd := hh
    cases hc : (h.objs o).claiming
    all_goals
      simp [runInits, InitProg.run, Iface.getHandle, Iface.rmGetHandle, Heap.set, Iface.clearClaims, hh', Iface.applyPolicy, hc,
        Iface.claim, Iface.getClaims, ssetInsert, gotten]
  · intro hh
    have hh' : smapFind n (h.objs o).handles = none := hh
    simp [runInits, InitProg.run, Iface.getHandle, Iface.rmGetHandle, Heap.set, Iface.clearClaims, hh']

/-- Loading of a controller that asks for one handle. -/
theorem load_one {s : Sys} {robot' : IMan} {h : Heap} {T n name : String} {r : LoadReq} {o : ObjId} (hr : s.mgr.reachesInit name r = true)
    (hget : s.robot.get stdEnv T s.heap = (some o, robot', h))
    (hc : r.cls = .single T (fun o => .getHandle o n fun h => .done h.isSome) fun _ => .done true) :
    (∀ hd, (h.objs o).rmGetHandle n = some hd →
      (s.step stdEnv checkForConflict (.load name r)).mgr =
        s.mgr.load name (r.env (some [⟨T, if (h.objs o).claiming then [n] else []⟩])) ∧ ∃ t,
      (s.step stdEnv checkForConflict (.load name r)).mgr.cur = s.mgr.cur ++
        [⟨⟨name, t, [⟨T, if (h.objs o).claiming then [n] else []⟩]⟩, s.mgr.nextId⟩] ∧
      (s.step stdEnv checkForConflict (.load name r)).held s.mgr.nextId = [⟨(h.objs o).claiming, hd⟩]) ∧
    ((h.objs o).rmGetHandle n = none → (s.step stdEnv checkForConflict (.load name r)).mgr.cur = s.mgr.cur) := by
  obtain ⟨i1, i2⟩ := init_one (n := n) hget
  rw [← hc] at i1 i2
  have hnot : s.mgr.svc = .idle ∧ s.mgr.used ≠ some (!s.mgr.current) := by
    simp only [Mgr.reachesInit, Bool.and_eq_true, decide_eq_true_eq, Bool.not_eq_true', decide_eq_false_iff_not] at hr
    exact ⟨hr.1.1.1.1, hr.1.1.1.2⟩
  constructor
  · intro hd hh
    obtain ⟨g1, g2, g3⟩ := i1 hd hh
    obtain ⟨t, e⟩ := reachesInit_loaded hr (r.cls.initRequest stdEnv s.robot s.heap).claimed
    have hstep : s.step stdEnv checkForConflict (.load name r) =
        { mgr := s.mgr.loaded name t [⟨T, if (h.objs o).claiming then [n] else []⟩]
          robot := (r.cls.initRequest stdEnv s.robot s.heap).robot
          heap := (r.cls.initRequest stdEnv s.robot s.heap).heap
          held := fun c => if c = s.mgr.nextId then [⟨(h.objs o).claiming, hd⟩] else s.held c } := by
      show s.load stdEnv name r = _
      unfold Sys.load
      rw [if_pos hr]
      rw [g2] at e
      simp only [g1, g2, g3, e]
    rw [g2] at e
    rw [hstep, e]
    exact ⟨rfl, t, rfl, if_pos rfl⟩
  · intro hh
    have g1 := i2 hh
    show (s.load stdEnv name r).mgr.cur = _
    unfold Sys.load
    rw [if_pos hr]
    simp only [g1]
    rcases Mgr.load_cases s.mgr name (r.env none) hnot.1 hnot.2 with ⟨_, _, _, _, _, _, _, h', _⟩ | ⟨_, _, _, e⟩
    · cases h'
    · rw [e]

end Verif.Whole
