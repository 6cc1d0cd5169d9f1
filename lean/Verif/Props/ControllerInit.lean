import Verif.Lemmas.ControllerInit

/-!
Property C04: the claimed resources reported for a controller are exactly the resources its
`init` functions obtained.
-/

namespace Verif

/-- **C04, single interface.** If `initRequest` of a `Controller<T>` succeeds, one interface is
reported, `T`, and the resources reported for it are exactly the names of the handles the `init`
functions obtained through it if `T` is exclusive (and none otherwise), as a sorted set -- for
any user code and whatever claims other controllers or failed initialisations left behind. No
claim is left on the interface. -/
theorem c04_claims_exact (env : TypeEnv) (T : String) (p1 p2 : ObjId → InitProg)
    (s : CState) (robot : IMan) (h : Heap) (claimed : List InterfaceResources) :
    let out := controllerInit env T p1 p2 s robot h claimed
    out.ret = some true →
    ∃ hw res, (robot.get env T h).1 = some hw ∧ out.claimed = [⟨T, res⟩] ∧
      (∀ n, n ∈ res ↔ (hw, n) ∈ out.log ∧ ((robot.get env T h).2.2.objs hw).claiming = true) ∧
      res.Pairwise (· < ·) ∧ (out.heap.objs hw).getClaims = [] ∧ out.state = .initialized := by
  intro out
  simp only [out, controllerInit]
  split
  · simp
  · rcases hg : robot.get env T h with ⟨_ | hw, robot', h'⟩
    · simp
    · simp only
      have grow := runInits_grow (p1 hw) (p2 hw) (h'.set hw (h'.objs hw).clearClaims)
      have hc0 : ((h'.set hw (h'.objs hw).clearClaims).objs hw).claims = [] := by
        simp [Heap.set, Iface.clearClaims]
      have hcl : ((h'.set hw (h'.objs hw).clearClaims).objs hw).claiming = (h'.objs hw).claiming := by
        simp [Heap.set, Iface.clearClaims]
      split
      · simp
      · simp
      · intro _
        refine ⟨hw, _, rfl, rfl, fun n => ?_, ?_, ?_, rfl⟩
        · simp only [Iface.getClaims]
          rw [grow.mem, hc0, hcl]; simp
        · exact grow.sorted hw (by rw [hc0]; simp)
        · simp [Heap.set, Iface.clearClaims, Iface.getClaims]

/-- **C04, several interfaces.** If `initRequest` of a `MultiInterfaceController<Ts...>` succeeds,
one entry is reported per interface of `Ts` that is present, in order; its resources are
exactly the names of the handles the `init` functions obtained through that interface if it is
exclusive. No claim is left behind on these interfaces. -/
theorem c04_claims_exact_multi (env : TypeEnv) (Ts : List String) (allowOptional : Bool)
    (p1 p2 : (String → Option ObjId) → InitProg)
    (s : CState) (robot : IMan) (h : Heap) (claimed : List InterfaceResources) :
    let out := multiInit env Ts allowOptional p1 p2 s robot h claimed
    out.ret = some true →
    ∃ res : ObjId → List String,
      out.claimed = Ts.filterMap (fun T => (out.bound T).map fun o => ⟨T, res o⟩) ∧
      (∀ T ∈ Ts, ∀ o, out.bound T = some o →
        (∀ n, n ∈ res o ↔ (o, n) ∈ out.log ∧ (out.heap.objs o).claiming = true) ∧
        (res o).Pairwise (· < ·) ∧ (out.heap.objs o).getClaims = []) ∧
      out.state = .initialized := by
  intro out
  simp only [out, multiInit]
  split
  · simp
  · rcases (if allowOptional = true then (true, robot, h) else hasInterfaces env Ts robot h)
      with ⟨has, robot1, h1⟩
    simp only
    split
    · simp
    · rcases extractInterfaceResources env Ts robot1 .empty h1 with ⟨robot2, ctrl, h2⟩
      simp only
      generalize hgdef : ctrlGet env ctrl h2 = g
      obtain ⟨e1, _, e3⟩ := clearClaimsAll_claims g Ts h2
      have grow := runInits_grow (p1 g) (p2 g) (clearClaimsAll g Ts h2)
      split
      · simp
      · simp
      · intro _
        generalize hr : runInits (p1 g) (p2 g) (clearClaimsAll g Ts h2) = r at *
        obtain ⟨f1, _, f3⟩ := clearClaimsAll_claims g Ts r.heap
        refine ⟨fun o => (r.heap.objs o).claims, ?_, ?_, rfl⟩
        · simp [populateClaimed_eq]
        · intro T hT o ho
          have hc0 : ((clearClaimsAll g Ts h2).objs o).claims = [] := by
            rw [e3, if_pos ⟨T, hT, ho⟩]
          refine ⟨fun n => ?_, grow.sorted o (by rw [hc0]; simp), ?_⟩
          · rw [grow.mem, hc0, f1, grow.claiming]; simp
          · simp only [Iface.getClaims]; rw [f3, if_pos ⟨T, hT, ho⟩]

/-- **C04, failure.** If initialisation does not succeed (returns false or throws), nothing is
reported: the out-parameter and the state of the controller are unchanged. -/
theorem c04_failure_reports_nothing (env : TypeEnv) (T : String) (p1 p2 : ObjId → InitProg)
    (s : CState) (robot : IMan) (h : Heap) (claimed : List InterfaceResources)
    (hf : (controllerInit env T p1 p2 s robot h claimed).ret ≠ some true) :
    (controllerInit env T p1 p2 s robot h claimed).claimed = claimed ∧
    (controllerInit env T p1 p2 s robot h claimed).state = s := by
  revert hf
  simp only [controllerInit]
  split
  · simp
  · rcases robot.get env T h with ⟨_ | hw, robot', h'⟩
    · simp
    · simp only; split <;> simp

/-- **C04, failure, several interfaces.** -/
theorem c04_failure_reports_nothing_multi (env : TypeEnv) (Ts : List String) (allowOptional : Bool)
    (p1 p2 : (String → Option ObjId) → InitProg)
    (s : CState) (robot : IMan) (h : Heap) (claimed : List InterfaceResources)
    (hf : (multiInit env Ts allowOptional p1 p2 s robot h claimed).ret ≠ some true) :
    (multiInit env Ts allowOptional p1 p2 s robot h claimed).claimed = claimed ∧
    (multiInit env Ts allowOptional p1 p2 s robot h claimed).state = s := by
  revert hf
  simp only [multiInit]
  split
  · simp
  · rcases (if allowOptional = true then (true, robot, h) else hasInterfaces env Ts robot h)
      with ⟨has, robot1, h1⟩
    simp only
    split
    · simp
    · rcases extractInterfaceResources env Ts robot1 .empty h1 with ⟨robot2, ctrl, h2⟩
      simp only; split <;> simp

/-- **C04, when the user's code is asked.** The `init` functions of a `Controller<T>` are called iff the controller is new and the robot
has the interface `T`. If they are, their answer is the answer of `initRequest`, and they are called with no claims on the interface. If
they are not, the answer is false and nothing is looked up. -/
theorem c04_called (env : TypeEnv) (T : String) (p1 p2 : ObjId → InitProg)
    (s : CState) (robot : IMan) (h : Heap) (claimed : List InterfaceResources) :
    let out := controllerInit env T p1 p2 s robot h claimed
    (∀ hw, s = .constructed → (robot.get env T h).1 = some hw →
      let h0 := (robot.get env T h).2.2
      let h' := h0.set hw { h0.objs hw with claims := [] }
      out.ret = (runInits (p1 hw) (p2 hw) h').ret ∧ out.log = (runInits (p1 hw) (p2 hw) h').log) ∧
    (s ≠ .constructed ∨ (robot.get env T h).1 = none → out.ret = some false ∧ out.log = []) := by
  intro out
  constructor
  · rintro hw rfl hg
    rcases e : robot.get env T h with ⟨g, robot', h'⟩
    rw [e] at hg
    cases hg
    simp only [out, controllerInit, e, ne_eq, not_true_eq_false, if_false, Iface.clearClaims]
    cases e' : (runInits (p1 hw) (p2 hw) (h'.set hw { h'.objs hw with claims := [] })).ret with
    | none => simp
    | some b => cases b <;> simp
  · intro hn
    simp only [out, controllerInit]
    split
    · simp
    · rename_i hs
      rcases hn with hn | hn
      · exact absurd hn hs
      · rcases e : robot.get env T h with ⟨g, robot', h'⟩
        rw [e] at hn
        cases hn
        simp

/-- Whether the robot has all the interfaces, looked up one after the other. -/
def hasAll (env : TypeEnv) : List String → IMan → Heap → Prop
  | [], _, _ => True
  | T :: Ts, robot, h =>
    (robot.get env T h).1 ≠ none ∧ hasAll env Ts (robot.get env T h).2.1 (robot.get env T h).2.2

theorem hasInterfaces_iff (env : TypeEnv) (Ts : List String) (robot : IMan) (h : Heap) :
    (hasInterfaces env Ts robot h).1 = true ↔ hasAll env Ts robot h := by
  induction Ts generalizing robot h with
  | nil => simp [hasInterfaces, hasAll]
  | cons T Ts ih =>
    simp only [hasInterfaces, hasAll]
    rcases e : robot.get env T h with ⟨_ | o, robot', h'⟩
    · simp
    · simpa using ih robot' h'

/-- **C04, when the user's code is asked, several interfaces.** The `init` functions of a `MultiInterfaceController` are called iff the
controller is new and, unless interfaces are optional, the robot has all of them. If they are, their answer is the answer of
`initRequest`, and there are no claims on the interfaces when they are called. -/
theorem c04_called_multi (env : TypeEnv) (Ts : List String) (allowOptional : Bool)
    (p1 p2 : (String → Option ObjId) → InitProg)
    (s : CState) (robot : IMan) (h : Heap) (claimed : List InterfaceResources) :
    let out := multiInit env Ts allowOptional p1 p2 s robot h claimed
    (s = .constructed → allowOptional = true ∨ hasAll env Ts robot h →
      ∃ h' : Heap, (∀ T ∈ Ts, ∀ o, out.bound T = some o → (h'.objs o).claims = []) ∧
        out.ret = (runInits (p1 out.bound) (p2 out.bound) h').ret ∧
        out.log = (runInits (p1 out.bound) (p2 out.bound) h').log) ∧
    (¬ (s = .constructed ∧ (allowOptional = true ∨ hasAll env Ts robot h)) → out.ret = some false ∧ out.log = []) := by
  intro out
  have hhas : (if allowOptional = true then (true, robot, h) else hasInterfaces env Ts robot h).1 = true ↔
      allowOptional = true ∨ hasAll env Ts robot h := by
    rw [← hasInterfaces_iff]
    cases allowOptional <;> simp
  simp only [out, multiInit]
  rcases e : (if allowOptional = true then (true, robot, h) else hasInterfaces env Ts robot h) with ⟨has, robot1, h1⟩
  rw [e] at hhas
  constructor
  · rintro rfl hc
    have hb := hhas.2 hc
    simp only at hb
    subst hb
    rcases e2 : extractInterfaceResources env Ts robot1 .empty h1 with ⟨robot2, ctrl, h2⟩
    simp only [ne_eq, not_true_eq_false, if_false, Bool.not_true, Bool.false_eq_true]
    generalize ctrlGet env ctrl h2 = g
    obtain ⟨_, _, e3⟩ := clearClaimsAll_claims g Ts h2
    refine ⟨clearClaimsAll g Ts h2, ?_, ?_⟩
    · intro T hT o ho
      have hg : g T = some o := by
        revert ho
        cases (runInits (p1 g) (p2 g) (clearClaimsAll g Ts h2)).ret with
        | none => exact id
        | some b => cases b <;> exact id
      rw [e3, if_pos ⟨T, hT, hg⟩]
    · cases e' : (runInits (p1 g) (p2 g) (clearClaimsAll g Ts h2)).ret with
      | none => simp [e']
      | some b => cases b <;> simp [e']
  · intro hn
    split
    · simp
    · rename_i hs
      have hs : s = .constructed := by simpa using hs
      have : has = false := by
        by_contra hb
        exact hn ⟨hs, hhas.1 (by simpa using hb)⟩
      simp [this]

/-- User code looking up `j1`, then `j9` (missing, exception caught), then `j0`. -/
def exProg (o : ObjId) : InitProg :=
  .getHandle o "j1" fun _ => .getHandle o "j9" fun _ => .getHandle o "j0" fun r => .done r.isSome

/-- An exclusive interface 0 with resources `j0 j1 j2` and the leftover claim `j2`, a shared
interface 1 with resource `j1`. -/
def exInitHeap : Heap where
  objs o :=
    if o = 0 then ⟨[("j0", ⟨"j0", 0⟩), ("j1", ⟨"j1", 1⟩), ("j2", ⟨"j2", 2⟩)], ["j2"], true⟩
    else ⟨[("j1", ⟨"j1", 3⟩)], [], false⟩
  next := 2

def exInitEnv : TypeEnv := ⟨fun _ => true, fun T => T = "Eff"⟩

def exInitRobot : IMan := .node [("Eff", 0), ("State", 1)] [] [] [] []

example :
    let out := controllerInit exInitEnv "Eff" exProg (fun _ => .done true) .constructed exInitRobot
      exInitHeap []
    out.ret = some true ∧ out.claimed = [⟨"Eff", ["j0", "j1"]⟩] := by decide

example :
    let out := multiInit exInitEnv ["State", "Eff", "Vel"] true
      (fun get => match get "State", get "Eff" with
        | some a, some b => .getHandle a "j1" fun _ => .getHandle b "j2" fun _ => .done true
        | _, _ => .throws) (fun _ => .done true) .constructed exInitRobot exInitHeap []
    out.ret = some true ∧ out.claimed = [⟨"State", []⟩, ⟨"Eff", ["j2"]⟩] := by decide

example :
    (multiInit exInitEnv ["State", "Vel"] false (fun _ => .done true) (fun _ => .done true)
      .constructed exInitRobot exInitHeap [⟨"Old", ["x"]⟩]).ret ≠ some true := by decide

end Verif
