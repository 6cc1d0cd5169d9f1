import Verif.Spec.PartedClaims
import Verif.Lemmas.PartedClaims
import Verif.Props.HardwareView
import Verif.Props.PartedRobot

/-!
Property C118: what the parts of a combined hardware know about the running controllers.
-/

namespace Verif.Parted

open Verif.Transmission (Mem Loader Cmd Doc TransInfo)
open Verif.Limits (Arith Dbl UrdfJoint)
open Verif.Described (Robot Assembled)
open Spec (told Along InTime NoError)
open Mgr

/-- A calm history is one of the manager. -/
theorem calm_ops (ops : List SysOp) : ∀ (s : Sys), (∀ op ∈ ops, op.Good) → Throughout Calm s ops →
    ∃ mops : List Op, (∀ op ∈ mops, op.rosUp) ∧ Along InTime checkForConflict s.mgr mops ∧
      Along NoError checkForConflict s.mgr mops ∧ (s.run stdEnv checkForConflict ops).mgr = s.mgr.run checkForConflict mops := by
  induction ops with
  | nil => exact fun s _ _ => ⟨[], by simp, trivial, trivial, rfl⟩
  | cons op ops ih =>
    intro s hg hc
    obtain ⟨mops, h1, h2, h3, h4⟩ := ih (s.step stdEnv checkForConflict op) (fun o ho => hg o (by simp [ho])) hc.2
    rw [Sys.step_mgr] at h2 h3 h4
    refine ⟨op.toOp stdEnv s :: mops, ?_, ⟨?_, h2⟩, ⟨?_, h3⟩, h4⟩
    · intro o ho
      rcases List.mem_cons.1 ho with rfl | ho
      · exact (hg op (by simp)).rosUp stdEnv s
      · exact h1 o ho
    · have := hc.1
      cases op <;> first | exact this | trivial
    · have := hc.1
      cases op <;> first | exact this | trivial

section

variable {T K : Type} [Add T] [Sub T] [Mul T] [Div T] [OfNat T 0] [OfNat T 1] [OfNat T 2] [DecidableEq T] [LinearOrder K]
  {stod : String → Option T} {A : Arith K} {rs : List (Robot T K)}

theorem based (ha : ∀ r ∈ rs, ∃ (L0 : Loader T) (d : Doc) (infos : List TransInfo) (joints : List (Cmd × String × UrdfJoint (Dbl K))),
    Assembled stod A L0 d infos joints r) : ∀ L ∈ rs.map (·.loader), Based stod L := by
  intro L hL
  obtain ⟨r, hr, rfl⟩ := List.mem_map.1 hL
  obtain ⟨L0, d, infos, joints, ha⟩ := ha r hr
  exact ⟨L0, d, infos, ha.toBase⟩

omit [Add T] [Sub T] [Mul T] [Div T] [OfNat T 0] [OfNat T 1] [OfNat T 2] [DecidableEq T] [LinearOrder K] in
theorem hasCommand_holds (s : Sys) (c : CId) (k : Nat) (q : Cmd) (n : String) :
    HasCommand (rs.map (·.loader)) (s.held c) k q n ↔ Holds rs s c k q n := by
  unfold HasCommand Holds
  rw [List.length_map]
  constructor
  · rintro ⟨L, a, hL, h⟩
    rw [List.getElem?_map] at hL
    obtain ⟨r, hr, rfl⟩ := Option.map_eq_some_iff.1 hL
    exact ⟨r, a, hr, h⟩
  · rintro ⟨r, a, hr, h⟩
    exact ⟨r.loader, a, by rw [List.getElem?_map, hr]; rfl, h⟩

variable (ha : ∀ r ∈ rs, ∃ (L0 : Loader T) (d : Doc) (infos : List TransInfo) (joints : List (Cmd × String × UrdfJoint (Dbl K))),
  Assembled stod A L0 d infos joints r) (ops : List SysOp) (hops : ∀ op ∈ ops, op.Good)

include ha hops

/-- **C118, claims.** After any history, what a loaded controller claims are exactly the commands it holds handles for; and if several
parts take commands of the kind for joints of that name, what it holds is the command of the last of them. -/
theorem c118_claims (sp : CtrlSpec) (hsp : sp ∈ (after rs ops).mgr.cur) (q : Cmd) (n : String) :
    ((∃ ir ∈ sp.info.claimed, ir.hardwareInterface = Whole.interfaceName q ∧ n ∈ ir.resources) ↔
      ∃ k, Holds rs (after rs ops) sp.c k q n) ∧
    ∀ k, Holds rs (after rs ops) sp.c k q n → ∀ (k' : Nat) r', k < k' → rs[k']? = some r' → r'.loader.commandCell q n = none := by
  have h := knows_reached (based ha) (s := after rs ops) ⟨ops, hops, rfl⟩
  refine ⟨(h.claims sp hsp q n).trans (exists_congr fun k => hasCommand_holds _ _ k q n), fun k hk k' r' hlt hr' => ?_⟩
  exact h.last sp.c k q n ((hasCommand_holds _ _ k q n).2 hk) k' r'.loader hlt (by rw [List.getElem?_map, hr']; rfl)

/-- **C118, what a part is told.** If no switch call gives up waiting, no timeout elapses and the hardware reports no error,
then, when no switch is in progress, a part regards a controller as active with the command of a joint iff the controller
runs and holds the command of a joint of that name in some part, and the part takes such commands for a joint of that name. Missing
for the full statement (`Informed`): that the joint is the one of this part, see `c118_twins_negation`. -/
theorem c118_told_partial (hcalm : Throughout Calm (after rs []) ops) (hs : ¬ (after rs ops).mgr.Switching) (k : Nat)
    (r : Robot T K) (hr : rs[k]? = some r) (name : String) (q : Cmd) (n : String) :
    Regards rs (after rs ops) k name q n ↔
      (∃ k', Commands rs (after rs ops) k' name q n) ∧ r.loader.commandCell q n ≠ none := by
  obtain ⟨mops, h1, h2, h3, h4⟩ := calm_ops ops _ hops hcalm
  have h4 : (after rs ops).mgr = Mgr.init.run checkForConflict mops := h4
  have hs' := hs
  rw [h4] at hs'
  have := c100_part_partial checkForConflict mops h1 h2 h3 hs' (part (interfaces (rs.map (·.loader))) k) name
    (Whole.interfaceName q) n
  rw [← h4, part_owns (L := r.loader) (by rw [List.getElem?_map, hr]; rfl)] at this
  have hk := (List.getElem?_eq_some_iff.1 hr).1
  unfold Regards
  rw [told_received (hw := part (interfaces (rs.map (·.loader))) k) (by
    rw [List.getElem?_map, List.getElem?_range hk]; rfl)]
  refine this.trans (and_congr_left fun _ => ?_)
  unfold Combined.Mentions Commands
  constructor
  · rintro ⟨c, hc, hname, hcl⟩
    obtain ⟨sp, hsp, rfl⟩ := List.mem_map.1 hc
    obtain ⟨hsp, hrun⟩ := List.mem_filter.1 hsp
    obtain ⟨k', hk'⟩ := (c118_claims ha ops hops sp hsp q n).1.1 hcl
    exact ⟨k', sp, hsp, hname, by simpa using hrun, hk'⟩
  · rintro ⟨k', sp, hsp, hname, hrun, hk'⟩
    exact ⟨sp.info, List.mem_map.2 ⟨sp, List.mem_filter.2 ⟨hsp, by simpa using hrun⟩, rfl⟩, hname,
      (c118_claims ha ops hops sp hsp q n).1.2 ⟨k', hk'⟩⟩

/-- **C118, joints of one part.** Under the same conditions, if no later part takes commands of the kind for a joint of that
name, a part regards a controller as active with the command of the joint iff the controller runs and holds the command of
the joint of this part. -/
theorem c118_exact_partial (hcalm : Throughout Calm (after rs []) ops) (hs : ¬ (after rs ops).mgr.Switching) (k : Nat)
    (hk : k < rs.length) (q : Cmd) (n : String)
    (hlast : ∀ (k' : Nat) r', k < k' → rs[k']? = some r' → r'.loader.commandCell q n = none) (name : String) :
    Regards rs (after rs ops) k name q n ↔ Commands rs (after rs ops) k name q n := by
  rw [c118_told_partial ha ops hops hcalm hs k rs[k] (List.getElem?_eq_getElem hk)]
  constructor
  · rintro ⟨⟨k', sp, hsp, hname, hrun, hold⟩, hne⟩
    have e : k' = k := by
      rcases lt_trichotomy k' k with h | h | h
      · exact absurd ((c118_claims ha ops hops sp hsp q n).2 k' hold k _ h (List.getElem?_eq_getElem hk)) hne
      · exact h
      · obtain ⟨r', a, hr', hcell, -⟩ := hold
        rw [hlast k' r' h hr'] at hcell
        cases hcell
    subst e
    exact ⟨sp, hsp, hname, hrun, hold⟩
  · intro h
    refine ⟨⟨k, h⟩, ?_⟩
    obtain ⟨sp, -, -, -, r', a, hr', hcell, -⟩ := h
    rw [List.getElem?_eq_getElem hk] at hr'
    cases hr'
    rw [hcell]
    simp

/-- **C118, robots without joints of the same name.** If no two parts take commands of one kind for joints of the same name,
all parts are informed. -/
theorem c118_informed_partial (hcalm : Throughout Calm (after rs []) ops) (hs : ¬ (after rs ops).mgr.Switching)
    (hapart : ∀ (k k' : Nat) r r' q n, rs[k]? = some r → rs[k']? = some r' → r.loader.commandCell q n ≠ none →
      r'.loader.commandCell q n ≠ none → k = k') : Informed rs (after rs ops) := by
  intro k hk name q n
  by_cases h : (rs[k]).loader.commandCell q n = none
  · constructor
    · intro hr
      exact absurd h ((c118_told_partial ha ops hops hcalm hs k _ (List.getElem?_eq_getElem hk) name q n).1 hr).2
    · rintro ⟨sp, -, -, -, r', a, hr', hcell, -⟩
      rw [List.getElem?_eq_getElem hk] at hr'
      cases hr'
      rw [h] at hcell
      cases hcell
  · refine c118_exact_partial ha ops hops hcalm hs k hk q n (fun k' r' hlt hr' => ?_) name
    by_contra hne
    exact absurd (hapart k k' _ r' q n (List.getElem?_eq_getElem hk) hr' h hne) (ne_of_lt hlt)

omit ha in
/-- **C118, one controller for a joint.** If no switch call gives up waiting, no timeout elapses and the hardware reports no error,
then at any time, also in the middle of a switch, two controllers that parts (one or two) regard as active with commands of
joints of the same name are the same, whatever the kinds of the commands. -/
theorem c118_one_partial (hcalm : Throughout Calm (after rs []) ops) (k k' : Nat) (hk : k < rs.length) (hk' : k' < rs.length)
    (name name' : String) (q q' : Cmd) (n : String) (h : Regards rs (after rs ops) k name q n)
    (h' : Regards rs (after rs ops) k' name' q' n) : name = name' := by
  obtain ⟨mops, h1, h2, h3, h4⟩ := calm_ops ops _ hops hcalm
  have h4 : (after rs ops).mgr = Mgr.init.run checkForConflict mops := h4
  have hf := callsFit_run (conf := checkForConflict) (inv_init trivial) hvInv_init (by simp [CallsFit, Mgr.init]) mops h1 h2 h3
  have hfree := c100_compatible_partial mops h1 h2 h3
  rw [← h4] at hf hfree
  have mention : ∀ k, k < rs.length → ∀ name q, Regards rs (after rs ops) k name q n →
      ∃ i ∈ told (after rs ops).mgr.trace, i.name = name ∧ n ∈ Spec.claimsOf i := by
    intro k hk name q h
    unfold Regards at h
    rw [told_received (hw := part (interfaces (rs.map (·.loader))) k) (by
      rw [List.getElem?_map, List.getElem?_range hk]; rfl), told_part _ _ hf, Combined.c33_reaches_iff_partial] at h
    obtain ⟨⟨i, hi, hn, cl, hcl, -, hr⟩, -⟩ := h
    exact ⟨i, hi, hn, List.mem_flatMap.2 ⟨cl, hcl, hr⟩⟩
  obtain ⟨i, hi, hn, hc⟩ := mention k hk name q h
  obtain ⟨i', hi', hn', hc'⟩ := mention k' hk' name' q' h'
  have : i = i' := by
    by_contra hne
    haveI : Std.Symm (Function.onFun List.Disjoint Spec.claimsOf) := ⟨fun _ _ h => List.Disjoint.symm h⟩
    exact (List.nodup_flatMap.1 hfree).2.forall hi hi' hne hc hc'
  rw [← hn, ← hn', this]

end

/-! ### Concrete cases -/

open Verif.Described (exActuators exThree exListed exKind)
open Verif.Transmission.Loader (exStod exInfos)

/-- The hardware is always done at once. -/
def exDone : Mgr.HwReply := ⟨.done, .done, fun _ _ => (.done, .done)⟩

/-- A service call, a cycle, and the end of the call. -/
def exServe (op : SysOp) : List SysOp := [op, .update 0 false exDone, .poll {} 0]

/-- A load of a controller for the command of a joint. -/
def exLoads (name : String) (q : Cmd) (j : String) : List SysOp :=
  exServe (.load name ⟨true, some "T", [⟨["T"], fun _ => .object⟩], sysClass (Whole.interfaceName q) j⟩)

/-- A switch with a timeout of one second. -/
def exSwitches (start stop : List String) : List SysOp := exServe (.switch ⟨start, stop, 2, false, 1⟩ 0 true)

/-- "p" is for the position of "j1", "v" for the velocity of "j1", "k" for the position of "k1". "p" and "k" are started, then "p"
is replaced by "v". -/
def exHistory : List SysOp :=
  exLoads "p" .position "j1" ++ exLoads "v" .velocity "j1" ++ exLoads "k" .position "k1" ++ exSwitches ["p", "k"] [] ++
    exSwitches ["v"] ["p"]

/-- A test of `Calm`, for histories in which the hardware is always done at once. -/
def exCalm : Sys → List SysOp → Bool
  | _, [] => true
  | s, op :: ops => (match op with
    | .poll _ e => match s.mgr.svc with
      | .switching _ t => decide (e < t + Mgr.second)
      | _ => true
    | .update t _ _ => !Mgr.timedOut s.mgr.params t
    | _ => true) && exCalm (s.step stdEnv checkForConflict op) ops

theorem exCalm_sound (ops : List SysOp) (hd : ∀ t r hw, .update t r hw ∈ ops → hw = exDone) (s : Sys) (h : exCalm s ops = true) :
    Throughout Calm s ops := by
  induction ops generalizing s with
  | nil => trivial
  | cons op ops ih =>
    simp only [exCalm, Bool.and_eq_true] at h
    refine ⟨?_, ih (fun t r hw hm => hd t r hw (List.mem_cons_of_mem _ hm)) _ h.2⟩
    have h1 := h.1
    cases op with
    | poll ok e =>
      intro k t hs _
      simp only [hs] at h1
      exact Or.inl (of_decide_eq_true h1)
    | update t r hw =>
      rw [hd t r hw (List.mem_cons_self ..)]
      exact ⟨by simp [exDone], by simp [exDone], by simpa using h1⟩
    | _ => trivial

theorem exServe_good {op : SysOp} (h : op.Good) (hu : ∀ t r hw, op ≠ .update t r hw) :
    (∀ o ∈ exServe op, o.Good) ∧ ∀ t r hw, .update t r hw ∈ exServe op → hw = exDone := by
  constructor
  · intro o ho
    simp only [exServe, List.mem_cons, List.not_mem_nil, or_false] at ho
    rcases ho with rfl | rfl | rfl
    · exact h
    · trivial
    · exact ⟨rfl, rfl⟩
  · intro t r hw ho
    simp only [exServe, List.mem_cons, List.not_mem_nil, or_false, reduceCtorEq, SysOp.update.injEq] at ho
    rcases ho with ho | ⟨-, -, rfl⟩
    · exact absurd ho.symm (hu t r hw)
    · rfl

theorem exHistory_good : (∀ o ∈ exHistory, o.Good) ∧ ∀ t r hw, .update t r hw ∈ exHistory → hw = exDone := by
  have load : ∀ n q j, (∀ o ∈ exLoads n q j, o.Good) ∧ ∀ t r hw, .update t r hw ∈ exLoads n q j → hw = exDone :=
    fun n q j => exServe_good (sysClass_proper (Whole.interfaceName q) j) (by simp)
  have switch : ∀ a b, (∀ o ∈ exSwitches a b, o.Good) ∧ ∀ t r hw, .update t r hw ∈ exSwitches a b → hw = exDone :=
    fun a b => exServe_good trivial (by simp)
  constructor
  · intro o ho
    simp only [exHistory, List.mem_append] at ho
    rcases ho with (((h | h) | h) | h) | h
    exacts [(load _ _ _).1 o h, (load _ _ _).1 o h, (load _ _ _).1 o h, (switch _ _).1 o h, (switch _ _).1 o h]
  · intro t r hw ho
    simp only [exHistory, List.mem_append] at ho
    rcases ho with (((h | h) | h) | h) | h
    exacts [(load _ _ _).2 t r hw h, (load _ _ _).2 t r hw h, (load _ _ _).2 t r hw h, (switch _ _).2 t r hw h, (switch _ _).2 t r hw h]

/-- No call is in progress. -/
def exIdle (s : Sys) : Bool := match s.mgr.svc with | .idle => true | _ => false

theorem exIdle_sound {s : Sys} (h : exIdle s = true) : ¬ s.mgr.Switching := by
  rintro ⟨k, t, e⟩
  simp [exIdle, e] at h

/-- What the parts regard as active. -/
def exKnown (rs : List (Robot ℚ ℚ)) (s : Sys) : List (List (String × List (List String))) :=
  (List.range rs.length).map fun k =>
    (told (s.mgr.trace.flatMap (received ((List.range rs.length).map (part (interfaces (rs.map (·.loader))))) k))).map fun i =>
      (i.name, i.claimed.map (·.resources))

/-- The case of C118: the parts are put together, the history is proper and calm, and no switch is in progress. After the first
switch the first part knows "p" and the second one "k"; after the second one the second part knows "k" and "v", and the
first part knows none. -/
example : ∃ rs, exParts = some rs ∧ (∀ r ∈ rs, ∃ L0 d infos joints, Assembled exStod (.exact 1000) L0 d infos joints r) ∧
    (∀ o ∈ exHistory, o.Good) ∧ Throughout Calm (after rs []) exHistory ∧ ¬ (after rs exHistory).mgr.Switching ∧
    exKnown rs (after rs (exHistory.take 12)) = [[("p", [["j1"]])], [("k", [["k1"]])]] ∧
    exKnown rs (after rs exHistory) = [[], [("k", [["k1"]]), ("v", [["j1"]])]] := by
  have h : (exParts.map fun rs => decide (exCalm (after rs []) exHistory = true ∧ exIdle (after rs exHistory) = true ∧
      exKnown rs (after rs (exHistory.take 12)) = [[("p", [["j1"]])], [("k", [["k1"]])]] ∧
      exKnown rs (after rs exHistory) = [[], [("k", [["k1"]]), ("v", [["j1"]])]])) = some true := by decide +kernel
  obtain ⟨rs, hrs, h⟩ := Option.map_eq_some_iff.1 h
  have h := of_decide_eq_true h
  obtain ⟨r, r', hrs', ha, ha', -⟩ := exOps_case
  rw [hrs] at hrs'
  cases hrs'
  refine ⟨_, hrs, fun x hx => ?_, exHistory_good.1, exCalm_sound _ exHistory_good.2 _ h.1, exIdle_sound h.2.1, h.2.2.1, h.2.2.2⟩
  simp only [List.mem_cons, List.not_mem_nil, or_false] at hx
  rcases hx with rfl | rfl
  · exact ⟨_, _, _, _, ha⟩
  · exact ⟨_, _, _, _, ha'⟩

/-! ### What does not hold -/

/-- "p" for the position of "j1" is loaded and started. -/
def exTwinHistory : List SysOp := exLoads "p" .position "j1" ++ exSwitches ["p"] []

/-- **C118 does not hold for joints of the same name.** Two parts of the same description both have a joint "j1" that takes
positions. After a calm history "p" runs and commands the joint of the second part, but the first part regards it as active
with its joint. -/
theorem c118_twins_negation : ∃ rs, exTwins .posSat = some rs ∧
    (∀ r ∈ rs, ∃ L0 d infos joints, Assembled exStod (.exact 1000) L0 d infos joints r) ∧
    (∀ o ∈ exTwinHistory, o.Good) ∧ Throughout Calm (after rs []) exTwinHistory ∧ ¬ (after rs exTwinHistory).mgr.Switching ∧
    Regards rs (after rs exTwinHistory) 0 "p" .position "j1" ∧ Commands rs (after rs exTwinHistory) 1 "p" .position "j1" ∧
    ¬ Informed rs (after rs exTwinHistory) := by
  have h : ((exTwins .posSat).map fun rs => decide (exCalm (after rs []) exTwinHistory = true ∧
      exIdle (after rs exTwinHistory) = true ∧
      told ((after rs exTwinHistory).mgr.trace.flatMap
        (received ((List.range rs.length).map (part (interfaces (rs.map (·.loader))))) 0)) =
        [⟨"p", "T", [⟨Whole.interfaceName .position, ["j1"]⟩]⟩] ∧
      (after rs exTwinHistory).mgr.cur.map (fun sp => (sp.c, sp.info.name)) = [(0, "p")] ∧
      (after rs exTwinHistory).mgr.state 0 = .running ∧
      ((after rs exTwinHistory).held 0).map (fun g => (g.exclusive, g.handle.name, g.handle.data)) = [(true, "j1", 207)] ∧
      rs.map (fun r => r.loader.commandCell .position "j1") = [some 103, some 103])) = some true := by decide +kernel
  obtain ⟨rs, hrs, h⟩ := Option.map_eq_some_iff.1 h
  have h := of_decide_eq_true h
  obtain ⟨h1, h2, h3, h4, h5, h6, h7⟩ := h
  have hrs' := hrs
  unfold exTwins at hrs'
  split at hrs'
  swap
  · cases hrs'
  rename_i L hl
  simp only [bind, Option.bind_eq_some_iff, pure, Option.some.injEq] at hrs'
  obtain ⟨r, hr, r', hr', rfl⟩ := hrs'
  have e : r.loader = L ∧ r.kind = exKind := by
    obtain ⟨s, -, rfl⟩ := Option.map_eq_some_iff.1 hr
    exact ⟨rfl, rfl⟩
  have e' : r'.loader = L ∧ r'.kind = fun c => if c = .position then .posSat else exKind c := by
    obtain ⟨s, -, rfl⟩ := Option.map_eq_some_iff.1 hr'
    exact ⟨rfl, rfl⟩
  have ha : Assembled exStod (.exact 1000) exActuators exThree (exInfos exThree) exListed r :=
    ⟨by rw [e.1]; exact Described.exThree_base hl, by rw [e.1, e.2]; exact hr, by decide⟩
  have ha' : Assembled exStod (.exact 1000) exActuators exThree (exInfos exThree) exListed r' :=
    ⟨by rw [e'.1]; exact Described.exThree_base hl, by rw [e'.1, e'.2]; exact hr', by decide⟩
  have good : (∀ o ∈ exTwinHistory, o.Good) ∧ ∀ t r hw, .update t r hw ∈ exTwinHistory → hw = exDone := by
    have l := exServe_good (op := .load "p" ⟨true, some "T", [⟨["T"], fun _ => .object⟩],
      sysClass (Whole.interfaceName .position) "j1"⟩) (sysClass_proper (Whole.interfaceName .position) "j1") (by simp)
    have w := exServe_good (op := .switch ⟨["p"], [], 2, false, 1⟩ 0 true) trivial (by simp)
    exact ⟨fun o ho => (List.mem_append.1 ho).elim (l.1 o) (w.1 o),
      fun t r hw ho => (List.mem_append.1 ho).elim (l.2 t r hw) (w.2 t r hw)⟩
  have hcur : ∀ sp ∈ (after [r, r'] exTwinHistory).mgr.cur, sp.c = 0 := by
    intro sp hsp
    have : (sp.c, sp.info.name) ∈ [((0 : CId), "p")] := by rw [← h4]; exact List.mem_map.2 ⟨sp, hsp, rfl⟩
    simp only [List.mem_singleton, Prod.mk.injEq] at this
    exact this.1
  have hreg : Regards [r, r'] (after [r, r'] exTwinHistory) 0 "p" .position "j1" := by
    unfold Regards
    rw [h3]
    exact ⟨_, List.mem_singleton.2 rfl, rfl, _, List.mem_singleton.2 rfl, rfl, List.mem_singleton.2 rfl⟩
  refine ⟨_, hrs, fun x hx => ?_, good.1, exCalm_sound _ good.2 _ h1, exIdle_sound h2, hreg, ?_, fun hinf => ?_⟩
  · simp only [List.mem_cons, List.not_mem_nil, or_false] at hx
    rcases hx with rfl | rfl
    · exact ⟨_, _, _, _, ha⟩
    · exact ⟨_, _, _, _, ha'⟩
  · have hm : ((0 : CId), "p") ∈ (after [r, r'] exTwinHistory).mgr.cur.map (fun sp => (sp.c, sp.info.name)) := by rw [h4]; simp
    obtain ⟨sp, hsp, e⟩ := List.mem_map.1 hm
    simp only [Prod.mk.injEq] at e
    have hg : (true, "j1", 207) ∈ ((after [r, r'] exTwinHistory).held 0).map (fun g => (g.exclusive, g.handle.name, g.handle.data)) := by
      rw [h6]; simp
    obtain ⟨⟨x, ⟨n, d⟩⟩, hg, e2⟩ := List.mem_map.1 hg
    simp only [Prod.mk.injEq] at e2
    obtain ⟨rfl, rfl, rfl⟩ := e2
    simp only [List.map_cons, List.map_nil, List.cons.injEq, and_true] at h7
    refine ⟨sp, hsp, e.2, by rw [e.1]; exact h5, r', 103, rfl, h7.2, _, by rw [e.1]; exact hg, rfl, rfl⟩
  · obtain ⟨sp, hsp, -, -, r1, a, -, -, g, hg, -, hh⟩ := (hinf 0 (by simp) "p" .position "j1").1 hreg
    rw [hcur sp hsp] at hg
    have : (g.exclusive, g.handle.name, g.handle.data) ∈ [(true, "j1", 207)] := by
      rw [← h6]; exact List.mem_map.2 ⟨g, hg, rfl⟩
    simp only [List.mem_singleton, Prod.mk.injEq] at this
    have hd := this.2.2
    rw [hh] at hd
    simp only [List.length_cons, List.length_nil] at hd
    omega

end Verif.Parted
