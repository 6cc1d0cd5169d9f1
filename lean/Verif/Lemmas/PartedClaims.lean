import Verif.Lemmas.PartedRobotOffers
import Verif.Lemmas.SystemTypes
import Verif.Spec.PartedClaims
import Verif.Spec.CombinedHW

/-!
Lemmas about whole robots with a combined hardware: the claims of a controller are the commands it holds.
-/

namespace Verif.Parted

open Verif.Transmission (Loader Cmd)
open Verif.Described (Robot)
open Heap (SameIfaces sameIfaces_set)

variable {T K : Type}

/-! ### Handles that have been obtained -/

theorem run_found (p : InitProg) (h : Heap) : ∀ x ∈ (p.run h).log, smapFind x.2 (h.objs x.1).handles ≠ none := by
  induction p generalizing h with
  | done ok => simp [InitProg.run]
  | throws => simp [InitProg.run]
  | getHandle o name k ih =>
    have h1 : SameIfaces h (h.set o ((h.objs o).getHandle name).2) := sameIfaces_set (by simp) (by simp)
    have hr : ((h.objs o).getHandle name).1 = (h.objs o).rmGetHandle name := by
      unfold Iface.getHandle
      cases (h.objs o).rmGetHandle name <;> rfl
    unfold InitProg.run
    rcases hg : (h.objs o).getHandle name with ⟨r, v⟩
    rw [hg] at h1 hr
    simp only at h1 hr ⊢
    split
    · rename_i hs
      intro x hx
      rcases List.mem_cons.1 hx with rfl | hx
      · intro e
        rw [hr] at hs
        simp only [Iface.rmGetHandle] at hs
        rw [e] at hs
        cases hs
      · have := ih r _ x hx
        rwa [h1.handles] at this
    · intro x hx
      have := ih r _ x hx
      rwa [h1.handles] at this

theorem runInits_found (p1 p2 : InitProg) (h : Heap) : ∀ x ∈ (runInits p1 p2 h).log, smapFind x.2 (h.objs x.1).handles ≠ none := by
  unfold runInits
  simp only
  split
  · intro x hx
    rcases List.mem_append.1 hx with hx | hx
    · exact run_found p1 h x hx
    · have := run_found p2 _ x hx
      rwa [(p1.run_same h).handles] at this
  · exact run_found p1 h

/-- The manager of a `MultiInterfaceController` has the combined interfaces. -/
def FlatOffers (ls : List (Loader T)) (h : Heap) (m : IMan) : Prop :=
  ∃ i c n r, m = .node i c n r [] ∧ ∀ T o, smapFind T i = some o → o < h.next ∧ (h.objs o).claiming = stdEnv.claiming T ∧
    places ls.length T ≠ [] ∧ ∀ n, smapFind n (h.objs o).handles = joined ls T n

theorem FlatOffers.get {ls : List (Loader T)} {h : Heap} {m : IMan} (hf : FlatOffers ls h m) {U : String} {o : ObjId}
    (hg : ctrlGet stdEnv m h U = some o) : (h.objs o).claiming = stdEnv.claiming U ∧ places ls.length U ≠ [] ∧
      ∀ n, smapFind n (h.objs o).handles = joined ls U n := by
  obtain ⟨i, c, n, r, rfl, hi⟩ := hf
  rw [ctrlGet, IMan.get] at hg
  simp only [IMan.getSubs, List.append_nil] at hg
  cases e : smapFind U i with
  | none => rw [e] at hg; simp at hg
  | some o' =>
    rw [e] at hg
    simp only [Option.toList_some, Option.some.injEq] at hg
    rw [← hg]
    exact (hi U o' e).2

theorem extract_offers (ls : List (Loader T)) (Ts : List String) (robot ctrl : IMan) (h : Heap)
    (ht : TypedRobot stdEnv h robot) (ho : Offers ls robot h) (hf : FlatOffers ls h ctrl) :
    FlatOffers ls (extractInterfaceResources stdEnv Ts robot ctrl h).2.2
      (extractInterfaceResources stdEnv Ts robot ctrl h).2.1 := by
  induction Ts generalizing robot ctrl h with
  | nil => exact hf
  | cons U Ts ih =>
    have h1 := get_typed stdEnv U robot h ht
    obtain ⟨o1, o2, o3⟩ := ho.get U
    obtain ⟨i, c, n, r, rfl, hi⟩ := hf
    unfold extractInterfaceResources
    rcases hg : robot.get stdEnv U h with ⟨_ | o, r', h'⟩
    · rw [hg] at h1 o1
      refine ih r' _ h' h1.typed o1 ⟨i, c, n, r, rfl, fun T' o' ho => ?_⟩
      obtain ⟨a, b⟩ := hi T' o' ho
      exact ⟨lt_of_lt_of_le a h1.derived.ext.next, by rw [h1.derived.ext.objs o' a]; exact b⟩
    · rw [hg] at h1 o1 o2 o3
      refine ih r' _ h' h1.typed o1 ⟨_, _, _, _, rfl, fun T' o' ho => ?_⟩
      rw [smapFind_insert] at ho
      split at ho
      · rename_i e
        subst e
        cases ho
        have hp : places ls.length T' ≠ [] := fun e => by cases o2 e
        obtain ⟨o'', e, g1, g2⟩ := o3 hp
        cases e
        exact ⟨(h1.result o rfl).1, g1, hp, g2⟩
      · obtain ⟨a, b⟩ := hi T' o' ho
        exact ⟨lt_of_lt_of_le a h1.derived.ext.next, by rw [h1.derived.ext.objs o' a]; exact b⟩

/-- What a successful initialisation has done. -/
structure Claimed (ls : List (Loader T)) (out : InitOut) (Ts : List String) (bound : String → Option ObjId)
    (res : ObjId → List String) : Prop where
  claimed : out.claimed = Ts.filterMap fun T => (bound T).map fun o => ⟨T, res o⟩
  exact : ∀ T ∈ Ts, ∀ o, bound T = some o → (∀ n, n ∈ res o ↔ (o, n) ∈ out.log ∧ (out.heap.objs o).claiming = true) ∧
    (out.heap.objs o).claiming = stdEnv.claiming T ∧ places ls.length T ≠ [] ∧
    ∀ n, smapFind n (out.heap.objs o).handles = joined ls T n
  uses : ∀ x ∈ out.log, ∃ T ∈ Ts, bound T = some x.1
  found : ∀ x ∈ out.log, smapFind x.2 (out.heap.objs x.1).handles ≠ none

theorem init_claimed (ls : List (Loader T)) (cls : CtrlClass) (hp : cls.Proper) (robot : IMan) (h : Heap)
    (ht : TypedRobot stdEnv h robot) (ho : Offers ls robot h) (hr : (cls.initRequest stdEnv robot h).ret = some true) :
    ∃ Ts bound res, Claimed ls (cls.initRequest stdEnv robot h) Ts bound res := by
  cases cls with
  | single U p1 p2 =>
    simp only [CtrlClass.initRequest] at hr ⊢
    obtain ⟨hw, res, a1, a2, a3, -⟩ := c04_claims_exact stdEnv U p1 p2 .constructed robot h [] hr
    have key : (∀ x ∈ (controllerInit stdEnv U p1 p2 .constructed robot h []).log, x.1 = hw) ∧
        (robot.get stdEnv U h).2.2.SameIfaces (controllerInit stdEnv U p1 p2 .constructed robot h []).heap ∧
        ∀ x ∈ (controllerInit stdEnv U p1 p2 .constructed robot h []).log,
          smapFind x.2 ((robot.get stdEnv U h).2.2.objs x.1).handles ≠ none := by
      unfold controllerInit
      rw [if_neg (by simp)]
      rcases hg' : robot.get stdEnv U h with ⟨_ | hw', robot', h'⟩
      · rw [hg'] at a1; cases a1
      · rw [hg'] at a1
        simp only at a1 ⊢
        cases a1
        have e1 : SameIfaces h' (h'.set hw (h'.objs hw).clearClaims) :=
          sameIfaces_set (by simp [Iface.clearClaims]) (by simp [Iface.clearClaims])
        have e2 := e1.trans (runInits_same (p1 hw) (p2 hw) _)
        have e3 := e2.trans (sameIfaces_set (o := hw) (v := ((runInits (p1 hw) (p2 hw)
          (h'.set hw (h'.objs hw).clearClaims)).heap.objs hw).clearClaims)
          (by simp [Iface.clearClaims]) (by simp [Iface.clearClaims]))
        have e4 : ∀ x ∈ (runInits (p1 hw) (p2 hw) (h'.set hw (h'.objs hw).clearClaims)).log,
            smapFind x.2 (h'.objs x.1).handles ≠ none := fun x hx => by
          have := runInits_found (p1 hw) (p2 hw) _ x hx
          rwa [e1.handles] at this
        have e5 := runInits_uses (p1 hw) (p2 hw) (hp hw).1 (hp hw).2 (h'.set hw (h'.objs hw).clearClaims)
        split
        · exact ⟨e5, e2, e4⟩
        · exact ⟨e5, e2, e4⟩
        · exact ⟨e5, e3, e4⟩
    obtain ⟨k1, k2, k3⟩ := key
    obtain ⟨-, o2, o3⟩ := ho.get U
    have hpl : places ls.length U ≠ [] := fun e => by rw [o2 e] at a1; cases a1
    obtain ⟨o, e, g1, g2⟩ := o3 hpl
    rw [a1] at e
    cases e
    refine ⟨[U], fun _ => some hw, fun _ => res, by rw [a2]; rfl, ?_, fun x hx => ⟨U, by simp, by rw [k1 x hx]⟩, fun x hx => ?_⟩
    · rintro V hV o ⟨⟩
      rw [List.mem_singleton] at hV
      subst hV
      refine ⟨fun n => ?_, by rw [k2.claiming]; exact g1, hpl, fun n => by rw [k2.handles]; exact g2 n⟩
      rw [a3, k2.claiming]
    · rw [k2.handles]; exact k3 x hx
  | multi Ts oo p1 p2 =>
    simp only [CtrlClass.initRequest] at hr ⊢
    obtain ⟨res, a1, a2, -⟩ := c04_claims_exact_multi stdEnv Ts oo p1 p2 .constructed robot h [] hr
    suffices key : (∀ x ∈ (multiInit stdEnv Ts oo p1 p2 .constructed robot h []).log,
        ∃ T ∈ Ts, (multiInit stdEnv Ts oo p1 p2 .constructed robot h []).bound T = some x.1) ∧
        (∀ x ∈ (multiInit stdEnv Ts oo p1 p2 .constructed robot h []).log,
          smapFind x.2 ((multiInit stdEnv Ts oo p1 p2 .constructed robot h []).heap.objs x.1).handles ≠ none) ∧
        ∀ T o, (multiInit stdEnv Ts oo p1 p2 .constructed robot h []).bound T = some o →
          ((multiInit stdEnv Ts oo p1 p2 .constructed robot h []).heap.objs o).claiming = stdEnv.claiming T ∧
          places ls.length T ≠ [] ∧
          ∀ n, smapFind n ((multiInit stdEnv Ts oo p1 p2 .constructed robot h []).heap.objs o).handles = joined ls T n by
      exact ⟨Ts, _, res, a1, fun T hT o hb => ⟨(a2 T hT o hb).1, key.2.2 T o hb⟩, key.1, key.2.1⟩
    clear a1 a2
    revert hr
    unfold multiInit
    rw [if_neg (by simp)]
    have t0 : TypedRobot stdEnv (if oo = true then (true, robot, h) else hasInterfaces stdEnv Ts robot h).2.2
        (if oo = true then (true, robot, h) else hasInterfaces stdEnv Ts robot h).2.1 ∧
        Offers ls (if oo = true then (true, robot, h) else hasInterfaces stdEnv Ts robot h).2.1
          (if oo = true then (true, robot, h) else hasInterfaces stdEnv Ts robot h).2.2 := by
      split
      · exact ⟨ht, ho⟩
      · exact ⟨(hasInterfaces_typed stdEnv Ts robot h ht).2, ho.hasInterfaces Ts⟩
    revert t0
    rcases (if oo = true then (true, robot, h) else hasInterfaces stdEnv Ts robot h) with ⟨has, robot1, h1'⟩
    rintro ⟨t0, t1⟩
    simp only at t0 t1 ⊢
    split
    · simp
    · have hfl := extract_offers ls Ts robot1 .empty h1' t0 t1 ⟨[], [], [], [], rfl, by simp [smapFind]⟩
      revert hfl
      rcases extractInterfaceResources stdEnv Ts robot1 .empty h1' with ⟨robot2, ctrl, h2'⟩
      intro hfl
      simp only at hfl ⊢
      have e1 := clearClaimsAll_same (ctrlGet stdEnv ctrl h2') Ts h2'
      have e2 := e1.trans (runInits_same (p1 (ctrlGet stdEnv ctrl h2')) (p2 (ctrlGet stdEnv ctrl h2')) _)
      have hu := runInits_uses _ _ (hp (ctrlGet stdEnv ctrl h2')).1 (hp (ctrlGet stdEnv ctrl h2')).2
        (clearClaimsAll (ctrlGet stdEnv ctrl h2') Ts h2')
      have hfd := runInits_found (p1 (ctrlGet stdEnv ctrl h2')) (p2 (ctrlGet stdEnv ctrl h2'))
        (clearClaimsAll (ctrlGet stdEnv ctrl h2') Ts h2')
      split
      · simp
      · simp
      · rename_i hret
        intro _
        have e3 := e2.trans (clearClaimsAll_same (ctrlGet stdEnv ctrl h2') Ts _)
        refine ⟨hu, fun x hx => ?_, fun U o hb => ?_⟩
        · have := hfd x hx
          rw [e1.handles] at this
          rw [e3.handles]
          exact this
        · obtain ⟨b1, b2, b3⟩ := hfl.get hb
          exact ⟨by rw [e3.claiming]; exact b1, b2, fun n => by rw [e3.handles]; exact b3 n⟩

/-! ### The claims -/

theorem joined_some {ls : List (Loader T)} {q : Cmd} {n : String} {hd : Handle}
    (h : joined ls (Whole.interfaceName q) n = some hd) :
    ∃ (k : Nat) (L : Loader T) (a : Nat), ls[k]? = some L ∧ L.commandCell q n = some a ∧ hd = ⟨n, a * ls.length + k⟩ ∧
      ∀ (k' : Nat) (L' : Loader T), k < k' → ls[k']? = some L' → L'.commandCell q n = none := by
  classical
  obtain ⟨j1, j2⟩ := joined_command ls q n
  let P : Nat → Prop := fun k => ∃ (L : Loader T) (a : Nat), ls[k]? = some L ∧ L.commandCell q n = some a
  have hex : ∃ k, k ≤ ls.length ∧ P k := by
    by_contra hno
    push Not at hno
    rw [j2 fun L hL => ?_] at h
    · cases h
    · obtain ⟨k, hk⟩ := List.getElem?_of_mem hL
      cases e : L.commandCell q n with
      | none => rfl
      | some a => exact absurd ⟨L, a, hk, e⟩ (hno k (List.getElem?_eq_some_iff.1 hk).1.le)
  obtain ⟨k0, hk0, hP⟩ := hex
  obtain ⟨L, a, hL, ha⟩ := Nat.findGreatest_spec hk0 hP
  have hlast : ∀ (k' : Nat) (L' : Loader T), Nat.findGreatest P ls.length < k' → ls[k']? = some L' → L'.commandCell q n = none := by
    intro k' L' hk hL'
    cases e : L'.commandCell q n with
    | none => rfl
    | some a' => exact absurd ⟨L', a', hL', e⟩ (Nat.findGreatest_is_greatest hk (List.getElem?_eq_some_iff.1 hL').1.le)
  rw [j1 _ L a hL ha hlast] at h
  cases h
  exact ⟨_, L, a, hL, ha, rfl, hlast⟩

theorem claiming_command {n : Nat} {U : String} (hp : places n U ≠ []) (hc : stdEnv.claiming U = true) :
    ∃ q, U = Whole.interfaceName q := by
  unfold places at hp
  split at hp
  · exact absurd rfl hp
  · rename_i j hj
    have := mem_of_smapFind hj
    simp only [List.mem_cons, Prod.mk.injEq, List.not_mem_nil, or_false] at this
    rcases this with ⟨rfl, rfl⟩ | ⟨rfl, rfl⟩ | ⟨rfl, rfl⟩ | ⟨rfl, rfl⟩
    · exact ⟨.effort, rfl⟩
    · exact absurd hc (by decide)
    · exact ⟨.position, rfl⟩
    · exact ⟨.velocity, rfl⟩

section

variable [Add T] [Sub T] [Mul T] [Div T] [OfNat T 0] [OfNat T 1] [OfNat T 2] [DecidableEq T] [LinearOrder K]
  {stod : String → Option T}

/-- The command of a joint, as something a list of handles has. -/
def HasCommand (ls : List (Loader T)) (gs : List Got) (k : Nat) (q : Cmd) (n : String) : Prop :=
  ∃ L a, ls[k]? = some L ∧ L.commandCell q n = some a ∧ ∃ g ∈ gs, g.exclusive = true ∧ g.handle = ⟨n, a * ls.length + k⟩

theorem Claimed.claims {ls : List (Loader T)} (hb : ∀ L ∈ ls, Based stod L) {out : InitOut} {Ts : List String}
    {bound : String → Option ObjId} {res : ObjId → List String} (h : Claimed ls out Ts bound res) (q : Cmd) (n : String) :
    ((∃ ir ∈ out.claimed, ir.hardwareInterface = Whole.interfaceName q ∧ n ∈ ir.resources) ↔
      ∃ k, HasCommand ls (gotten out.heap out.log) k q n) ∧
    ∀ k, HasCommand ls (gotten out.heap out.log) k q n → ∀ (k' : Nat) (L' : Loader T), k < k' → ls[k']? = some L' →
      L'.commandCell q n = none := by
  have back : ∀ k, HasCommand ls (gotten out.heap out.log) k q n → ∃ o, Whole.interfaceName q ∈ Ts ∧
      bound (Whole.interfaceName q) = some o ∧ (o, n) ∈ out.log ∧ (out.heap.objs o).claiming = true ∧
      ∀ (k' : Nat) (L' : Loader T), k < k' → ls[k']? = some L' → L'.commandCell q n = none := by
    rintro k ⟨L, a, hL, ha, g, hg, hx, he⟩
    obtain ⟨⟨o, n'⟩, h1, h2⟩ := List.mem_filterMap.1 hg
    simp only [Option.map_eq_some_iff] at h2
    obtain ⟨hd, h3, rfl⟩ := h2
    simp only at hx he
    obtain ⟨U, hU, hbU⟩ := h.uses _ h1
    obtain ⟨-, c2, c3, c4⟩ := h.exact U hU o hbU
    obtain ⟨q', rfl⟩ := claiming_command c3 (c2 ▸ hx)
    rw [Iface.rmGetHandle, c4, he] at h3
    obtain ⟨k', L', a', hL', ha', hh, hlast⟩ := joined_some h3
    have hn : n = n' := congrArg Handle.name hh
    subst hn
    have hd : a * ls.length + k = a' * ls.length + k' := congrArg Handle.data hh
    have hk := (List.getElem?_eq_some_iff.1 hL).1
    have hk' := (List.getElem?_eq_some_iff.1 hL').1
    have e1 : k = k' := by
      have := congrArg (· % ls.length) hd
      rwa [show (a * ls.length + k) % ls.length = k from place_mod hk a,
        show (a' * ls.length + k') % ls.length = k' from place_mod hk' a'] at this
    have e2 : a = a' := by
      have := congrArg (· / ls.length) hd
      rwa [show (a * ls.length + k) / ls.length = a from place_div hk a,
        show (a' * ls.length + k') / ls.length = a' from place_div hk' a'] at this
    subst e1 e2
    rw [hL] at hL'
    cases hL'
    obtain ⟨-, rfl⟩ := (hb L (List.mem_of_getElem? hL)).unique ha ha'
    exact ⟨o, hU, hbU, h1, hx, hlast⟩
  refine ⟨⟨?_, ?_⟩, fun k hk => ?_⟩
  · rintro ⟨ir, hir, h1, h2⟩
    rw [h.claimed] at hir
    obtain ⟨U, hU, e⟩ := List.mem_filterMap.1 hir
    obtain ⟨o, ho, rfl⟩ := Option.map_eq_some_iff.1 e
    simp only at h1 h2
    subst h1
    obtain ⟨c1, c2, c3, c4⟩ := h.exact _ hU o ho
    obtain ⟨h3, h4⟩ := (c1 n).1 h2
    obtain ⟨hd, hhd⟩ := Option.ne_none_iff_exists'.1 (h.found _ h3)
    simp only at hhd
    have hj := hhd
    rw [c4] at hj
    obtain ⟨k, L, a, hL, ha, rfl, -⟩ := joined_some hj
    refine ⟨k, L, a, hL, ha, ⟨true, ⟨n, a * ls.length + k⟩⟩, List.mem_filterMap.2 ⟨(o, n), h3, ?_⟩, rfl, rfl⟩
    simp only [Iface.rmGetHandle, hhd, Option.map_some, h4]
  · rintro ⟨k, hk⟩
    obtain ⟨o, h1, h2, h3, h4, -⟩ := back k hk
    refine ⟨⟨Whole.interfaceName q, res o⟩, ?_, rfl, (((h.exact _ h1 o h2).1) n).2 ⟨h3, h4⟩⟩
    rw [h.claimed]
    exact List.mem_filterMap.2 ⟨_, h1, by rw [h2]; rfl⟩
  · obtain ⟨-, -, -, -, -, h5⟩ := back k hk
    exact h5

/-- The claims of controllers are the commands they hold. -/
structure Knows (ls : List (Loader T)) (s : Sys) : Prop where
  claims : ∀ sp ∈ s.mgr.cur, ∀ q n, (∃ ir ∈ sp.info.claimed, ir.hardwareInterface = Whole.interfaceName q ∧ n ∈ ir.resources) ↔
    ∃ k, HasCommand ls (s.held sp.c) k q n
  last : ∀ c k q n, HasCommand ls (s.held c) k q n → ∀ (k' : Nat) (L' : Loader T), k < k' → ls[k']? = some L' →
    L'.commandCell q n = none

theorem knows_step {ls : List (Loader T)} (hb : ∀ L ∈ ls, Based stod L) {s : Sys} (h : Knows ls s)
    (hv : SysInv stdEnv (interfaces ls) s) (ho : Offers ls s.robot s.heap) (op : SysOp) (hop : op.Good) :
    Knows ls (s.step stdEnv checkForConflict op) := by
  have hi := Mgr.inv_of_reachable hv.reach
  have plain : ∀ (o : Op) (robot : IMan) (heap : Heap), (∀ n e, o = .load n e → e.init = none) →
      Knows ls ⟨s.mgr.step checkForConflict o, robot, heap, s.held⟩ := by
    intro o robot heap hn
    refine ⟨fun sp hsp => ?_, h.last⟩
    by_cases hold : sp ∈ s.mgr.cur
    · exact h.claims sp hold
    · obtain ⟨e, h1, _, _, h2, _⟩ := Mgr.step_new hi o hsp hold
      rw [hn _ _ h1] at h2
      cases h2
  cases op with
  | update t r hw => exact plain (.update t r hw) _ _ (by simp)
  | unload n => exact plain (.unload n) _ _ (by simp)
  | switch r now p => exact plain (.switch r now p) _ _ (by simp)
  | reload f now p => exact plain (.reload f now p) _ _ (by simp)
  | poll ok e => exact plain (.poll ok e) _ _ (by simp)
  | load n r =>
    show Knows ls (s.load stdEnv n r)
    unfold Sys.load
    by_cases hr : s.mgr.reachesInit n r = true
    swap
    · simp only [hr]
      exact plain (.load n (r.env none)) _ _ (by intro _ _ e; cases e; rfl)
    simp only [hr, if_true]
    have hcl := init_claimed ls r.cls hop s.robot s.heap hv.typed ho
    generalize r.cls.initRequest stdEnv s.robot s.heap = out at *
    have failed : Knows ls ⟨s.mgr.load n (r.env none), out.robot, out.heap, s.held⟩ :=
      plain (.load n (r.env none)) _ _ (by intro _ _ e; cases e; rfl)
    match hret : out.ret with
    | none => exact failed
    | some false => exact failed
    | some true =>
      simp only
      obtain ⟨Ts, bound, res, hc⟩ := hcl hret
      obtain ⟨t, e⟩ := reachesInit_loaded hr out.claimed
      refine ⟨?_, ?_⟩
      · simp only [e, Mgr.loaded]
        intro sp hsp q n
        rcases List.mem_append.1 hsp with hsp | hsp
        · rw [if_neg (ne_of_lt (hi.fresh sp (Or.inl hsp)))]
          exact h.claims sp hsp q n
        · rw [List.mem_singleton] at hsp
          subst hsp
          rw [if_pos rfl]
          exact (hc.claims hb q n).1
      · intro c k q n
        simp only
        split
        · exact (hc.claims hb q n).2 k
        · exact h.last c k q n

theorem knows_reached {ls : List (Loader T)} (hb : ∀ L ∈ ls, Based stod L) {s : Sys}
    (h : Sys.Reached stdEnv (combined ls) (interfaces ls) s) : Knows ls s := by
  obtain ⟨ops, hops, rfl⟩ := h
  induction ops using List.reverseRecOn with
  | nil =>
    refine ⟨fun sp hsp => ?_, fun c k q n hc => ?_⟩
    · cases hsp
    · obtain ⟨L, a, -, -, g, hg, -⟩ := hc
      cases hg
  | append_singleton ops op ih =>
    have hr : Sys.Reached stdEnv (combined ls) (interfaces ls) ((Sys.start (combined ls) (interfaces ls)).run stdEnv
      checkForConflict ops) := ⟨ops, fun o ho => hops o (by simp [ho]), rfl⟩
    rw [Sys.run_append]
    exact knows_step hb (ih fun o ho => hops o (by simp [ho])) (sysInv_reached (combined_typed _) (interfaces_named _) hr)
      (offers_reached hr) op (hops op (by simp))

end

/-- What a part is told. -/
theorem told_received {hws : List IMan} {k : Nat} {hw : IMan} (h : hws[k]? = some hw) (t : List Event) :
    Spec.told (t.flatMap (received hws k)) = Spec.told (t.map (Spec.partOfEvent hw)) := by
  have key : ∀ (start stop : List ControllerInfo) (hws : List IMan) (j : Nat),
      (Combined.doSwitchFrom start stop j hws).filterMap (call k) = if k < j then [] else
        (hws[k - j]?).toList.map fun hw => .doSwitch (Combined.filterControllerList hw start) (Combined.filterControllerList hw stop) := by
    intro start stop hws
    induction hws with
    | nil => intro j; simp [Combined.doSwitchFrom]
    | cons hw hws ih =>
      intro j
      rw [Combined.doSwitchFrom, List.filterMap_cons, ih, call]
      rcases lt_trichotomy j k with h | rfl | h
      · simp only [h.ne, if_false]
        rw [if_neg (by omega), if_neg (by omega), show k - j = k - (j + 1) + 1 by omega, List.getElem?_cons_succ]
      · simp
      · simp only [h.ne', if_false]
        rw [if_pos (by omega), if_pos (by omega)]
  unfold Spec.told
  rw [List.foldl_flatMap, List.foldl_map]
  congr 1
  funext l e
  cases e <;> try rfl
  rename_i start stop
  have := key start stop hws 0
  rw [if_neg (by omega), Nat.sub_zero, h] at this
  show List.foldl _ l ((Combined.doSwitch hws start stop).filterMap _) = _
  rw [Combined.doSwitch, this]
  rfl

/-- What a part reports as its resources. -/
theorem part_owns {ls : List (Loader T)} {k : Nat} {L : Loader T} (hL : ls[k]? = some L) (q : Cmd) (n : String) :
    Combined.Owns (part (interfaces ls) k) (Whole.interfaceName q) n ↔ L.commandCell q n ≠ none := by
  have key : ∀ j : Nat, j < 4 → (n ∈ ((interfaces ls).objs (4 * k + j)).getNames ↔
      smapFind n ((Whole.interfaces L).objs j).handles ≠ none) := by
    intro j hj
    have e1 : (4 * k + j) / 4 = k := by omega
    have e2 : (4 * k + j) % 4 = j := by omega
    have : ((interfaces ls).objs (4 * k + j)).handles =
        ((Whole.interfaces L).objs j).handles.map fun e => (e.1, ⟨e.2.name, place ls.length k e.2.data⟩) := by
      unfold interfaces
      dsimp only
      rw [e1, e2, hL]
    show n ∈ smapKeys _ ↔ _
    rw [← smapFind_isSome, this, find_map (fun e : Handle => (⟨e.name, place ls.length k e.data⟩ : Handle))]
    cases smapFind n ((Whole.interfaces L).objs j).handles <;> simp
  have fin : ∀ j, ((Whole.interfaces L).objs j).handles = Whole.commandHandles L q →
      (smapFind n ((Whole.interfaces L).objs j).handles ≠ none ↔ L.commandCell q n ≠ none) := by
    intro j hj
    rw [hj, Whole.find_commandHandles]
    cases L.commandCell q n <;> simp
  have own : ∀ (o : Nat) (names : List String), (part (interfaces ls) k).getNames = names → Whole.interfaceName q ∈ names →
      (part (interfaces ls) k).getInterfaceResources (Whole.interfaceName q) = ((interfaces ls).objs o).getNames →
      (Combined.Owns (part (interfaces ls) k) (Whole.interfaceName q) n ↔ n ∈ ((interfaces ls).objs o).getNames) := by
    intro o names h1 h2 h3
    unfold Combined.Owns
    rw [h1, h3]
    exact and_iff_right h2
  have hnames : (part (interfaces ls) k).getNames = ["hardware_interface::EffortJointInterface",
    "hardware_interface::JointStateInterface", "hardware_interface::PositionJointInterface",
    "hardware_interface::VelocityJointInterface"] := rfl
  cases q
  · exact (own (4 * k + 0) _ hnames (by decide) (List.append_nil _)).trans ((key 0 (by omega)).trans (fin 0 rfl))
  · exact (own (4 * k + 1) _ hnames (by decide) (List.append_nil _)).trans ((key 1 (by omega)).trans (fin 1 rfl))
  · exact (own (4 * k + 2) _ hnames (by decide) (List.append_nil _)).trans ((key 2 (by omega)).trans (fin 2 rfl))

end Verif.Parted
