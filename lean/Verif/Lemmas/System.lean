import Verif.Spec.System
import Verif.Lemmas.ControllerInit
import Verif.Lemmas.InterfaceManager
import Verif.Lemmas.ManagerHandover
import Verif.Lemmas.ManagerHistory
import Verif.Props.ControllerInit
import Verif.Props.ManagerSafety

/-!
Lemmas for the manager together with the hardware interfaces.
-/

namespace Verif

/-! ### Interface objects -/

theorem mem_smapInsert {κ β : Type} [LinearOrder κ] {k k' : κ} {v v' : β} {m : List (κ × β)}
    (h : (k', v') ∈ smapInsert k v m) : (k' = k ∧ v' = v) ∨ (k', v') ∈ m := by
  induction m with
  | nil => left; simpa [smapInsert] using h
  | cons e t ih =>
    obtain ⟨ek, ev⟩ := e
    unfold smapInsert at h
    split at h
    · rcases List.mem_cons.1 h with h | h
      · left; simpa using h
      · right; exact h
    · split at h
      · rcases List.mem_cons.1 h with h | h
        · right; rw [h]; simp
        · rcases ih h with h | h
          · exact Or.inl h
          · exact Or.inr (List.mem_cons_of_mem _ h)
      · rcases List.mem_cons.1 h with h | h
        · left; simpa using h
        · right; exact List.mem_cons_of_mem _ h

theorem mem_registerHandle {o : Iface} {hd : Handle} {e : String × Handle} (h : e ∈ (o.registerHandle hd).handles) :
    e = (hd.name, hd) ∨ e ∈ o.handles := by
  obtain ⟨k, v⟩ := e
  unfold Iface.registerHandle at h
  split at h <;>
  · rcases mem_smapInsert h with ⟨h1, h2⟩ | h
    · left; rw [h1, h2]
    · right; exact h

theorem mem_concatManagers (ms : List Iface) (res : Iface) (hn : ∀ m ∈ ms, ∀ k hd, (k, hd) ∈ m.handles → hd.name = k)
    {e : String × Handle} (h : e ∈ (Iface.concatManagers ms res).handles) :
    e ∈ res.handles ∨ ∃ m ∈ ms, e ∈ m.handles := by
  induction ms generalizing res with
  | nil => exact Or.inl h
  | cons m ms ih =>
    have inner : ∀ (names : List String) (r : Iface), e ∈ (names.foldl (fun res n =>
        match m.rmGetHandle n with
        | some h => res.registerHandle h
        | none => res) r).handles → e ∈ r.handles ∨ e ∈ m.handles := by
      intro names
      induction names with
      | nil => intro r hr; exact Or.inl hr
      | cons n names ihn =>
        intro r hr
        rw [List.foldl_cons] at hr
        rcases ihn _ hr with hr | hr
        · split at hr
          · rename_i hd hf
            rcases mem_registerHandle hr with hr | hr
            · right
              have hm := mem_of_smapFind hf
              rw [hr, hn m (by simp) n hd hm]
              exact hm
            · exact Or.inl hr
          · exact Or.inl hr
        · exact Or.inr hr
    rcases ih _ (fun x hx => hn x (by simp [hx])) h with h | ⟨x, hx, h⟩
    · rcases inner m.getNames res h with h | h
      · exact Or.inl h
      · exact Or.inr ⟨m, by simp, h⟩
    · exact Or.inr ⟨x, by simp [hx], h⟩

theorem concatManagers_claiming (ms : List Iface) (res : Iface) :
    (Iface.concatManagers ms res).claiming = res.claiming := by
  induction ms generalizing res with
  | nil => rfl
  | cons m ms ih =>
    show (Iface.concatManagers ms _).claiming = _
    rw [ih]
    exact (Iface.concat_one_claiming m res).1

namespace Heap

/-- `h'` has the objects of `h` and perhaps combinations of them. -/
structure Derived (h h' : Heap) : Prop where
  ext : h.Ext h'
  named : h.Named → h'.Named
  exclusive : h.Named → ∀ hd, h'.Exclusive hd → h.Exclusive hd

theorem Derived.refl (h : Heap) : Derived h h := ⟨Ext.refl h, id, fun _ _ => id⟩

theorem Derived.trans {a b c : Heap} (h1 : Derived a b) (h2 : Derived b c) : Derived a c :=
  ⟨h1.ext.trans h2.ext, fun h => h2.named (h1.named h),
    fun h hd hx => h1.exclusive h hd (h2.exclusive (h1.named h) hd hx)⟩

theorem Derived.concat {h : Heap} (l : List ObjId) (b : Bool)
    (hl : ∀ o ∈ l, b = true → (h.objs o).claiming = true) :
    Derived h (h.alloc (Iface.concatManagers (l.map h.objs) { claiming := b })).2 := by
  have hmem : h.Named → ∀ e ∈ (Iface.concatManagers (l.map h.objs) { claiming := b }).handles,
      ∃ o ∈ l, e ∈ (h.objs o).handles := by
    intro hn e he
    have hnm : ∀ m ∈ l.map h.objs, ∀ k hd, (k, hd) ∈ m.handles → hd.name = k := by
      intro m hm
      obtain ⟨o, ho, rfl⟩ := List.mem_map.1 hm
      exact hn o
    rcases mem_concatManagers _ _ hnm he with he | ⟨m, hm, he⟩
    · exact absurd he (by simp)
    · obtain ⟨o, ho, rfl⟩ := List.mem_map.1 hm
      exact ⟨o, ho, he⟩
  refine ⟨ext_alloc _ _, fun hn => ?_, fun hn hd hx => ?_⟩
  · intro o k hd hm
    simp only [alloc] at hm
    split at hm
    · obtain ⟨x, hx, he⟩ := hmem hn _ hm
      exact hn x k hd he
    · exact hn o k hd hm
  · obtain ⟨o, hc, hm⟩ := hx
    simp only [alloc] at hc hm
    split at hm
    · rename_i ho
      rw [if_pos ho, concatManagers_claiming] at hc
      obtain ⟨x, hx, he⟩ := hmem hn _ hm
      exact ⟨x, hl x hx hc, he⟩
    · rename_i ho
      rw [if_neg ho] at hc
      exact ⟨o, hc, hm⟩

/-- The two heaps differ at most in claims. -/
structure SameIfaces (h h' : Heap) : Prop where
  next : h'.next = h.next
  handles : ∀ o, (h'.objs o).handles = (h.objs o).handles
  claiming : ∀ o, (h'.objs o).claiming = (h.objs o).claiming

theorem SameIfaces.refl (h : Heap) : SameIfaces h h := ⟨rfl, fun _ => rfl, fun _ => rfl⟩

theorem SameIfaces.trans {a b c : Heap} (h1 : SameIfaces a b) (h2 : SameIfaces b c) : SameIfaces a c :=
  ⟨h2.next.trans h1.next, fun o => (h2.handles o).trans (h1.handles o),
    fun o => (h2.claiming o).trans (h1.claiming o)⟩

theorem SameIfaces.exclusive {h h' : Heap} (hs : SameIfaces h h') {hd : Handle} (hx : h'.Exclusive hd) :
    h.Exclusive hd := by
  obtain ⟨o, h1, h2⟩ := hx
  exact ⟨o, by rw [← hs.claiming]; exact h1, by rw [← hs.handles]; exact h2⟩

theorem SameIfaces.named {h h' : Heap} (hs : SameIfaces h h') (hn : h.Named) : h'.Named := by
  intro o k hd hm
  rw [hs.handles] at hm
  exact hn o k hd hm

theorem sameIfaces_set {h : Heap} {o : ObjId} {v : Iface} (h1 : v.handles = (h.objs o).handles)
    (h2 : v.claiming = (h.objs o).claiming) : SameIfaces h (h.set o v) := by
  refine ⟨rfl, fun x => ?_, fun x => ?_⟩ <;> simp only [set] <;> split
  · rename_i e; rw [e, h1]
  · rfl
  · rename_i e; rw [e, h2]
  · rfl

end Heap

open Heap

mutual

theorem TypedRobot.mono {env : TypeEnv} {h h' : Heap} (hn : h.next ≤ h'.next)
    (hc : ∀ o, o < h.next → (h'.objs o).claiming = (h.objs o).claiming) :
    ∀ m, TypedRobot env h m → TypedRobot env h' m
  | .node i c n r s, ht => by
    simp only [TypedRobot] at ht ⊢
    obtain ⟨h1, h2, h3⟩ := ht
    refine ⟨fun T o ho => ?_, fun T o ho => ?_, TypedRobots.mono hn hc s h3⟩
    · obtain ⟨a, b⟩ := h1 T o ho
      exact ⟨lt_of_lt_of_le a hn, by rw [hc o a, b]⟩
    · obtain ⟨a, b⟩ := h2 T o ho
      exact ⟨lt_of_lt_of_le a hn, by rw [hc o a, b]⟩

theorem TypedRobots.mono {env : TypeEnv} {h h' : Heap} (hn : h.next ≤ h'.next)
    (hc : ∀ o, o < h.next → (h'.objs o).claiming = (h.objs o).claiming) :
    ∀ s, TypedRobots env h s → TypedRobots env h' s
  | [], _ => by simp [TypedRobots]
  | m :: ms, ht => by
    simp only [TypedRobots] at ht ⊢
    exact ⟨TypedRobot.mono hn hc m ht.1, TypedRobots.mono hn hc ms ht.2⟩

end

theorem TypedRobot.ext {env : TypeEnv} {h h' : Heap} (e : h.Ext h') {m : IMan} (ht : TypedRobot env h m) :
    TypedRobot env h' m := TypedRobot.mono e.next (fun o ho => by rw [e.objs o ho]) m ht

theorem TypedRobots.ext {env : TypeEnv} {h h' : Heap} (e : h.Ext h') {s : List IMan} (ht : TypedRobots env h s) :
    TypedRobots env h' s := TypedRobots.mono e.next (fun o ho => by rw [e.objs o ho]) s ht

theorem TypedRobot.same {env : TypeEnv} {h h' : Heap} (e : h.SameIfaces h') {m : IMan} (ht : TypedRobot env h m) :
    TypedRobot env h' m := TypedRobot.mono (le_of_eq e.next.symm) (fun o _ => e.claiming o) m ht

/-- What `get` does to a typed robot. -/
structure GetTyped (env : TypeEnv) (T : String) (h : Heap) (r : Option ObjId) (m' : IMan) (h' : Heap) : Prop where
  derived : h.Derived h'
  typed : TypedRobot env h' m'
  result : ∀ o, r = some o → o < h'.next ∧ (h'.objs o).claiming = env.claiming T

mutual

theorem get_typed (env : TypeEnv) (T : String) : ∀ (m : IMan) (h : Heap), TypedRobot env h m →
    GetTyped env T h (IMan.get env T m h).1 (IMan.get env T m h).2.1 (IMan.get env T m h).2.2
  | .node i c n r s, h, ht => by
    simp only [TypedRobot] at ht
    obtain ⟨ht1, ht2, ht3⟩ := ht
    obtain ⟨d, hs, hl⟩ := getSubs_typed env T s h ht3
    revert d hs hl
    rw [IMan.get]
    rcases hg : IMan.getSubs env T s h with ⟨l, s', h'⟩
    intro d hs hl
    simp only at d hs hl ⊢
    have hi : ∀ T o, smapFind T i = some o → o < h'.next ∧ (h'.objs o).claiming = env.claiming T := by
      intro T o ho
      obtain ⟨a, b⟩ := ht1 T o ho
      exact ⟨lt_of_lt_of_le a d.ext.next, by rw [d.ext.objs o a, b]⟩
    have hc : ∀ T o, smapFind T c = some o → o < h'.next ∧ (h'.objs o).claiming = env.claiming T := by
      intro T o ho
      obtain ⟨a, b⟩ := ht2 T o ho
      exact ⟨lt_of_lt_of_le a d.ext.next, by rw [d.ext.objs o a, b]⟩
    have hall : ∀ o ∈ (smapFind T i).toList ++ l, o < h'.next ∧ (h'.objs o).claiming = env.claiming T := by
      intro o ho
      rcases List.mem_append.1 ho with ho | ho
      · exact hi T o (by simpa using ho)
      · exact hl o ho
    have plain : TypedRobot env h' (.node i c n r s') := by
      simp only [TypedRobot]; exact ⟨hi, hc, hs⟩
    have build : ∀ k : Nat,
        GetTyped env T h
          (some (h'.alloc (Iface.concatManagers (((smapFind T i).toList ++ l).map h'.objs) { claiming := env.claiming T })).1)
          (.node i (smapInsert T (h'.alloc (Iface.concatManagers (((smapFind T i).toList ++ l).map h'.objs)
            { claiming := env.claiming T })).1 c) (smapInsert T k n) r s')
          (h'.alloc (Iface.concatManagers (((smapFind T i).toList ++ l).map h'.objs) { claiming := env.claiming T })).2 := by
      intro k
      have dd := Derived.concat (h := h') ((smapFind T i).toList ++ l) (env.claiming T)
        (fun o ho hb => by rw [(hall o ho).2, hb])
      have hnew : ∀ o, o = h'.next → o < (h'.alloc (Iface.concatManagers (((smapFind T i).toList ++ l).map h'.objs)
            { claiming := env.claiming T })).2.next ∧
          ((h'.alloc (Iface.concatManagers (((smapFind T i).toList ++ l).map h'.objs)
            { claiming := env.claiming T })).2.objs o).claiming = env.claiming T := by
        rintro o rfl
        exact ⟨by simp [Heap.alloc], by simp [Heap.alloc, concatManagers_claiming]⟩
      refine ⟨d.trans dd, ?_, ?_⟩
      · simp only [TypedRobot]
        refine ⟨fun T' o ho => ?_, fun T' o ho => ?_, hs.ext dd.ext⟩
        · obtain ⟨a, b⟩ := hi T' o ho
          exact ⟨lt_of_lt_of_le a dd.ext.next, by rw [dd.ext.objs o a, b]⟩
        · rw [smapFind_insert] at ho
          split at ho
          · rename_i e
            rw [e]
            exact hnew o (by simpa [Heap.alloc] using ho.symm)
          · obtain ⟨a, b⟩ := hc T' o ho
            exact ⟨lt_of_lt_of_le a dd.ext.next, by rw [dd.ext.objs o a, b]⟩
      · intro o ho
        exact hnew o (by simpa [Heap.alloc] using ho.symm)
    generalize hil : (smapFind T i).toList ++ l = il at hall build ⊢
    match il, hall, build with
    | [], _, _ => exact ⟨d, plain, by simp⟩
    | [o], hall, _ => exact ⟨d, plain, fun x hx => by cases hx; exact hall o (by simp)⟩
    | a :: b :: il, hall, build =>
      simp only
      cases hf : smapFind T c with
      | some o =>
        simp only
        split
        · exact ⟨d, plain, fun x hx => by cases hx; exact hc T o hf⟩
        · split
          · exact build _
          · exact ⟨d, plain, by simp⟩
      | none =>
        simp only
        split
        · exact build _
        · exact ⟨d, plain, by simp⟩

theorem getSubs_typed (env : TypeEnv) (T : String) : ∀ (s : List IMan) (h : Heap), TypedRobots env h s →
    h.Derived (IMan.getSubs env T s h).2.2 ∧
    TypedRobots env (IMan.getSubs env T s h).2.2 (IMan.getSubs env T s h).2.1 ∧
    ∀ o ∈ (IMan.getSubs env T s h).1, o < (IMan.getSubs env T s h).2.2.next ∧
      ((IMan.getSubs env T s h).2.2.objs o).claiming = env.claiming T
  | [], h, _ => by simp [IMan.getSubs, TypedRobots, Derived.refl]
  | m :: ms, h, ht => by
    simp only [TypedRobots] at ht
    have h1 := get_typed env T m h ht.1
    rw [IMan.getSubs]
    rcases hg : IMan.get env T m h with ⟨r, m', h'⟩
    rw [hg] at h1
    simp only at h1 ⊢
    have h2 := getSubs_typed env T ms h' (ht.2.ext h1.derived.ext)
    rcases hg2 : IMan.getSubs env T ms h' with ⟨l, ms', h''⟩
    rw [hg2] at h2
    simp only at h2 ⊢
    refine ⟨h1.derived.trans h2.1, ?_, ?_⟩
    · simp only [TypedRobots]
      exact ⟨h1.typed.ext h2.1.ext, h2.2.1⟩
    · intro o ho
      rcases List.mem_append.1 ho with ho | ho
      · obtain ⟨a, b⟩ := h1.result o (by simpa using ho)
        exact ⟨lt_of_lt_of_le a h2.1.ext.next, by rw [h2.1.ext.objs o a, b]⟩
      · exact h2.2.2 o ho

end

/-! ### Initialisation -/

theorem InitProg.run_same (p : InitProg) (h : Heap) : SameIfaces h (p.run h).heap := by
  induction p generalizing h with
  | done ok => exact SameIfaces.refl h
  | throws => exact SameIfaces.refl h
  | getHandle o name k ih =>
    have h1 : SameIfaces h (h.set o ((h.objs o).getHandle name).2) := by
      refine sameIfaces_set ?_ ?_
      · simp
      · simp
    unfold InitProg.run
    rcases hg : (h.objs o).getHandle name with ⟨r, v⟩
    rw [hg] at h1
    simp only at h1 ⊢
    split
    · exact h1.trans (ih r _)
    · exact h1.trans (ih r _)

theorem InitProg.run_uses {S : ObjId → Prop} (p : InitProg) (hu : p.Uses S) (h : Heap) :
    ∀ x ∈ (p.run h).log, S x.1 := by
  induction p generalizing h with
  | done ok => simp [InitProg.run]
  | throws => simp [InitProg.run]
  | getHandle o name k ih =>
    simp only [InitProg.Uses] at hu
    unfold InitProg.run
    rcases hg : (h.objs o).getHandle name with ⟨r, v⟩
    simp only
    split
    · intro x hx
      rcases List.mem_cons.1 hx with rfl | hx
      · exact hu.1
      · exact ih r (hu.2 r) _ x hx
    · exact ih r (hu.2 r) _

theorem runInits_same (p1 p2 : InitProg) (h : Heap) : SameIfaces h (runInits p1 p2 h).heap := by
  unfold runInits
  simp only
  split
  · exact (p1.run_same h).trans (p2.run_same _)
  · exact p1.run_same h

theorem runInits_uses {S : ObjId → Prop} (p1 p2 : InitProg) (h1 : p1.Uses S) (h2 : p2.Uses S) (h : Heap) :
    ∀ x ∈ (runInits p1 p2 h).log, S x.1 := by
  unfold runInits
  simp only
  split
  · intro x hx
    rcases List.mem_append.1 hx with hx | hx
    · exact p1.run_uses h1 h x hx
    · exact p2.run_uses h2 _ x hx
  · exact p1.run_uses h1 h

theorem hasInterfaces_typed (env : TypeEnv) (Ts : List String) (robot : IMan) (h : Heap) (ht : TypedRobot env h robot) :
    h.Derived (hasInterfaces env Ts robot h).2.2 ∧
      TypedRobot env (hasInterfaces env Ts robot h).2.2 (hasInterfaces env Ts robot h).2.1 := by
  induction Ts generalizing robot h with
  | nil => exact ⟨Derived.refl h, ht⟩
  | cons T Ts ih =>
    have h1 := get_typed env T robot h ht
    unfold hasInterfaces
    rcases hg : robot.get env T h with ⟨_ | o, r', h'⟩
    · rw [hg] at h1; exact ⟨h1.derived, h1.typed⟩
    · rw [hg] at h1
      obtain ⟨a, b⟩ := ih r' h' h1.typed
      exact ⟨h1.derived.trans a, b⟩

theorem extract_typed (env : TypeEnv) (Ts : List String) (robot ctrl : IMan) (h : Heap)
    (ht : TypedRobot env h robot) :
    h.Derived (extractInterfaceResources env Ts robot ctrl h).2.2 ∧
      TypedRobot env (extractInterfaceResources env Ts robot ctrl h).2.2
        (extractInterfaceResources env Ts robot ctrl h).1 := by
  induction Ts generalizing robot ctrl h with
  | nil => exact ⟨Derived.refl h, ht⟩
  | cons T Ts ih =>
    have h1 := get_typed env T robot h ht
    unfold extractInterfaceResources
    rcases hg : robot.get env T h with ⟨_ | o, r', h'⟩
    · rw [hg] at h1
      obtain ⟨a, b⟩ := ih r' ctrl h' h1.typed
      exact ⟨h1.derived.trans a, b⟩
    · rw [hg] at h1
      obtain ⟨a, b⟩ := ih r' (ctrl.registerInterface env T o h') h' h1.typed
      exact ⟨h1.derived.trans a, b⟩

theorem clearClaimsAll_same (get : String → Option ObjId) (Ts : List String) (h : Heap) :
    SameIfaces h (clearClaimsAll get Ts h) := by
  induction Ts generalizing h with
  | nil => exact SameIfaces.refl h
  | cons T Ts ih =>
    unfold clearClaimsAll
    split
    · exact ih h
    · exact (sameIfaces_set (by simp [Iface.clearClaims]) (by simp [Iface.clearClaims])).trans (ih _)

/-- What an initialisation leaves behind: the interface objects, perhaps with combinations. -/
structure InitLeaves (env : TypeEnv) (h : Heap) (out : InitOut) : Prop where
  named : h.Named → out.heap.Named
  exclusive : h.Named → ∀ hd, out.heap.Exclusive hd → h.Exclusive hd
  typed : TypedRobot env out.heap out.robot

theorem initLeaves_of {env : TypeEnv} {h h1 h2 : Heap} {out : InitOut} (d : h.Derived h1)
    (ht : TypedRobot env h1 out.robot) (hs : h1.SameIfaces h2) (e : out.heap = h2) : InitLeaves env h out :=
  ⟨fun hn => by rw [e]; exact hs.named (d.named hn),
    fun hn hd hx => by rw [e] at hx; exact d.exclusive hn hd (hs.exclusive hx),
    by rw [e]; exact ht.same hs⟩

theorem controllerInit_leaves (env : TypeEnv) (T : String) (p1 p2 : ObjId → InitProg) (s : CState) (robot : IMan)
    (h : Heap) (claimed : List InterfaceResources) (ht : TypedRobot env h robot) :
    InitLeaves env h (controllerInit env T p1 p2 s robot h claimed) := by
  unfold controllerInit
  split
  · exact initLeaves_of (Derived.refl h) ht (SameIfaces.refl h) rfl
  · have h1 := get_typed env T robot h ht
    rcases hg : robot.get env T h with ⟨_ | hw, robot', h'⟩
    · rw [hg] at h1
      exact initLeaves_of h1.derived h1.typed (SameIfaces.refl _) rfl
    · rw [hg] at h1
      simp only at h1 ⊢
      have e1 : SameIfaces h' (h'.set hw (h'.objs hw).clearClaims) :=
        sameIfaces_set (by simp [Iface.clearClaims]) (by simp [Iface.clearClaims])
      have e2 := e1.trans (runInits_same (p1 hw) (p2 hw) _)
      split
      · exact initLeaves_of h1.derived h1.typed e2 rfl
      · exact initLeaves_of h1.derived h1.typed e2 rfl
      · exact initLeaves_of h1.derived h1.typed
          (e2.trans (sameIfaces_set (by simp [Iface.clearClaims]) (by simp [Iface.clearClaims]))) rfl

theorem multiInit_leaves (env : TypeEnv) (Ts : List String) (o : Bool) (p1 p2 : (String → Option ObjId) → InitProg)
    (s : CState) (robot : IMan) (h : Heap) (claimed : List InterfaceResources) (ht : TypedRobot env h robot) :
    InitLeaves env h (multiInit env Ts o p1 p2 s robot h claimed) := by
  unfold multiInit
  split
  · exact initLeaves_of (Derived.refl h) ht (SameIfaces.refl h) rfl
  · have h1 : h.Derived (if o = true then (true, robot, h) else hasInterfaces env Ts robot h).2.2 ∧
        TypedRobot env (if o = true then (true, robot, h) else hasInterfaces env Ts robot h).2.2
          (if o = true then (true, robot, h) else hasInterfaces env Ts robot h).2.1 := by
      split
      · exact ⟨Derived.refl h, ht⟩
      · exact hasInterfaces_typed env Ts robot h ht
    revert h1
    rcases (if o = true then (true, robot, h) else hasInterfaces env Ts robot h) with ⟨has, robot1, h1'⟩
    rintro ⟨d1, t1⟩
    simp only at d1 t1 ⊢
    split
    · exact initLeaves_of d1 t1 (SameIfaces.refl _) rfl
    · have h2 := extract_typed env Ts robot1 .empty h1' t1
      revert h2
      rcases extractInterfaceResources env Ts robot1 .empty h1' with ⟨robot2, ctrl, h2'⟩
      rintro ⟨d2, t2⟩
      simp only at d2 t2 ⊢
      have e2 := (clearClaimsAll_same (ctrlGet env ctrl h2') Ts h2').trans
        (runInits_same (p1 (ctrlGet env ctrl h2')) (p2 (ctrlGet env ctrl h2')) _)
      split
      · exact initLeaves_of (d1.trans d2) t2 e2 rfl
      · exact initLeaves_of (d1.trans d2) t2 e2 rfl
      · exact initLeaves_of (d1.trans d2) t2 (e2.trans (clearClaimsAll_same _ _ _)) rfl

theorem init_leaves (env : TypeEnv) (cls : CtrlClass) (robot : IMan) (h : Heap) (ht : TypedRobot env h robot) :
    InitLeaves env h (cls.initRequest env robot h) := by
  cases cls with
  | single T p1 p2 => exact controllerInit_leaves env T p1 p2 _ robot h [] ht
  | multi Ts o p1 p2 => exact multiInit_leaves env Ts o p1 p2 _ robot h [] ht

theorem mem_gotten {h : Heap} {log : List (ObjId × String)} {g : Got} (hg : g ∈ gotten h log) :
    ∃ o n, (o, n) ∈ log ∧ (n, g.handle) ∈ (h.objs o).handles ∧ g.exclusive = (h.objs o).claiming := by
  obtain ⟨⟨o, n⟩, h1, h2⟩ := List.mem_filterMap.1 hg
  simp only [Option.map_eq_some_iff] at h2
  obtain ⟨hd, h3, rfl⟩ := h2
  exact ⟨o, n, h1, mem_of_smapFind h3, rfl⟩

/-- The exclusive handles a proper controller has obtained are among the claims it reports. -/
theorem init_claims (env : TypeEnv) (cls : CtrlClass) (hp : cls.Proper) (robot : IMan) (h : Heap)
    (hn : (cls.initRequest env robot h).heap.Named) (hr : (cls.initRequest env robot h).ret = some true) :
    ∀ g ∈ gotten (cls.initRequest env robot h).heap (cls.initRequest env robot h).log, g.exclusive = true →
      (∃ ir ∈ (cls.initRequest env robot h).claimed, g.handle.name ∈ ir.resources) ∧
      (cls.initRequest env robot h).heap.Exclusive g.handle := by
  intro g hg hx
  obtain ⟨o, n, h1, h2, h3⟩ := mem_gotten hg
  have h4 := hn o n _ h2
  have hc : ((cls.initRequest env robot h).heap.objs o).claiming = true := by rw [← h3, hx]
  refine ⟨?_, o, hc, by rw [h4]; exact h2⟩
  rw [h4]
  cases cls with
  | single T p1 p2 =>
    simp only [CtrlClass.initRequest] at hr h1 hc ⊢
    obtain ⟨hw, res, a1, a2, a3, -⟩ := c04_claims_exact env T p1 p2 .constructed robot h [] hr
    have key : ∀ x ∈ (controllerInit env T p1 p2 .constructed robot h []).log, x.1 = hw := by
      unfold controllerInit
      rw [if_neg (by simp)]
      rcases hg' : robot.get env T h with ⟨_ | hw', robot', h'⟩
      · simp
      · rw [hg'] at a1
        simp only at a1 ⊢
        cases a1
        split <;> exact runInits_uses _ _ (hp hw).1 (hp hw).2 _
    have hcl : ((controllerInit env T p1 p2 .constructed robot h []).heap.objs hw).claiming =
        ((robot.get env T h).2.2.objs hw).claiming := by
      unfold controllerInit
      rw [if_neg (by simp)]
      rcases hg' : robot.get env T h with ⟨_ | hw', robot', h'⟩
      · rfl
      · rw [hg'] at a1
        simp only at a1 ⊢
        cases a1
        have e1 : SameIfaces h' (h'.set hw (h'.objs hw).clearClaims) :=
          sameIfaces_set (by simp [Iface.clearClaims]) (by simp [Iface.clearClaims])
        have e2 := e1.trans (runInits_same (p1 hw) (p2 hw) _)
        split
        · exact e2.claiming hw
        · exact e2.claiming hw
        · exact (e2.trans (sameIfaces_set (by simp [Iface.clearClaims]) (by simp [Iface.clearClaims]))).claiming hw
    have ho : o = hw := key _ h1
    subst ho
    refine ⟨⟨T, res⟩, by rw [a2]; simp, ?_⟩
    rw [a3]
    exact ⟨h1, by rw [← hcl]; exact hc⟩
  | multi Ts oo p1 p2 =>
    simp only [CtrlClass.initRequest] at hr h1 hc ⊢
    obtain ⟨res, a1, a2, -⟩ := c04_claims_exact_multi env Ts oo p1 p2 .constructed robot h [] hr
    have key : ∀ x ∈ (multiInit env Ts oo p1 p2 .constructed robot h []).log,
        ∃ T ∈ Ts, (multiInit env Ts oo p1 p2 .constructed robot h []).bound T = some x.1 := by
      unfold multiInit
      rw [if_neg (by simp)]
      rcases (if oo = true then (true, robot, h) else hasInterfaces env Ts robot h) with ⟨has, robot1, h1'⟩
      simp only
      split
      · simp
      · rcases extractInterfaceResources env Ts robot1 .empty h1' with ⟨robot2, ctrl, h2'⟩
        simp only
        split <;> exact runInits_uses _ _ (hp _).1 (hp _).2 _
    obtain ⟨T, hT, hb⟩ := key _ h1
    refine ⟨⟨T, res o⟩, ?_, ?_⟩
    · rw [a1]
      exact List.mem_filterMap.2 ⟨T, hT, by rw [hb]; rfl⟩
    · exact ((a2 T hT o hb).1 n).2 ⟨h1, hc⟩

end Verif
