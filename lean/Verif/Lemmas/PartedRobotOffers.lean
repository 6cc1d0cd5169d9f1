import Verif.Lemmas.PartedRobot
import Verif.Lemmas.WholeRobotOffers
import Verif.Spec.InterfaceManager

/-!
Lemmas about whole robots with a combined hardware: what controllers find in the combined interfaces at any time.
-/

namespace Verif.Parted

open Verif.Transmission (Loader Cmd)
open Heap (SameIfaces sameIfaces_set)

variable {K : Type}

/-! ### Concatenated managers -/

theorem find_concat_one (m res : Iface) (hm : ∀ n h, smapFind n m.handles = some h → h.name = n) (n : String) :
    smapFind n ((m.getNames.foldl (fun res n =>
      match m.rmGetHandle n with
      | some h => res.registerHandle h
      | none => res) res).handles) = (smapFind n m.handles).or (smapFind n res.handles) := by
  have gen : ∀ (l : List String) (res : Iface), smapFind n ((l.foldl (fun res n =>
      match m.rmGetHandle n with
      | some h => res.registerHandle h
      | none => res) res).handles) =
        if n ∈ l then (smapFind n m.handles).or (smapFind n res.handles) else smapFind n res.handles := by
    intro l
    induction l with
    | nil => simp
    | cons a l ih =>
      intro res
      rw [List.foldl_cons, ih]
      have step : smapFind n (match m.rmGetHandle a with
          | some h => res.registerHandle h
          | none => res).handles =
          if n = a then (smapFind n m.handles).or (smapFind n res.handles)
          else smapFind n res.handles := by
        unfold Iface.rmGetHandle
        cases hf : smapFind a m.handles with
        | none =>
          by_cases hn : n = a
          · subst hn; simp [hf]
          · simp [hn]
        | some h =>
          simp only [Iface.find_registerHandle, hm a h hf]
          by_cases hn : n = a
          · subst hn; simp [hf]
          · simp [hn]
      rw [step]
      by_cases hn : n = a
      · subst hn
        cases hf : smapFind n m.handles <;> simp
      · simp [hn]
  rw [gen]
  split
  · rfl
  · rename_i hn
    have : smapFind n m.handles = none := by
      cases hf : smapFind n m.handles with
      | none => rfl
      | some v => exact absurd ((smapFind_isSome n m.handles).1 (by simp [hf])) hn
    simp [this]

theorem find_concat (ms : List Iface) (res : Iface) (hm : ∀ m ∈ ms, ∀ n h, smapFind n m.handles = some h → h.name = n) (n : String) :
    smapFind n (Iface.concatManagers ms res).handles =
      (ms.reverse.findSome? fun m => smapFind n m.handles).or (smapFind n res.handles) := by
  induction ms generalizing res with
  | nil => simp [Iface.concatManagers]
  | cons m ms ih =>
    refine (ih _ fun x hx => hm x (List.mem_cons_of_mem _ hx)).trans ?_
    refine (congrArg (Option.or _) (find_concat_one m res (hm m (by simp)) n)).trans ?_
    simp only [List.reverse_cons, List.findSome?_append, List.findSome?_cons, List.findSome?_nil]
    cases (ms.reverse.findSome? fun m => smapFind n m.handles) <;>
      cases smapFind n m.handles <;> simp

/-! ### The combined interfaces -/

/-- The number of the interface among those of a part. -/
def slot (T : String) : Option Nat :=
  smapFind T [("hardware_interface::EffortJointInterface", 2), ("hardware_interface::JointStateInterface", 3),
    ("hardware_interface::PositionJointInterface", 0), ("hardware_interface::VelocityJointInterface", 1)]

/-- The interfaces of the parts, in order. -/
def places (n : Nat) (T : String) : List Nat :=
  match slot T with
  | none => []
  | some j => (List.range n).map fun k => 4 * k + j

theorem part_get (env : TypeEnv) (T : String) (h0 h : Heap) (k : Nat) :
    (part h0 k).get env T h = ((slot T).map fun j => 4 * k + j, part h0 k, h) := by
  have : (part h0 k).get env T h = (smapFind T [("hardware_interface::EffortJointInterface", 4 * k + 2),
      ("hardware_interface::JointStateInterface", 4 * k + 3), ("hardware_interface::PositionJointInterface", 4 * k),
      ("hardware_interface::VelocityJointInterface", 4 * k + 1)], part h0 k, h) := Whole.get_flat _ _ _ _ _ _ _
  rw [this]
  unfold slot
  simp only [smapFind]
  split
  · rfl
  · split
    · rfl
    · split
      · rfl
      · split <;> rfl

theorem parts_get (env : TypeEnv) (T : String) (h0 h : Heap) (l : List Nat) :
    IMan.getSubs env T (l.map (part h0)) h =
      (match slot T with | none => [] | some j => l.map fun k => 4 * k + j, l.map (part h0), h) := by
  induction l with
  | nil => cases slot T <;> rfl
  | cons k l ih =>
    rw [List.map_cons, IMan.getSubs, part_get]
    simp only [ih]
    cases slot T <;> rfl

/-- What the combined interface of a type has. -/
def joined (ls : List (Loader K)) (T n : String) : Option Handle :=
  (places ls.length T).reverse.findSome? fun o => smapFind n ((interfaces ls).objs o).handles

theorem places_lt {n : Nat} {T : String} {o : Nat} (h : o ∈ places n T) : o < 4 * n := by
  unfold places at h
  split at h
  · cases h
  · rename_i j hj
    obtain ⟨k, hk, rfl⟩ := List.mem_map.1 h
    have := List.mem_range.1 hk
    have : j < 4 := by
      have := mem_of_smapFind hj
      simp only [List.mem_cons, Prod.mk.injEq, List.not_mem_nil, or_false] at this
      omega
    omega

theorem slot_std {T : String} {j : Nat} (h : slot T = some j) :
    stdEnv.isRM T = true ∧ stdEnv.claiming T = decide (j ≠ 3) := by
  have := mem_of_smapFind h
  simp only [List.mem_cons, Prod.mk.injEq, List.not_mem_nil, or_false] at this
  rcases this with ⟨rfl, rfl⟩ | ⟨rfl, rfl⟩ | ⟨rfl, rfl⟩ | ⟨rfl, rfl⟩ <;> decide

/-- The interfaces are those of the parts, and combinations of them. -/
structure Offers (ls : List (Loader K)) (robot : IMan) (heap : Heap) : Prop where
  robot : ∃ c n, robot = .node [] c n [] ((List.range ls.length).map (part (interfaces ls))) ∧
    ∀ T o, smapFind T c = some o → 4 * ls.length ≤ o ∧ o < heap.next ∧ (heap.objs o).claiming = stdEnv.claiming T ∧
      ∀ n, smapFind n (heap.objs o).handles = joined ls T n
  next : 4 * ls.length ≤ heap.next
  handles : ∀ o, o < 4 * ls.length → (heap.objs o).handles = ((interfaces ls).objs o).handles
  claiming : ∀ o, o < 4 * ls.length → (heap.objs o).claiming = ((interfaces ls).objs o).claiming

theorem Offers.same {ls : List (Loader K)} {m : IMan} {h h' : Heap} (ho : Offers ls m h) (hs : h.SameIfaces h') : Offers ls m h' := by
  obtain ⟨⟨c, n, rfl, hc⟩, h1, h2, h3⟩ := ho
  refine ⟨⟨c, n, rfl, fun T o hT => ?_⟩, by rw [hs.next]; exact h1, fun o ho => by rw [hs.handles]; exact h2 o ho,
    fun o ho => by rw [hs.claiming]; exact h3 o ho⟩
  obtain ⟨g1, g2, g3, g4⟩ := hc T o hT
  exact ⟨g1, by rw [hs.next]; exact g2, by rw [hs.claiming]; exact g3, fun n => by rw [hs.handles]; exact g4 n⟩

theorem interfaces_find {ls : List (Loader K)} {o : Nat} {n : String} {h : Handle}
    (hf : smapFind n ((interfaces ls).objs o).handles = some h) : h.name = n :=
  interfaces_named ls o n h (mem_of_smapFind hf)

/-- `get` of the combined hardware. -/
theorem Offers.get {ls : List (Loader K)} {m : IMan} {h : Heap} (ho : Offers ls m h) (T : String) :
    Offers ls (m.get stdEnv T h).2.1 (m.get stdEnv T h).2.2 ∧
    (places ls.length T = [] → (m.get stdEnv T h).1 = none) ∧
    (places ls.length T ≠ [] → ∃ o, (m.get stdEnv T h).1 = some o ∧
      ((m.get stdEnv T h).2.2.objs o).claiming = stdEnv.claiming T ∧
      ∀ n, smapFind n ((m.get stdEnv T h).2.2.objs o).handles = joined ls T n) := by
  have ho' := ho
  obtain ⟨⟨c, n, rfl, hc⟩, h1, h2, h3⟩ := ho
  have hsubs : IMan.getSubs stdEnv T ((List.range ls.length).map (part (interfaces ls))) h =
      (places ls.length T, (List.range ls.length).map (part (interfaces ls)), h) := parts_get _ _ _ _ _
  have hobj : ∀ o ∈ places ls.length T, ∀ n, smapFind n (h.objs o).handles = smapFind n ((interfaces ls).objs o).handles :=
    fun o ho n => by rw [h2 o (places_lt ho)]
  have hone : ∀ o ∈ places ls.length T, (h.objs o).claiming = stdEnv.claiming T := by
    intro o ho
    rw [h3 o (places_lt ho)]
    unfold places at ho
    split at ho
    · cases ho
    · rename_i j hj
      obtain ⟨k, hk, rfl⟩ := List.mem_map.1 ho
      have hk := List.mem_range.1 hk
      have hj4 : j < 4 := by
        have := mem_of_smapFind hj
        simp only [List.mem_cons, Prod.mk.injEq, List.not_mem_nil, or_false] at this
        omega
      have e1 : (4 * k + j) / 4 = k := by omega
      have e2 : (4 * k + j) % 4 = j := by omega
      have := interfaces_claiming (ls := ls) (o := 4 * k + j) (L := ls[k]) (by rw [e1]; exact List.getElem?_eq_getElem hk)
      rw [this, e2, (slot_std hj).2]
      have : j = 0 ∨ j = 1 ∨ j = 2 ∨ j = 3 := by omega
      rcases this with rfl | rfl | rfl | rfl <;> rfl
  -- a new combination
  have hnew : stdEnv.isRM T = true → ∀ len : Nat,
      Offers ls (.node [] (smapInsert T (h.alloc (Iface.concatManagers ((places ls.length T).map h.objs)
          { claiming := stdEnv.claiming T })).1 c) (smapInsert T len n) []
          ((List.range ls.length).map (part (interfaces ls))))
        (h.alloc (Iface.concatManagers ((places ls.length T).map h.objs) { claiming := stdEnv.claiming T })).2 ∧
      ∃ o, some (h.alloc (Iface.concatManagers ((places ls.length T).map h.objs) { claiming := stdEnv.claiming T })).1 = some o ∧
        ((h.alloc (Iface.concatManagers ((places ls.length T).map h.objs)
          { claiming := stdEnv.claiming T })).2.objs o).claiming = stdEnv.claiming T ∧
        ∀ n, smapFind n ((h.alloc (Iface.concatManagers ((places ls.length T).map h.objs)
          { claiming := stdEnv.claiming T })).2.objs o).handles = joined ls T n := by
    intro _ len
    set v := Iface.concatManagers ((places ls.length T).map h.objs) { claiming := stdEnv.claiming T } with hv
    have hcl : v.claiming = stdEnv.claiming T := concatManagers_claiming _ _
    have hcon : ∀ n, smapFind n v.handles = joined ls T n := by
      intro n
      rw [hv, find_concat]
      · simp only [smapFind, Option.or_none, ← List.map_reverse, List.findSome?_map]
        unfold joined
        have : ∀ l : List Nat, (∀ o ∈ l, o ∈ places ls.length T) →
            l.findSome? ((fun m => smapFind n m.handles) ∘ h.objs) =
              l.findSome? fun o => smapFind n ((interfaces ls).objs o).handles := by
          intro l
          induction l with
          | nil => intro _; rfl
          | cons o l ih =>
            intro hl
            rw [List.findSome?_cons, List.findSome?_cons, ih fun x hx => hl x (by simp [hx])]
            simp only [Function.comp, hobj o (hl o (by simp))]
        exact this _ fun o ho => List.mem_reverse.1 ho
      · intro m hm n hd hf
        obtain ⟨o, ho, rfl⟩ := List.mem_map.1 hm
        rw [hobj o ho] at hf
        exact interfaces_find hf
    have hself : (h.alloc v).2.objs h.next = v := by simp [Heap.alloc]
    have hold : ∀ o, o < h.next → (h.alloc v).2.objs o = h.objs o := (h.ext_alloc v).objs
    refine ⟨⟨⟨_, _, rfl, fun T' o hT => ?_⟩, le_trans h1 (h.ext_alloc v).next, fun o ho => ?_, fun o ho => ?_⟩, h.next, rfl, ?_,
      fun n => ?_⟩
    · rw [smapFind_insert] at hT
      split at hT
      · rename_i hTT
        subst hTT
        cases hT
        refine ⟨h1, Nat.lt_succ_self _, ?_, fun n => ?_⟩
        · rw [show (h.alloc v).1 = h.next from rfl, hself, hcl]
        · rw [show (h.alloc v).1 = h.next from rfl, hself, hcon]
      · obtain ⟨g1, g2, g3, g4⟩ := hc T' o hT
        refine ⟨g1, Nat.lt_succ_of_lt g2, ?_, fun n => ?_⟩
        · rw [hold o g2, g3]
        · rw [hold o g2, g4]
    · rw [hold o (lt_of_lt_of_le ho h1), h2 o ho]
    · rw [hold o (lt_of_lt_of_le ho h1), h3 o ho]
    · rw [hself, hcl]
    · rw [hself, hcon]
  rw [IMan.get, hsubs]
  simp only [smapFind, Option.toList_none, List.nil_append]
  rcases hp : places ls.length T with _ | ⟨a, _ | ⟨b, t⟩⟩
  · exact ⟨ho', fun _ => rfl, fun h => absurd rfl h⟩
  · refine ⟨ho', fun h => absurd h (by simp), fun _ => ⟨a, rfl, hone a (by simp [hp]), fun n => ?_⟩⟩
    simp only
    rw [hobj a (by simp [hp]), joined, hp]
    simp
  · have hrm : stdEnv.isRM T = true := by
      unfold places at hp
      split at hp
      · cases hp
      · rename_i j hj
        exact (slot_std hj).1
    have hb := hnew hrm
    rw [hp] at hb
    simp only [hrm, if_true]
    cases hf : smapFind T c with
    | none => exact ⟨(hb _).1, fun h => absurd h (by simp), fun _ => (hb 0).2⟩
    | some o =>
      simp only
      obtain ⟨g1, g2, g3, g4⟩ := hc T o hf
      split
      · exact ⟨ho', fun h => absurd h (by simp), fun _ => ⟨o, rfl, g3, g4⟩⟩
      · exact ⟨(hb _).1, fun h => absurd h (by simp), fun _ => (hb 0).2⟩

theorem Offers.hasInterfaces {ls : List (Loader K)} (Ts : List String) {m : IMan} {h : Heap} (ho : Offers ls m h) :
    Offers ls (hasInterfaces stdEnv Ts m h).2.1 (hasInterfaces stdEnv Ts m h).2.2 := by
  induction Ts generalizing m h with
  | nil => exact ho
  | cons T Ts ih =>
    rw [Verif.hasInterfaces]
    have := (ho.get T).1
    rcases hg : m.get stdEnv T h with ⟨_ | o, m', h'⟩
    · rw [hg] at this; exact this
    · rw [hg] at this; exact ih this

theorem Offers.extract {ls : List (Loader K)} (Ts : List String) {m : IMan} (ctrl : IMan) {h : Heap} (ho : Offers ls m h) :
    Offers ls (extractInterfaceResources stdEnv Ts m ctrl h).1 (extractInterfaceResources stdEnv Ts m ctrl h).2.2 := by
  induction Ts generalizing m ctrl h with
  | nil => exact ho
  | cons T Ts ih =>
    rw [extractInterfaceResources]
    have := (ho.get T).1
    rcases hg : m.get stdEnv T h with ⟨_ | o, m', h'⟩
    · rw [hg] at this; exact ih _ this
    · rw [hg] at this; exact ih _ this

theorem Offers.init {ls : List (Loader K)} (cls : CtrlClass) {m : IMan} {h : Heap} (ho : Offers ls m h) :
    Offers ls (cls.initRequest stdEnv m h).robot (cls.initRequest stdEnv m h).heap := by
  cases cls with
  | single T p1 p2 =>
    show Offers ls (controllerInit stdEnv T p1 p2 _ _ h []).robot (controllerInit stdEnv T p1 p2 _ _ h []).heap
    unfold controllerInit
    split
    · exact ho
    · have h1 := (ho.get T).1
      rcases hg : m.get stdEnv T h with ⟨_ | hw, m', h'⟩
      · rw [hg] at h1
        exact h1
      · rw [hg] at h1
        simp only at h1 ⊢
        have e1 : h'.SameIfaces (h'.set hw (h'.objs hw).clearClaims) :=
          sameIfaces_set (by simp [Iface.clearClaims]) (by simp [Iface.clearClaims])
        have e2 := e1.trans (runInits_same (p1 hw) (p2 hw) _)
        split
        · exact h1.same e2
        · exact h1.same e2
        · exact h1.same (e2.trans (sameIfaces_set (by simp [Iface.clearClaims]) (by simp [Iface.clearClaims])))
  | multi Ts o p1 p2 =>
    show Offers ls (multiInit stdEnv Ts o p1 p2 _ _ h []).robot (multiInit stdEnv Ts o p1 p2 _ _ h []).heap
    unfold multiInit
    split
    · exact ho
    · have h1 : Offers ls (if o = true then (true, m, h) else Verif.hasInterfaces stdEnv Ts m h).2.1
          (if o = true then (true, m, h) else Verif.hasInterfaces stdEnv Ts m h).2.2 := by
        split
        · exact ho
        · exact ho.hasInterfaces Ts
      revert h1
      rcases (if o = true then (true, m, h) else Verif.hasInterfaces stdEnv Ts m h) with ⟨has, robot1, h1'⟩
      intro h1
      simp only at h1 ⊢
      split
      · exact h1
      · have h2 := h1.extract Ts .empty
        revert h2
        rcases extractInterfaceResources stdEnv Ts robot1 .empty h1' with ⟨robot2, ctrl, h2'⟩
        intro h2
        simp only at h2 ⊢
        have e2 := (clearClaimsAll_same (ctrlGet stdEnv ctrl h2') Ts h2').trans
          (runInits_same (p1 (ctrlGet stdEnv ctrl h2')) (p2 (ctrlGet stdEnv ctrl h2')) _)
        split
        · exact h2.same e2
        · exact h2.same e2
        · exact h2.same (e2.trans (clearClaimsAll_same _ _ _))

theorem offers_step {ls : List (Loader K)} {s : Sys} (h : Offers ls s.robot s.heap) (conf : List ControllerInfo → Bool) (op : SysOp) :
    Offers ls (s.step stdEnv conf op).robot (s.step stdEnv conf op).heap := by
  cases op with
  | load n r =>
    show Offers ls (s.load stdEnv n r).robot (s.load stdEnv n r).heap
    unfold Sys.load
    split
    · have hf := h.init r.cls
      simp only
      split
      · exact hf
      · exact hf
    · exact h
  | _ => exact h

theorem offers_reached {ls : List (Loader K)} {s : Sys} (h : Sys.Reached stdEnv (combined ls) (interfaces ls) s) :
    Offers ls s.robot s.heap := by
  obtain ⟨ops, -, rfl⟩ := h
  induction ops using List.reverseRecOn with
  | nil =>
    refine ⟨⟨[], [], combined_eq ls, by simp [smapFind]⟩, le_refl _, fun _ _ => rfl, fun _ _ => rfl⟩
  | append_singleton ops op ih =>
    rw [Sys.run_append]
    exact offers_step ih _ op

theorem find_map {α β : Type} (f : α → β) (n : String) (l : List (String × α)) :
    smapFind n (l.map fun e => (e.1, f e.2)) = (smapFind n l).map f := by
  induction l with
  | nil => rfl
  | cons e l ih =>
    rw [List.map_cons, smapFind, smapFind, ih]
    by_cases hn : n = e.1
    · simp [hn]
    · simp [hn]

/-- The handle of the last of the parts that have one. -/
theorem joined_last (ls : List (Loader K)) {T : String} {j : Nat} (hs : slot T = some j) (n : String) (g : Loader K → Option Nat)
    (hobj : ∀ L : Loader K, smapFind n ((Whole.interfaces L).objs j).handles = (g L).map fun a => ⟨n, a⟩) :
    (∀ (k : Nat) (L : Loader K) (a : Nat), ls[k]? = some L → g L = some a →
      (∀ (k' : Nat) (L' : Loader K), k < k' → ls[k']? = some L' → g L' = none) →
      joined ls T n = some ⟨n, a * ls.length + k⟩) ∧
    ((∀ L ∈ ls, g L = none) → joined ls T n = none) := by
  have hj : j < 4 := by
    have := mem_of_smapFind hs
    simp only [List.mem_cons, Prod.mk.injEq, List.not_mem_nil, or_false] at this
    omega
  have hfind : ∀ (k : Nat) (L : Loader K), ls[k]? = some L → smapFind n ((interfaces ls).objs (4 * k + j)).handles =
      (g L).map fun a => ⟨n, a * ls.length + k⟩ := by
    intro k L hL
    have e1 : (4 * k + j) / 4 = k := by omega
    have e2 : (4 * k + j) % 4 = j := by omega
    have : ((interfaces ls).objs (4 * k + j)).handles =
        ((Whole.interfaces L).objs j).handles.map fun e => (e.1, ⟨e.2.name, place ls.length k e.2.data⟩) := by
      unfold interfaces
      dsimp only
      rw [e1, e2, hL]
    rw [this, find_map (fun e : Handle => (⟨e.name, place ls.length k e.data⟩ : Handle)), hobj]
    cases g L <;> rfl
  have hplaces : places ls.length T = (List.range ls.length).map fun k => 4 * k + j := by
    unfold places
    rw [hs]
  have hj' : joined ls T n =
      (List.range ls.length).reverse.findSome? fun k => smapFind n ((interfaces ls).objs (4 * k + j)).handles := by
    unfold joined
    rw [hplaces, ← List.map_reverse, List.findSome?_map]
    rfl
  rw [hj']
  constructor
  · intro k L a hL ha hlast
    have hk := (List.getElem?_eq_some_iff.1 hL).1
    have : List.range ls.length = List.range k ++ k :: (List.range (ls.length - (k + 1))).map (fun x => k + 1 + x) := by
      conv_lhs => rw [show ls.length = (k + 1) + (ls.length - (k + 1)) by omega, List.range_add, List.range_succ]
      simp
    rw [this, List.reverse_append, List.reverse_cons, List.findSome?_append, List.findSome?_append]
    rw [List.findSome?_eq_none_iff.2]
    · rw [Option.none_or, List.findSome?_cons, hfind k L hL, ha]
      rfl
    · intro x hx
      obtain ⟨y, hy, rfl⟩ := List.mem_map.1 (List.mem_reverse.1 hx)
      have hy := List.mem_range.1 hy
      have hL' : ls[k + 1 + y]? = some ls[k + 1 + y] := List.getElem?_eq_getElem (by omega)
      rw [hfind _ _ hL', hlast _ _ (by omega) hL']
      rfl
  · intro h
    rw [List.findSome?_eq_none_iff]
    intro k hk
    have hk := List.mem_range.1 (List.mem_reverse.1 hk)
    rw [hfind k _ (List.getElem?_eq_getElem hk), h _ (List.getElem_mem hk)]
    rfl

/-- The command of a joint in the last of the parts that have one. -/
theorem joined_command (ls : List (Loader K)) (q : Cmd) (n : String) :
    (∀ (k : Nat) (L : Loader K) (a : Nat), ls[k]? = some L → L.commandCell q n = some a →
      (∀ (k' : Nat) (L' : Loader K), k < k' → ls[k']? = some L' → L'.commandCell q n = none) →
      joined ls (Whole.interfaceName q) n = some ⟨n, a * ls.length + k⟩) ∧
    ((∀ L ∈ ls, L.commandCell q n = none) → joined ls (Whole.interfaceName q) n = none) := by
  obtain ⟨j, hs, hobj⟩ : ∃ j, slot (Whole.interfaceName q) = some j ∧
      ∀ L : Loader K, ((Whole.interfaces L).objs j).handles = Whole.commandHandles L q := by
    cases q
    · exact ⟨0, by decide, fun _ => rfl⟩
    · exact ⟨1, by decide, fun _ => rfl⟩
    · exact ⟨2, by decide, fun _ => rfl⟩
  exact joined_last ls hs n (fun L => L.commandCell q n) fun L => by rw [hobj, Whole.find_commandHandles]

/-- The state of a joint in the last of the parts that have it. -/
theorem joined_state (ls : List (Loader K)) (n : String) :
    (∀ (k : Nat) (L : Loader K) (st : Transmission.StateCells), ls[k]? = some L → smapFind n L.jointState = some st →
      (∀ (k' : Nat) (L' : Loader K), k < k' → ls[k']? = some L' → smapFind n L'.jointState = none) →
      joined ls "hardware_interface::JointStateInterface" n = some ⟨n, st.position * ls.length + k⟩) ∧
    ((∀ L ∈ ls, smapFind n L.jointState = none) → joined ls "hardware_interface::JointStateInterface" n = none) := by
  obtain ⟨h1, h2⟩ := joined_last ls (T := "hardware_interface::JointStateInterface") (j := 3) (by decide) n
    (fun L => (smapFind n L.jointState).map (·.position)) fun L => by
      show smapFind n (L.jointState.map fun e => (e.1, (⟨e.1, e.2.position⟩ : Handle))) = _
      induction L.jointState with
      | nil => rfl
      | cons e l ih =>
        rw [List.map_cons, smapFind, smapFind, ih]
        by_cases hn : n = e.1
        · simp [hn]
        · simp [hn]
  refine ⟨fun k L st hL hst hl => h1 k L st.position hL (by rw [hst]; rfl) fun k' L' hk hL' => by rw [hl k' L' hk hL']; rfl,
    fun h => h2 fun L hL => by rw [h L hL]; rfl⟩

theorem places_state {ls : List (Loader K)} (h : ls ≠ []) : places ls.length "hardware_interface::JointStateInterface" ≠ [] := by
  intro e
  have := congrArg List.length e
  simp only [places, show slot "hardware_interface::JointStateInterface" = some 3 by decide, List.length_map, List.length_range,
    List.length_nil] at this
  exact h (List.eq_nil_of_length_eq_zero this)

/-- The combined interface of a kind of commands is there if there are parts. -/
theorem places_command {ls : List (Loader K)} (h : ls ≠ []) (q : Cmd) : places ls.length (Whole.interfaceName q) ≠ [] := by
  have : ∃ j, slot (Whole.interfaceName q) = some j := by
    cases q
    · exact ⟨0, by decide⟩
    · exact ⟨1, by decide⟩
    · exact ⟨2, by decide⟩
  obtain ⟨j, hj⟩ := this
  unfold places
  rw [hj]
  intro e
  have := congrArg List.length e
  simp only [List.length_map, List.length_range, List.length_nil] at this
  exact h (List.eq_nil_of_length_eq_zero this)

end Verif.Parted
