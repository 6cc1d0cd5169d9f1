import Verif.Spec.InterfaceManager
import Verif.Lemmas.Resources

/-! Helper lemmas for interface managers. -/

namespace Verif

open Spec

namespace Heap

/-- All allocated objects are well formed. -/
def OK (h : Heap) : Prop := ∀ o, o < h.next → (h.objs o).WF

/-- `h'` extends `h` without touching its objects. -/
structure Ext (h h' : Heap) : Prop where
  next : h.next ≤ h'.next
  objs : ∀ o, o < h.next → h'.objs o = h.objs o

theorem Ext.refl (h : Heap) : Ext h h := ⟨le_refl _, fun _ _ => rfl⟩

theorem Ext.trans {a b c : Heap} (h1 : Ext a b) (h2 : Ext b c) : Ext a c :=
  ⟨le_trans h1.next h2.next, fun o ho =>
    (h2.objs o (lt_of_lt_of_le ho h1.next)).trans (h1.objs o ho)⟩

theorem ext_alloc (h : Heap) (v : Iface) : Ext h (h.alloc v).2 :=
  ⟨Nat.le_succ _, fun o ho => by simp [alloc, Nat.ne_of_lt ho]⟩

theorem OK.alloc {h : Heap} (hk : h.OK) {v : Iface} (hv : v.WF) : (h.alloc v).2.OK := by
  intro o ho
  simp only [Heap.alloc] at *
  by_cases h' : o = h.next
  · simpa [h'] using hv
  · simp only [h', if_false]; exact hk o (lt_of_le_of_ne (Nat.lt_succ_iff.1 ho) h')

end Heap

theorem offered_append (f : ObjId → Iface) (a b : List ObjId) (n : String) :
    offered f (a ++ b) n = (offered f b n).or (offered f a n) := by
  simp [offered, List.findSome?_append]

theorem offered_single (f : ObjId → Iface) (o : ObjId) (n : String) :
    offered f [o] n = smapFind n (f o).handles := by
  simp [offered]

theorem offered_congr {f g : ObjId → Iface} {l : List ObjId} (h : ∀ o ∈ l, f o = g o) (n : String) :
    offered f l n = offered g l n := by
  induction l with
  | nil => rfl
  | cons a l ih =>
    rw [← List.singleton_append, offered_append, offered_append, offered_single, offered_single,
      h a (by simp), ih fun o ho => h o (by simp [ho])]

namespace IMan

mutual

/-- Registered objects are allocated. -/
def RegOK (next : Nat) : IMan → Prop
  | node i _ _ _ s => (∀ T o, smapFind T i = some o → o < next) ∧ RegOKSubs next s

def RegOKSubs (next : Nat) : List IMan → Prop
  | [] => True
  | m :: ms => RegOK next m ∧ RegOKSubs next ms

end

mutual

/-- Cached combinations are allocated; those that are of as many providers as there are now offer what is registered now. -/
def ComboOK (env : TypeEnv) (h : Heap) : IMan → Prop
  | node i c n r s =>
    (∀ T o, smapFind T c = some o → env.isRM T = true ∧ o < h.next ∧ 2 ≤ (smapFind T n).getD 0 ∧
      (smapFind T n).getD 0 ≤ providers T (node i c n r s) ∧
      ((smapFind T n).getD 0 = providers T (node i c n r s) →
      ∀ name, smapFind name (h.objs o).handles = offered h.objs (registered T (node i c n r s)) name)) ∧
    ComboOKSubs env h s

def ComboOKSubs (env : TypeEnv) (h : Heap) : List IMan → Prop
  | [] => True
  | m :: ms => ComboOK env h m ∧ ComboOKSubs env h ms

end

mutual

theorem RegOK.mono {a b : Nat} (hab : a ≤ b) : ∀ m, RegOK a m → RegOK b m
  | node i c n r s, h => by
    simp only [RegOK] at *
    exact ⟨fun T o ho => lt_of_lt_of_le (h.1 T o ho) hab, RegOKSubs.mono hab s h.2⟩

theorem RegOKSubs.mono {a b : Nat} (hab : a ≤ b) : ∀ s, RegOKSubs a s → RegOKSubs b s
  | [], _ => by simp [RegOKSubs]
  | m :: ms, h => by
    simp only [RegOKSubs] at *
    exact ⟨RegOK.mono hab m h.1, RegOKSubs.mono hab ms h.2⟩

end

mutual

theorem registered_lt {a : Nat} (T : String) : ∀ m, RegOK a m → ∀ o ∈ registered T m, o < a
  | node i c n r s, h, o, ho => by
    simp only [RegOK] at h
    simp only [registered, List.mem_append, Option.mem_toList] at ho
    rcases ho with ho | ho
    · exact h.1 T o ho
    · exact registeredSubs_lt T s h.2 o ho

theorem registeredSubs_lt {a : Nat} (T : String) : ∀ s, RegOKSubs a s → ∀ o ∈ registeredSubs T s, o < a
  | [], _, o, ho => by simp [registeredSubs] at ho
  | m :: ms, h, o, ho => by
    simp only [RegOKSubs] at h
    simp only [registeredSubs, List.mem_append] at ho
    rcases ho with ho | ho
    · exact registered_lt T m h.1 o ho
    · exact registeredSubs_lt T ms h.2 o ho

end

mutual

theorem ComboOK.ext {env : TypeEnv} {h h' : Heap} (e : h.Ext h') : ∀ m, RegOK h.next m → ComboOK env h m → ComboOK env h' m
  | node i c n r s, hr, hc => by
    have hlt := fun T => registered_lt T _ hr
    simp only [RegOK] at hr
    simp only [ComboOK] at *
    refine ⟨fun T o ho => ?_, ComboOKSubs.ext e s hr.2 hc.2⟩
    obtain ⟨h0, h1, hk2, hkp, h2⟩ := hc.1 T o ho
    refine ⟨h0, lt_of_lt_of_le h1 e.next, hk2, hkp, fun hk name => ?_⟩
    rw [e.objs o h1, h2 hk]
    exact offered_congr (fun x hx => (e.objs x (hlt T x hx)).symm) name

theorem ComboOKSubs.ext {env : TypeEnv} {h h' : Heap} (e : h.Ext h') :
    ∀ s, RegOKSubs h.next s → ComboOKSubs env h s → ComboOKSubs env h' s
  | [], _, _ => by simp [ComboOKSubs]
  | m :: ms, hr, hc => by
    simp only [RegOKSubs, ComboOKSubs] at *
    exact ⟨ComboOK.ext e m hr.1 hc.1, ComboOKSubs.ext e ms hr.2 hc.2⟩

end

mutual

theorem comboOK_of_noCache (env : TypeEnv) (h : Heap) : ∀ m, NoCache m → ComboOK env h m
  | node i c n r s, hc => by
    simp only [NoCache] at hc
    obtain ⟨rfl, hs⟩ := hc
    simp only [ComboOK]
    exact ⟨by simp [smapFind], comboOKSubs_of_noCache env h s hs⟩

theorem comboOKSubs_of_noCache (env : TypeEnv) (h : Heap) : ∀ s, NoCacheSubs s → ComboOKSubs env h s
  | [], _ => by simp [ComboOKSubs]
  | m :: ms, hc => by
    simp only [NoCacheSubs] at hc
    simp only [ComboOKSubs]
    exact ⟨comboOK_of_noCache env h m hc.1, comboOKSubs_of_noCache env h ms hc.2⟩

end

/-- What one `get` guarantees. -/
structure GetSpec (env : TypeEnv) (T : String) (m : IMan) (h : Heap)
    (r : Option ObjId) (m' : IMan) (h' : Heap) : Prop where
  ext : h.Ext h'
  ok : h'.OK
  regOK : RegOK h'.next m'
  comboOK : ComboOK env h' m'
  reg : ∀ T', registered T' m' = registered T' m
  lt : ∀ o, r = some o → o < h'.next
  none_iff : env.isRM T = true → (r = none ↔ registered T m = [])
  single : ∀ o, registered T m = [o] → r = some o
  nonRM : env.isRM T = false → ∀ o, r = some o → o ∈ registered T m
  content : env.isRM T = true → ∀ o, r = some o →
    ∀ name, smapFind name (h'.objs o).handles = offered h'.objs (registered T m) name


/-- What the loop over the sub-managers guarantees. -/
structure GetSubsSpec (env : TypeEnv) (T : String) (s : List IMan) (h : Heap)
    (l : List ObjId) (s' : List IMan) (h' : Heap) : Prop where
  ext : h.Ext h'
  ok : h'.OK
  regOK : RegOKSubs h'.next s'
  comboOK : ComboOKSubs env h' s'
  reg : ∀ T', registeredSubs T' s' = registeredSubs T' s
  prov : ∀ T', providersSubs T' s' = providersSubs T' s
  count : env.isRM T = true → l.length = providersSubs T s
  lt : ∀ o ∈ l, o < h'.next
  nil_iff : env.isRM T = true → (l = [] ↔ registeredSubs T s = [])
  empty : registeredSubs T s = [] → l = []
  single : ∀ o, registeredSubs T s = [o] → l = [o]
  nonRM : env.isRM T = false → ∀ o ∈ l, o ∈ registeredSubs T s
  content : env.isRM T = true →
    ∀ name, offered h'.objs l name = offered h'.objs (registeredSubs T s) name

theorem concat_content (env : TypeEnv) (T : String) {h : Heap} (hk : h.OK) (l : List ObjId)
    (hl : ∀ o ∈ l, o < h.next) :
    (Iface.concatManagers (l.map h.objs) { claiming := env.claiming T }).WF ∧
    ∀ name, smapFind name (Iface.concatManagers (l.map h.objs) { claiming := env.claiming T }).handles
      = offered h.objs l name := by
  obtain ⟨h1, _, _, h4⟩ := Iface.concatManagers_spec (l.map h.objs) { claiming := env.claiming T }
    (by
      intro m hm
      obtain ⟨o, ho, rfl⟩ := List.mem_map.1 hm
      exact hk o (hl o ho)) (Iface.WF.empty _)
  refine ⟨h1, fun name => ?_⟩
  rw [h4]
  simp only [smapFind, Option.or_none, offered, ← List.map_reverse, List.findSome?_map]
  rfl

/-- The branch of `get` that builds a new combination. -/
theorem rebuild_spec {env : TypeEnv} {T : String} {i c : List (String × ObjId)}
    {n : List (String × Nat)} {r : List (String × List String)} {s s' : List IMan} {h h' : Heap}
    {l : List ObjId} (hr : RegOK h.next (node i c n r s)) (hc : ComboOK env h (node i c n r s))
    (sp : GetSubsSpec env T s h l s' h')
    (hlen : 2 ≤ ((smapFind T i).toList ++ l).length) (hrm : env.isRM T = true) :
    let v := Iface.concatManagers (((smapFind T i).toList ++ l).map h'.objs)
      { claiming := env.claiming T }
    GetSpec env T (node i c n r s) h (some (h'.alloc v).1)
      (node i (smapInsert T (h'.alloc v).1 c) (smapInsert T ((smapFind T i).toList ++ l).length n) r s')
      (h'.alloc v).2 := by
  intro v
  have hlt := fun T' => registered_lt T' _ hr
  simp only [RegOK] at hr
  simp only [ComboOK] at hc
  have hown : ∀ o ∈ (smapFind T i).toList, o < h'.next := fun o ho =>
    lt_of_lt_of_le (hr.1 T o (by simpa using ho)) sp.ext.next
  have hall : ∀ o ∈ (smapFind T i).toList ++ l, o < h'.next := by
    intro o ho
    rcases List.mem_append.1 ho with h1 | h1
    · exact hown o h1
    · exact sp.lt o h1
  obtain ⟨hv, hcon⟩ := concat_content env T sp.ok _ hall
  have e2 := h'.ext_alloc v
  have e := sp.ext.trans e2
  have hreg : ∀ T', registered T' (node i (smapInsert T (h'.alloc v).1 c)
      (smapInsert T ((smapFind T i).toList ++ l).length n) r s') = registered T' (node i c n r s) := by
    intro T'; simp only [registered, sp.reg]
  have hlt' : ∀ T', ∀ o ∈ registered T' (node i c n r s), o < h'.next := fun T' o ho =>
    lt_of_lt_of_le (hlt T' o ho) sp.ext.next
  have hnew : ∀ name, smapFind name ((h'.alloc v).2.objs (h'.alloc v).1).handles =
      offered (h'.alloc v).2.objs (registered T (node i c n r s)) name := by
    intro name
    have : (h'.alloc v).2.objs (h'.alloc v).1 = v := by simp [Heap.alloc]
    rw [this, hcon, offered_congr (fun o ho => e2.objs o (hlt' T o ho)), registered,
      offered_append, offered_append, sp.content hrm]
  have hnewlt : (h'.alloc v).1 < (h'.alloc v).2.next := by simp [Heap.alloc]
  have hprov : ∀ T', providers T' (node i (smapInsert T (h'.alloc v).1 c)
      (smapInsert T ((smapFind T i).toList ++ l).length n) r s') = providers T' (node i c n r s) := by
    intro T'; simp only [providers, sp.prov]
  have hcount : ((smapFind T i).toList ++ l).length = providers T (node i c n r s) := by
    simp only [providers, List.length_append, sp.count hrm]
  refine ⟨e, sp.ok.alloc hv, ?_, ?_, hreg, ?_, ?_, ?_, ?_, ?_⟩
  · simp only [RegOK]
    exact ⟨fun T' o ho => lt_of_lt_of_le (hr.1 T' o ho) e.next, RegOKSubs.mono e2.next s' sp.regOK⟩
  · simp only [ComboOK]
    refine ⟨fun T' o ho => ?_, ComboOKSubs.ext e2 s' sp.regOK sp.comboOK⟩
    rw [smapFind_insert] at ho
    rw [hreg, hprov, smapFind_insert]
    split at ho
    · rename_i hT; subst hT; cases ho
      rw [if_pos rfl, Option.getD_some]
      exact ⟨hrm, hnewlt, hlen, hcount.le, fun _ => hnew⟩
    · rename_i hT
      rw [if_neg hT]
      obtain ⟨h0, h1, hk2, hkp, h2⟩ := hc.1 T' o ho
      refine ⟨h0, lt_of_lt_of_le h1 e.next, hk2, hkp, fun hk name => ?_⟩
      rw [e.objs o h1, h2 hk]
      exact offered_congr (fun x hx => (e.objs x (hlt T' x hx)).symm) name
  · rintro o ⟨⟩; exact hnewlt
  · intro _
    simp only [reduceCtorEq, false_iff]
    intro h0
    simp only [registered, List.append_eq_nil_iff] at h0
    have := (sp.nil_iff hrm).2 h0.2
    simp [h0.1, this] at hlen
  · intro o ho
    exfalso
    simp only [registered] at ho
    cases hi : smapFind T i with
    | none =>
      simp only [hi, Option.toList_none, List.nil_append] at ho hlen
      rw [sp.single o ho] at hlen; simp at hlen
    | some x =>
      simp only [hi, Option.toList_some, List.singleton_append, List.cons.injEq] at ho hlen
      rw [sp.empty ho.2] at hlen; simp at hlen
  · intro h0; rw [hrm] at h0; cases h0
  · rintro _ o ⟨⟩; exact hnew

/-- The branches of `get` that answer without building anything. -/
theorem plain_spec {env : TypeEnv} {T : String} {i c : List (String × ObjId)}
    {n : List (String × Nat)} {r : List (String × List String)} {s s' : List IMan} {h h' : Heap}
    {l : List ObjId} (hr : RegOK h.next (node i c n r s)) (hc : ComboOK env h (node i c n r s))
    (sp : GetSubsSpec env T s h l s' h') (res : Option ObjId)
    (hlt0 : ∀ o, res = some o → o < h'.next)
    (hnone : env.isRM T = true → (res = none ↔ (smapFind T i).toList ++ l = []))
    (hsingle : ∀ o, (smapFind T i).toList ++ l = [o] → res = some o)
    (hnonRM : env.isRM T = false → ∀ o, res = some o → o ∈ (smapFind T i).toList ++ l)
    (hcont : env.isRM T = true → ∀ o, res = some o → ∀ name,
      smapFind name (h'.objs o).handles = offered h'.objs (registered T (node i c n r s)) name) :
    GetSpec env T (node i c n r s) h res (node i c n r s') h' := by
  have hlt := fun T' => registered_lt T' _ hr
  simp only [RegOK] at hr
  simp only [ComboOK] at hc
  have hreg : ∀ T', registered T' (node i c n r s') = registered T' (node i c n r s) := by
    intro T'; simp only [registered, sp.reg]
  have hprov : ∀ T', providers T' (node i c n r s') = providers T' (node i c n r s) := by
    intro T'; simp only [providers, sp.prov]
  refine ⟨sp.ext, sp.ok, ?_, ?_, hreg, hlt0, ?_, ?_, ?_, hcont⟩
  · simp only [RegOK]
    exact ⟨fun T' o ho => lt_of_lt_of_le (hr.1 T' o ho) sp.ext.next, sp.regOK⟩
  · simp only [ComboOK]
    refine ⟨fun T' o ho => ?_, sp.comboOK⟩
    rw [hreg, hprov]
    obtain ⟨h0, h1, hk2, hkp, h2⟩ := hc.1 T' o ho
    refine ⟨h0, lt_of_lt_of_le h1 sp.ext.next, hk2, hkp, fun hk name => ?_⟩
    rw [sp.ext.objs o h1, h2 hk]
    exact offered_congr (fun x hx => (sp.ext.objs x (hlt T' x hx)).symm) name
  · intro hrm
    rw [hnone hrm, registered]
    simp only [List.append_eq_nil_iff, sp.nil_iff hrm]
  · intro o ho
    apply hsingle
    simp only [registered] at ho
    cases hi : smapFind T i with
    | none =>
      simp only [hi, Option.toList_none, List.nil_append] at ho ⊢
      exact sp.single o ho
    | some x =>
      simp only [hi, Option.toList_some, List.singleton_append, List.cons.injEq] at ho ⊢
      exact ⟨ho.1, sp.empty ho.2⟩
  · intro h0 o ho
    simp only [registered, List.mem_append]
    rcases List.mem_append.1 (hnonRM h0 o ho) with h1 | h1
    · exact Or.inl h1
    · exact Or.inr (sp.nonRM h0 o h1)

mutual

theorem get_spec (env : TypeEnv) (T : String) : ∀ (m : IMan) (h : Heap), h.OK → RegOK h.next m →
    ComboOK env h m → GetSpec env T m h (get env T m h).1 (get env T m h).2.1 (get env T m h).2.2
  | node i c n r s, h, hk, hr, hc => by
    have hlt := fun T' => registered_lt T' _ hr
    have sp := getSubs_spec env T s h hk (by simp only [RegOK] at hr; exact hr.2)
      (by simp only [ComboOK] at hc; exact hc.2)
    revert sp
    rw [get]
    rcases hg : getSubs env T s h with ⟨l, s', h'⟩
    intro sp
    simp only at sp ⊢
    have hown : ∀ o ∈ (smapFind T i).toList ++ l, o < h'.next := by
      intro o ho
      rcases List.mem_append.1 ho with h1 | h1
      · simp only [RegOK] at hr
        exact lt_of_lt_of_le (hr.1 T o (by simpa using h1)) sp.ext.next
      · exact sp.lt o h1
    have hcontent : env.isRM T = true → ∀ name,
        offered h'.objs ((smapFind T i).toList ++ l) name =
          offered h'.objs (registered T (node i c n r s)) name := by
      intro hrm name
      rw [registered, offered_append, offered_append, sp.content hrm]
    rcases hl : (smapFind T i).toList ++ l with _ | ⟨a, _ | ⟨b, t⟩⟩
    · simp only
      refine plain_spec hr hc sp none (by simp) (by simp [hl]) (by simp [hl]) (by simp) (by simp)
    · simp only
      refine plain_spec hr hc sp (some a) ?_ (by simp [hl]) (by simp [hl]) (by simp [hl]) ?_
      · rintro o ⟨⟩; exact hown a (by simp [hl])
      · rintro hrm o ⟨⟩ name
        rw [← hcontent hrm, hl, offered_single]
    · have hlen : 2 ≤ ((smapFind T i).toList ++ l).length := by rw [hl]; simp
      have hb : ∀ (hrm : env.isRM T = true), _ := fun hrm => rebuild_spec hr hc sp hlen hrm
      rw [hl] at hb
      have hn : env.isRM T = false → GetSpec env T (node i c n r s) h none (node i c n r s') h' := by
        intro hrm
        refine plain_spec hr hc sp none (by simp) (by simp [hrm]) (by simp [hl]) (by simp) (by simp)
      cases hf : smapFind T c with
      | some o =>
        simp only
        obtain ⟨h0, h1, hk2, hkp, h2⟩ := (by simp only [ComboOK] at hc; exact hc.1 T o hf :
          env.isRM T = true ∧ o < h.next ∧ 2 ≤ (smapFind T n).getD 0 ∧
            (smapFind T n).getD 0 ≤ providers T (node i c n r s) ∧
            ((smapFind T n).getD 0 = providers T (node i c n r s) → ∀ name, smapFind name (h.objs o).handles =
            offered h.objs (registered T (node i c n r s)) name))
        split
        · rename_i hk
          rw [← hl, List.length_append, sp.count h0] at hk
          refine plain_spec hr hc sp (some o) ?_ (by simp [hl]) (by simp [hl]) (by simp [h0]) ?_
          · rintro o ⟨⟩; exact lt_of_lt_of_le h1 sp.ext.next
          · rintro hrm o ⟨⟩ name
            rw [sp.ext.objs o h1, h2 hk]
            exact offered_congr (fun x hx => (sp.ext.objs x (hlt T x hx)).symm) name
        · exact hb h0
      | none =>
        simp only
        cases hrm : env.isRM T with
        | true => simpa only [if_true] using hb hrm
        | false => simpa using hn hrm

theorem getSubs_spec (env : TypeEnv) (T : String) : ∀ (s : List IMan) (h : Heap), h.OK →
    RegOKSubs h.next s → ComboOKSubs env h s →
    GetSubsSpec env T s h (getSubs env T s h).1 (getSubs env T s h).2.1 (getSubs env T s h).2.2
  | [], h, hk, hr, hc => by
    simp only [getSubs]
    exact ⟨Heap.Ext.refl h, hk, hr, hc, fun _ => rfl, fun _ => rfl, fun _ => rfl, by simp, by simp [registeredSubs], by simp,
      by simp [registeredSubs], by simp, fun _ _ => rfl⟩
  | m :: ms, h, hk, hr, hc => by
    simp only [RegOKSubs] at hr
    simp only [ComboOKSubs] at hc
    have sp := get_spec env T m h hk hr.1 hc.1
    revert sp
    rw [getSubs]
    rcases hg : get env T m h with ⟨r, m', h'⟩
    intro sp
    simp only at sp ⊢
    have sq := getSubs_spec env T ms h' sp.ok (RegOKSubs.mono sp.ext.next ms hr.2)
      (ComboOKSubs.ext sp.ext ms hr.2 hc.2)
    revert sq
    rcases hg2 : getSubs env T ms h' with ⟨l, ms', h''⟩
    intro sq
    simp only at sq ⊢
    have hmlt := fun T' => registered_lt T' m' sp.regOK
    refine ⟨sp.ext.trans sq.ext, sq.ok, ?_, ?_, ?_, ?_, ?_, ?_, ?_, ?_, ?_, ?_, ?_⟩
    · simp only [RegOKSubs]
      exact ⟨RegOK.mono sq.ext.next m' sp.regOK, sq.regOK⟩
    · simp only [ComboOKSubs]
      exact ⟨ComboOK.ext sq.ext m' sp.regOK sp.comboOK, sq.comboOK⟩
    · intro T'; simp only [registeredSubs, sp.reg, sq.reg]
    · intro T'; simp only [providersSubs, sp.reg, sq.prov]
    · intro hrm
      have h0 := sp.none_iff hrm
      rw [List.length_append, sq.count hrm, providersSubs]
      cases r with
      | none => rw [if_pos (h0.1 rfl)]; rfl
      | some o => rw [if_neg (fun e => by cases h0.2 e)]; rfl
    · intro o ho
      rcases List.mem_append.1 ho with h1 | h1
      · exact lt_of_lt_of_le (sp.lt o (by simpa using h1)) sq.ext.next
      · exact sq.lt o h1
    · intro hrm
      simp only [registeredSubs, List.append_eq_nil_iff, sq.nil_iff hrm, ← sp.none_iff hrm]
      simp
    · intro h0
      simp only [registeredSubs, List.append_eq_nil_iff] at h0
      simp only [List.append_eq_nil_iff, sq.empty h0.2, and_true]
      cases hr' : r with
      | none => rfl
      | some o =>
        exfalso
        cases hrm : env.isRM T with
        | true => rw [(sp.none_iff hrm).2 h0.1] at hr'; cases hr'
        | false => have := sp.nonRM hrm o hr'; rw [h0.1] at this; simp at this
    · intro o ho
      simp only [registeredSubs] at ho
      rcases List.append_eq_singleton_iff.1 ho with ⟨h1, h2⟩ | ⟨h1, h2⟩
      · rw [sq.single o h2]
        have : r = none := by
          cases hr' : r with
          | none => rfl
          | some x =>
            exfalso
            cases hrm : env.isRM T with
            | true => rw [(sp.none_iff hrm).2 h1] at hr'; cases hr'
            | false => have := sp.nonRM hrm x hr'; rw [h1] at this; simp at this
        simp [this]
      · rw [sq.empty h2, sp.single o h1]; simp
    · intro hrm o ho
      simp only [registeredSubs, List.mem_append]
      rcases List.mem_append.1 ho with h1 | h1
      · exact Or.inl (sp.nonRM hrm o (by simpa using h1))
      · exact Or.inr (sq.nonRM hrm o h1)
    · intro hrm name
      rw [registeredSubs, offered_append, offered_append, sq.content hrm]
      congr 1
      cases hr' : r with
      | none => rw [(sp.none_iff hrm).1 hr']; simp
      | some o =>
        simp only [Option.toList_some, offered_single]
        rw [sq.ext.objs o (sp.lt o hr'), sp.content hrm o hr']
        refine offered_congr (fun x hx => (sq.ext.objs x ?_).symm) name
        exact hmlt T x (by rw [sp.reg]; exact hx)

end


mutual

/-- After a `get` the caches are settled: asking again, in any memory, gives the same pointer
and changes nothing. -/
theorem get_settled (env : TypeEnv) (T : String) : ∀ (m : IMan) (h g : Heap),
    get env T (get env T m h).2.1 g = ((get env T m h).1, (get env T m h).2.1, g)
  | node i c n r s, h, g => by
    have ih := getSubs_settled env T s h g
    revert ih
    rw [get]
    rcases hg : getSubs env T s h with ⟨l, s', h'⟩
    intro ih
    simp only at ih ⊢
    rcases hl : (smapFind T i).toList ++ l with _ | ⟨a, _ | ⟨b, t⟩⟩
    · simp only; rw [get, ih]; simp only [hl]
    · simp only; rw [get, ih]; simp only [hl]
    · cases hf : smapFind T c with
      | some o =>
        simp only
        by_cases h1 : (smapFind T n).getD 0 = (a :: b :: t).length
        · simp only [h1, if_true]; rw [get, ih]; simp only [hl, hf, h1, if_true]
        · simp only [h1, if_false]
          cases hrm : env.isRM T with
          | true =>
            simp only [if_true]; rw [get, ih]
            simp only [hl, smapFind_insert, if_true, Option.getD_some]
          | false =>
            simp only [Bool.false_eq_true, if_false]; rw [get, ih]
            simp only [hl, hf, h1, hrm, Bool.false_eq_true, if_false]
      | none =>
        cases hrm : env.isRM T with
        | true =>
          simp only [if_true]; rw [get, ih]
          simp only [hl, smapFind_insert, if_true, Option.getD_some]
        | false =>
          simp only [Bool.false_eq_true, if_false]; rw [get, ih]
          simp only [hl, hf, hrm, Bool.false_eq_true, if_false]

theorem getSubs_settled (env : TypeEnv) (T : String) : ∀ (s : List IMan) (h g : Heap),
    getSubs env T (getSubs env T s h).2.1 g = ((getSubs env T s h).1, (getSubs env T s h).2.1, g)
  | [], h, g => by simp [getSubs]
  | m :: ms, h, g => by
    have ih1 := get_settled env T m h g
    have ih2 := getSubs_settled env T ms (get env T m h).2.2 g
    rw [getSubs]
    rcases hg : get env T m h with ⟨r, m', h'⟩
    rw [hg] at ih1 ih2
    simp only at ih1 ih2 ⊢
    rcases hg2 : getSubs env T ms h' with ⟨l, ms', h''⟩
    rw [hg2] at ih2
    simp only at ih2 ⊢
    rw [getSubs, ih1]
    simp only [ih2]

end

mutual

theorem modifyAt_regOK (f : IMan → IMan) (a : Nat) (hf : ∀ m, RegOK a m → RegOK a (f m)) :
    ∀ (p : List Nat) (m : IMan), RegOK a m → RegOK a (modifyAt f p m)
  | [], m, h => by rw [modifyAt]; exact hf m h
  | k :: p, node i c n r s, h => by
    rw [modifyAt]
    simp only [RegOK] at *
    exact ⟨h.1, modifySubs_regOK f a hf k p s h.2⟩

theorem modifySubs_regOK (f : IMan → IMan) (a : Nat) (hf : ∀ m, RegOK a m → RegOK a (f m)) :
    ∀ (k : Nat) (p : List Nat) (s : List IMan), RegOKSubs a s → RegOKSubs a (modifySubs f k p s)
  | _, _, [], h => by rw [modifySubs]; exact h
  | 0, p, m :: ms, h => by
    rw [modifySubs]; simp only [RegOKSubs] at *
    exact ⟨modifyAt_regOK f a hf p m h.1, h.2⟩
  | k + 1, p, m :: ms, h => by
    rw [modifySubs]; simp only [RegOKSubs] at *
    exact ⟨h.1, modifySubs_regOK f a hf k p ms h.2⟩

end

mutual

theorem modifyAt_noCache (f : IMan → IMan) (hf : ∀ m, NoCache m → NoCache (f m)) :
    ∀ (p : List Nat) (m : IMan), NoCache m → NoCache (modifyAt f p m)
  | [], m, h => by rw [modifyAt]; exact hf m h
  | k :: p, node i c n r s, h => by
    rw [modifyAt]
    simp only [NoCache] at *
    exact ⟨h.1, modifySubs_noCache f hf k p s h.2⟩

theorem modifySubs_noCache (f : IMan → IMan) (hf : ∀ m, NoCache m → NoCache (f m)) :
    ∀ (k : Nat) (p : List Nat) (s : List IMan), NoCacheSubs s → NoCacheSubs (modifySubs f k p s)
  | _, _, [], h => by rw [modifySubs]; exact h
  | 0, p, m :: ms, h => by
    rw [modifySubs]; simp only [NoCacheSubs] at *
    exact ⟨modifyAt_noCache f hf p m h.1, h.2⟩
  | k + 1, p, m :: ms, h => by
    rw [modifySubs]; simp only [NoCacheSubs] at *
    exact ⟨h.1, modifySubs_noCache f hf k p ms h.2⟩

end

theorem regOKSubs_append (a : Nat) (s t : List IMan) :
    RegOKSubs a (s ++ t) ↔ RegOKSubs a s ∧ RegOKSubs a t := by
  induction s with
  | nil => simp [RegOKSubs]
  | cons m s ih => simp only [List.cons_append, RegOKSubs, ih, and_assoc]

theorem noCacheSubs_append (s t : List IMan) :
    NoCacheSubs (s ++ t) ↔ NoCacheSubs s ∧ NoCacheSubs t := by
  induction s with
  | nil => simp [NoCacheSubs]
  | cons m s ih => simp only [List.cons_append, NoCacheSubs, ih, and_assoc]

theorem registerInterface_regOK (env : TypeEnv) (T : String) {o a : Nat} (h : Heap) (ho : o < a) (m : IMan)
    (hm : RegOK a m) : RegOK a (registerInterface env T o h m) := by
  cases m with
  | node i c n r s =>
    simp only [registerInterface, RegOK] at *
    refine ⟨fun T' o' => ?_, hm.2⟩
    rw [smapFind_insert]
    split
    · rintro ⟨⟩; exact ho
    · exact hm.1 T' o'

theorem registerManager_regOK (a : Nat) (m : IMan)
    (hm : RegOK a m) : RegOK a (registerInterfaceManager .empty m) := by
  cases m with
  | node i c n r s =>
    simp only [registerInterfaceManager, RegOK, regOKSubs_append] at *
    exact ⟨hm.1, hm.2, by simp [RegOKSubs, RegOK, empty, smapFind]⟩

theorem registerInterface_noCache (env : TypeEnv) (T : String) (o : Nat) (h : Heap) (m : IMan)
    (hm : NoCache m) : NoCache (registerInterface env T o h m) := by
  cases m with
  | node i c n r s => simpa only [registerInterface, NoCache] using hm

theorem registerManager_noCache (m : IMan)
    (hm : NoCache m) : NoCache (registerInterfaceManager .empty m) := by
  cases m with
  | node i c n r s =>
    simp only [registerInterfaceManager, NoCache, noCacheSubs_append] at *
    exact ⟨hm.1, hm.2, by simp [NoCacheSubs, NoCache, empty]⟩

end IMan

namespace IWorld

/-- Invariant of every history. -/
structure OK (w : IWorld) : Prop where
  heap : w.heap.OK
  reg : IMan.RegOK w.heap.next w.root

/-- Registrations only: not a `get`. -/
def IsReg : IOp → Prop
  | .get _ => False
  | _ => True

theorem OK.stepReg {env : TypeEnv} {w : IWorld} (h : OK w) (op : IOp) (hop : IsReg op) :
    OK (w.step env op) := by
  cases op with
  | registerInterface p T o =>
    simp only [step]; split
    · rename_i ho
      exact ⟨h.heap, IMan.modifyAt_regOK _ _ (IMan.registerInterface_regOK env T _ ho) p _ h.reg⟩
    · exact h
  | registerManager p =>
    exact ⟨h.heap, IMan.modifyAt_regOK _ _ (IMan.registerManager_regOK _) p _ h.reg⟩
  | newIface T =>
    exact ⟨h.heap.alloc (Iface.WF.empty _), IMan.RegOK.mono (Nat.le_succ _) _ h.reg⟩
  | registerHandle o hd =>
    simp only [step]; split
    · refine ⟨fun x hx => ?_, h.reg⟩
      simp only [Heap.set]; split
      · subst_vars; exact (h.heap _ hx).registerHandle hd
      · exact h.heap x hx
    · exact h
  | get T => exact absurd hop (by simp [IsReg])

theorem init_ok : OK init := by
  refine ⟨fun o ho => absurd ho (Nat.not_lt_zero o), ?_⟩
  simp [init, IMan.empty, IMan.RegOK, IMan.RegOKSubs, smapFind]

theorem noCache_step {env : TypeEnv} {w : IWorld} (h : NoCache w.root) (op : IOp) (hop : IsReg op) :
    NoCache (w.step env op).root := by
  cases op with
  | registerInterface p T o =>
    simp only [step]; split
    · exact IMan.modifyAt_noCache _ (IMan.registerInterface_noCache env T o _) p _ h
    · exact h
  | registerManager p => exact IMan.modifyAt_noCache _ IMan.registerManager_noCache p _ h
  | newIface T => exact h
  | registerHandle o hd => simp only [step]; split <;> exact h
  | get T => exact absurd hop (by simp [IsReg])

theorem run_reg {env : TypeEnv} (ops : List IOp) (hops : ∀ op ∈ ops, IsReg op) (w : IWorld)
    (h : OK w) (hc : NoCache w.root) : OK (w.run env ops) ∧ NoCache (w.run env ops).root := by
  induction ops generalizing w with
  | nil => exact ⟨h, hc⟩
  | cons op ops ih =>
    exact ih (fun x hx => hops x (List.mem_cons_of_mem _ hx)) _
      (h.stepReg op (hops op (by simp))) (noCache_step hc op (hops op (by simp)))

theorem run_gets {env : TypeEnv} (Ts : List String) (w : IWorld) (h : OK w)
    (hc : IMan.ComboOK env w.heap w.root) :
    OK (w.run env (Ts.map .get)) ∧
    IMan.ComboOK env (w.run env (Ts.map .get)).heap (w.run env (Ts.map .get)).root ∧
    w.heap.Ext (w.run env (Ts.map .get)).heap ∧
    ∀ T, registered T (w.run env (Ts.map .get)).root = registered T w.root := by
  induction Ts generalizing w with
  | nil => exact ⟨h, hc, Heap.Ext.refl _, fun _ => rfl⟩
  | cons T Ts ih =>
    have sp := IMan.get_spec env T w.root w.heap h.heap h.reg hc
    have hstep : w.step env (.get T) = ⟨(w.root.get env T w.heap).2.1, (w.root.get env T w.heap).2.2⟩ := rfl
    obtain ⟨h1, h2, h3, h4⟩ := ih (w.step env (.get T)) (by rw [hstep]; exact ⟨sp.ok, sp.regOK⟩)
      (by rw [hstep]; exact sp.comboOK)
    refine ⟨h1, h2, Heap.Ext.trans (by rw [hstep]; exact sp.ext) h3, fun T' => (h4 T').trans ?_⟩
    rw [hstep]; exact sp.reg T'

end IWorld

end Verif
