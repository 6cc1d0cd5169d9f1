import Verif.Spec.CombinedHW
import Verif.Lemmas.InterfaceListing

/-!
Lemmas about combined hardware.
-/

namespace Verif.Combined

theorem ssetInsert_last {r : String} {out : List String} (h : ∀ x ∈ out, x < r) :
    ssetInsert r out = out ++ [r] := by
  induction out with
  | nil => rfl
  | cons a t ih =>
    have ha := h a (by simp)
    simp only [ssetInsert, if_neg (lt_asymm ha), if_pos ha]
    rw [ih fun x hx => h x (by simp [hx])]
    rfl

theorem filterResources_eq (owned resources : List String) (hs : resources.Pairwise (· < ·)) :
    filterResources owned resources = resources.filter fun r => r ∈ owned := by
  unfold filterResources
  have gen : ∀ (l out : List String), l.Pairwise (· < ·) → (∀ x ∈ out, ∀ y ∈ l, x < y) →
      l.foldl (fun out r => if owned.contains r then ssetInsert r out else out) out =
        out ++ l.filter fun r => r ∈ owned := by
    intro l
    induction l with
    | nil => simp
    | cons a l ih =>
      intro out hl ho
      obtain ⟨h1, h2⟩ := List.pairwise_cons.1 hl
      rw [List.foldl_cons]
      by_cases ha : a ∈ owned
      · rw [if_pos (by simpa using ha), ssetInsert_last (fun x hx => ho x hx a (by simp)), ih _ h2]
        · simp [ha]
        · intro x hx y hy
          rcases List.mem_append.1 hx with hx | hx
          · exact ho x hx y (by simp [hy])
          · rw [List.mem_singleton.1 hx]; exact h1 y hy
      · rw [if_neg (by simpa using ha), ih _ h2 (fun x hx y hy => ho x hx y (by simp [hy]))]
        simp [ha]
  simpa using gen resources [] hs (by simp)

theorem mem_filterResources (owned resources : List String) (r : String) :
    r ∈ filterResources owned resources ↔ r ∈ resources ∧ r ∈ owned := by
  unfold filterResources
  have gen : ∀ (l out : List String),
      r ∈ l.foldl (fun out r => if owned.contains r then ssetInsert r out else out) out ↔
        r ∈ out ∨ (r ∈ l ∧ r ∈ owned) := by
    intro l
    induction l with
    | nil => simp
    | cons a l ih =>
      intro out
      rw [List.foldl_cons, ih]
      by_cases ha : a ∈ owned
      · rw [if_pos (by simpa using ha), mem_ssetInsert]
        constructor
        · rintro ((rfl | h) | h)
          · exact Or.inr ⟨by simp, ha⟩
          · exact Or.inl h
          · exact Or.inr ⟨by simp [h.1], h.2⟩
        · rintro (h | ⟨h, h'⟩)
          · exact Or.inl (Or.inr h)
          · rcases List.mem_cons.1 h with rfl | h
            · exact Or.inl (Or.inl rfl)
            · exact Or.inr ⟨h, h'⟩
      · rw [if_neg (by simpa using ha)]
        constructor
        · rintro (h | h)
          · exact Or.inl h
          · exact Or.inr ⟨by simp [h.1], h.2⟩
        · rintro (h | ⟨h, h'⟩)
          · exact Or.inl h
          · rcases List.mem_cons.1 h with rfl | h
            · exact absurd h' ha
            · exact Or.inr ⟨h, h'⟩
  simpa using gen resources []

theorem foldl_filterMap {α β : Type} (f : α → Option β) (g : List β → α → List β)
    (h : ∀ out a, g out a = out ++ (f a).toList) (l : List α) (out : List β) :
    l.foldl g out = out ++ l.filterMap f := by
  induction l generalizing out with
  | nil => simp
  | cons a l ih =>
    rw [List.foldl_cons, ih, h]
    cases hf : f a <;> simp [hf]

/-- The claim step as a partial function. -/
def claimStep (hw : IMan) (c : InterfaceResources) : Option InterfaceResources :=
  if hw.getNames.contains c.hardwareInterface then
    if !(filterResources (hw.getInterfaceResources c.hardwareInterface) c.resources).isEmpty then
      some ⟨c.hardwareInterface, filterResources (hw.getInterfaceResources c.hardwareInterface) c.resources⟩
    else none
  else none

theorem filterClaims_eq (hw : IMan) (cl : List InterfaceResources) :
    filterClaims hw cl = cl.filterMap (claimStep hw) := by
  unfold filterClaims
  rw [foldl_filterMap (claimStep hw)]
  · simp
  · intro out c
    simp only [claimStep]
    split
    · split <;> simp
    · simp

/-- The controller step as a partial function. -/
def ctrlStep (hw : IMan) (c : ControllerInfo) : Option ControllerInfo :=
  if c.claimed.isEmpty then some ⟨c.name, c.type, []⟩
  else if !(filterClaims hw c.claimed).isEmpty then some ⟨c.name, c.type, filterClaims hw c.claimed⟩
  else none

theorem filterControllerList_eq (hw : IMan) (list : List ControllerInfo) :
    filterControllerList hw list = list.filterMap (ctrlStep hw) := by
  unfold filterControllerList
  rw [foldl_filterMap (ctrlStep hw)]
  · simp
  · intro out c
    simp only [ctrlStep]
    split
    · simp
    · split <;> simp

theorem claimStep_eq (hw : IMan) (c : InterfaceResources) (hs : c.resources.Pairwise (· < ·)) :
    claimStep hw c = partOfClaim hw c := by
  unfold claimStep partOfClaim
  rw [filterResources_eq _ _ hs]
  by_cases hT : c.hardwareInterface ∈ hw.getNames
  · rw [if_pos (by simpa using hT)]
    have : (c.resources.filter fun r => Owns hw c.hardwareInterface r) =
        c.resources.filter fun r => r ∈ hw.getInterfaceResources c.hardwareInterface := by
      apply List.filter_congr
      intro r _
      simp [Owns, hT]
    rw [this]
    cases c.resources.filter fun r => r ∈ hw.getInterfaceResources c.hardwareInterface <;> simp
  · rw [if_neg (by simpa using hT)]
    have : (c.resources.filter fun r => Owns hw c.hardwareInterface r) = [] := by
      rw [List.filter_eq_nil_iff]
      intro r _
      simp [Owns, hT]
    rw [this]

theorem filterMap_congr' {α β : Type} {f g : α → Option β} {l : List α} (h : ∀ a ∈ l, f a = g a) :
    l.filterMap f = l.filterMap g := by
  induction l with
  | nil => rfl
  | cons a l ih =>
    rw [List.filterMap_cons, List.filterMap_cons, h a (by simp), ih fun b hb => h b (by simp [hb])]

theorem mem_filterClaims (hw : IMan) (cl : List InterfaceResources) (T r : String) :
    (∃ c ∈ filterClaims hw cl, c.hardwareInterface = T ∧ r ∈ c.resources) ↔
      (∃ c ∈ cl, c.hardwareInterface = T ∧ r ∈ c.resources) ∧ Owns hw T r := by
  rw [filterClaims_eq]
  constructor
  · rintro ⟨c, hc, rfl, hr⟩
    obtain ⟨c', hc', e⟩ := List.mem_filterMap.1 hc
    unfold claimStep at e
    split at e
    · rename_i hn
      split at e
      · cases e
        have hr' := (mem_filterResources _ _ _).1 hr
        exact ⟨⟨c', hc', rfl, hr'.1⟩, by simpa using hn, hr'.2⟩
      · cases e
    · cases e
  · rintro ⟨⟨c, hc, rfl, hr⟩, h1, h2⟩
    have hm := (mem_filterResources (hw.getInterfaceResources c.hardwareInterface) c.resources r).2 ⟨hr, h2⟩
    refine ⟨⟨c.hardwareInterface, filterResources (hw.getInterfaceResources c.hardwareInterface) c.resources⟩, List.mem_filterMap.2 ⟨c, hc, ?_⟩, rfl, hm⟩
    unfold claimStep
    rw [if_pos (by simpa using h1), if_pos]
    have : filterResources (hw.getInterfaceResources c.hardwareInterface) c.resources ≠ [] :=
      List.ne_nil_of_mem hm
    simpa using this

theorem construct_true (type : String) (create : Nat → Bool) (k : Nat) (ds : List String) :
    construct type create k true ds = true := by
  induction ds generalizing k with
  | nil => rfl
  | cons d ds ih =>
    simp only [construct]
    split
    · split
      · exact ih _
      · rfl
    · exact ih _

theorem construct_eq (type : String) (create : Nat → Bool) (ds : List String) :
    construct type create 0 false ds = decide (type ∈ ds ∧ create 0 = true) := by
  induction ds with
  | nil => simp [construct]
  | cons d ds ih =>
    simp only [construct]
    by_cases hd : type = d
    · subst hd
      rw [if_pos rfl]
      cases hc : create 0
      · simp
      · simp [construct_true]
    · rw [if_neg hd, ih]
      simp [hd]

theorem loadRobotHW_eq (s : St) (env : SubEnv) :
    loadRobotHW s env =
      match env.loads with
      | some hw => (true, ⟨s.hws ++ [hw], IMan.registerInterfaceManager hw s.man⟩)
      | none => (false, s) := by
  obtain ⟨nodeOk, type, declared, create, init⟩ := env
  unfold loadRobotHW SubEnv.loads
  cases nodeOk <;> cases type <;> cases init <;> try rfl
  · rename_i t _
    simp only [construct_eq]
    by_cases h : t ∈ declared ∧ create 0 = true <;> simp [h]
  · simp
  · simp

theorem loadAll_eq (envs : String → SubEnv) (rs : List String) (s : St) :
    loadAll envs rs s =
      (rs.all fun r => (envs r).loads.isSome,
        ⟨s.hws ++ ((rs.map fun r => (envs r).loads).takeWhile (·.isSome)).filterMap id,
          (((rs.map fun r => (envs r).loads).takeWhile (·.isSome)).filterMap id).foldl
            (fun m hw => IMan.registerInterfaceManager hw m) s.man⟩) := by
  induction rs generalizing s with
  | nil => simp [loadAll]
  | cons r rs ih =>
    simp only [loadAll, loadRobotHW_eq]
    cases h : (envs r).loads with
    | none => simp [h]
    | some hw => simp [h, ih]

theorem filter_eq_share (hw : IMan) {list : List ControllerInfo} (h : SetClaims list) :
    filterControllerList hw list = share hw list := by
  rw [filterControllerList_eq, share]
  apply filterMap_congr'
  intro c hc
  have hcl : filterClaims hw c.claimed = c.claimed.filterMap (partOfClaim hw) := by
    rw [filterClaims_eq]
    exact filterMap_congr' fun cl hcl => claimStep_eq hw cl (h c hc cl hcl)
  unfold ctrlStep partOf
  rw [hcl]
  by_cases he : c.claimed = []
  · simp [he]
  · rw [if_neg (by simpa using he), if_neg he]
    cases c.claimed.filterMap (partOfClaim hw) <;> simp

theorem prepareFrom_eq (reply : Nat → List ControllerInfo → List ControllerInfo → Bool)
    {start stop : List ControllerInfo} (h1 : SetClaims start) (h2 : SetClaims stop) (i : Nat) (hws : List IMan) :
    prepareFrom reply start stop i hws =
      ((asks reply start stop i hws).all (·.accepted),
        (asks reply start stop i hws).takeWhile (·.accepted) ++
          ((asks reply start stop i hws).dropWhile (·.accepted)).take 1) := by
  induction hws generalizing i with
  | nil => simp [prepareFrom, asks]
  | cons hw hws ih =>
    simp only [prepareFrom, asks, filter_eq_share hw h1, filter_eq_share hw h2]
    cases h : reply i (share hw start) (share hw stop)
    · simp [Event.accepted]
    · simp [Event.accepted, ih]

theorem getElem?_asks (reply : Nat → List ControllerInfo → List ControllerInfo → Bool)
    (start stop : List ControllerInfo) (i : Nat) (hws : List IMan) (k : Nat) :
    (asks reply start stop i hws)[k]? = (hws[k]?).map fun hw =>
      .prepareSwitch (i + k) (share hw start) (share hw stop)
        (reply (i + k) (share hw start) (share hw stop)) := by
  induction hws generalizing i k with
  | nil => simp [asks]
  | cons hw hws ih =>
    cases k with
    | zero => simp [asks]
    | succ k => simp [asks, ih, Nat.add_assoc, Nat.add_comm 1 k]

theorem doSwitchFrom_eq {start stop : List ControllerInfo} (h1 : SetClaims start) (h2 : SetClaims stop)
    (i : Nat) (hws : List IMan) :
    doSwitchFrom start stop i hws = hws.mapIdx fun k hw =>
      .doSwitch (i + k) (share hw start) (share hw stop) := by
  induction hws generalizing i with
  | nil => simp [doSwitchFrom]
  | cons hw hws ih =>
    simp [doSwitchFrom, ih, filter_eq_share hw h1, filter_eq_share hw h2, List.mapIdx_cons, Nat.add_assoc,
      Nat.add_comm 1]

theorem eachFrom_eq (e : Nat → Event) (i : Nat) (hws : List IMan) :
    eachFrom e i hws = (List.range hws.length).map fun k => e (i + k) := by
  induction hws generalizing i with
  | nil => simp [eachFrom]
  | cons hw hws ih =>
    simp [eachFrom, ih, List.range_succ_eq_map, Function.comp_def, Nat.add_assoc, Nat.add_comm 1]

/-! What registering sub-managers does to the reports of a manager. -/

theorem mem_dedupFold (l out : List String) (x : String) :
    x ∈ l.foldl (fun out x => if x ∈ out then out else out ++ [x]) out ↔ x ∈ out ∨ x ∈ l := by
  induction l generalizing out with
  | nil => simp
  | cons a l ih =>
    rw [List.foldl_cons, ih]
    split
    · rename_i h
      constructor
      · rintro (h' | h') <;> simp [h']
      · rintro (h' | h')
        · exact Or.inl h'
        · rcases List.mem_cons.1 h' with rfl | h'
          · exact Or.inl h
          · exact Or.inr h'
    · simp only [List.mem_append, List.mem_cons, List.not_mem_nil, or_false, or_assoc]

theorem mem_getNamesSubs (ms : List IMan) (out : List String) (x : String) :
    x ∈ IMan.getNamesSubs ms out ↔ x ∈ out ∨ ∃ m ∈ ms, x ∈ m.getNames := by
  induction ms generalizing out with
  | nil => simp [IMan.getNamesSubs]
  | cons m ms ih => simp [IMan.getNamesSubs, ih, mem_dedupFold, or_assoc]

theorem mem_getNames_register (hw m : IMan) (x : String) :
    x ∈ (IMan.registerInterfaceManager hw m).getNames ↔ x ∈ m.getNames ∨ x ∈ hw.getNames := by
  obtain ⟨i, c, n, r, s⟩ := m
  simp only [IMan.registerInterfaceManager, IMan.getNames, mem_getNamesSubs, List.mem_append,
    List.mem_singleton]
  constructor
  · rintro (h | ⟨m, h | rfl, h'⟩)
    · exact Or.inl (Or.inl h)
    · exact Or.inl (Or.inr ⟨m, h, h'⟩)
    · exact Or.inr h'
  · rintro ((h | ⟨m, h, h'⟩) | h)
    · exact Or.inl h
    · exact Or.inr ⟨m, Or.inl h, h'⟩
    · exact Or.inr ⟨hw, Or.inr rfl, h⟩

theorem resourcesSubs_append (T : String) (ms ms' : List IMan) :
    IMan.getInterfaceResourcesSubs T (ms ++ ms') =
      IMan.getInterfaceResourcesSubs T ms ++ IMan.getInterfaceResourcesSubs T ms' := by
  induction ms with
  | nil => simp [IMan.getInterfaceResourcesSubs]
  | cons m ms ih => simp [IMan.getInterfaceResourcesSubs, ih]

theorem resources_register (T : String) (hw m : IMan) :
    (IMan.registerInterfaceManager hw m).getInterfaceResources T =
      m.getInterfaceResources T ++ hw.getInterfaceResources T := by
  obtain ⟨i, c, n, r, s⟩ := m
  simp [IMan.registerInterfaceManager, IMan.getInterfaceResources, resourcesSubs_append,
    IMan.getInterfaceResourcesSubs]

theorem mem_getNames_registerAll (hws : List IMan) (m : IMan) (x : String) :
    x ∈ (hws.foldl (fun m hw => IMan.registerInterfaceManager hw m) m).getNames ↔
      x ∈ m.getNames ∨ ∃ hw ∈ hws, x ∈ hw.getNames := by
  induction hws generalizing m with
  | nil => simp
  | cons hw hws ih => simp [ih, mem_getNames_register, or_assoc]

theorem resources_registerAll (T : String) (hws : List IMan) (m : IMan) :
    (hws.foldl (fun m hw => IMan.registerInterfaceManager hw m) m).getInterfaceResources T =
      m.getInterfaceResources T ++ hws.flatMap (IMan.getInterfaceResources T) := by
  induction hws generalizing m with
  | nil => simp
  | cons hw hws ih => simp [ih, resources_register]

/-! Which interface names a manager reports. -/

mutual

theorem mem_getNames_iff (T : String) : ∀ m : IMan, T ∈ m.getNames ↔ Spec.registered T m ≠ []
  | .node i c n r s => by
    simp only [IMan.getNames, Spec.registered, mem_getNamesSubs, ne_eq, List.append_eq_nil_iff,
      not_and_or, ← mem_getNamesSubs_iff T s]
    refine or_congr ?_ Iff.rfl
    rw [← smapFind_isSome]
    cases smapFind T i <;> simp

theorem mem_getNamesSubs_iff (T : String) : ∀ ms : List IMan,
    (∃ m ∈ ms, T ∈ m.getNames) ↔ Spec.registeredSubs T ms ≠ []
  | [] => by simp [Spec.registeredSubs]
  | m :: ms => by
    have h1 := mem_getNames_iff T m
    have h2 := mem_getNamesSubs_iff T ms
    simp only [List.mem_cons, exists_eq_or_imp, Spec.registeredSubs, ne_eq, List.append_eq_nil_iff,
      not_and_or]
    exact or_congr h1 h2

end

end Verif.Combined
