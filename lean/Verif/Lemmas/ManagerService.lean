import Verif.Model.Manager
import Mathlib.Data.List.Basic
import Mathlib.Data.List.Nodup
import Mathlib.Tactic.Tauto

/-!
Helper lemmas for the manager: the loops of the service calls in closed form.
-/

namespace Verif

namespace Mgr

theorem resolve_eq (m : Mgr) (strict : Bool) (ns : List String) (acc : List CId) :
    m.resolve strict ns acc =
      if strict = true ∧ ∃ n ∈ ns, m.getControllerByName n = none then none
      else some (acc ++ ns.filterMap m.getControllerByName) := by
  induction ns generalizing acc with
  | nil => simp [resolve]
  | cons n ns ih =>
    simp only [resolve]
    cases h : m.getControllerByName n with
    | none =>
      cases strict
      · simp only [Bool.false_eq_true, if_false, ih, false_and]
        simp [h]
      · simp [h]
    | some c =>
      simp only [ih]
      by_cases hs : strict = true ∧ ∃ x ∈ ns, m.getControllerByName x = none
      · rw [if_pos hs, if_pos]
        exact ⟨hs.1, by obtain ⟨x, hx, h'⟩ := hs.2; exact ⟨x, by simp [hx], h'⟩⟩
      · rw [if_neg hs, if_neg]
        · simp [h]
        · rintro ⟨h1, x, hx, h'⟩
          apply hs
          refine ⟨h1, ?_⟩
          rcases List.mem_cons.1 hx with rfl | hx
          · rw [h] at h'; cases h'
          · exact ⟨x, hx, h'⟩

/-- An entry that makes the scan refuse. -/
def badEntry (m : Mgr) (strict : Bool) (startReq stopReq : List CId) (s : CtrlSpec) : Prop :=
  (strict = true ∧ m.isRunning s.c = false ∧ s.c ∈ stopReq) ∨
  (strict = true ∧ m.isRunning s.c = true ∧ s.c ∉ stopReq ∧ s.c ∈ startReq) ∨
  (m.isRunning s.c = true ∧ s.c ∈ stopReq ∧ s.c ∈ startReq)

/-- The lists built for a group of entries none of which is refused. -/
def scanLists (m : Mgr) (startReq stopReq : List CId) (l : List CtrlSpec) : Scan where
  swStart := (l.filter fun s => !m.isRunning s.c && decide (s.c ∈ startReq)).map (·.info)
  swStop := (l.filter fun s => m.isRunning s.c && decide (s.c ∈ stopReq)).map (·.info)
  infos := (l.filter fun s => (m.isRunning s.c && !decide (s.c ∈ stopReq)) ||
    decide (s.c ∈ startReq)).map (·.info)

/-- Concatenation of scans. -/
def Scan.append (a b : Scan) : Scan :=
  ⟨a.swStart ++ b.swStart, a.swStop ++ b.swStop, a.infos ++ b.infos⟩

theorem any_eq_mem (l : List CId) (c : CId) : (l.any fun x => decide (x = c)) = decide (c ∈ l) := by
  induction l with
  | nil => simp
  | cons x l ih =>
    rw [List.any_cons, ih, ← Bool.decide_or]
    exact decide_eq_decide.2 (by rw [List.mem_cons, eq_comm (a := x)])

theorem scan_ok (m : Mgr) (strict : Bool) (startReq stopReq : List CId) (l : List CtrlSpec)
    (acc : Scan) (h : ∀ s ∈ l, ¬ m.badEntry strict startReq stopReq s) :
    m.scan strict startReq stopReq l acc =
      (true, Scan.append acc (m.scanLists startReq stopReq l)) := by
  induction l generalizing acc with
  | nil => simp [scan, scanLists, Scan.append]
  | cons s l ih =>
    have hs := h s (by simp)
    have ih' := fun acc => ih acc fun t ht => h t (by simp [ht])
    simp only [badEntry] at hs
    simp only [scan, any_eq_mem]
    by_cases h1 : m.isRunning s.c = true <;> by_cases h2 : s.c ∈ stopReq <;>
      by_cases h3 : s.c ∈ startReq <;> cases strict <;>
      simp_all [scanLists, Scan.append]

theorem scan_refuse (m : Mgr) (strict : Bool) (startReq stopReq : List CId) (l : List CtrlSpec)
    (acc : Scan) (h : ∃ s ∈ l, m.badEntry strict startReq stopReq s) :
    (m.scan strict startReq stopReq l acc).1 = false := by
  induction l generalizing acc with
  | nil => simp at h
  | cons s l ih =>
    by_cases hs : m.badEntry strict startReq stopReq s
    · simp only [badEntry] at hs
      simp only [scan, any_eq_mem]
      by_cases h1 : m.isRunning s.c = true <;> by_cases h2 : s.c ∈ stopReq <;>
        by_cases h3 : s.c ∈ startReq <;> cases strict <;> simp_all
    · have hl : ∃ t ∈ l, m.badEntry strict startReq stopReq t := by
        obtain ⟨t, ht, hb⟩ := h
        rcases List.mem_cons.1 ht with rfl | ht
        · exact absurd hb hs
        · exact ⟨t, ht, hb⟩
      have ih' := fun acc => ih acc hl
      simp only [badEntry] at hs
      simp only [scan, any_eq_mem]
      by_cases h1 : m.isRunning s.c = true <;> by_cases h2 : s.c ∈ stopReq <;>
        by_cases h3 : s.c ∈ startReq <;> cases strict <;> simp_all

theorem transfer_eq (m : Mgr) (name : String) (l out : List CtrlSpec) (removed : Bool) :
    m.transfer name l out removed =
      if ∃ s ∈ l, s.info.name = name ∧ m.isRunning s.c = true then none
      else some (out ++ l.filter (fun s => !decide (s.info.name = name)),
        removed || l.any fun s => decide (s.info.name = name)) := by
  induction l generalizing out removed with
  | nil => simp [transfer]
  | cons s l ih =>
    simp only [transfer]
    by_cases h1 : s.info.name = name
    · by_cases h2 : m.isRunning s.c = true
      · simp [h1, h2]
      · simp only [h1, if_true, h2, Bool.false_eq_true, if_false, ih]
        simp [h1, h2]
    · simp only [h1, if_false, ih]
      simp [h1]

theorem getControllerByName_mem {m : Mgr} {n : String} {c : CId}
    (h : m.getControllerByName n = some c) : ∃ s ∈ m.cur, s.info.name = n ∧ s.c = c := by
  unfold getControllerByName at h
  simp only [Option.map_eq_some_iff] at h
  obtain ⟨s, hs, rfl⟩ := h
  exact ⟨s, List.mem_of_find?_eq_some hs, by simpa using List.find?_some hs, rfl⟩

theorem getControllerByName_none {m : Mgr} {n : String} :
    m.getControllerByName n = none ↔ ∀ s ∈ m.cur, s.info.name ≠ n := by
  unfold getControllerByName
  simp

theorem getControllerByName_of_mem {m : Mgr} (hn : (m.cur.map (·.info.name)).Nodup) {s : CtrlSpec}
    (hs : s ∈ m.cur) : m.getControllerByName s.info.name = some s.c := by
  cases h : m.getControllerByName s.info.name with
  | none => exact absurd rfl (getControllerByName_none.1 h s hs)
  | some c =>
    obtain ⟨t, ht, h1, h2⟩ := getControllerByName_mem h
    have : t = s := List.inj_on_of_nodup_map hn ht hs h1
    rw [← h2, this]

theorem mem_resolved {m : Mgr} (hn : (m.cur.map (·.info.name)).Nodup)
    (ho : (m.cur.map (·.c)).Nodup) {s : CtrlSpec} (hs : s ∈ m.cur) (ns : List String) :
    s.c ∈ ns.filterMap m.getControllerByName ↔ s.info.name ∈ ns := by
  rw [List.mem_filterMap]
  constructor
  · rintro ⟨n, hn', h⟩
    obtain ⟨t, ht, h1, h2⟩ := getControllerByName_mem h
    have : t = s := List.inj_on_of_nodup_map ho ht hs h2
    subst this; rwa [h1]
  · intro h
    exact ⟨_, h, getControllerByName_of_mem hn hs⟩

theorem resolved_loaded {m : Mgr} {ns : List String} {c : CId}
    (h : c ∈ ns.filterMap m.getControllerByName) : c ∈ m.cur.map (·.c) := by
  obtain ⟨n, _, h⟩ := List.mem_filterMap.1 h
  obtain ⟨s, hs, _, rfl⟩ := getControllerByName_mem h
  exact List.mem_map_of_mem hs

/-- The strictness really applied. -/
def strictOf (r : SwitchReq) : Bool := decide (r.strictness = strictnessStrict)

/-- What makes a request acceptable. -/
def okRequest (conf : List ControllerInfo → Bool) (m : Mgr) (r : SwitchReq) (prepOk : Bool) : Prop :=
  (strictOf r = true → ∀ n ∈ r.stop ++ r.start, m.getControllerByName n ≠ none) ∧
  (∀ s ∈ m.cur, ¬ m.badEntry (strictOf r) (r.start.filterMap m.getControllerByName)
    (r.stop.filterMap m.getControllerByName) s) ∧
  conf (m.scanLists (r.start.filterMap m.getControllerByName)
    (r.stop.filterMap m.getControllerByName) m.cur).infos = false ∧
  prepOk = true

theorem strict_eq (r : SwitchReq) :
    decide ((if r.strictness = 0 then strictnessBestEffort else r.strictness) = strictnessStrict) =
      strictOf r := by
  unfold strictOf
  by_cases h : r.strictness = 0
  · simp [h, strictnessBestEffort, strictnessStrict]
  · simp [h]

theorem resolve_reset (m : Mgr) (strict : Bool) (ns : List String) :
    resolve { m with params := {}, startReq := [], stopReq := [] } strict ns [] =
      if strict = true ∧ ∃ n ∈ ns, m.getControllerByName n = none then none
      else some (ns.filterMap m.getControllerByName) := by
  rw [resolve_eq, List.nil_append]; rfl

/-- `switchController` with the name lookup in closed form. -/
theorem switchCore_eq (conf : List ControllerInfo → Bool) (m : Mgr) (r : SwitchReq) (now : Int)
    (prepOk : Bool) (k : Kont) (hs : m.startReq = []) (ht : m.stopReq = []) :
    m.switchCore conf r now prepOk k =
      if strictOf r = true ∧ ∃ n ∈ r.stop ++ r.start, m.getControllerByName n = none then
        (false, { m with params := {}, trace := m.trace ++ [.switchRet false] })
      else
        let startReq := r.start.filterMap m.getControllerByName
        let stopReq := r.stop.filterMap m.getControllerByName
        let sc := m.scan (strictOf r) startReq stopReq m.cur {}
        if sc.1 = false ∨ conf sc.2.infos = true then
          (false, { m with params := {}, swStart := sc.2.swStart, swStop := sc.2.swStop
                           trace := m.trace ++ [.switchRet false] })
        else if prepOk = false then
          (false, { m with params := {}, swStart := sc.2.swStart, swStop := sc.2.swStop
                           trace := m.trace ++ [.prepareSwitch sc.2.swStart sc.2.swStop false] ++
                            [.switchRet false] })
        else
          (true, { m with
            startReq := startReq
            stopReq := stopReq
            swStart := sc.2.swStart
            swStop := sc.2.swStop
            params :=
              { doSwitch := true, started := false, initTime := now,
                strictness := if r.strictness = 0 then strictnessBestEffort else r.strictness,
                asap := r.asap, timeout := r.timeout }
            svc := .switching k r.timeout
            trace := m.trace ++ [.prepareSwitch sc.2.swStart sc.2.swStop true,
              .accepted sc.2.swStart sc.2.swStop] }) := by
  unfold switchCore
  simp only [strict_eq, hs, ht, resolve_reset]
  have hscan : ∀ a b : List CId, scan { m with params := {}, startReq := a, stopReq := b }
      (strictOf r) a b m.cur {} = m.scan (strictOf r) a b m.cur {} := by
    intro a b
    have : ∀ l acc, scan { m with params := {}, startReq := a, stopReq := b }
      (strictOf r) a b l acc = m.scan (strictOf r) a b l acc := by
      intro l
      induction l with
      | nil => intro acc; rfl
      | cons t l ih => intro acc; simp only [scan, ih]; rfl
    exact this _ _
  by_cases h1 : strictOf r = true ∧ ∃ n ∈ r.stop, m.getControllerByName n = none
  · have h1' : strictOf r = true ∧ ∃ n ∈ r.stop ++ r.start, m.getControllerByName n = none := by
      obtain ⟨h, n, hn, hh⟩ := h1
      exact ⟨h, n, by simp [hn], hh⟩
    rw [if_pos h1, if_pos h1']
    simp [emit]
  · rw [if_neg h1]
    by_cases h2 : strictOf r = true ∧ ∃ n ∈ r.start, m.getControllerByName n = none
    · have h1' : strictOf r = true ∧ ∃ n ∈ r.stop ++ r.start, m.getControllerByName n = none := by
        obtain ⟨h, n, hn, hh⟩ := h2
        exact ⟨h, n, by simp [hn], hh⟩
      rw [if_pos h2, if_pos h1']
      simp [refuse, emit]
    · have h1' : ¬ (strictOf r = true ∧ ∃ n ∈ r.stop ++ r.start, m.getControllerByName n = none) := by
        rintro ⟨h, n, hn, hh⟩
        rcases List.mem_append.1 hn with hn | hn
        · exact h1 ⟨h, n, hn, hh⟩
        · exact h2 ⟨h, n, hn, hh⟩
      rw [if_neg h2, if_neg h1']
      simp only [hscan]
      cases h3 : (m.scan (strictOf r) (r.start.filterMap m.getControllerByName)
        (r.stop.filterMap m.getControllerByName) m.cur {}) with
      | mk ok sc =>
        cases ok
        · simp [refuse, emit]
        · cases h4 : conf sc.infos
          · cases prepOk <;> simp [refuse, emit]
          · simp [refuse, emit]

/-- An acceptable request is accepted. -/
theorem switchCore_accept (conf : List ControllerInfo → Bool) (m : Mgr) (r : SwitchReq) (now : Int)
    (prepOk : Bool) (k : Kont) (hs : m.startReq = []) (ht : m.stopReq = [])
    (h : m.okRequest conf r prepOk) :
    m.switchCore conf r now prepOk k =
      (let startReq := r.start.filterMap m.getControllerByName
       let stopReq := r.stop.filterMap m.getControllerByName
       let sc := m.scanLists startReq stopReq m.cur
       (true, { m with
          startReq := startReq
          stopReq := stopReq
          swStart := sc.swStart
          swStop := sc.swStop
          params :=
            { doSwitch := true, started := false, initTime := now,
              strictness := if r.strictness = 0 then strictnessBestEffort else r.strictness,
              asap := r.asap, timeout := r.timeout }
          svc := .switching k r.timeout
          trace := m.trace ++ [.prepareSwitch sc.swStart sc.swStop true,
            .accepted sc.swStart sc.swStop] })) := by
  obtain ⟨h1, h2, h3, h4⟩ := h
  rw [switchCore_eq conf m r now prepOk k hs ht, if_neg]
  · simp only [scan_ok m _ _ _ m.cur {} h2, Scan.append, List.nil_append]
    rw [if_neg (by simp [h3]), if_neg (by simp [h4])]
  · rintro ⟨hst, n, hn, hno⟩
    exact h1 hst n hn hno

/-- A request that is not acceptable is refused and leaves nothing behind. -/
theorem switchCore_refuse (conf : List ControllerInfo → Bool) (m : Mgr) (r : SwitchReq) (now : Int)
    (prepOk : Bool) (k : Kont) (hs : m.startReq = []) (ht : m.stopReq = [])
    (h : ¬ m.okRequest conf r prepOk) :
    ∃ a b es, m.switchCore conf r now prepOk k =
      (false, { m with params := {}, swStart := a, swStop := b
                       trace := m.trace ++ es ++ [.switchRet false] }) ∧
      (es = [] ∨ (prepOk = false ∧ es = [.prepareSwitch a b false])) := by
  rw [switchCore_eq conf m r now prepOk k hs ht]
  split
  · exact ⟨m.swStart, m.swStop, [], by simp, Or.inl rfl⟩
  · rename_i h1
    simp only
    split
    · exact ⟨_, _, [], by simp; exact ⟨rfl, rfl⟩, Or.inl rfl⟩
    · rename_i h2
      split
      · rename_i h3
        exact ⟨_, _, _, rfl, Or.inr ⟨h3, rfl⟩⟩
      · rename_i h3
        exfalso
        apply h
        have hb : ∀ s ∈ m.cur, ¬ m.badEntry (strictOf r) (r.start.filterMap m.getControllerByName)
            (r.stop.filterMap m.getControllerByName) s := by
          intro s hs' hb
          exact h2 (Or.inl (scan_refuse m _ _ _ _ _ ⟨s, hs', hb⟩))
        refine ⟨?_, hb, ?_, by simpa using h3⟩
        · intro hst n hn hno
          exact h1 ⟨hst, n, hn, hno⟩
        · rw [scan_ok m _ _ _ m.cur {} hb] at h2
          simpa [Scan.append] using h2

/-- State after a controller has been put into the new list. -/
def loaded (m : Mgr) (name type : String) (claimed : List InterfaceResources) : Mgr :=
  { m with
    cur := m.cur ++ [⟨⟨name, type, claimed⟩, m.nextId⟩]
    oth := m.cur
    current := !m.current
    state := fun x => if x = m.nextId then .initialized else m.state x
    nextId := m.nextId + 1
    svc := .releasing m.current (.load name) }

theorem load_cases (m : Mgr) (name : String) (env : LoadEnv) (hi : m.svc = .idle)
    (hu : m.used ≠ some (!m.current)) :
    (∃ type i claimed, (∀ s ∈ m.cur, s.info.name ≠ name) ∧ env.nodeHandleOk = true ∧
      env.type = some type ∧ instantiate type 0 env.loaders = some i ∧ env.init = some claimed ∧
      m.load name env = m.loaded name type claimed) ∨
    ((¬ ((∀ s ∈ m.cur, s.info.name ≠ name) ∧ env.nodeHandleOk = true ∧
        ∃ type i claimed, env.type = some type ∧ instantiate type 0 env.loaders = some i ∧
          env.init = some claimed)) ∧
      ∃ o, (o = [] ∨ o = m.cur) ∧
        m.load name env = { m with oth := o, trace := m.trace ++ [.loadRet name false] }) := by
  unfold load
  rw [if_neg (by simp [hi]), if_neg hu]
  simp only
  by_cases hn : (m.cur.any fun s => decide (s.info.name = name)) = true
  · rw [if_pos hn]
    right
    refine ⟨?_, [], Or.inl rfl, rfl⟩
    simp only [List.any_eq_true, decide_eq_true_eq] at hn
    obtain ⟨s, hs, e⟩ := hn
    exact fun h => h.1 s hs e
  rw [if_neg hn]
  by_cases hok : env.nodeHandleOk = true
  swap
  · rw [if_pos (by simpa using hok)]
    right
    exact ⟨fun h => hok h.2.1, m.cur, Or.inr rfl, rfl⟩
  rw [if_neg (by simp [hok])]
  cases ht : env.type with
  | none =>
    right
    refine ⟨fun h => ?_, [], Or.inl rfl, rfl⟩
    obtain ⟨_, _, _, _, _, h, _⟩ := h
    cases h
  | some type =>
    simp only
    cases hin : instantiate type 0 env.loaders with
    | none =>
      right
      refine ⟨fun h => ?_, [], Or.inl rfl, rfl⟩
      obtain ⟨_, _, t, i, _, h, h', _⟩ := h
      cases h
      rw [hin] at h'; cases h'
    | some i =>
      simp only
      cases hinit : env.init with
      | none =>
        right
        refine ⟨fun h => ?_, [], Or.inl rfl, rfl⟩
        obtain ⟨_, _, t, i, _, _, _, h⟩ := h
        cases h
      | some claimed =>
        left
        refine ⟨type, i, claimed, by simpa using hn, hok, rfl, hin, rfl, ?_⟩
        simp [loaded, initRequest]

/-- State after a controller has been left out of the new list. -/
def unloaded (m : Mgr) (name : String) (k : Kont) : Mgr :=
  { m with
    cur := m.cur.filter fun s => !decide (s.info.name = name)
    oth := m.cur
    current := !m.current
    svc := .releasing m.current (.unload name k) }

theorem unloadCore_cases (m : Mgr) (name : String) (k : Kont) (onFail : Mgr → Mgr)
    (hu : m.used ≠ some (!m.current)) :
    ((∃ s ∈ m.cur, s.info.name = name) ∧
      (∀ s ∈ m.cur, s.info.name = name → m.isRunning s.c = false) ∧
      m.unloadCore name k onFail = m.unloaded name k) ∨
    (¬ ((∃ s ∈ m.cur, s.info.name = name) ∧
        ∀ s ∈ m.cur, s.info.name = name → m.isRunning s.c = false) ∧
      m.unloadCore name k onFail =
        onFail { m with oth := [], trace := m.trace ++ [.unloadRet name false] }) := by
  unfold unloadCore
  rw [if_neg hu, transfer_eq]
  by_cases hr : ∃ s ∈ m.cur, s.info.name = name ∧ m.isRunning s.c = true
  · rw [if_pos hr]
    right
    refine ⟨?_, rfl⟩
    obtain ⟨s, hs, hn, hr⟩ := hr
    intro h
    rw [h.2 s hs hn] at hr; cases hr
  · rw [if_neg hr]
    simp only [Bool.false_or, List.nil_append]
    by_cases ha : (m.cur.any fun s => decide (s.info.name = name)) = true
    · left
      rw [if_neg (by simp [ha])]
      refine ⟨by simpa using ha, ?_, rfl⟩
      intro s hs hn
      cases h : m.isRunning s.c
      · rfl
      · exact absurd ⟨s, hs, hn, h⟩ hr
    · right
      rw [if_pos (by simpa using ha)]
      refine ⟨fun h => ha (by simpa using h.1), rfl⟩

end Mgr

end Verif
