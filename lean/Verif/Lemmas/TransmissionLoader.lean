import Verif.Spec.TransmissionLoader
import Verif.Lemmas.Containers
import Verif.Lemmas.Transmission

/-!
Lemmas about the transmission loader.
-/

namespace Verif.Transmission

theorem mapM_some {A B : Type} {f : A → Option B} {l : List A} {r : List B} (h : l.mapM f = some r) :
    l.length = r.length ∧ ∀ (i : Nat) (a : A), l[i]? = some a → ∃ b, r[i]? = some b ∧ f a = some b := by
  induction l generalizing r with
  | nil => simp at h; subst h; simp
  | cons x l ih =>
    simp only [List.mapM_cons, Option.bind_eq_bind, Option.bind_eq_some_iff, Option.pure_def, Option.some.injEq] at h
    obtain ⟨y, hy, ys, hys, rfl⟩ := h
    obtain ⟨h1, h2⟩ := ih hys
    refine ⟨by simp [h1], fun i a hi => ?_⟩
    cases i with
    | zero => simp at hi; subst hi; exact ⟨y, by simp, hy⟩
    | succ i => simp at hi; obtain ⟨b, hb⟩ := h2 i a hi; exact ⟨b, by simpa using hb⟩

theorem mapM_isSome {A B : Type} {f : A → Option B} {l : List A} (h : ∀ a ∈ l, ∃ b, f a = some b) :
    ∃ r, l.mapM f = some r := by
  induction l with
  | nil => exact ⟨[], by simp⟩
  | cons x l ih =>
    obtain ⟨y, hy⟩ := h x (by simp)
    obtain ⟨ys, hys⟩ := ih fun a ha => h a (by simp [ha])
    exact ⟨y :: ys, by simp [List.mapM_cons, hy, hys]⟩

theorem mapM_mem {A B : Type} {f : A → Option B} {l : List A} {r : List B} (h : l.mapM f = some r) :
    (∀ a ∈ l, ∃ b, f a = some b) ∧ ∀ b ∈ r, ∃ a ∈ l, f a = some b := by
  induction l generalizing r with
  | nil => simp at h; subst h; simp
  | cons x l ih =>
    simp only [List.mapM_cons, Option.bind_eq_bind, Option.bind_eq_some_iff, Option.pure_def, Option.some.injEq] at h
    obtain ⟨y, hy, ys, hys, rfl⟩ := h
    obtain ⟨h1, h2⟩ := ih hys
    refine ⟨?_, ?_⟩
    · intro a ha
      rcases List.mem_cons.1 ha with rfl | ha
      · exact ⟨y, hy⟩
      · exact h1 a ha
    · intro b hb
      rcases List.mem_cons.1 hb with rfl | hb
      · exact ⟨x, by simp, hy⟩
      · obtain ⟨a, ha, hf⟩ := h2 b hb
        exact ⟨a, by simp [ha], hf⟩

theorem mapM_mono {A B : Type} {f g : A → Option B} {l : List A} {r : List B} (h : l.mapM f = some r)
    (hfg : ∀ a b, f a = some b → g a = some b) : l.mapM g = some r := by
  induction l generalizing r with
  | nil => simpa using h
  | cons x l ih =>
    simp only [List.mapM_cons, Option.bind_eq_bind, Option.bind_eq_some_iff, Option.pure_def, Option.some.injEq] at h ⊢
    obtain ⟨y, hy, ys, hys, rfl⟩ := h
    exact ⟨y, hfg _ _ hy, ys, ih hys, rfl⟩

theorem mem_smapInsert {κ β : Type} [LinearOrder κ] {k k' : κ} {v v' : β} {m : List (κ × β)}
    (h : (k', v') ∈ smapInsert k v m) : (k' = k ∧ v' = v) ∨ (k', v') ∈ m := by
  induction m with
  | nil => simpa [smapInsert] using h
  | cons e t ih =>
    obtain ⟨ek, ev⟩ := e
    unfold smapInsert at h
    split at h
    · rcases List.mem_cons.1 h with h | h
      · left; simpa using h
      · right; exact h
    · split at h
      · rcases List.mem_cons.1 h with h | h
        · right; simp [h]
        · rcases ih h with h | h
          · left; exact h
          · right; simp [h]
      · rcases List.mem_cons.1 h with h | h
        · left; simpa using h
        · right; simp [h]

theorem not_mem_keys {κ β : Type} [LinearOrder κ] {k : κ} {m : List (κ × β)} : k ∉ smapKeys m ↔ smapFind k m = none := by
  rw [← smapFind_isSome]; cases smapFind k m <;> simp

theorem setAt_eq {I A : Type} [DecidableEq I] (f : I → A) (c : I) (x : A) : setAt f c x c = x := by simp [setAt]

theorem setAt_ne {I A : Type} [DecidableEq I] (f : I → A) {c d : I} (x : A) (h : d ≠ c) : setAt f c x d = f d := by
  simp [setAt, h]

namespace Loader

variable {K : Type}

/-- Where the data of a handle come from. -/
def Wired (L : Loader K) (k : Kind) (h : Handle K) (an jn : List String) : Prop :=
  an.length = h.trans.numActuators ∧ jn.length = h.trans.numJoints ∧
  match k.cmd with
  | none => L.actuatorStateData an = some h.act ∧ L.jointStateData jn = some h.jnt
  | some c => L.actuatorCommandData c an = some h.act ∧ L.jointCommandData c jn = some h.jnt

/-- The part of the loader's state that the update functions change has grown. -/
structure Grows (L L' : Loader K) : Prop where
  acts : L'.actuators = L.actuators
  raw : ∀ n b, smapFind n L.raw = some b → smapFind n L'.raw = some b
  state : ∀ n s, smapFind n L.robotState = some s → smapFind n L'.robotState = some s
  command : ∀ c n s, smapFind n (L.robotCommand c) = some s → smapFind n (L'.robotCommand c) = some s
  ownState : L'.ownState.isSome = L.ownState.isSome
  ownCommand : ∀ c, (L'.ownCommand c).isSome = (L.ownCommand c).isSome
  next : L.next ≤ L'.next
  trans : ∀ t ∈ L.transmissions, t ∈ L'.transmissions

theorem Grows.refl (L : Loader K) : Grows L L := ⟨rfl, fun _ _ h => h, fun _ _ h => h, fun _ _ _ h => h, rfl, fun _ => rfl, le_rfl, fun _ h => h⟩

theorem Grows.tr {A B C : Loader K} (h : Grows A B) (g : Grows B C) : Grows A C where
  acts := g.acts.trans h.acts
  raw n b hb := g.raw n b (h.raw n b hb)
  state n b hb := g.state n b (h.state n b hb)
  command c n b hb := g.command c n b (h.command c n b hb)
  ownState := g.ownState.trans h.ownState
  ownCommand c := (g.ownCommand c).trans (h.ownCommand c)
  next := h.next.trans g.next
  trans t ht := g.trans t (h.trans t ht)

theorem Grows.jointStateData {L L' : Loader K} (h : Grows L L') {names : List String} {d : Data}
    (hd : L.jointStateData names = some d) : L'.jointStateData names = some d := by
  unfold Loader.jointStateData at hd ⊢
  split at hd
  · cases hd
  · rename_i bs hb
    rw [mapM_mono hb h.raw]
    exact hd

theorem Grows.jointCommandData {L L' : Loader K} (h : Grows L L') {c : Cmd} {names : List String} {d : Data}
    (hd : L.jointCommandData c names = some d) : L'.jointCommandData c names = some d := by
  unfold Loader.jointCommandData at hd ⊢
  split at hd
  · cases hd
  · rename_i bs hb
    rw [mapM_mono hb h.raw]
    exact hd

theorem Grows.wired {L L' : Loader K} (g : Grows L L') {k : Kind} {h : Handle K} {an jn : List String}
    (hw : L.Wired k h an jn) : L'.Wired k h an jn := by
  obtain ⟨h1, h2, h3⟩ := hw
  refine ⟨h1, h2, ?_⟩
  split
  · rename_i hk; rw [hk] at h3
    exact ⟨by unfold actuatorStateData at h3 ⊢; rw [g.acts]; exact h3.1, g.jointStateData h3.2⟩
  · rename_i c hk; rw [hk] at h3
    exact ⟨by unfold actuatorCommandData at h3 ⊢; rw [g.acts]; exact h3.1, g.jointCommandData h3.2⟩

/-- What holds of the loader's data at any time; `L0` is the loader with nothing loaded. -/
structure Inv (L0 L : Loader K) : Prop where
  grows : Grows L0 L
  rawBounds : ∀ n b, smapFind n L.raw = some b → L0.next ≤ b ∧ b + 8 ≤ L.next
  rawApart : ∀ n n' b b', n ≠ n' → smapFind n L.raw = some b → smapFind n' L.raw = some b' →
    b + 8 ≤ b' ∨ b' + 8 ≤ b
  jointState : ∀ n s, smapFind n L.jointState = some s → ∃ b, smapFind n L.raw = some b ∧ s = rawState b
  ownNoState : L.ownState.isSome → L.jointState = []
  state : ∀ n s, smapFind n L.robotState = some s → smapFind n L0.robotState = some s ∨
    (smapFind n L0.robotState = none ∧ ∃ b, smapFind n L.raw = some b ∧ s = rawState b)
  rawState : ∀ n b, smapFind n L.raw = some b → smapFind n L.robotState = some (Transmission.rawState b) ∧
    smapFind n L0.robotState = none
  command : ∀ c n s, smapFind n (L.robotCommand c) = some s → smapFind n (L0.robotCommand c) = some s ∨
    (smapFind n (L0.robotCommand c) = none ∧
      ∃ b, smapFind n L.raw = some b ∧ s = (Transmission.rawState b, rawCommand b c))
  handles : ∀ k n h, (n, h) ∈ L.handles k → ∃ an jn, L.Wired k h an jn
  alive : ∀ k n h, (n, h) ∈ L.handles k → h.trans ∈ L.transmissions
  sorted : ∀ k, KeysSorted (L.handles k)

theorem Fresh.inv {L : Loader K} (h : L.Fresh) : Inv L L where
  grows := .refl L
  rawBounds n b hb := by simp [h.raw, smapFind] at hb
  rawApart n n' b b' _ hb := by simp [h.raw, smapFind] at hb
  jointState n s hb := by simp [h.jointState, smapFind] at hb
  ownNoState _ := h.jointState
  state n s hs := .inl hs
  rawState n b hb := by simp [h.raw, smapFind] at hb
  command c n s hs := .inl hs
  handles k n g hg := by simp [h.handles] at hg
  alive k n g hg := by simp [h.handles] at hg
  sorted k := by rw [h.handles]; exact List.Pairwise.nil

/-! ### `updateJointInterfaces` for states -/

/-- One turn of the loop of `updateState` for a joint that is not there yet. -/
def addState (L : Loader K) (name : String) : Loader K :=
  let (L, b) := L.rawData name
  match L.ownState with
  | some own => { L with ownState := some (smapInsert name (Transmission.rawState b) own) }
  | none => { L with jointState := smapInsert name (Transmission.rawState b) L.jointState }

theorem updateState_cons (name : String) (rest : List String) (L : Loader K) :
    updateState (name :: rest) L =
      updateState rest (if name ∈ smapKeys L.robotState then L else L.addState name) := by
  rw [updateState]
  unfold robotState
  split <;> rfl

theorem addState_eq {L : Loader K} {name : String} (h : smapFind name L.raw = none) :
    L.addState name = (match L.ownState with
      | some own => { L with
          raw := smapInsert name L.next L.raw, next := L.next + 8,
          ownState := some (smapInsert name (Transmission.rawState L.next) own) }
      | none => { L with
          raw := smapInsert name L.next L.raw, next := L.next + 8,
          jointState := smapInsert name (Transmission.rawState L.next) L.jointState }) := by
  unfold addState rawData
  rw [h]

theorem addState_robotState {L : Loader K} {name : String} (h : smapFind name L.raw = none) :
    (L.addState name).robotState = smapInsert name (Transmission.rawState L.next) L.robotState := by
  rw [addState_eq h]
  unfold robotState
  cases ho : L.ownState <;> simp [ho]

theorem addState_same {L : Loader K} {name : String} (h : smapFind name L.raw = none) :
    (L.addState name).raw = smapInsert name L.next L.raw ∧ (L.addState name).next = L.next + 8 ∧
    (L.addState name).actuators = L.actuators ∧ (∀ c, (L.addState name).robotCommand c = L.robotCommand c) ∧
    (L.addState name).ownState.isSome = L.ownState.isSome ∧ (L.addState name).ownCommand = L.ownCommand ∧
    (L.addState name).transmissions = L.transmissions ∧ (L.addState name).handles = L.handles ∧
    (L.addState name).jointState =
      (if L.ownState.isSome then L.jointState else smapInsert name (Transmission.rawState L.next) L.jointState) := by
  rw [addState_eq h]
  cases ho : L.ownState <;> simp [robotCommand]

theorem Inv.addState {L0 L : Loader K} (hi : Inv L0 L) {name : String} (hn : name ∉ smapKeys L.robotState) :
    Inv L0 (L.addState name) ∧ Grows L (L.addState name) ∧ smapFind name (L.addState name).raw = some L.next := by
  have hn := not_mem_keys.1 hn
  have hr : smapFind name L.raw = none := by
    cases hb : smapFind name L.raw with
    | none => rfl
    | some b => rw [(hi.rawState name b hb).1] at hn; cases hn
  obtain ⟨e1, e2, e3, e4, e5, e6, e7, e8, e9⟩ := addState_same hr
  have es := addState_robotState hr
  have g : Grows L (L.addState name) := {
    acts := e3
    raw := by
      intro n b hb
      rw [e1, smapFind_insert]
      split
      · rename_i hh; subst hh; rw [hr] at hb; cases hb
      · exact hb
    state := by
      intro n b hb
      rw [es, smapFind_insert]
      split
      · rename_i hh; subst hh; rw [hn] at hb; cases hb
      · exact hb
    command := by intro c n s hs; rw [e4]; exact hs
    ownState := e5
    ownCommand := by intro c; rw [e6]
    next := by rw [e2]; omega
    trans := by intro t ht; rw [e7]; exact ht }
  refine ⟨?_, g, by rw [e1, smapFind_insert, if_pos rfl]⟩
  exact {
    grows := hi.grows.tr g
    rawBounds := by
      intro n b hb
      rw [e1, smapFind_insert] at hb
      rw [e2]
      split at hb
      · cases hb; exact ⟨hi.grows.next, le_rfl⟩
      · have := hi.rawBounds n b hb; omega
    rawApart := by
      intro n n' b b' hne hb hb'
      rw [e1, smapFind_insert] at hb hb'
      split at hb
      · rename_i h1
        cases hb
        split at hb'
        · rename_i h2; exact absurd (h1.trans h2.symm) hne
        · right; exact (hi.rawBounds _ _ hb').2
      · split at hb'
        · cases hb'; left; exact (hi.rawBounds _ _ hb).2
        · exact hi.rawApart n n' b b' hne hb hb'
    jointState := by
      intro n s hs
      rw [e9] at hs
      split at hs
      · obtain ⟨b, hb, rfl⟩ := hi.jointState n s hs
        exact ⟨b, g.raw n b hb, rfl⟩
      · rw [smapFind_insert] at hs
        split at hs
        · rename_i hh; subst hh
          cases hs
          exact ⟨L.next, by rw [e1, smapFind_insert, if_pos rfl], rfl⟩
        · obtain ⟨b, hb, rfl⟩ := hi.jointState n s hs
          exact ⟨b, g.raw n b hb, rfl⟩
    ownNoState := by
      intro ho
      rw [e5] at ho
      rw [e9, if_pos ho]
      exact hi.ownNoState ho
    state := by
      intro n s hs
      rw [es, smapFind_insert] at hs
      split at hs
      · rename_i hh; subst hh
        cases hs
        right
        refine ⟨?_, L.next, by rw [e1, smapFind_insert, if_pos rfl], rfl⟩
        cases h0 : smapFind n L0.robotState with
        | none => rfl
        | some s => rw [hi.grows.state n s h0] at hn; cases hn
      · rcases hi.state n s hs with h | ⟨h, b, hb, rfl⟩
        · exact .inl h
        · exact .inr ⟨h, b, g.raw n b hb, rfl⟩
    rawState := by
      intro n b hb
      rw [e1, smapFind_insert] at hb
      rw [es, smapFind_insert]
      split at hb
      · rename_i hh; subst hh
        cases hb
        refine ⟨by rw [if_pos rfl], ?_⟩
        cases h0 : smapFind n L0.robotState with
        | none => rfl
        | some s => rw [hi.grows.state n s h0] at hn; cases hn
      · rename_i hh
        rw [if_neg hh]
        exact hi.rawState n b hb
    command := by
      intro c n s hs
      rw [e4] at hs
      rcases hi.command c n s hs with h | ⟨h, b, hb, rfl⟩
      · exact .inl h
      · exact .inr ⟨h, b, g.raw n b hb, rfl⟩
    handles := by
      intro k n h hh
      rw [e8] at hh
      obtain ⟨an, jn, hw⟩ := hi.handles k n h hh
      exact ⟨an, jn, g.wired hw⟩
    alive := by
      intro k n h hh
      rw [e8] at hh
      rw [e7]
      exact hi.alive k n h hh
    sorted := by rw [e8]; exact hi.sorted }

theorem Inv.updateState {L0 : Loader K} (names : List String) {L : Loader K} (hi : Inv L0 L) :
    Inv L0 (updateState names L) ∧ Grows L (updateState names L) ∧
      (updateState names L).handles = L.handles ∧ (updateState names L).transmissions = L.transmissions ∧
      (∀ n, n ∈ smapKeys (updateState names L).robotState ↔ n ∈ smapKeys L.robotState ∨ n ∈ names) := by
  induction names generalizing L with
  | nil => exact ⟨hi, .refl L, rfl, rfl, by simp [Loader.updateState]⟩
  | cons name rest ih =>
    rw [updateState_cons]
    split
    · rename_i hm
      obtain ⟨h1, h2, h3, h4, h5⟩ := ih hi
      refine ⟨h1, h2, h3, h4, fun n => ?_⟩
      rw [h5, List.mem_cons]
      constructor
      · tauto
      · rintro (h | rfl | h)
        · exact .inl h
        · exact .inl hm
        · exact .inr h
    · rename_i hm
      obtain ⟨g1, g2, g3⟩ := hi.addState hm
      obtain ⟨h1, h2, h3, h4, h5⟩ := ih g1
      have hr : smapFind name L.raw = none := by
        cases hb : smapFind name L.raw with
        | none => rfl
        | some b => rw [not_mem_keys, (hi.rawState name b hb).1] at hm; cases hm
      obtain ⟨e1, e2, e3, e4, e5, e6, e7, e8, e9⟩ := addState_same hr
      refine ⟨h1, g2.tr h2, h3.trans e8, h4.trans e7, fun n => ?_⟩
      rw [h5, addState_robotState hr, mem_keys_insert, List.mem_cons]
      tauto

/-! ### `updateJointInterfaces` for commands -/

/-- One turn of the loop of `updateCommandLoop` for a joint that is not there yet. -/
def addCommand (L : Loader K) (c : Cmd) (name : String) (s : StateCells) (b : Nat) : Loader K :=
  match L.ownCommand c with
  | some own => { L with ownCommand := setAt L.ownCommand c (some (smapInsert name (s, rawCommand b c) own)) }
  | none => { L with
      jointCommand := setAt L.jointCommand c (smapInsert name (s, rawCommand b c) (L.jointCommand c)) }

theorem addCommand_same (L : Loader K) (c : Cmd) (name : String) (s : StateCells) (b : Nat) :
    (L.addCommand c name s b).raw = L.raw ∧ (L.addCommand c name s b).next = L.next ∧
    (L.addCommand c name s b).actuators = L.actuators ∧
    (L.addCommand c name s b).robotState = L.robotState ∧
    (L.addCommand c name s b).ownState = L.ownState ∧
    (∀ d, ((L.addCommand c name s b).ownCommand d).isSome = (L.ownCommand d).isSome) ∧
    (L.addCommand c name s b).transmissions = L.transmissions ∧
    (L.addCommand c name s b).handles = L.handles ∧ (L.addCommand c name s b).jointState = L.jointState := by
  unfold addCommand
  cases ho : L.ownCommand c with
  | none => simp [robotState]
  | some o =>
    simp only [robotState, true_and, and_true]
    intro d
    by_cases h : d = c
    · subst h; rw [setAt_eq, ho]; rfl
    · rw [setAt_ne _ _ h]

theorem addCommand_robotCommand (L : Loader K) (c d : Cmd) (name : String) (s : StateCells) (b : Nat) :
    (L.addCommand c name s b).robotCommand d =
      if d = c then smapInsert name (s, rawCommand b c) (L.robotCommand c) else L.robotCommand d := by
  unfold addCommand
  by_cases h : d = c
  · subst h
    cases ho : L.ownCommand d <;> simp [robotCommand, setAt_eq, ho]
  · cases ho : L.ownCommand c <;> simp [robotCommand, setAt_ne _ _ h, h]

theorem updateCommandLoop_cons (c : Cmd) (name : String) (rest : List String) (L : Loader K) :
    updateCommandLoop c (name :: rest) L =
      if name ∈ smapKeys (L.robotCommand c) then updateCommandLoop c rest L
      else match smapFind name L.jointState with
        | none => .error .jointStateMissing
        | some s => updateCommandLoop c rest ((L.rawData name).1.addCommand c name s (L.rawData name).2) := by
  rw [updateCommandLoop]
  have hj : (L.rawData name).1.jointState = L.jointState := by unfold rawData; split <;> rfl
  unfold robotCommand
  split
  · rfl
  · rw [show smapFind name L.jointState = smapFind name (L.rawData name).1.jointState by rw [hj]]
    rfl

theorem Inv.addCommand {L0 L : Loader K} (hi : Inv L0 L) {c : Cmd} {name : String} {b : Nat}
    (hn : name ∉ smapKeys (L.robotCommand c)) (hb : smapFind name L.raw = some b) :
    Inv L0 (L.addCommand c name (Transmission.rawState b) b) ∧ Grows L (L.addCommand c name (Transmission.rawState b) b) := by
  have hn := not_mem_keys.1 hn
  obtain ⟨e1, e2, e3, e4, e5, e6, e7, e8, e9⟩ := addCommand_same L c name (Transmission.rawState b) b
  have ec := addCommand_robotCommand L c (name := name) (s := Transmission.rawState b) (b := b)
  have g : Grows L (L.addCommand c name (Transmission.rawState b) b) := {
    acts := e3
    raw := by intro n b hb; rw [e1]; exact hb
    state := by intro n s hs; rw [e4]; exact hs
    command := by
      intro d n s hs
      rw [ec]
      split
      · rename_i hd; subst hd
        rw [smapFind_insert]
        split
        · rename_i hh; subst hh; rw [hn] at hs; cases hs
        · exact hs
      · exact hs
    ownState := by rw [e5]
    ownCommand := e6
    next := by rw [e2]
    trans := by intro t ht; rw [e7]; exact ht }
  refine ⟨?_, g⟩
  exact {
    grows := hi.grows.tr g
    rawBounds := by rw [e1, e2]; exact hi.rawBounds
    rawApart := by rw [e1]; exact hi.rawApart
    jointState := by rw [e1, e9]; exact hi.jointState
    ownNoState := by rw [e5, e9]; exact hi.ownNoState
    state := by rw [e1, e4]; exact hi.state
    rawState := by rw [e1, e4]; exact hi.rawState
    command := by
      intro d n s hs
      rw [e1]
      rw [ec] at hs
      split at hs
      · rename_i hd; subst hd
        rw [smapFind_insert] at hs
        split at hs
        · rename_i hh; subst hh
          cases hs
          right
          refine ⟨?_, b, hb, rfl⟩
          cases h0 : smapFind n (L0.robotCommand d) with
          | none => rfl
          | some s => rw [hi.grows.command d n s h0] at hn; cases hn
        · exact hi.command d n s hs
      · exact hi.command d n s hs
    handles := by
      intro k n h hh
      rw [e8] at hh
      obtain ⟨an, jn, hw⟩ := hi.handles k n h hh
      exact ⟨an, jn, g.wired hw⟩
    alive := by
      intro k n h hh
      rw [e8] at hh
      rw [e7]
      exact hi.alive k n h hh
    sorted := by rw [e8]; exact hi.sorted }

theorem rawData_found {L : Loader K} {name : String} {b : Nat} (h : smapFind name L.raw = some b) :
    L.rawData name = (L, b) := by
  unfold rawData; rw [h]

theorem Inv.updateCommandLoop {L0 : Loader K} {c : Cmd} (names : List String) {L L' : Loader K} (hi : Inv L0 L)
    (he : updateCommandLoop c names L = .ok L') :
    Inv L0 L' ∧ Grows L L' ∧ L'.handles = L.handles ∧ L'.transmissions = L.transmissions ∧
      (∀ n, n ∈ smapKeys (L'.robotCommand c) ↔ n ∈ smapKeys (L.robotCommand c) ∨ n ∈ names) ∧
      (∀ d, d ≠ c → L'.robotCommand d = L.robotCommand d) ∧ L'.robotState = L.robotState := by
  induction names generalizing L with
  | nil => cases he; exact ⟨hi, .refl _, rfl, rfl, by simp, fun _ _ => rfl, rfl⟩
  | cons name rest ih =>
    rw [updateCommandLoop_cons] at he
    split at he
    · rename_i hm
      obtain ⟨h1, h2, h3, h4, h5, h6, h7⟩ := ih hi he
      refine ⟨h1, h2, h3, h4, fun n => ?_, h6, h7⟩
      rw [h5, List.mem_cons]
      constructor
      · tauto
      · rintro (h | rfl | h)
        · exact .inl h
        · exact .inl hm
        · exact .inr h
    · rename_i hm
      split at he
      · cases he
      · rename_i s hs
        obtain ⟨b, hb, rfl⟩ := hi.jointState name s hs
        rw [rawData_found hb] at he
        obtain ⟨g1, g2⟩ := hi.addCommand hm hb
        obtain ⟨h1, h2, h3, h4, h5, h6, h7⟩ := ih g1 he
        obtain ⟨e1, e2, e3, e4, e5, e6, e7, e8, e9⟩ := addCommand_same L c name (Transmission.rawState b) b
        refine ⟨h1, g2.tr h2, h3.trans e8, h4.trans e7, fun n => ?_, fun d hd => ?_, h7.trans e4⟩
        · rw [h5, addCommand_robotCommand, if_pos rfl, mem_keys_insert, List.mem_cons]
          tauto
        · rw [h6 d hd, addCommand_robotCommand, if_neg hd]

/-- Without an own joint state interface the state handle is always found. -/
theorem updateCommandLoop_ok {L0 : Loader K} {c : Cmd} (names : List String) {L : Loader K} (hi : Inv L0 L)
    (hn : ∀ n ∈ names, n ∈ smapKeys L.jointState) : ∃ L', updateCommandLoop c names L = .ok L' := by
  induction names generalizing L with
  | nil => exact ⟨L, rfl⟩
  | cons name rest ih =>
    rw [updateCommandLoop_cons]
    split
    · exact ih hi fun n h => hn n (by simp [h])
    · rename_i hm
      have := hn name (by simp)
      rw [← smapFind_isSome, Option.isSome_iff_exists] at this
      obtain ⟨s, hs⟩ := this
      rw [hs]
      obtain ⟨b, hb, rfl⟩ := hi.jointState name s hs
      rw [rawData_found hb]
      refine ih (hi.addCommand hm hb).1 fun n h => ?_
      rw [(addCommand_same L c name _ b).2.2.2.2.2.2.2.2]
      exact hn n (by simp [h])

theorem Inv.provUpdate {L0 L L' : Loader K} (hi : Inv L0 L) {p : Provider} {names : List String}
    (he : L.provUpdate p names = .ok L') :
    Inv L0 L' ∧ Grows L L' ∧ L'.handles = L.handles ∧ L'.transmissions = L.transmissions ∧
      (∀ n ∈ names, n ∈ smapKeys L'.robotState) ∧
      (∀ c x, p = .command c x → ∀ n ∈ names, n ∈ smapKeys (L'.robotCommand c)) := by
  obtain ⟨h1, h2, h3, h4, h5⟩ := hi.updateState names
  cases p with
  | state =>
    cases he
    exact ⟨h1, h2, h3, h4, fun n hn => (h5 n).2 (.inr hn), fun c x h => by cases h⟩
  | command c x =>
    obtain ⟨g1, g2, g3, g4, g5, g6, g7⟩ := h1.updateCommandLoop names he
    refine ⟨g1, h2.tr g2, g3.trans h3, g4.trans h4, fun n hn => ?_, fun d y h n hn => ?_⟩
    · rw [g7]; exact (h5 n).2 (.inr hn)
    · cases h; exact (g5 n).2 (.inr hn)

/-! ### Registering -/

theorem mem_put {L : Loader K} {k k' : Kind} {name n : String} {h g : Handle K}
    (hm : (n, g) ∈ (L.put k name h).handles k') : (k' = k ∧ n = name ∧ g = h) ∨ (n, g) ∈ L.handles k' := by
  by_cases hk : k' = k
  · subst hk
    simp only [put, setAt_eq] at hm
    rcases mem_smapInsert hm with ⟨h1, h2⟩ | hm
    · exact .inl ⟨rfl, h1, h2⟩
    · exact .inr hm
  · simp only [put, setAt_ne _ _ hk] at hm
    exact .inr hm

theorem put_grows (L : Loader K) (k : Kind) (name : String) (h : Handle K) : Grows L (L.put k name h) :=
  ⟨rfl, fun _ _ h => h, fun _ _ h => h, fun _ _ _ h => h, rfl, fun _ => rfl, le_rfl, fun _ h => h⟩

theorem Inv.put {L0 L : Loader K} (hi : Inv L0 L) {k : Kind} (name : String) {h : Handle K} {an jn : List String}
    (hw : L.Wired k h an jn) (ht : h.trans ∈ L.transmissions) : Inv L0 (L.put k name h) where
  grows := hi.grows.tr (put_grows L k name h)
  rawBounds := hi.rawBounds
  rawApart := hi.rawApart
  jointState := hi.jointState
  ownNoState := hi.ownNoState
  state := hi.state
  rawState := hi.rawState
  command := hi.command
  handles := by
    intro k' n g hg
    rcases mem_put hg with ⟨rfl, rfl, rfl⟩ | hg
    · exact ⟨an, jn, hw⟩
    · obtain ⟨an, jn, hw⟩ := hi.handles k' n g hg
      exact ⟨an, jn, hw⟩
  alive := by
    intro k' n g hg
    rcases mem_put hg with ⟨rfl, rfl, rfl⟩ | hg
    · exact ht
    · exact hi.alive k' n g hg
  sorted := by
    intro k'
    by_cases hk : k' = k
    · subst hk; simp only [Loader.put, setAt_eq]; exact keysSorted_insert _ _ (hi.sorted k')
    · simp only [Loader.put, setAt_ne _ _ hk]; exact hi.sorted k'

theorem put_wired {L : Loader K} {k k' : Kind} {name : String} {h g : Handle K} {an jn : List String} :
    (L.put k name h).Wired k' g an jn ↔ L.Wired k' g an jn := Iff.rfl

theorem validPtrs_map_some {A : Type} (l : List A) (f : A → Nat) : validPtrs (l.map fun x => some (f x)) = true := by
  simp [validPtrs]

theorem actuatorStateData_some {L : Loader K} {an : List String} {d : Data} (h : L.actuatorStateData an = some d) :
    (d.position.length = an.length ∧ d.velocity.length = an.length ∧ d.effort.length = an.length ∧
      (d.absolutePosition = [] ∨ d.absolutePosition.length = an.length) ∧
      (d.torqueSensor = [] ∨ d.torqueSensor.length = an.length)) ∧
    validPtrs d.position ∧ validPtrs d.velocity ∧ validPtrs d.effort ∧ validPtrs d.absolutePosition ∧
      validPtrs d.torqueSensor := by
  unfold actuatorStateData at h
  split at h
  · cases h
  · split at h
    · cases h
    · rename_i hs hm
      have hl := (mapM_some hm).1
      cases h
      refine ⟨⟨by simp [hl], by simp [hl], by simp [hl], ?_, ?_⟩, validPtrs_map_some _ _, validPtrs_map_some _ _,
        validPtrs_map_some _ _, ?_, ?_⟩
      · dsimp only; split <;> simp [hl]
      · dsimp only; split <;> simp [hl]
      · dsimp only
        split
        · rename_i hh; simpa [validPtrs] using hh
        · rfl
      · dsimp only
        split
        · rename_i hh; simpa [validPtrs] using hh
        · rfl

theorem jointStateData_some {L : Loader K} {jn : List String} {d : Data} (h : L.jointStateData jn = some d) :
    (d.position.length = jn.length ∧ d.velocity.length = jn.length ∧ d.effort.length = jn.length ∧
      d.absolutePosition.length = jn.length ∧ d.torqueSensor.length = jn.length) ∧
    validPtrs d.position ∧ validPtrs d.velocity ∧ validPtrs d.effort ∧ validPtrs d.absolutePosition ∧
      validPtrs d.torqueSensor := by
  unfold jointStateData at h
  split at h
  · cases h
  · rename_i hs hm
    have hl := (mapM_some hm).1
    cases h
    refine ⟨⟨by simp [hl], by simp [hl], by simp [hl], by simp [hl], by simp [hl]⟩, ?_⟩
    simp [validPtrs, Transmission.rawState]

theorem actuatorCommandData_some {L : Loader K} {c : Cmd} {an : List String} {d : Data}
    (h : L.actuatorCommandData c an = some d) : ∃ l : List Nat, l.length = an.length ∧ d = cmdData c (cells l) := by
  unfold actuatorCommandData at h
  split at h
  · cases h
  · split at h
    · cases h
    · rename_i hs hm
      cases h
      exact ⟨hs, (mapM_some hm).1.symm, rfl⟩

theorem jointCommandData_some {L : Loader K} {c : Cmd} {jn : List String} {d : Data}
    (h : L.jointCommandData c jn = some d) : ∃ l : List Nat, l.length = jn.length ∧ d = cmdData c (cells l) := by
  unfold jointCommandData at h
  split at h
  · cases h
  · rename_i hs hm
    cases h
    exact ⟨hs.map fun b => rawCommand b c, by simp [(mapM_some hm).1], by simp only [cells, List.map_map]; rfl⟩

theorem newHandle_state {L : Loader K} {t : Trans K} {act jnt : Data} {an jn : List String}
    (ha : L.actuatorStateData an = some act) (hj : L.jointStateData jn = some jnt)
    (hla : an.length = t.numActuators) (hlj : jn.length = t.numJoints) : newHandle t act jnt = .ok ⟨t, act, jnt⟩ := by
  obtain ⟨⟨a1, a2, a3, a4, a5⟩, b1, b2, b3, b4, b5⟩ := actuatorStateData_some ha
  obtain ⟨⟨c1, c2, c3, c4, c5⟩, d1, d2, d3, d4, d5⟩ := jointStateData_some hj
  have hp := num_pos t
  have : act.position.isEmpty = false := by
    rw [List.isEmpty_eq_false_iff, ← List.length_pos_iff]; omega
  have e4 : sizeOk act.absolutePosition t.numActuators = true := by
    simp only [sizeOk, Bool.or_eq_true, List.isEmpty_iff, beq_iff_eq]; rw [← hla]; exact a4
  unfold newHandle mkHandle
  simp only [this, Bool.false_and, Bool.false_eq_true, if_false, e4, b1, b2, b3, b4, b5, d1, d2, d3, d4, d5]
  simp [sizeOk, a1, a2, a3, c1, c2, c3, c4, c5, hla, hlj]

theorem newHandle_command {L : Loader K} {t : Trans K} {c : Cmd} {act jnt : Data} {an jn : List String}
    (ha : L.actuatorCommandData c an = some act) (hj : L.jointCommandData c jn = some jnt)
    (hla : an.length = t.numActuators) (hlj : jn.length = t.numJoints) : newHandle t act jnt = .ok ⟨t, act, jnt⟩ := by
  obtain ⟨l, hl, rfl⟩ := actuatorCommandData_some ha
  obtain ⟨l', hl', rfl⟩ := jointCommandData_some hj
  have hp := num_pos t
  have hne : l ≠ [] := by rw [← List.length_pos_iff]; omega
  unfold newHandle mkHandle
  cases c <;> simp [cmdData, sizeOk, validPtrs, cells, hne, hl, hl', hla, hlj]

/-- The kinds of handles a provider registers, replacing those of the same name. -/
def replaces : Provider → Kind → Bool
  | .state, k => k = .actuatorToJointState
  | .command c x, k => k = c.toActuator || (x && k = c.toJoint)

/-- The kinds of handles a provider registers if there is none of that name. -/
def ensures : Provider → Kind → Bool
  | .state, _ => false
  | .command _ x, k => k = .actuatorToJointState || (x && k = .jointToActuatorState)

/-- The handle of a kind made from the data. -/
def handleFor (d : HandleData K) (k : Kind) : Handle K :=
  match k.cmd with
  | none => ⟨d.trans, d.actState, d.jntState⟩
  | some _ => ⟨d.trans, d.actCmd, d.jntCmd⟩

/-- The data come from the robot and the loader. -/
structure DataOk (L : Loader K) (p : Provider) (d : HandleData K) (an jn : List String) : Prop where
  numA : an.length = d.trans.numActuators
  numJ : jn.length = d.trans.numJoints
  actState : L.actuatorStateData an = some d.actState
  jntState : L.jointStateData jn = some d.jntState
  actCmd : ∀ c x, p = .command c x → L.actuatorCommandData c an = some d.actCmd
  jntCmd : ∀ c x, p = .command c x → L.jointCommandData c jn = some d.jntCmd

/-- What registering does to the handles. -/
structure Registered (L L' : Loader K) (p : Provider) (d : HandleData K) : Prop where
  other : ∀ k n, n ≠ d.name → smapFind n (L'.handles k) = smapFind n (L.handles k)
  this : ∀ k, smapFind d.name (L'.handles k) =
    if replaces p k then some (handleFor d k)
    else if ensures p k then some ((smapFind d.name (L.handles k)).getD (handleFor d k))
    else smapFind d.name (L.handles k)

theorem find_put (L : Loader K) (k k' : Kind) (name n : String) (h : Handle K) :
    smapFind n ((L.put k name h).handles k') =
      if k' = k ∧ n = name then some h else smapFind n (L.handles k') := by
  by_cases hk : k' = k
  · subst hk; simp [put, setAt_eq, smapFind_insert]
  · simp [put, setAt_ne _ _ hk, hk]

/-- Put a handle unless there is one of that name. -/
def putNew (L : Loader K) (k : Kind) (name : String) (h : Handle K) : Loader K :=
  if name ∈ smapKeys (L.handles k) then L else L.put k name h

theorem find_putNew (L : Loader K) (k k' : Kind) (name n : String) (h : Handle K) :
    smapFind n ((L.putNew k name h).handles k') =
      if k' = k ∧ n = name then some ((smapFind name (L.handles k)).getD h) else smapFind n (L.handles k') := by
  unfold putNew
  split
  · rename_i hm
    rw [← smapFind_isSome, Option.isSome_iff_exists] at hm
    obtain ⟨g, hg⟩ := hm
    split
    · rename_i h1; obtain ⟨rfl, rfl⟩ := h1; simp [hg]
    · rfl
  · rename_i hm
    rw [not_mem_keys] at hm
    rw [find_put]
    split
    · simp [hm]
    · rfl

/-- The result of registering, if no handle is rejected. -/
def registered (L : Loader K) (p : Provider) (d : HandleData K) : Loader K :=
  match p with
  | .state => L.put .actuatorToJointState d.name ⟨d.trans, d.actState, d.jntState⟩
  | .command c false => (L.putNew .actuatorToJointState d.name ⟨d.trans, d.actState, d.jntState⟩).put c.toActuator d.name
      ⟨d.trans, d.actCmd, d.jntCmd⟩
  | .command c true =>
    (((L.putNew .actuatorToJointState d.name ⟨d.trans, d.actState, d.jntState⟩).put c.toActuator d.name
      ⟨d.trans, d.actCmd, d.jntCmd⟩).putNew .jointToActuatorState d.name ⟨d.trans, d.actState, d.jntState⟩).put
      c.toJoint d.name ⟨d.trans, d.actCmd, d.jntCmd⟩

theorem provRegister_eq {L : Loader K} {p : Provider} {d : HandleData K} {an jn : List String}
    (hd : DataOk L p d an jn) : L.provRegister p d = .ok (L.registered p d) := by
  have hs := newHandle_state hd.actState hd.jntState hd.numA hd.numJ
  cases p with
  | state => simp only [provRegister, registerState, hs]; rfl
  | command c x =>
    have hc := newHandle_command (hd.actCmd c x rfl) (hd.jntCmd c x rfl) hd.numA hd.numJ
    have hr : ∀ L : Loader K, L.registerCommand c d = .ok ((L.putNew .actuatorToJointState d.name
        ⟨d.trans, d.actState, d.jntState⟩).put c.toActuator d.name ⟨d.trans, d.actCmd, d.jntCmd⟩) := by
      intro L
      simp only [registerCommand, registerState, hs, hc, putNew]
      split <;> rfl
    cases x with
    | false => exact hr L
    | true =>
      simp only [provRegister, registerBidirectional, hr, hs, hc, registered]
      generalize (L.putNew .actuatorToJointState d.name ⟨d.trans, d.actState, d.jntState⟩).put c.toActuator d.name
        ⟨d.trans, d.actCmd, d.jntCmd⟩ = L2
      by_cases hm : d.name ∈ smapKeys (L2.handles .jointToActuatorState)
      · simp only [bind, Except.bind, pure, Except.pure, putNew, hm, if_true]
      · simp only [bind, Except.bind, pure, Except.pure, putNew, hm, if_false]

theorem registered_spec (L : Loader K) (p : Provider) (d : HandleData K) : Registered L (L.registered p d) p d := by
  constructor
  · intro k n hn
    cases p with
    | state => simp [registered, find_put, hn]
    | command c x => cases x <;> simp [registered, find_put, find_putNew, hn]
  · intro k
    cases p with
    | state =>
      simp only [registered, find_put, and_true, replaces, ensures, decide_eq_true_eq, Bool.false_eq_true, if_false]
      split
      · rename_i h; subst h; rfl
      · rfl
    | command c x =>
      cases x <;> cases c <;> cases k <;>
        simp [registered, find_put, find_putNew, replaces, ensures, Cmd.toActuator, Cmd.toJoint, handleFor, Kind.cmd]

theorem putNew_inv {L0 L : Loader K} (hi : Inv L0 L) {k : Kind} (name : String) {h : Handle K} {an jn : List String}
    (hw : L.Wired k h an jn) (ht : h.trans ∈ L.transmissions) :
    Inv L0 (L.putNew k name h) ∧ Grows L (L.putNew k name h) ∧
      (∀ (k' : Kind) (g : Handle K) (an jn : List String), L.Wired k' g an jn → (L.putNew k name h).Wired k' g an jn) ∧
      (L.putNew k name h).transmissions = L.transmissions := by
  unfold putNew
  split
  · exact ⟨hi, .refl L, fun _ _ _ _ h => h, rfl⟩
  · exact ⟨hi.put name hw ht, put_grows L k name h, fun _ _ _ _ h => h, rfl⟩

theorem Inv.registered {L0 L : Loader K} (hi : Inv L0 L) {p : Provider} {d : HandleData K} {an jn : List String}
    (hd : DataOk L p d an jn) (ht : d.trans ∈ L.transmissions) :
    Inv L0 (L.registered p d) ∧ Grows L (L.registered p d) := by
  have hs : ∀ k : Kind, k.cmd = none → L.Wired k ⟨d.trans, d.actState, d.jntState⟩ an jn := by
    intro k hk
    refine ⟨hd.numA, hd.numJ, ?_⟩
    rw [hk]
    exact ⟨hd.actState, hd.jntState⟩
  cases p with
  | state => exact ⟨hi.put _ (hs _ rfl) ht, put_grows _ _ _ _⟩
  | command c x =>
    have hc : ∀ k : Kind, k.cmd = some c → L.Wired k ⟨d.trans, d.actCmd, d.jntCmd⟩ an jn := by
      intro k hk
      refine ⟨hd.numA, hd.numJ, ?_⟩
      rw [hk]
      exact ⟨hd.actCmd c x rfl, hd.jntCmd c x rfl⟩
    have hcA : c.toActuator.cmd = some c := by cases c <;> rfl
    have hcJ : c.toJoint.cmd = some c := by cases c <;> rfl
    obtain ⟨a1, a2, a3, a4⟩ := putNew_inv hi d.name (hs .actuatorToJointState rfl) ht
    have b1 := a1.put d.name (a3 _ _ _ _ (hc c.toActuator hcA)) (by rw [a4]; exact ht)
    have b2 := a2.tr (put_grows _ c.toActuator d.name ⟨d.trans, d.actCmd, d.jntCmd⟩)
    cases x with
    | false => exact ⟨b1, b2⟩
    | true =>
      obtain ⟨c1, c2, c3, c4⟩ := putNew_inv b1 d.name (b2.wired (hs .jointToActuatorState rfl)) (b2.trans _ ht)
      exact ⟨c1.put d.name (c3 _ _ _ _ (b2.wired (hc c.toJoint hcJ))) (by rw [c4]; exact b2.trans _ ht),
        (b2.tr c2).tr (put_grows _ _ _ _)⟩

/-! ### Loading -/

/-- The actuators have the data the provider needs. -/
def offers (L : Loader K) (p : Provider) (acts : List String) : Bool :=
  (L.actuatorStateData acts).isSome && (L.provActuatorCommand p acts).isSome

theorem Grows.actuatorStateData {L L' : Loader K} (g : Grows L L') (acts : List String) :
    L'.actuatorStateData acts = L.actuatorStateData acts := by
  unfold Loader.actuatorStateData; rw [g.acts]

theorem Grows.actuatorCommandData {L L' : Loader K} (g : Grows L L') (c : Cmd) (acts : List String) :
    L'.actuatorCommandData c acts = L.actuatorCommandData c acts := by
  unfold Loader.actuatorCommandData; rw [g.acts]

theorem Grows.offers {L L' : Loader K} (g : Grows L L') (p : Provider) (acts : List String) :
    L'.offers p acts = L.offers p acts := by
  unfold Loader.offers
  rw [g.actuatorStateData]
  cases p with
  | state => rfl
  | command c x => simp only [provActuatorCommand]; rw [g.actuatorCommandData]

theorem provUpdate_error {L0 L : Loader K} (hi : Inv L0 L) {p : Provider} {names : List String} {e : Crash}
    (he : L.provUpdate p names = .error e) : e = .jointStateMissing ∧ L.ownState.isSome := by
  obtain ⟨h1, h2, h3, h4, h5⟩ := hi.updateState names
  cases p with
  | state => cases he
  | command c x =>
    constructor
    · have : ∀ (names : List String) (L : Loader K), Loader.updateCommandLoop c names L = .error e → e = .jointStateMissing := by
        intro names
        induction names with
        | nil => intro L he; cases he
        | cons n rest ih =>
          intro L he
          rw [updateCommandLoop_cons] at he
          split at he
          · exact ih _ he
          · split at he
            · cases he; rfl
            · exact ih _ he
      exact this _ _ he
    · by_contra ho
      have hn : (Loader.updateState names L).robotState = (Loader.updateState names L).jointState := by
        have := h2.ownState
        unfold robotState
        cases hs : (Loader.updateState names L).ownState with
        | none => rfl
        | some o => rw [hs] at this; rw [← this] at ho; exact absurd rfl ho
      obtain ⟨L', hL⟩ := updateCommandLoop_ok (c := c) names h1 fun n hn' => by rw [← hn]; exact (h5 n).2 (.inr hn')
      simp only [Loader.provUpdate] at he
      rw [hL] at he
      cases he

theorem jointStateData_isSome {L : Loader K} {names : List String} :
    (L.jointStateData names).isSome ↔ ∀ n ∈ names, n ∈ smapKeys L.raw := by
  unfold Loader.jointStateData
  constructor
  · intro h
    split at h
    · cases h
    · rename_i bs hb
      intro n hn
      obtain ⟨b, hb⟩ := (mapM_mem hb).1 n hn
      rw [← smapFind_isSome, hb]; rfl
  · intro h
    obtain ⟨r, hr⟩ := mapM_isSome (f := fun n => smapFind n L.raw) (l := names) fun n hn => by
      have := h n hn
      rwa [← smapFind_isSome, Option.isSome_iff_exists] at this
    rw [hr]; rfl

theorem jointCommandData_isSome {L : Loader K} {c : Cmd} {names : List String} :
    (L.jointCommandData c names).isSome ↔ ∀ n ∈ names, n ∈ smapKeys L.raw := by
  rw [← jointStateData_isSome]
  unfold Loader.jointCommandData Loader.jointStateData
  split
  · simp
  · simp

/-- Without own interfaces all joints that were updated have raw data. -/
theorem raw_of_noOwn {L0 L : Loader K} (hi : Inv L0 L) (ho : L.ownState = none) {n : String}
    (hn : n ∈ smapKeys L.robotState) : n ∈ smapKeys L.raw := by
  rw [← smapFind_isSome, Option.isSome_iff_exists] at hn
  obtain ⟨s, hs⟩ := hn
  have : L.robotState = L.jointState := by simp [robotState, ho]
  rw [this] at hs
  obtain ⟨b, hb, -⟩ := hi.jointState n s hs
  rw [← smapFind_isSome, hb]; rfl

/-- The names of the actuators. -/
abbrev _root_.Verif.Transmission.TransInfo.acts (i : TransInfo) : List String := i.actuators.map (·.name)

/-- The names of the joints. -/
abbrev _root_.Verif.Transmission.TransInfo.jnts (i : TransInfo) : List String := i.joints.map (·.name)

/-- Successful loading for one provider. -/
structure Done (L0 L L' : Loader K) (p : Provider) (i : TransInfo) (t : Trans K) : Prop where
  inv : Inv L0 L'
  grows : Grows L L'
  state : ∀ n ∈ i.jnts, n ∈ smapKeys L'.robotState
  command : ∀ c x, p = .command c x → ∀ n ∈ i.jnts, n ∈ smapKeys (L'.robotCommand c)
  data : ∃ d : HandleData K, d.name = i.name ∧ d.trans = t ∧ DataOk L' p d i.acts i.jnts ∧ Registered L L' p d

/-- Loading that failed for one provider. -/
structure Undone (L0 L L' : Loader K) : Prop where
  inv : Inv L0 L'
  grows : Grows L L'
  handles : L'.handles = L.handles
  transmissions : L'.transmissions = L.transmissions

theorem loadMaps_spec {L0 L : Loader K} (hi : Inv L0 L) {p : Provider} {i : TransInfo} {t : Trans K}
    (hA : i.actuators.length = t.numActuators) (hJ : i.joints.length = t.numJoints) :
    (L.offers p i.acts = false ∧ L.loadMaps p i t = .ok (L, false)) ∨
    (L.offers p i.acts = true ∧ L.ownState.isSome ∧
      (L.loadMaps p i t = .error .jointStateMissing ∨ ∃ L', L.loadMaps p i t = .ok (L', false) ∧ Undone L0 L L')) ∨
    (L.offers p i.acts = true ∧ ∃ L', L.loadMaps p i t = .ok (L', true) ∧ Done L0 L L' p i t) := by
  unfold Loader.loadMaps offers
  dsimp only
  cases h1 : L.actuatorStateData i.acts with
  | none => left; exact ⟨rfl, rfl⟩
  | some actState =>
    dsimp only
    cases h2 : L.provActuatorCommand p i.acts with
    | none => left; exact ⟨rfl, rfl⟩
    | some actCmd =>
      right
      dsimp only
      cases h3 : L.provUpdate p i.jnts with
      | error e =>
        obtain ⟨rfl, ho⟩ := provUpdate_error hi h3
        exact .inl ⟨rfl, ho, .inl rfl⟩
      | ok L1 =>
        obtain ⟨i1, g1, e1, e2, n1, n2⟩ := hi.provUpdate h3
        simp only [bind, Except.bind, pure, Except.pure]
        have key : (∀ n ∈ i.jnts, n ∈ smapKeys L1.raw) ∨ L.ownState.isSome := by
          cases ho : L.ownState with
          | none =>
            left
            intro n hn
            refine raw_of_noOwn i1 ?_ (n1 n hn)
            have := g1.ownState
            rw [ho] at this
            cases hs : L1.ownState with
            | none => rfl
            | some _ => rw [hs] at this; cases this
          | some o => right; rfl
        cases h4 : L1.jointStateData i.jnts with
        | none =>
          left
          refine ⟨rfl, ?_, .inr ⟨L1, rfl, i1, g1, e1, e2⟩⟩
          rcases key with k | k
          · have := jointStateData_isSome.2 k; rw [h4] at this; cases this
          · exact k
        | some jntState =>
          dsimp only
          have hraw : ∀ n ∈ i.jnts, n ∈ smapKeys L1.raw := by rw [← jointStateData_isSome, h4]; rfl
          cases h5 : L1.provJointCommand p i.jnts with
          | none =>
            exfalso
            cases p with
            | state => cases h5
            | command c x =>
              have := jointCommandData_isSome (c := c).2 hraw
              simp only [provJointCommand] at h5
              rw [h5] at this; cases this
          | some jntCmd =>
            right
            refine ⟨rfl, ?_⟩
            dsimp only
            have gT : Grows L1 { L1 with transmissions := L1.transmissions ++ [t] } :=
              ⟨rfl, fun _ _ h => h, fun _ _ h => h, fun _ _ _ h => h, rfl, fun _ => rfl, le_rfl,
                fun _ h => List.mem_append_left _ h⟩
            have iT : Inv L0 { L1 with transmissions := L1.transmissions ++ [t] } := {
              grows := i1.grows.tr gT
              rawBounds := i1.rawBounds
              rawApart := i1.rawApart
              jointState := i1.jointState
              ownNoState := i1.ownNoState
              state := i1.state
              rawState := i1.rawState
              command := i1.command
              handles := fun k n h hh => by
                obtain ⟨an, jn, hw⟩ := i1.handles k n h hh
                exact ⟨an, jn, gT.wired hw⟩
              alive := fun k n h hh => List.mem_append_left _ (i1.alive k n h hh)
              sorted := i1.sorted }
            have hd : DataOk { L1 with transmissions := L1.transmissions ++ [t] } p
                ⟨i.name, actState, actCmd, jntState, jntCmd, t⟩ i.acts i.jnts := {
              numA := by simpa using hA
              numJ := by simpa using hJ
              actState := by rw [gT.actuatorStateData, g1.actuatorStateData]; exact h1
              jntState := h4
              actCmd := by
                intro c x hp
                subst hp
                rw [gT.actuatorCommandData, g1.actuatorCommandData]
                exact h2
              jntCmd := by
                intro c x hp
                subst hp
                exact h5 }
            obtain ⟨iR, gR⟩ := iT.registered hd (List.mem_append_right _ (List.mem_singleton.2 rfl))
            rw [provRegister_eq hd]
            refine ⟨_, rfl, iR, (g1.tr gT).tr gR, ?_, ?_, ?_⟩
            · intro n hn
              have := n1 n hn
              rw [← smapFind_isSome, Option.isSome_iff_exists] at this ⊢
              obtain ⟨s, hs⟩ := this
              exact ⟨s, (gT.tr gR).state n s hs⟩
            · intro c x hp n hn
              have := n2 c x hp n hn
              rw [← smapFind_isSome, Option.isSome_iff_exists] at this ⊢
              obtain ⟨s, hs⟩ := this
              exact ⟨s, (gT.tr gR).command c n s hs⟩
            · refine ⟨⟨i.name, actState, actCmd, jntState, jntCmd, t⟩, rfl, rfl, ⟨hd.numA, hd.numJ, ?_, ?_, ?_, ?_⟩, ?_⟩
              · rw [gR.actuatorStateData]; exact hd.actState
              · exact gR.jointStateData hd.jntState
              · intro c x hp; rw [gR.actuatorCommandData]; exact hd.actCmd c x hp
              · intro c x hp; exact gR.jointCommandData (hd.jntCmd c x hp)
              · have r := registered_spec { L1 with transmissions := L1.transmissions ++ [t] } p
                  ⟨i.name, actState, actCmd, jntState, jntCmd, t⟩
                exact ⟨fun k n hn => by rw [r.other k n hn, e1], fun k => by rw [r.this k, e1]⟩

end Loader

end Verif.Transmission
