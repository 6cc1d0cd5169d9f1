import Verif.Spec.Resources
import Verif.Lemmas.Containers
import Mathlib.Data.List.Induction

/-! Helper lemmas for resource registries. -/

namespace Verif

namespace Iface

theorem registerHandle_eq (o : Iface) (h : Handle) :
    o.registerHandle h = { o with handles := smapInsert h.name h o.handles } := by
  unfold registerHandle; split <;> rfl

@[simp] theorem registerHandle_claims (o : Iface) (h : Handle) :
    (o.registerHandle h).claims = o.claims := by rw [registerHandle_eq]

@[simp] theorem registerHandle_claiming (o : Iface) (h : Handle) :
    (o.registerHandle h).claiming = o.claiming := by rw [registerHandle_eq]

theorem find_registerHandle (o : Iface) (h : Handle) (n : String) :
    smapFind n (o.registerHandle h).handles = if n = h.name then some h else smapFind n o.handles := by
  rw [registerHandle_eq]; exact smapFind_insert _ _ _ _

@[simp] theorem getHandle_handles (o : Iface) (n : String) :
    (o.getHandle n).2.handles = o.handles := by
  unfold getHandle applyPolicy claim
  split
  · rfl
  · simp only; split <;> rfl

@[simp] theorem getHandle_claiming (o : Iface) (n : String) :
    (o.getHandle n).2.claiming = o.claiming := by
  unfold getHandle applyPolicy claim
  split
  · rfl
  · simp only; split <;> rfl

theorem getHandle_claims (o : Iface) (n : String) :
    (o.getHandle n).2.claims =
      if (smapFind n o.handles).isSome ∧ o.claiming then ssetInsert n o.claims else o.claims := by
  unfold getHandle applyPolicy claim rmGetHandle
  split
  · rename_i h; simp [h]
  · rename_i h; simp only [h]; by_cases hc : o.claiming <;> simp [hc]

/-- Well-formed interface objects: what the two containers guarantee. -/
structure WF (o : Iface) : Prop where
  sorted : KeysSorted o.handles
  names : ∀ n h, smapFind n o.handles = some h → h.name = n
  claims : o.claims.Pairwise (· < ·)

theorem WF.empty (c : Bool) : WF { claiming := c } :=
  ⟨by simp [KeysSorted, smapKeys], by simp [smapFind], by simp⟩

theorem WF.registerHandle {o : Iface} (w : WF o) (h : Handle) : WF (o.registerHandle h) := by
  refine ⟨?_, ?_, by simpa using w.claims⟩
  · rw [registerHandle_eq]; exact keysSorted_insert _ _ w.sorted
  · intro n h'
    rw [find_registerHandle]
    split
    · rintro ⟨⟩; simp [*]
    · exact w.names n h'

theorem WF.getHandle {o : Iface} (w : WF o) (n : String) : WF (o.getHandle n).2 := by
  refine ⟨by simpa using w.sorted, by simpa using w.names, ?_⟩
  rw [getHandle_claims]; split
  · exact sorted_ssetInsert _ w.claims
  · exact w.claims

theorem WF.claim {o : Iface} (w : WF o) (n : String) : WF (o.claim n) :=
  ⟨w.sorted, w.names, sorted_ssetInsert _ w.claims⟩

theorem WF.clearClaims {o : Iface} (w : WF o) : WF o.clearClaims :=
  ⟨w.sorted, w.names, by simp [Iface.clearClaims]⟩

theorem WF.step {o : Iface} (w : WF o) (op : IfaceOp) : WF (o.step op) := by
  cases op with
  | registerHandle h => exact w.registerHandle h
  | getHandle n => exact w.getHandle n
  | clearClaims => exact w.clearClaims

theorem WF.run {o : Iface} (w : WF o) (ops : List IfaceOp) : WF (o.run ops) := by
  induction ops generalizing o with
  | nil => exact w
  | cons op ops ih => exact ih (w.step op)

theorem run_append (o : Iface) (a b : List IfaceOp) : o.run (a ++ b) = (o.run a).run b := by
  simp [run, List.foldl_append]

theorem run_claiming (o : Iface) (ops : List IfaceOp) : (o.run ops).claiming = o.claiming := by
  induction ops generalizing o with
  | nil => rfl
  | cons op ops ih =>
    show ((o.step op).run ops).claiming = _
    rw [ih]; cases op <;> simp [step, Iface.clearClaims]

theorem find_run (c : Bool) (ops : List IfaceOp) (name : String) :
    smapFind name ((Iface.run { claiming := c } ops).handles) = Spec.lastRegistered name ops := by
  induction ops using List.reverseRecOn with
  | nil => simp [run, smapFind, Spec.lastRegistered]
  | append_singleton ops op ih =>
    rw [run_append]
    simp only [Spec.lastRegistered, List.reverse_append, List.reverse_cons, List.reverse_nil,
      List.nil_append, List.singleton_append, List.findSome?_cons] at *
    cases op with
    | registerHandle h =>
      show smapFind name (Iface.registerHandle _ h).handles = _
      rw [find_registerHandle, ih]
      by_cases hn : name = h.name
      · subst hn; simp
      · simp [hn, Ne.symm hn]
    | getHandle n =>
      show smapFind name (Iface.getHandle _ n).2.handles = _
      rw [getHandle_handles, ih]
    | clearClaims => exact ih

theorem mem_claims_run (o : Iface) (ops : List IfaceOp) (h : IfaceOp.clearClaims ∉ ops) (n : String) :
    n ∈ (o.run ops).claims ↔ n ∈ o.claims ∨
      (o.claiming = true ∧ ∃ a b, ops = a ++ .getHandle n :: b ∧
        (smapFind n (o.run a).handles).isSome) := by
  induction ops using List.reverseRecOn with
  | nil => simp [run]
  | append_singleton ops op ih =>
    have hno : IfaceOp.clearClaims ∉ ops := fun hc => h (by simp [hc])
    have ih := ih hno
    have key : (∃ a b, ops ++ [op] = a ++ .getHandle n :: b ∧ (smapFind n (o.run a).handles).isSome) ↔
        (∃ a b, ops = a ++ .getHandle n :: b ∧ (smapFind n (o.run a).handles).isSome) ∨
        (op = .getHandle n ∧ (smapFind n (o.run ops).handles).isSome) := by
      constructor
      · rintro ⟨a, b, hab, hs⟩
        rcases List.eq_nil_or_concat b with rfl | ⟨b', x, rfl⟩
        · right
          have := List.append_inj' hab rfl
          simp only [List.cons.injEq, and_true] at this
          exact ⟨this.2, this.1 ▸ hs⟩
        · left
          rw [List.concat_eq_append, ← List.cons_append, ← List.append_assoc] at hab
          have := List.append_inj' hab rfl
          exact ⟨a, b', this.1, hs⟩
      · rintro (⟨a, b, rfl, hs⟩ | ⟨rfl, hs⟩)
        · exact ⟨a, b ++ [op], by simp, hs⟩
        · exact ⟨ops, [], by simp, hs⟩
    rw [key, run_append]
    cases op with
    | registerHandle hd =>
      show n ∈ (Iface.registerHandle _ hd).claims ↔ _
      rw [registerHandle_claims, ih]; simp
    | getHandle m =>
      show n ∈ (Iface.getHandle _ m).2.claims ↔ _
      rw [getHandle_claims, run_claiming]
      split
      · rename_i hc
        rw [mem_ssetInsert, ih]
        constructor
        · rintro (rfl | h1 | h1)
          · exact Or.inr ⟨hc.2, Or.inr ⟨rfl, hc.1⟩⟩
          · exact Or.inl h1
          · exact Or.inr ⟨h1.1, Or.inl h1.2⟩
        · rintro (h1 | ⟨h0, h1 | ⟨h1, _⟩⟩)
          · exact Or.inr (Or.inl h1)
          · exact Or.inr (Or.inr ⟨h0, h1⟩)
          · cases h1; exact Or.inl rfl
      · rename_i hc
        rw [ih]
        constructor
        · rintro (h1 | h1)
          · exact Or.inl h1
          · exact Or.inr ⟨h1.1, Or.inl h1.2⟩
        · rintro (h1 | ⟨h0, h1 | ⟨h1, h2⟩⟩)
          · exact Or.inl h1
          · exact Or.inr ⟨h0, h1⟩
          · cases h1; exact absurd ⟨h2, h0⟩ hc
    | clearClaims => exact absurd (by simp) h

/-- Contents of a concatenation: later managers override earlier ones. -/
theorem find_concat_one (m res : Iface) (w : WF m) (n : String) :
    smapFind n ((m.getNames.foldl (fun res n =>
      match m.rmGetHandle n with
      | some h => res.registerHandle h
      | none => res) res).handles) = (smapFind n m.handles).or (smapFind n res.handles) := by
  have gen : ∀ (l : List String) (res : Iface), smapFind n ((l.foldl (fun res n =>
      match m.rmGetHandle n with
      | some h => res.registerHandle h
      | none => res) res).handles) =
        if n ∈ l then (smapFind n m.handles).or (smapFind n res.handles) else smapFind n res.handles := by
    intro l
    induction l with
    | nil => simp
    | cons a l ih =>
      intro res
      rw [List.foldl_cons, ih]
      have step : smapFind n (match m.rmGetHandle a with
          | some h => res.registerHandle h
          | none => res).handles =
          if n = a then (smapFind n m.handles).or (smapFind n res.handles)
          else smapFind n res.handles := by
        unfold rmGetHandle
        cases hf : smapFind a m.handles with
        | none =>
          by_cases hn : n = a
          · subst hn; simp [hf]
          · simp [hn]
        | some h =>
          simp only [find_registerHandle, w.names a h hf]
          by_cases hn : n = a
          · subst hn; simp [hf]
          · simp [hn]
      rw [step]
      by_cases hn : n = a
      · subst hn
        cases hf : smapFind n m.handles <;> simp
      · simp [hn]
  rw [gen]
  split
  · rfl
  · rename_i hn
    have : smapFind n m.handles = none := by
      cases hf : smapFind n m.handles with
      | none => rfl
      | some v => exact absurd ((smapFind_isSome n m.handles).1 (by simp [hf])) hn
    simp [this]

theorem concat_one_claiming (m res : Iface) :
    (m.getNames.foldl (fun res n =>
      match m.rmGetHandle n with
      | some h => res.registerHandle h
      | none => res) res).claiming = res.claiming ∧
    (m.getNames.foldl (fun res n =>
      match m.rmGetHandle n with
      | some h => res.registerHandle h
      | none => res) res).claims = res.claims := by
  generalize m.getNames = l
  induction l generalizing res with
  | nil => simp
  | cons a l ih => rw [List.foldl_cons, (ih _).1, (ih _).2]; split <;> simp

theorem WF.concat_one (m : Iface) {res : Iface} (w : WF res) :
    WF (m.getNames.foldl (fun res n =>
      match m.rmGetHandle n with
      | some h => res.registerHandle h
      | none => res) res) := by
  generalize m.getNames = l
  induction l generalizing res with
  | nil => exact w
  | cons a l ih =>
    rw [List.foldl_cons]; apply ih
    split
    · exact w.registerHandle _
    · exact w

theorem concatManagers_spec (ms : List Iface) (res : Iface) (w : ∀ m ∈ ms, WF m) (wr : WF res) :
    WF (concatManagers ms res) ∧
    (concatManagers ms res).claiming = res.claiming ∧
    (concatManagers ms res).claims = res.claims ∧
    ∀ n, smapFind n (concatManagers ms res).handles =
      (ms.reverse.findSome? fun m => smapFind n m.handles).or (smapFind n res.handles) := by
  induction ms generalizing res with
  | nil => simp [concatManagers, wr]
  | cons m ms ih =>
    have w' : ∀ m ∈ ms, WF m := fun x hx => w x (List.mem_cons_of_mem _ hx)
    obtain ⟨h1, h2, h3, h4⟩ := ih _ w' (wr.concat_one m)
    refine ⟨h1, ?_, ?_, fun n => ?_⟩
    · exact h2.trans (concat_one_claiming m res).1
    · exact h3.trans (concat_one_claiming m res).2
    · refine (h4 n).trans ?_
      rw [find_concat_one m res (w m (by simp))]
      simp only [List.reverse_cons, List.findSome?_append, List.findSome?_cons, List.findSome?_nil]
      cases (ms.reverse.findSome? fun m => smapFind n m.handles) <;>
        cases smapFind n m.handles <;> simp

end Iface

end Verif
