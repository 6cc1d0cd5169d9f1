import Verif.Lemmas.ThreadsProgress

/-!
Each thread gets the answers to its own calls.
-/

namespace Verif

namespace Thr

open Mgr

theorem calls_concat (conf : List ControllerInfo → Bool) (t : Tid) (s : St) (ops : List ThrOp) (op : ThrOp) :
    calls conf t s (ops ++ [op]) = calls conf t s ops ++ (begins (s.run conf ops) t op).toList := by
  induction ops generalizing s with
  | nil => simp [calls, St.run]
  | cons o ops ih =>
    show (begins s t o).toList ++ calls conf t (s.step conf o) (ops ++ [op]) = _
    rw [ih, ← List.append_assoc]
    rfl

def isReload : Call → Bool
  | .reload _ _ _ => true
  | _ => false

/-- The call that a busy thread is executing. -/
def CallOf (svc : Svc) : Pos → Call → Prop
  | .idle, _ => False
  | .atServices c', c => c = c'
  | .entered _ c', c => c = c'
  | .beforeSwitch _ r now p none, c => c = .switch r now p
  | .atSwitch _ r now p none, c => c = .switch r now p
  | .inside _ none, c =>
    match svc with
    | .releasing _ (.load n) => ∃ env, c = .load n env
    | .releasing _ (.unload n _) => c = .unload n
    | .switching _ _ => ∃ r now p, c = .switch r now p
    | _ => False
  | _, c => isReload c = true

def Mine (svc : Svc) (p : Pos) (as : List Answer) (cs : List Call) : Prop :=
  (p = .idle ∧ List.Forall₂ (fun c a => Fits c a = true) cs as) ∨
  ∃ don c, cs = don ++ [c] ∧ List.Forall₂ (fun c a => Fits c a = true) don as ∧ CallOf svc p c

theorem answersOf_answer (s : St) (t : Tid) (srv : Bool) (a : Answer) :
    answersOf (s.answer t srv a) t = answersOf s t ++ [a] := by
  simp [answersOf, St.answer, List.filter_append]

theorem answersOf_answer_ne (s : St) {t t' : Tid} (h : t ≠ t') (srv : Bool) (a : Answer) :
    answersOf (s.answer t srv a) t' = answersOf s t' := by
  simp [answersOf, St.answer, List.filter_append, h]

theorem forall2_concat {R : Call → Answer → Prop} {cs : List Call} {as : List Answer} {c : Call} {a : Answer}
    (h : List.Forall₂ R cs as) (h1 : R c a) : List.Forall₂ R (cs ++ [c]) (as ++ [a]) := by
  induction h with
  | nil => exact .cons h1 .nil
  | cons hh _ ih => exact .cons hh ih

theorem mine_answer {s : St} {svc : Svc} {t : Tid} (srv : Bool) {a : Answer} {don : List Call} {c : Call}
    (h : List.Forall₂ (fun c a => Fits c a = true) don (answersOf s t)) (hf : Fits c a = true) :
    Mine svc ((s.answer t srv a).pos t) (answersOf (s.answer t srv a) t) (don ++ [c]) := by
  left
  refine ⟨by simp [St.answer, St.at], ?_⟩
  rw [answersOf_answer]
  exact forall2_concat h hf

theorem mine_endReload {s : St} {svc : Svc} {t : Tid} (ok : Bool) {don : List Call} {c : Call}
    (h : List.Forall₂ (fun c a => Fits c a = true) don (answersOf s t)) (hf : isReload c = true) :
    Mine svc ((s.endReload t ok).pos t) (answersOf (s.endReload t ok) t) (don ++ [c]) := by
  refine mine_answer (s := { s with mgr := s.mgr.emit [.reloadRet ok] }) true h ?_
  cases c <;> first | rfl | cases hf

/-- What a function may return for a call, or inside a reload. -/
def FitsK (k : Option (List String)) (c : Call) (e : Event) : Prop :=
  match k with
  | none => Fits c (.ret e) = true
  | some _ => isReload c = true

theorem mine_back {s : St} {svc : Svc} {t : Tid} (srv : Bool) {k : Option (List String)} {e : Event} {don : List Call} {c : Call}
    (h : List.Forall₂ (fun c a => Fits c a = true) don (answersOf s t)) (hf : FitsK k c e) :
    Mine svc ((s.back t srv k e).pos t) (answersOf (s.back t srv k e) t) (don ++ [c]) := by
  unfold St.back
  cases k with
  | none => exact mine_answer srv h hf
  | some rest =>
    simp only
    split
    · refine Or.inr ⟨don, c, rfl, h, ?_⟩
      have hr : isReload c = true := hf
      clear hf
      cases rest <;> simpa [St.at, next, CallOf] using hr
    · exact mine_endReload false h hf

theorem mine_locked {s : St} {t : Tid} (srv : Bool) {k : Option (List String)} {m : Mgr} {don : List Call} {c : Call}
    (h : List.Forall₂ (fun c a => Fits c a = true) don (answersOf s t))
    (h1 : m.svc = .idle → FitsK k c (last m)) (h2 : m.svc ≠ .idle → CallOf m.svc (.inside srv k) c) :
    Mine (s.locked t srv k m).mgr.svc ((s.locked t srv k m).pos t) (answersOf (s.locked t srv k m) t) (don ++ [c]) := by
  unfold St.locked
  split
  · rename_i hi
    exact mine_back (s := { s with mgr := m }) srv h (h1 hi)
  · rename_i hi
    refine Or.inr ⟨don, c, rfl, h, ?_⟩
    simpa [St.at] using h2 hi

theorem fits_load (srv : Bool) {m : Mgr} (hi : m.svc = .idle) (hu : m.used ≠ some (!m.current)) (n : String) (env : LoadEnv) :
    ((m.load n env).svc = .idle → Fits (.load n env) (.ret (last (m.load n env))) = true) ∧
    ((m.load n env).svc ≠ .idle → CallOf (m.load n env).svc (.inside srv none) (.load n env)) := by
  rcases load_cases m n env hi hu with ⟨ty, i, cl, _, _, _, _, _, e⟩ | ⟨_, o, _, e⟩
  · rw [e]
    exact ⟨fun h => by simp [loaded] at h, fun _ => ⟨env, rfl⟩⟩
  · rw [e]
    exact ⟨fun _ => by simp [last, Fits], fun h => absurd hi h⟩

theorem fits_unload (srv : Bool) {m : Mgr} (hi : m.svc = .idle) (hu : m.used ≠ some (!m.current)) (n : String) :
    ((m.unload n).svc = .idle → Fits (.unload n) (.ret (last (m.unload n))) = true) ∧
    ((m.unload n).svc ≠ .idle → CallOf (m.unload n).svc (.inside srv none) (.unload n)) := by
  have e0 : m.unload n = m.unloadCore n .ret id := by simp [Mgr.unload, hi]
  rw [e0]
  rcases unloadCore_cases m n .ret id hu with ⟨_, _, e⟩ | ⟨_, e⟩
  · rw [e]
    exact ⟨fun h => by simp [unloaded] at h, fun _ => rfl⟩
  · rw [e]
    exact ⟨fun _ => by simp [last, Fits], fun h => absurd hi h⟩

theorem fits_switch (srv : Bool) {conf} {m : Mgr} (hi : m.svc = .idle) (r : SwitchReq) (now : Int) (p : Bool) :
    ((switchLocked conf m r now p).2.svc = .idle →
      Fits (.switch r now p) (.ret (last (switchLocked conf m r now p).2)) = true) ∧
    ((switchLocked conf m r now p).2.svc ≠ .idle →
      CallOf (switchLocked conf m r now p).2.svc (.inside srv none) (.switch r now p)) := by
  have hc : (m.switchCore conf r now p .ret).1 = false →
      ∃ es, (m.switchCore conf r now p .ret).2.trace = m.trace ++ es ++ [.switchRet false] := by
    unfold switchCore
    simp only
    repeat' split
    all_goals first
      | exact fun hh => absurd hh.symm Bool.false_ne_true
      | (intro _; refine ⟨[], ?_⟩; simp [Mgr.emit, Mgr.refuse]; done)
      | exact fun _ => ⟨[_], rfl⟩
  unfold switchLocked
  rcases switchCore_svc (conf := conf) hi r now p with ⟨h1, h2⟩ | ⟨h1, h2, _⟩
  · split
    · rename_i m' e
      rw [e] at h2
      have h2 : m'.svc = _ := h2
      refine ⟨fun h => ?_, fun _ => ?_⟩
      · have h : m'.svc = .idle := h
        rw [h2] at h; cases h
      · show CallOf m'.svc _ _
        rw [h2]
        exact ⟨r, now, p, rfl⟩
    · rename_i m' e
      rw [e] at h1; cases h1
  · split
    · rename_i m' e
      rw [e] at h1; cases h1
    · rename_i m' e
      obtain ⟨es, h3⟩ := hc h1
      rw [e] at h3 h2
      have h2 : m'.svc = .idle := h2
      refine ⟨fun _ => ?_, fun h => absurd h2 h⟩
      rw [last_eq (m := { m' with params := m.params }) (es := m.trace ++ es) (e := .switchRet false) h3]
      rfl

theorem fits_poll {m : Mgr} (hpl : Plain m.svc) (ok : RosOk) (el : Int) {c : Call} {srv : Bool}
    (hc : CallOf m.svc (.inside srv none) c) :
    ((m.poll ok el).svc = .idle → Fits c (.ret (last (m.poll ok el))) = true) ∧
    ((m.poll ok el).svc ≠ .idle → CallOf (m.poll ok el).svc (.inside srv none) c) := by
  unfold Mgr.poll
  split
  · rename_i e; rw [e] at hc; exact hc.elim
  · rename_i k tmo e
    have hc' := hc
    rw [e] at hpl hc
    obtain rfl : k = .ret := hpl
    obtain ⟨r, now, p, rfl⟩ := hc
    simp only [Mgr.finish]
    repeat' split
    all_goals first
      | exact ⟨fun hh => absurd (e ▸ hh) (by simp), fun _ => hc'⟩
      | exact ⟨fun _ => by simp [last, Mgr.emit, Fits], fun hh => absurd rfl hh⟩
  · rename_i f r e
    have hc' := hc
    rw [e] at hpl hc
    cases r with
    | load n =>
      obtain ⟨env, rfl⟩ := hc
      simp only
      repeat' split
      all_goals first
        | exact ⟨fun hh => absurd (e ▸ hh) (by simp), fun _ => hc'⟩
        | exact ⟨fun _ => by simp [last, Mgr.emit, Fits], fun hh => absurd rfl hh⟩
    | unload n k =>
      obtain rfl : k = .ret := hpl
      obtain rfl : c = .unload n := hc
      simp only [Mgr.finish]
      repeat' split
      all_goals first
        | exact ⟨fun hh => absurd (e ▸ hh) (by simp), fun _ => hc'⟩
        | exact ⟨fun _ => by simp [last, Mgr.emit, Fits], fun hh => absurd rfl hh⟩
  · rename_i e; rw [e] at hpl; cases hpl
  · rename_i e; rw [e] at hpl; cases hpl

theorem go_mine {conf} {s s' : St} (h : Locks s) (t : Tid) (ok : RosOk) (el : Int) {cs : List Call}
    (hm : Mine s.mgr.svc (s.pos t) (answersOf s t) cs) (hg : s.go conf t ok el = some s') :
    Mine s'.mgr.svc (s'.pos t) (answersOf s' t) cs := by
  have idle_of : s.controllers = none → s.mgr.svc = .idle := h.svc.1
  rcases hm with ⟨hp, _⟩ | ⟨don, c, rfl, hf, hc⟩
  · unfold St.go at hg
    rw [hp] at hg
    cases hg
  unfold St.go at hg
  split at hg
  · cases hg
  · rename_i hpos
    rw [hpos] at hc
    split at hg <;> cases hg
    exact Or.inr ⟨don, c, rfl, hf, by simpa [St.at, CallOf] using hc⟩
  · rename_i srv n env hpos
    rw [hpos] at hc
    obtain rfl : c = .load n env := hc
    split at hg
    · cases hg
    · rename_i hi
      simp only [ne_eq, not_not] at hi
      split at hg
      · cases hg
        exact Or.inr ⟨don, _, rfl, hf, by rw [hpos]; rfl⟩
      · rename_i hu
        cases hg
        exact mine_locked (s := { s with made := _ }) srv hf (fits_load srv (idle_of hi) hu n env).1 (fits_load srv (idle_of hi) hu n env).2
  · rename_i srv n hpos
    rw [hpos] at hc
    obtain rfl : c = .unload n := hc
    split at hg
    · cases hg
    · rename_i hi
      simp only [ne_eq, not_not] at hi
      split at hg
      · cases hg
        exact Or.inr ⟨don, _, rfl, hf, by rw [hpos]; rfl⟩
      · rename_i hu
        cases hg
        exact mine_locked srv hf (fits_unload srv (idle_of hi) hu n).1 (fits_unload srv (idle_of hi) hu n).2
  · rename_i srv hpos
    rw [hpos] at hc
    obtain rfl : c = .names := hc
    split at hg <;> cases hg
    exact mine_answer srv hf rfl
  · rename_i srv r now p hpos
    rw [hpos] at hc
    cases hg
    exact Or.inr ⟨don, c, rfl, hf, by simpa [St.at, CallOf] using hc⟩
  · rename_i srv f now p hpos
    rw [hpos] at hc
    have hc : isReload c = true := by rw [show c = _ from hc]; rfl
    repeat' split at hg
    all_goals cases hg
    · exact mine_endReload false hf hc
    · exact Or.inr ⟨don, c, rfl, hf, by simpa [St.at, CallOf] using hc⟩
    · exact Or.inr ⟨don, c, rfl, hf, by simpa [St.at, CallOf] using hc⟩
  · rename_i srv r now p k hpos
    rw [hpos] at hc
    cases hg
    refine Or.inr ⟨don, c, rfl, hf, ?_⟩
    cases k <;> simpa [St.at, CallOf] using hc
  · rename_i srv r now p k hpos
    rw [hpos] at hc
    split at hg <;> cases hg
    rename_i hi
    simp only [ne_eq, not_not] at hi
    cases k with
    | none =>
      obtain rfl : c = .switch r now p := hc
      exact mine_locked srv hf (fits_switch srv (idle_of hi) r now p).1 (fits_switch srv (idle_of hi) r now p).2
    | some ns => exact mine_locked srv hf (fun _ => hc) (fun _ => hc)
  · rename_i n ns hpos
    rw [hpos] at hc
    have hc' : isReload c = true := hc
    split at hg
    · cases hg
    · split at hg
      · cases hg
        exact Or.inr ⟨don, _, rfl, hf, by rw [hpos]; exact hc⟩
      · cases hg
        exact mine_locked true hf (fun _ => hc) (fun _ => hc)
  · rename_i hpos
    rw [hpos] at hc
    split at hg <;> cases hg
    exact Or.inr ⟨don, c, rfl, hf, by simpa [St.at, CallOf] using hc⟩
  · rename_i hpos
    rw [hpos] at hc
    cases hg
    exact mine_endReload (s := { s with generation := s.generation + 1 }) true hf hc
  · rename_i srv k hpos
    rw [hpos] at hc
    simp only at hg
    cases k with
    | none =>
      have key := fits_poll h.plain ok el hc
      split at hg <;> cases hg
      · rename_i hi
        exact mine_back (s := { s with mgr := s.mgr.poll ok el, controllers := none }) srv hf (key.1 hi)
      · rename_i hi
        refine Or.inr ⟨don, c, rfl, hf, ?_⟩
        show CallOf (s.mgr.poll ok el).svc (s.pos t) c
        rw [hpos]
        exact key.2 hi
    | some ns =>
      split at hg <;> cases hg
      · exact mine_back (s := { s with mgr := s.mgr.poll ok el, controllers := none }) srv hf hc
      · refine Or.inr ⟨don, c, rfl, hf, ?_⟩
        show CallOf _ (s.pos t) c
        rw [hpos]
        exact hc

/-- The steps of other threads do not disturb a thread inside. -/
theorem go_svc {conf} {s s' : St} (hl : Locks s) {t t' : Tid} (hne : t' ≠ t) (hi : Inside (s.pos t') = true) {ok : RosOk} {el : Int}
    (hg : s.go conf t ok el = some s') : s'.mgr.svc = s.mgr.svc := by
  have hc : s.controllers = some t' := (hl.ctrl t').2 hi
  have hin : Inside (s.pos t) = false := by
    by_contra hh
    have := (hl.ctrl t).2 (by simpa using hh)
    rw [hc] at this
    cases this
    exact hne rfl
  unfold St.go at hg
  rw [hc] at hg
  simp only [ne_eq, reduceCtorEq, not_false_eq_true, if_true] at hg
  split at hg <;> (try cases hg) <;> (try rfl)
  · split at hg <;> cases hg
    rfl
  · rename_i hpos
    rw [hpos] at hin
    cases hin

theorem back_answersOf (s : St) {t t' : Tid} (h : t ≠ t') (srv : Bool) (k : Option (List String)) (e : Event) :
    answersOf (s.back t srv k e) t' = answersOf s t' := by
  unfold St.back
  cases k with
  | none => exact answersOf_answer_ne s h _ _
  | some rest =>
    simp only
    split
    · rfl
    · exact answersOf_answer_ne (s := { s with mgr := _ }) h _ _

theorem locked_answersOf (s : St) {t t' : Tid} (h : t ≠ t') (srv : Bool) (k : Option (List String)) (m : Mgr) :
    answersOf (s.locked t srv k m) t' = answersOf s t' := by
  unfold St.locked
  split
  · exact back_answersOf _ h _ _ _
  · rfl

theorem go_answersOf {conf} {s s' : St} {t t' : Tid} (h : t ≠ t') {ok : RosOk} {el : Int} (hg : s.go conf t ok el = some s') :
    answersOf s' t' = answersOf s t' := by
  unfold St.go at hg
  simp only at hg
  repeat' split at hg
  all_goals first | cases hg
  all_goals first
    | rfl
    | exact locked_answersOf _ h _ _ _
    | exact back_answersOf _ h _ _ _
    | exact answersOf_answer_ne _ h _ _

theorem callOf_svc {svc svc' : Svc} {p : Pos} {c : Call} (h : Inside p = true → svc' = svc) (hc : CallOf svc p c) : CallOf svc' p c := by
  cases p with
  | inside srv k => rw [h rfl]; exact hc
  | beforeSwitch _ _ _ _ k => cases k <;> exact hc
  | atSwitch _ _ _ _ k => cases k <;> exact hc
  | _ => exact hc

theorem mine_svc {svc svc' : Svc} {p : Pos} {as cs} (h : Inside p = true → svc' = svc) (hm : Mine svc p as cs) : Mine svc' p as cs := by
  rcases hm with h1 | ⟨don, c, h1, h2, h3⟩
  · exact Or.inl h1
  · exact Or.inr ⟨don, c, h1, h2, callOf_svc h h3⟩

theorem begins_busy {s : St} {t : Tid} (h : s.pos t ≠ .idle) (op : ThrOp) : begins s t op = none := by
  cases op with
  | call t' srv c =>
    simp only [begins]
    split
    · rfl
    · split <;> first | rfl | exact absurd (by assumption) h
  | _ => rfl

theorem mine_call {s : St} {t t' : Tid} {srv : Bool} {c : Call} {cs : List Call}
    (hm : Mine s.mgr.svc (s.pos t) (answersOf s t) cs) :
    Mine (s.call t' srv c).mgr.svc ((s.call t' srv c).pos t) (answersOf (s.call t' srv c) t) (cs ++ (begins s t (.call t' srv c)).toList) := by
  by_cases ht : t' = t
  · subst ht
    cases hp : s.pos t' with
    | idle =>
      rw [hp] at hm
      have hf : List.Forall₂ (fun c a => Fits c a = true) cs (answersOf s t') := by
        rcases hm with h1 | ⟨_, _, _, _, h1⟩
        · exact h1.2
        · exact h1.elim
      cases srv with
      | true =>
        refine Or.inr ⟨cs, c, by simp [begins, hp], ?_, ?_⟩
        · simpa [St.call, hp, answersOf, St.at] using hf
        · simp [St.call, hp, St.at, CallOf]
      | false =>
        cases c with
        | reload f n p =>
          refine Or.inl ⟨?_, ?_⟩
          · simp [St.call, hp]
          · simpa [St.call, hp, begins] using hf
        | _ =>
          refine Or.inr ⟨cs, _, by simp [begins, hp]; rfl, ?_, ?_⟩
          · simpa [St.call, hp, answersOf, St.at] using hf
          · simp [St.call, hp, St.at, CallOf]
    | _ =>
      rw [begins_busy (by rw [hp]; simp), Option.toList_none, List.append_nil]
      have e : s.call t' srv c = s := by simp [St.call, hp]
      rw [e]
      exact hm
  · have e : begins s t (.call t' srv c) = none := by simp [begins, ht]
    rw [e, Option.toList_none, List.append_nil]
    have key : (s.call t' srv c).mgr = s.mgr ∧ (s.call t' srv c).pos t = s.pos t ∧ (s.call t' srv c).answers = s.answers := by
      rcases call_cases s t' srv c with e | ⟨_, _, e⟩ | ⟨_, _, _, e⟩ <;> rw [e]
      · exact ⟨rfl, rfl, rfl⟩
      · exact ⟨rfl, by simp [St.at, Ne.symm ht], rfl⟩
      · exact ⟨rfl, by simp [St.at, Ne.symm ht], rfl⟩
    rw [key.1, key.2.1, show answersOf (s.call t' srv c) t = answersOf s t by unfold answersOf; rw [key.2.2]]
    exact hm

theorem mine_after (conf : List ControllerInfo → Bool) (ops : List ThrOp) (t : Tid) :
    Mine (after conf ops).mgr.svc ((after conf ops).pos t) (answersOf (after conf ops) t) (calls conf t {} ops) := by
  induction ops using List.reverseRecOn with
  | nil => exact Or.inl ⟨rfl, .nil⟩
  | append_singleton ops op ih =>
    have hl := locks_after conf ops
    rw [calls_concat]
    unfold after at ih hl ⊢
    rw [run_concat]
    generalize ({} : St).run conf ops = s at ih hl ⊢
    cases op with
    | call t' srv c => exact mine_call ih
    | go t' ok el =>
      show Mine ((s.go conf t' ok el).getD s).mgr.svc (((s.go conf t' ok el).getD s).pos t) (answersOf ((s.go conf t' ok el).getD s) t)
        (calls conf t {} ops ++ [])
      rw [List.append_nil]
      cases e : s.go conf t' ok el with
      | none => exact ih
      | some s' =>
        show Mine s'.mgr.svc (s'.pos t) (answersOf s' t) _
        by_cases ht : t' = t
        · subst ht
          exact go_mine hl t' ok el ih e
        · rw [go_others e t (Ne.symm ht), go_answersOf ht e]
          exact mine_svc (fun hi => go_svc hl (Ne.symm ht) hi e) ih
    | update time reset hw =>
      show Mine (s.mgr.update time reset hw).svc (s.pos t) (answersOf s t) (calls conf t {} ops ++ [])
      rw [List.append_nil, update_svc]
      exact ih

end Thr

end Verif
