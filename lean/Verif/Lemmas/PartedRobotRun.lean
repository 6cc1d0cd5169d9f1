import Verif.Lemmas.PartedRobot

/-!
The run of a whole robot with a combined hardware, as runs of its parts.
-/

namespace Verif.Parted

open Verif.Spec (observed)
open Verif.Transmission (Mem Loader Cmd Doc TransInfo)
open Verif.Cycle (Record Halt overwrite)
open Verif.Described (Robot Setting Lawful Base Made Cycled Assembled)
open Verif.Whole (Input Seen cycles Honest)

variable {T K : Type} [Add T] [Sub T] [Mul T] [Div T] [OfNat T 0] [OfNat T 1] [OfNat T 2] [DecidableEq T] [LinearOrder K]
  {stod : String → Option T} {S : Setting T K} {nd : Bool}

/-- A part that has been made. -/
def Fit (stod : String → Option T) (r : Robot T K) : Prop := Based stod r.loader ∧ Made r

theorem Fit.read {r : Robot T K} (h : Fit stod r) (sense m : Mem T) : ∃ v, r.read nd sense m = .ok v := by
  obtain ⟨⟨L0, d, infos, hb⟩, -⟩ := h
  obtain ⟨m1, e1, -⟩ := Transmission.Loader.c109_reading hb.fresh hb.noOwn hb.below hb.loaded hb.parsed hb.apart nd
    (overwrite r.sensed sense m)
  exact ⟨m1, by rw [Robot.read, e1]⟩

/-- What a cycle is for the parts. -/
structure Turned (stod : String → Option T) (S : Setting T K) (nd : Bool) (w : Crew T K) (i : Input T) (w' : Crew T K)
    (rec : Record T) : Prop where
  sys : w'.sys = w.sys.step stdEnv checkForConflict i.update
  mem : w'.mem = rec.sent
  length : w'.robots.length = w.robots.length
  wished : rec.wished = replay i.act (w'.sys.mgr.trace.drop w.sys.mgr.trace.length) rec.measured
  part : ∀ (k : Nat) r, w.robots[k]? = some r → ∃ r', w'.robots[k]? = some r' ∧
    r.cycle S nd ⟨own w.robots.length k i.sense, own w.robots.length k rec.wished, i.period, i.reset⟩
      (own w.robots.length k w.mem) = .ok (r', ownRecord w.robots.length k rec) ∧ r'.loader = r.loader ∧ Made r' ∧
    ∀ dt, Described.Accepts S.toArith r' dt ↔ Described.Accepts S.toArith r dt

/-- What a part does in a cycle whose period its limits accept. -/
theorem one_part (hS : Lawful S) {w : Crew T K} (hf : ∀ r ∈ w.robots, Fit stod r)
    (hv : SysInv stdEnv (interfaces (w.robots.map (·.loader))) w.sys) (i : Input T)
    (hw : ∀ c k m a, ¬w.sys.CanWrite (fun d => [d]) c a → i.act c k m a = m a) {m1 : Mem T} (es : List Event) {k : Nat} {r : Robot T K}
    (hr : w.robots[k]? = some r)
    (v1 : r.read nd (view w.robots.length k i.sense) (view w.robots.length k w.mem) = .ok (view w.robots.length k m1))
    (hp : Described.Accepts S.toArith r (S.see i.period)) :
    ∃ p, (ready i.reset r).write S nd i.period (view w.robots.length k (replay i.act es m1)) = .ok p ∧
      r.cycle S nd ⟨view w.robots.length k i.sense, view w.robots.length k (replay i.act es m1), i.period, i.reset⟩
        (view w.robots.length k w.mem) =
        .ok (p.1, ⟨view w.robots.length k m1, view w.robots.length k (replay i.act es m1), p.2.1, p.2.2⟩) ∧
      p.1.loader = r.loader ∧ Made p.1 ∧ ∀ dt, Described.Accepts S.toArith p.1 dt ↔ Described.Accepts S.toArith r dt := by
  obtain ⟨⟨L0, d, infos, hb⟩, hmade⟩ := hf r (List.mem_of_getElem? hr)
  obtain ⟨r', rec, hc, hcyc⟩ := Described.cycle_accepted (S := S) (nd := nd) hS hb rfl hmade
    ⟨view w.robots.length k i.sense, view w.robots.length k (replay i.act es m1), i.period, i.reset⟩ hp
    (view w.robots.length k w.mem)
  have hc' := hc
  unfold Robot.cycle at hc
  simp only [v1, bind, Except.bind] at hc
  rw [replay_commanded hv hw _ _ hr] at hc
  split at hc
  · cases hc
  · rename_i p hp
    simp only [pure, Except.pure, Except.ok.injEq, Prod.mk.injEq] at hc
    obtain ⟨rfl, rfl⟩ := hc
    exact ⟨p, hp, hc', hcyc.loader, hcyc.made, hcyc.accepts⟩

/-- A cycle is one of each part. -/
theorem cycle_eq (hS : Lawful S) {w : Crew T K} (hf : ∀ r ∈ w.robots, Fit stod r)
    (hv : SysInv stdEnv (interfaces (w.robots.map (·.loader))) w.sys) (i : Input T)
    (hw : ∀ c k m a, ¬w.sys.CanWrite (fun d => [d]) c a → i.act c k m a = m a)
    (hp : ∀ r ∈ w.robots, Described.Accepts S.toArith r (S.see i.period)) :
    ∃ w' rec, w.cycle S nd i = .ok (w', rec) ∧ Turned stod S nd w i w' rec := by
  obtain ⟨m1, e1, v1, -⟩ := readAll_ok (nd := nd) w.robots.length i.sense w.robots 0 w.mem (by omega)
    fun j r hj => (hf r (List.mem_of_getElem? hj)).read _ _
  simp only [Nat.zero_add] at v1
  have one := fun (k : Nat) r (hr : w.robots[k]? = some r) => one_part (nd := nd) hS hf hv i hw
    ((w.sys.step stdEnv checkForConflict i.update).mgr.trace.drop w.sys.mgr.trace.length) hr (v1 k r hr)
    (hp r (List.mem_of_getElem? hr))
  set m2 := replay i.act ((w.sys.step stdEnv checkForConflict i.update).mgr.trace.drop w.sys.mgr.trace.length) m1 with hm2
  obtain ⟨ps, m3, m4, e3, hlen, h3, -⟩ := writeAll_ok (S := S) (nd := nd) w.robots.length i.reset i.period w.robots 0 m2 m2 (by omega)
    fun j r hj => by
      obtain ⟨p, h, -⟩ := one j r hj
      rw [Nat.zero_add]
      exact ⟨p, h⟩
  simp only [Nat.zero_add] at h3
  refine ⟨⟨w.sys.step stdEnv checkForConflict i.update, ps, m4⟩, ⟨m1, m2, m3, m4⟩, ?_, rfl, rfl, hlen, rfl, fun k r hr => ?_⟩
  · simp only [Crew.cycle, e1, bind, Except.bind, ← hm2, e3, pure, Except.pure]
  · obtain ⟨p, h, hc, hl, hmd, hac⟩ := one k r hr
    obtain ⟨r', hr', h'⟩ := h3 k r hr
    rw [h] at h'
    cases h'
    exact ⟨r', hr', hc, hl, hmd, hac⟩

/-- If the limits of a part do not accept the period, the assertion of a handle fails in `write`. -/
theorem writeAll_halts (n : Nat) (reset : Bool) (dt : T) (ps : List (Robot T K)) : ∀ (k : Nat) (lim m : Mem T), k + ps.length ≤ n →
    (∀ (j : Nat) r, ps[j]? = some r → Described.Accepts S.toArith r (S.see dt) →
      ∃ p, (ready reset r).write S nd dt (view n (k + j) m) = .ok p) →
    (∃ r ∈ ps, ¬Described.Accepts S.toArith r (S.see dt)) → writeAll S nd n reset dt k ps lim m = .error .limits := by
  induction ps with
  | nil => rintro _ _ _ _ _ ⟨r, hr, -⟩; cases hr
  | cons r ps ih =>
    intro k lim m hk h hno
    rw [List.length_cons] at hk
    by_cases ha : Described.Accepts S.toArith r (S.see dt)
    · obtain ⟨⟨r1, m3, m4⟩, hv⟩ := h 0 r rfl ha
      rw [Nat.add_zero] at hv
      have hv' : (if reset then { r with limits := fun c => Limits.resetAll (r.kind c) (r.limits c) } else r : Robot T K).write
          S nd dt (view n k m) = .ok (r1, m3, m4) := hv
      have := ih (k + 1) (put n k m3 lim) (put n k m4 m) (by omega) (fun j r' hj ha' => by
        have hlt := (List.getElem?_eq_some_iff.1 hj).1
        obtain ⟨p, hp⟩ := h (j + 1) r' hj ha'
        refine ⟨p, ?_⟩
        rw [show k + 1 + j = k + (j + 1) by omega, view_put_ne (by omega) (by omega)]
        exact hp) (by
        obtain ⟨r', hr', hn⟩ := hno
        rcases List.mem_cons.1 hr' with rfl | hr'
        · exact absurd ha hn
        · exact ⟨r', hr', hn⟩)
      simp only [writeAll, hv', this]
    · have := Described.write_halts (nd := nd) ha reset (view n k m)
      simp only [writeAll, this]

/-- A cycle whose period the limits of a part do not accept is the end. -/
theorem cycle_halts (hS : Lawful S) {w : Crew T K} (hf : ∀ r ∈ w.robots, Fit stod r)
    (hv : SysInv stdEnv (interfaces (w.robots.map (·.loader))) w.sys) (i : Input T)
    (hw : ∀ c k m a, ¬w.sys.CanWrite (fun d => [d]) c a → i.act c k m a = m a)
    (hp : ∃ r ∈ w.robots, ¬Described.Accepts S.toArith r (S.see i.period)) : w.cycle S nd i = .error .limits := by
  obtain ⟨m1, e1, v1, -⟩ := readAll_ok (nd := nd) w.robots.length i.sense w.robots 0 w.mem (by omega)
    fun j r hj => (hf r (List.mem_of_getElem? hj)).read _ _
  simp only [Nat.zero_add] at v1
  simp only [Crew.cycle, e1, bind, Except.bind]
  rw [writeAll_halts _ _ _ _ _ _ _ (by omega) (fun j r hj ha => ?_) hp]
  rw [Nat.zero_add]
  obtain ⟨p, h, -⟩ := one_part (nd := nd) hS hf hv i hw
    ((w.sys.step stdEnv checkForConflict i.update).mgr.trace.drop w.sys.mgr.trace.length) hj (v1 j r hj) ha
  exact ⟨p, h⟩

theorem Turned.fit {w w' : Crew T K} {i : Input T} {rec : Record T} (h : Turned stod S nd w i w' rec) (hf : ∀ r ∈ w.robots, Fit stod r) :
    (∀ r ∈ w'.robots, Fit stod r) ∧ w'.robots.map (·.loader) = w.robots.map (·.loader) ∧
    ∀ dt, (∀ r ∈ w'.robots, Described.Accepts S.toArith r dt) ↔ ∀ r ∈ w.robots, Described.Accepts S.toArith r dt := by
  have back : ∀ (k : Nat) r', w'.robots[k]? = some r' → ∃ r, w.robots[k]? = some r ∧ r'.loader = r.loader ∧ Made r' ∧
      ∀ dt, Described.Accepts S.toArith r' dt ↔ Described.Accepts S.toArith r dt := by
    intro k r' hr'
    have hk := (List.getElem?_eq_some_iff.1 hr').1
    rw [h.length] at hk
    obtain ⟨r'', h1, -, h2, h3, h4⟩ := h.part k _ (List.getElem?_eq_getElem hk)
    rw [hr'] at h1
    cases h1
    exact ⟨_, List.getElem?_eq_getElem hk, h2, h3, h4⟩
  refine ⟨fun r' hr' => ?_, List.ext_getElem? fun k => ?_, fun dt => ⟨fun ha r hr => ?_, fun ha r' hr' => ?_⟩⟩
  · obtain ⟨k, hk⟩ := List.getElem?_of_mem hr'
    obtain ⟨r, hr, hl, hm, -⟩ := back k r' hk
    exact ⟨hl ▸ (hf r (List.mem_of_getElem? hr)).1, hm⟩
  · rw [List.getElem?_map, List.getElem?_map]
    cases hk : w'.robots[k]? with
    | none =>
      have : w.robots[k]? = none := by
        rw [List.getElem?_eq_none_iff] at hk ⊢
        rw [← h.length]
        exact hk
      rw [this]
    | some r' =>
      obtain ⟨r, hr, hl, -⟩ := back k r' hk
      rw [hr, Option.map_some, Option.map_some, hl]
  · obtain ⟨k, hk⟩ := List.getElem?_of_mem hr
    obtain ⟨r', hr', -, -, -, hac⟩ := h.part k r hk
    exact (hac dt).1 (ha r' (List.mem_of_getElem? hr'))
  · obtain ⟨k, hk⟩ := List.getElem?_of_mem hr'
    obtain ⟨r, hr, -, -, hac⟩ := back k r' hk
    exact (hac dt).2 (ha r (List.mem_of_getElem? hr))

/-- What is known of a completed cycle. -/
structure Facts (ls : List (Loader T)) (x : Seen T) : Prop where
  reached : Sys.Reached stdEnv (combined ls) (interfaces ls) x.before
  after : x.after = x.before.step stdEnv checkForConflict x.input.update
  honest : ∀ c k m a, ¬x.before.CanWrite (fun d => [d]) c a → x.input.act c k m a = m a
  wished : x.record.wished = replay x.input.act x.events x.record.measured
  commands : ∀ (k : Nat) L q n a, ls[k]? = some L → L.commandCell q n = some a →
    x.record.measured (place ls.length k a) = x.start (place ls.length k a) ∧
    x.record.sent (place ls.length k a) = x.record.limited (place ls.length k a)

theorem reached_step {robot : IMan} {h0 : Heap} {s : Sys} (h : Sys.Reached stdEnv robot h0 s) {op : SysOp} (hg : op.Good) :
    Sys.Reached stdEnv robot h0 (s.step stdEnv checkForConflict op) := by
  obtain ⟨ops, hops, rfl⟩ := h
  refine ⟨ops ++ [op], fun o ho => ?_, (Sys.run_append _ _ _ _ _).symm⟩
  rcases List.mem_append.1 ho with ho | ho
  · exact hops o ho
  · rw [List.mem_singleton.1 ho]; exact hg

/-- A run is one of each part. -/
theorem run_refines (hS : Lawful S) (ops : List (Whole.Op T)) (w : Crew T K) (ls : List (Loader T))
    (hl : w.robots.map (·.loader) = ls) (hf : ∀ r ∈ w.robots, Fit stod r)
    (hs : Sys.Reached stdEnv (combined ls) (interfaces ls) w.sys) (hg : ∀ op ∈ ops, op.Good)
    (hh : Honest w.sys ops) (hp : ∀ i, .cycle i ∈ ops → ∀ r ∈ w.robots, Described.Accepts S.toArith r (S.see i.period)) :
    (w.run S nd ops).2 = none ∧ (w.run S nd ops).1.map (·.input) = cycles ops ∧
    (∀ (k : Nat) r, w.robots[k]? = some r →
      r.run S nd ((w.run S nd ops).1.map (ownInput ls.length k)) (own ls.length k w.mem) =
        ((w.run S nd ops).1.map fun x => ownRecord ls.length k x.record, none)) ∧
    (∀ x ∈ (w.run S nd ops).1, Facts ls x) ∧
    (∀ x, (w.run S nd ops).1[0]? = some x → x.start = w.mem) ∧
    (∀ k x y, (w.run S nd ops).1[k]? = some x → (w.run S nd ops).1[k + 1]? = some y → y.start = x.record.sent) ∧
    ∀ (k : Nat) x, (w.run S nd ops).1[k]? = some x → ∃ pre post, ops = pre ++ .cycle x.input :: post ∧
      (cycles pre).length = k ∧ x.before = w.sys.run stdEnv checkForConflict (pre.map Whole.Op.sys) := by
  induction ops generalizing w with
  | nil => simp [Crew.run, cycles, Robot.run]
  | cons op ops ih =>
    have hgo := hg op (by simp)
    have hs' := reached_step hs hgo.sys
    cases op with
    | service o =>
      obtain ⟨h1, h2, h3, h4, h5, h6, h7⟩ := ih { w with sys := w.sys.step stdEnv checkForConflict o } hl hf hs'
        (fun o ho => hg o (by simp [ho])) hh.2 fun i hi => hp i (by simp [hi])
      refine ⟨h1, h2, h3, h4, h5, h6, fun k x hx => ?_⟩
      obtain ⟨pre, post, e1, e2, e3⟩ := h7 k x hx
      exact ⟨.service o :: pre, post, by rw [e1]; rfl, e2, e3⟩
    | cycle i =>
      have hlen : w.robots.length = ls.length := by rw [← hl, List.length_map]
      have hv := sysInv_reached (combined_typed ls) (interfaces_named ls) hs
      rw [← hl] at hv
      have hw := hh.1 i rfl
      obtain ⟨w', rec, hcw, ht⟩ := cycle_eq (nd := nd) hS hf hv i hw (hp i (by simp))
      obtain ⟨hf', hl', ha'⟩ := ht.fit hf
      obtain ⟨h1, h2, h3, h4, h5, h6, h7⟩ := ih w' (hl'.trans hl) hf' (by rw [ht.sys]; exact hs')
        (fun o ho => hg o (by simp [ho])) (by rw [ht.sys]; exact hh.2) fun j hj => (ha' _).2 (hp j (by simp [hj]))
      have erun : w.run S nd (.cycle i :: ops) = (⟨w.sys, w.mem, i, w'.sys, rec⟩ :: (w'.run S nd ops).1, (w'.run S nd ops).2) := by
        rw [Crew.run, hcw]
      have hpart := ht.part
      rw [hlen] at hpart
      rw [erun]
      refine ⟨h1, by simp [h2, cycles], ?_, ?_, ?_, ?_, ?_⟩
      · intro k r hr
        obtain ⟨r', hr', hc, -⟩ := hpart k r hr
        have := h3 k r' hr'
        rw [ht.mem] at this
        rw [List.map_cons, Robot.run]
        show (match r.cycle S nd ⟨own ls.length k i.sense, own ls.length k rec.wished, i.period, i.reset⟩
            (own ls.length k w.mem) with
          | .error h => ([], some h)
          | .ok (r', rec) => _) = _
        rw [hc]
        show ((_ : Record T) :: (r'.run S nd _ (own ls.length k rec.sent)).1, (r'.run S nd _ (own ls.length k rec.sent)).2) = _
        rw [this, List.map_cons]
      · intro x hx
        rcases List.mem_cons.1 hx with rfl | hx
        · refine ⟨hs, ht.sys, hw, ht.wished, fun k L q n a hL hc => ?_⟩
          rw [← hl, List.getElem?_map] at hL
          obtain ⟨r, hr, rfl⟩ := Option.map_eq_some_iff.1 hL
          obtain ⟨⟨L0, d, infos, hb⟩, -⟩ := hf r (List.mem_of_getElem? hr)
          obtain ⟨r', -, hcy, -⟩ := hpart k r hr
          exact Whole.cycle_commands hb rfl hcy hc
        · exact h4 x hx
      · rintro x hx
        simp only [List.getElem?_cons_zero, Option.some.injEq] at hx
        subst hx
        rfl
      · rintro (_ | k) x y hx hy
        · simp only [List.getElem?_cons_zero, Option.some.injEq, List.getElem?_cons_succ] at hx hy
          subst hx
          exact (h5 y hy).trans ht.mem
        · simp only [List.getElem?_cons_succ] at hx hy
          exact h6 k x y hx hy
      · rintro (_ | k) x hx
        · simp only [List.getElem?_cons_zero, Option.some.injEq] at hx
          subst hx
          exact ⟨[], ops, rfl, rfl, rfl⟩
        · simp only [List.getElem?_cons_succ] at hx
          obtain ⟨pre, post, g1, g2, g3⟩ := h7 k x hx
          refine ⟨.cycle i :: pre, post, by rw [g1]; rfl, by simp only [cycles, List.filterMap_cons, List.length_cons]; rw [← g2]; rfl, ?_⟩
          rw [g3, ht.sys]
          rfl

/-- The first cycle whose period the limits of a part do not accept is the end of a run. -/
theorem run_halts (hS : Lawful S) (ops : List (Whole.Op T)) (w : Crew T K) (ls : List (Loader T))
    (hl : w.robots.map (·.loader) = ls) (hf : ∀ r ∈ w.robots, Fit stod r)
    (hs : Sys.Reached stdEnv (combined ls) (interfaces ls) w.sys) (hg : ∀ op ∈ ops, op.Good) (i : Input T) (rest : List (Whole.Op T))
    (hh : Honest w.sys (ops ++ .cycle i :: rest))
    (hp : ∀ i, .cycle i ∈ ops → ∀ r ∈ w.robots, Described.Accepts S.toArith r (S.see i.period))
    (hi : ∃ r ∈ w.robots, ¬Described.Accepts S.toArith r (S.see i.period)) :
    w.run S nd (ops ++ .cycle i :: rest) = ((w.run S nd ops).1, some .limits) := by
  induction ops generalizing w with
  | nil =>
    have hv := sysInv_reached (combined_typed ls) (interfaces_named ls) hs
    rw [← hl] at hv
    have := cycle_halts (nd := nd) hS hf hv i (hh.1 i rfl) hi
    simp only [List.nil_append, Crew.run, this]
  | cons op ops ih =>
    have hgo := hg op (by simp)
    have hs' := reached_step hs hgo.sys
    cases op with
    | service o =>
      exact ih { w with sys := w.sys.step stdEnv checkForConflict o } hl hf hs' (fun o ho => hg o (by simp [ho])) hh.2
        (fun i hi => hp i (by simp [hi])) hi
    | cycle j =>
      have hv := sysInv_reached (combined_typed ls) (interfaces_named ls) hs
      rw [← hl] at hv
      obtain ⟨w', rec, hcw, ht⟩ := cycle_eq (nd := nd) hS hf hv j (hh.1 j rfl) (hp j (by simp))
      obtain ⟨hf', hl', ha'⟩ := ht.fit hf
      have := ih w' (hl'.trans hl) hf' (by rw [ht.sys]; exact hs') (fun o ho => hg o (by simp [ho])) (by rw [ht.sys]; exact hh.2)
        (fun j hj => (ha' _).2 (hp j (by simp [hj]))) (by
          by_contra hno
          push Not at hno
          obtain ⟨r, hr, hn⟩ := hi
          exact hn ((ha' _).1 hno r hr))
      simp only [List.cons_append, Crew.run, hcw, this]

theorem Facts.trace {ls : List (Loader T)} {x : Seen T} (h : Facts ls x) : x.after.mgr.trace = x.before.mgr.trace ++ x.events := by
  have hv := sysInv_reached (combined_typed ls) (interfaces_named ls) h.reached
  have hi := Mgr.inv_of_reachable hv.reach
  obtain ⟨es, he, -⟩ := Mgr.step_trace (conf := checkForConflict) hi (x.input.update.toOp stdEnv x.before)
    (SysOp.Good.rosUp (op := x.input.update) trivial stdEnv x.before)
  rw [← Sys.step_mgr, ← h.after] at he
  rw [Seen.events, he, List.drop_left]

end Verif.Parted
