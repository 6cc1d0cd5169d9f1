import Verif.Spec.RobotCycleDouble
import Verif.Lemmas.RobotCycle
import Verif.Lemmas.TransmissionDouble

/-!
Lemmas about the control cycle of a robot that computes with doubles.
-/

namespace Verif.Cycle

open Verif.Transmission (Trans Mem Constructed jointMaps actuatorMaps jointScale actuatorScale Is Near SameTrans Quantity
  Maps)
open Verif.Limits (Machine Flt Fl Arith binary64)

variable {A : Machine binary64} {nd : Bool}

/-! ### Cycles -/

/-- What a cycle does. -/
structure Cycled64 (r : Robot64 A) (i : Input (Flt A)) (r' : Robot64 A) (rec : Record (Flt A)) : Prop where
  wired : Wired64 r'
  drives : r'.drives = r.drives
  sends : r'.sends = r.sends
  kind : r'.kind = r.kind
  enforced : ∀ n h, (n, h) ∈ r.limits → r.kind.limit (limitsArith A) h.limits h.soft (effective r.kind i.reset h.prev)
      ⟨i.wish h.joint.cmd, rec.measured h.joint.pos, rec.measured h.joint.vel, i.period⟩ =
        some (rec.limited h.joint.cmd) ∧ (n, { h with prev := rec.limited h.joint.cmd }) ∈ r'.limits
  limits : ∀ n h', (n, h') ∈ r'.limits → ∃ h, (n, h) ∈ r.limits ∧ h' = { h with prev := rec.limited h.joint.cmd }
  measured : ∀ d ∈ r.drives, d.jPos.map rec.measured = (jointMaps .position d.trans).run (d.aPos.map i.sense)
  sent : ∀ d ∈ r.drives, d.aCmd.map rec.sent = (actuatorMaps r.sends.quantity d.trans).run (d.jCmd.map rec.limited)
  free : ∀ d ∈ r.drives, ∀ c ∈ d.jCmd, (∀ e ∈ r.limits, e.2.joint.cmd ≠ c) → rec.limited c = i.wish c

theorem cycle64_run {r : Robot64 A} (hw : Wired64 r) (i : Input (Flt A))
    (hp : Limits.dlt (some (limitsArith A).zero) i.period = true) (m : Mem (Flt A)) :
    ∃ r' rec, r.cycle nd i m = .ok (r', rec) ∧ Cycled64 r i r' rec := by
  obtain ⟨m1, e1, v1, f1⟩ := read_run nd r.drives hw.sized hw.distinct
    (overwrite (r.drives.flatMap Drive.sensed) i.sense m)
  have eread : r.read nd i.sense m = .ok m1 := by simp only [Robot64.read, e1]
  set m2 := r.control i.wish m1 with hm2
  set s0 := atEnforce r.kind i.reset r.limits with hs0
  have hk0 : smapKeys s0 = smapKeys r.limits := by
    rw [hs0, atEnforce_eq]
    simp [smapKeys, List.map_map, Function.comp_def]
  have hsort0 : KeysSorted s0 := by
    have := hw.sorted
    unfold KeysSorted at this ⊢
    rwa [hk0]
  cases he : Limits.enforceAll (limitsArith A) r.kind i.period s0 m2 with
  | none =>
    have he' := (Limits.enforceAll_none _ _ _ _).1 he
    rw [hp] at he'
    cases he'.1
  | some p =>
    obtain ⟨s', m3⟩ := p
    have hnum := Limits.enforceAll_keys r.kind _ _ _ _ _ he
    obtain ⟨m4, e4, v4, f4⟩ := send_run nd r.sends r.drives hw.sized hw.distinct m3
    have mem0 : ∀ n h, (n, h) ∈ r.limits → (n, { h with prev := effective r.kind i.reset h.prev }) ∈ s0 := by
      intro n h hm
      rw [hs0, atEnforce_eq]
      exact List.mem_map.2 ⟨(n, h), hm, rfl⟩
    have mem0' : ∀ n h0, (n, h0) ∈ s0 → ∃ h, (n, h) ∈ r.limits ∧ h0 = { h with prev := effective r.kind i.reset h.prev } := by
      intro n h0 hm
      rw [hs0, atEnforce_eq] at hm
      obtain ⟨⟨n', h⟩, hmem, e⟩ := List.mem_map.1 hm
      cases e
      exact ⟨h, hmem, rfl⟩
    have key : ∀ n h, (n, h) ∈ r.limits → r.kind.limit (limitsArith A) h.limits h.soft (effective r.kind i.reset h.prev)
        ⟨i.wish h.joint.cmd, m1 h.joint.pos, m1 h.joint.vel, i.period⟩ =
          some (m3 h.joint.cmd) ∧ (n, { h with prev := m3 h.joint.cmd }) ∈ s' := by
      intro n h hm
      obtain ⟨d, hd, j, hj1, hj2, hj3⟩ := hw.joints _ hm
      have hj1' := List.mem_of_getElem? hj1
      have hj2' := List.mem_of_getElem? hj2
      have hj3' := List.mem_of_getElem? hj3
      obtain ⟨out, g1, g2, g3⟩ := Limits.enforceAll_one r.kind _ s0 _ s' m3 he (Limits.sorted_nodup hsort0) n _ (mem0 n h hm) (by
        intro n' h0' hm' hne
        obtain ⟨h', hm'', rfl⟩ := mem0' n' h0' hm'
        obtain ⟨d', hd', j', _, _, hj'⟩ := hw.joints _ hm''
        have hj' := List.mem_of_getElem? hj'
        have hpart := (parts hw.distinct hd' hd h'.joint.cmd).1 hj'
        refine ⟨fun e => hne ?_, fun e => ?_, fun e => ?_⟩
        · exact hw.once _ hm'' _ hm e
        · exact hpart (by simp only [Drive.derived, List.mem_append]; left; left; rw [e]; exact hj1')
        · exact hpart (by simp only [Drive.derived, List.mem_append]; left; right; rw [e]; exact hj2'))
      have ein : Limits.Limiter.input { h with prev := effective r.kind i.reset h.prev } m2 i.period =
          ⟨i.wish h.joint.cmd, m1 h.joint.pos, m1 h.joint.vel, i.period⟩ := by
        have w1 : m2 h.joint.cmd = i.wish h.joint.cmd := by
          rw [hm2, Robot64.control, overwrite, if_pos (List.mem_flatMap.2 ⟨d, hd, hj3'⟩)]
        have w2 : ∀ a, a ∈ d.derived → m2 a = m1 a := by
          intro a ha
          rw [hm2, Robot64.control, overwrite, if_neg]
          intro hm
          obtain ⟨d', hd', ha'⟩ := List.mem_flatMap.1 hm
          exact (parts hw.distinct hd' hd a).1 ha' ha
        simp only [Limits.Limiter.input, w1, w2 _ (show h.joint.pos ∈ d.derived by simp [Drive.derived, hj1']),
          w2 _ (show h.joint.vel ∈ d.derived by simp [Drive.derived, hj2'])]
      rw [ein] at g1
      have g2' : m3 h.joint.cmd = out := g2
      subst g2'
      exact ⟨g1, g3⟩
    have ewrite : (if i.reset = true then { r with limits := Limits.resetAll r.kind r.limits } else r).write nd i.period m2 =
        .ok ({ r with limits := s' }, m3, m4) := by
      have hr : (if i.reset = true then { r with limits := Limits.resetAll r.kind r.limits } else r) =
          { r with limits := s0 } := by
        rw [hs0, atEnforce]; split <;> rfl
      rw [hr]
      simp only [Robot64.write, he, e4]
    have hlim : ∀ n h', (n, h') ∈ s' → ∃ h, (n, h) ∈ r.limits ∧ h' = { h with prev := m3 h.joint.cmd } := by
      intro n h' hm'
      obtain ⟨h0, hm0, hjj, _, _⟩ := Limits.enforceAll_joint r.kind _ _ _ _ _ he n h' hm'
      obtain ⟨h, hm, e⟩ := mem0' n h0 hm0
      obtain ⟨_, g3⟩ := key n h hm
      have hsort' : KeysSorted s' := by
        unfold KeysSorted at hsort0 ⊢
        rwa [hnum]
      have h1 := smapFind_of_mem hsort' hm'
      have h2 := smapFind_of_mem hsort' g3
      rw [h1] at h2
      exact ⟨h, hm, Option.some.inj h2⟩
    refine ⟨{ r with limits := s' }, ⟨m1, m2, m3, m4⟩, ?_, ⟨?_, rfl, rfl, rfl, key, hlim, ?_, v4, ?_⟩⟩
    rotate_left
    · refine ⟨hw.constructed, hw.sized, hw.distinct, ?_, ?_, ?_⟩
      · have := hsort0
        unfold KeysSorted at this ⊢
        show (smapKeys s').Pairwise _
        rwa [hnum]
      · rintro ⟨n, h'⟩ hm'
        obtain ⟨h, hm, rfl⟩ := hlim n h' hm'
        exact hw.joints (n, h) hm
      · rintro ⟨n, h'⟩ hm' ⟨n2, h2'⟩ hm2' e
        obtain ⟨h, hm, rfl⟩ := hlim n h' hm'
        obtain ⟨h2, hm2, rfl⟩ := hlim n2 h2' hm2'
        exact hw.once (n, h) hm (n2, h2) hm2 e
    · intro d hd
      show d.jPos.map m1 = _
      rw [v1 d hd]
      congr 1
      refine List.map_congr_left fun c hc => ?_
      rw [overwrite, if_pos (List.mem_flatMap.2 ⟨d, hd, by simp [Drive.sensed, hc]⟩)]
    · intro d hd c' hc' hfree
      show m3 c' = _
      have := Limits.enforceAll_frame r.kind _ _ _ _ _ he c' (fun e hm => by
        obtain ⟨n, h0⟩ := e
        obtain ⟨h, hm', rfl⟩ := mem0' n h0 hm
        exact hfree (n, h) hm')
      rw [this, hm2, Robot64.control, overwrite, if_pos (List.mem_flatMap.2 ⟨d, hd, hc'⟩)]
    · simp only [Robot64.cycle, eread, bind, Except.bind, ← hm2, ewrite, pure, Except.pure]

/-- A run: every cycle is completed, and they are as `Cycled64` says. -/
theorem run64_cycled {r : Robot64 A} (hw : Wired64 r) (is : List (Input (Flt A)))
    (hp : ∀ i ∈ is, Limits.dlt (some (limitsArith A).zero) i.period = true) (m : Mem (Flt A)) :
    ∃ st : Nat → Robot64 A, st 0 = r ∧ (Robot64.run nd is r m).2 = none ∧ (Robot64.run nd is r m).1.length = is.length ∧
      ∀ k i rec, is[k]? = some i → (Robot64.run nd is r m).1[k]? = some rec → Cycled64 (st k) i (st (k + 1)) rec := by
  induction is generalizing r m with
  | nil => exact ⟨fun _ => r, rfl, rfl, rfl, fun k i rec h => by simp at h⟩
  | cons i is ih =>
    obtain ⟨r', rec, e, hc⟩ := cycle64_run (nd := nd) hw i (hp i (by simp)) m
    obtain ⟨st, h0, h1, h2, h3⟩ := ih hc.wired (fun j hj => hp j (by simp [hj])) rec.sent
    have erun : Robot64.run nd (i :: is) r m = (rec :: (Robot64.run nd is r' rec.sent).1, (Robot64.run nd is r' rec.sent).2) := by
      rw [Robot64.run, e]
    refine ⟨fun k => match k with | 0 => r | k + 1 => st k, rfl, by rw [erun]; exact h1,
      by rw [erun]; simp [h2], fun k j rec' hj hrec => ?_⟩
    rw [erun] at hrec
    cases k with
    | zero =>
      simp only [List.getElem?_cons_zero, Option.some.injEq] at hj hrec
      subst hj hrec
      show Cycled64 r i (st 0) rec
      rw [h0]
      exact hc
    | succ k =>
      simp only [List.getElem?_cons_succ] at hj hrec
      exact h3 k j rec' hj hrec

/-- The handle of a joint in the course of a run: nothing changes but the previous command, which is the one of the cycle
before. -/
theorem track64 {r : Robot64 A} {is : List (Input (Flt A))} {recs : List (Record (Flt A))} {st : Nat → Robot64 A}
    (h0 : st 0 = r) (hlen : recs.length = is.length)
    (hst : ∀ k i rec, is[k]? = some i → recs[k]? = some rec → Cycled64 (st k) i (st (k + 1)) rec)
    (n : String) (h : Limits.Limiter (Fl binary64)) (hm : (n, h) ∈ r.limits) (k : Nat) (hk : k ≤ is.length) :
    ∃ p, (n, { h with prev := p }) ∈ (st k).limits ∧ (k = 0 → p = h.prev) ∧
      ∀ j rec, k = j + 1 → recs[j]? = some rec → p = rec.limited h.joint.cmd := by
  induction k with
  | zero =>
    rw [h0]
    exact ⟨h.prev, hm, fun _ => rfl, fun j rec e => by cases e⟩
  | succ k ih =>
    obtain ⟨p, hp, _⟩ := ih (by omega)
    have hk' : k < is.length := hk
    have hc := hst k is[k] recs[k] (List.getElem?_eq_getElem hk') (List.getElem?_eq_getElem (by omega))
    obtain ⟨_, g3⟩ := hc.enforced n _ hp
    refine ⟨_, g3, by simp, fun j rec e hj => ?_⟩
    have : j = k := by omega
    subst this
    rw [List.getElem?_eq_getElem (by omega)] at hj
    cases hj
    rfl

/-- The parts of a run that do not belong to a joint. -/
theorem track64_robot {r : Robot64 A} {is : List (Input (Flt A))} {recs : List (Record (Flt A))} {st : Nat → Robot64 A}
    (h0 : st 0 = r) (hlen : recs.length = is.length)
    (hst : ∀ k i rec, is[k]? = some i → recs[k]? = some rec → Cycled64 (st k) i (st (k + 1)) rec)
    (k : Nat) (hk : k ≤ is.length) :
    (st k).kind = r.kind ∧ (st k).drives = r.drives ∧ (st k).sends = r.sends ∧
    ∀ e ∈ (st k).limits, ∃ e' ∈ r.limits, e'.2.joint = e.2.joint := by
  induction k with
  | zero =>
    rw [h0]
    exact ⟨rfl, rfl, rfl, fun e he => ⟨e, he, rfl⟩⟩
  | succ k ih =>
    obtain ⟨e1, e2, e3, e4⟩ := ih (by omega)
    have hk' : k < is.length := hk
    have hc := hst k is[k] recs[k] (List.getElem?_eq_getElem hk') (List.getElem?_eq_getElem (by omega))
    refine ⟨hc.kind.trans e1, hc.drives.trans e2, hc.sends.trans e3, fun e he => ?_⟩
    obtain ⟨h, hm, hh⟩ := hc.limits e.1 e.2 he
    obtain ⟨e', he', hj⟩ := e4 _ hm
    exact ⟨e', he', by rw [hj, hh]⟩

/-- What the handle of a joint does in each cycle of a run. -/
theorem run64_joint {r : Robot64 A} (hw : Wired64 r) (is : List (Input (Flt A)))
    (hp : ∀ i ∈ is, Limits.dlt (some (limitsArith A).zero) i.period = true) (m : Mem (Flt A))
    (n : String) (h : Limits.Limiter (Fl binary64)) (hm : (n, h) ∈ r.limits) (k : Nat) (i : Input (Flt A))
    (rec : Record (Flt A)) (hi : is[k]? = some i) (hrec : (Robot64.run nd is r m).1[k]? = some rec) :
    ∃ p, (k = 0 → p = h.prev) ∧
      (∀ j rec', k = j + 1 → (Robot64.run nd is r m).1[j]? = some rec' → p = rec'.limited h.joint.cmd) ∧
      r.kind.limit (limitsArith A) h.limits h.soft (effective r.kind i.reset p)
        ⟨i.wish h.joint.cmd, rec.measured h.joint.pos, rec.measured h.joint.vel, i.period⟩ =
          some (rec.limited h.joint.cmd) := by
  obtain ⟨st, h0, _, h2, h3⟩ := run64_cycled (nd := nd) hw is hp m
  have hk : k < is.length := (List.getElem?_eq_some_iff.1 hi).1
  obtain ⟨e1, _⟩ := track64_robot h0 h2 h3 k hk.le
  obtain ⟨p, hp, hp0, hpj⟩ := track64 h0 h2 h3 n h hm k hk.le
  obtain ⟨g1, _⟩ := (h3 k i rec hi hrec).enforced n _ hp
  rw [e1] at g1
  exact ⟨p, hp0, hpj, g1⟩

theorem run64_drive {r : Robot64 A} (hw : Wired64 r) (is : List (Input (Flt A)))
    (hp : ∀ i ∈ is, Limits.dlt (some (limitsArith A).zero) i.period = true) (m : Mem (Flt A))
    (k : Nat) (i : Input (Flt A)) (rec : Record (Flt A)) (hi : is[k]? = some i)
    (hrec : (Robot64.run nd is r m).1[k]? = some rec) :
    (∀ d ∈ r.drives, d.jPos.map rec.measured = (jointMaps .position d.trans).run (d.aPos.map i.sense)) ∧
    (∀ d ∈ r.drives, d.aCmd.map rec.sent = (actuatorMaps r.sends.quantity d.trans).run (d.jCmd.map rec.limited)) ∧
    (∀ d ∈ r.drives, ∀ c ∈ d.jCmd, (∀ e ∈ r.limits, e.2.joint.cmd ≠ c) → rec.limited c = i.wish c) := by
  obtain ⟨st, h0, _, h2, h3⟩ := run64_cycled (nd := nd) hw is hp m
  have hk : k < is.length := (List.getElem?_eq_some_iff.1 hi).1
  obtain ⟨_, e2, e3, e4⟩ := track64_robot h0 h2 h3 k hk.le
  have hc := h3 k i rec hi hrec
  refine ⟨?_, ?_, fun d hd c hcm hfree => ?_⟩
  · rw [← e2]; exact hc.measured
  · rw [← e2, ← e3]; exact hc.sent
  · refine hc.free d (e2 ▸ hd) c hcm fun e he => ?_
    obtain ⟨e', he', hj⟩ := e4 e he
    rw [← hj]
    exact hfree e' he'

/-- The first cycle whose period the limits do not accept is the end of a run. -/
theorem run64_halts {r : Robot64 A} (hw : Wired64 r) (is : List (Input (Flt A)))
    (hp : ∀ i ∈ is, Limits.dlt (some (limitsArith A).zero) i.period = true) (i : Input (Flt A))
    (hi : Limits.dlt (some (limitsArith A).zero) i.period = false)
    (hk : ∃ e ∈ r.limits, r.kind = .posSoft ∨ r.kind = .velSat ∧ e.2.limits.hasAcceleration = true)
    (js : List (Input (Flt A))) (m : Mem (Flt A)) :
    Robot64.run nd (is ++ i :: js) r m = ((Robot64.run nd is r m).1, some .limits) := by
  induction is generalizing r m with
  | nil =>
    obtain ⟨m1, e1, _⟩ := read_run nd r.drives hw.sized hw.distinct
      (overwrite (r.drives.flatMap Drive.sensed) i.sense m)
    have eread : r.read nd i.sense m = .ok m1 := by simp only [Robot64.read, e1]
    have he : Limits.enforceAll (limitsArith A) r.kind i.period (atEnforce r.kind i.reset r.limits)
        (r.control i.wish m1) = none := by
      refine (Limits.enforceAll_none _ _ _ _).2 ⟨hi, ?_⟩
      obtain ⟨e, he, h⟩ := hk
      rw [atEnforce_eq]
      exact ⟨_, List.mem_map.2 ⟨e, he, rfl⟩, h⟩
    have ec : r.cycle nd i m = .error .limits := by
      unfold Robot64.cycle
      rw [eread]
      revert he
      cases i.reset <;> intro he
      · have he' : Limits.enforceAll (limitsArith A) r.kind i.period r.limits (r.control i.wish m1) = none := he
        simp only [bind, Except.bind, Robot64.write]
        rw [if_neg (by simp), he']
      · have he' : Limits.enforceAll (limitsArith A) r.kind i.period (Limits.resetAll r.kind r.limits)
            (r.control i.wish m1) = none := he
        simp only [bind, Except.bind, Robot64.write, if_true]
        rw [he']
    simp only [List.nil_append, Robot64.run, ec]
  | cons j is ih =>
    obtain ⟨r', rec, e, hc⟩ := cycle64_run (nd := nd) hw j (hp j (by simp)) m
    have hk' : ∃ e ∈ r'.limits, r'.kind = .posSoft ∨ r'.kind = .velSat ∧ e.2.limits.hasAcceleration = true := by
      obtain ⟨⟨n, h⟩, hm, hh⟩ := hk
      rw [hc.kind]
      exact ⟨_, (hc.enforced n h hm).2, hh⟩
    have := ih hc.wired (fun j hj => hp j (by simp [hj])) hk' rec.sent
    simp only [List.cons_append, Robot64.run, e, this]

/-! ### Errors -/

/-- Two numbers that differ by at most `ε * s`. -/
def Close (ε y x s : ℚ) : Prop := |y - x| ≤ ε * s

namespace Close

variable {ε y x s y' x' s' : ℚ}

theorem add (h : Close ε y x s) (h' : Close ε y' x' s') : Close ε (y + y') (x + x') (s + s') := by
  unfold Close at *
  calc |y + y' - (x + x')| = |(y - x) + (y' - x')| := by ring_nf
    _ ≤ |y - x| + |y' - x'| := abs_add_le _ _
    _ ≤ ε * (s + s') := by linarith

theorem sub (h : Close ε y x s) (h' : Close ε y' x' s') : Close ε (y - y') (x - x') (s + s') := by
  unfold Close at *
  calc |y - y' - (x - x')| = |(y - x) - (y' - x')| := by ring_nf
    _ ≤ |y - x| + |y' - x'| := abs_sub _ _
    _ ≤ ε * (s + s') := by linarith

theorem mul (h : Close ε y x s) (c : ℚ) : Close ε (y * c) (x * c) (s * |c|) := by
  unfold Close at *
  rw [← sub_mul, abs_mul, ← mul_assoc]
  exact mul_le_mul_of_nonneg_right h (abs_nonneg c)

theorem mul' (h : Close ε y x s) (c : ℚ) : Close ε (c * y) (c * x) (s * |c|) := by
  rw [mul_comm c y, mul_comm c x]
  exact h.mul c

theorem div (h : Close ε y x s) (c : ℚ) : Close ε (y / c) (x / c) (s / |c|) := by
  have := h.mul c⁻¹
  rw [abs_inv] at this
  simpa [div_eq_mul_inv] using this

theorem offset (h0 : 0 ≤ ε) (h : Close ε y x s) (c : ℚ) : Close ε (y + c) (x + c) (s + |c|) := by
  unfold Close at *
  rw [add_sub_add_right_eq_sub]
  nlinarith [mul_nonneg h0 (abs_nonneg c)]

end Close

theorem closeAll_one {ε : ℚ} {y x s : ℚ} (h : Close ε y x s) : CloseAll ε [y] [x] [s] := ⟨h, trivial⟩

theorem closeAll_two {ε : ℚ} {y x s y' x' s' : ℚ} (h : Close ε y x s) (h' : Close ε y' x' s') :
    CloseAll ε [y, y'] [x, x'] [s, s'] := ⟨h, h', trivial⟩

theorem CloseAll.cons {ε : ℚ} {ys xs ss : List ℚ} {x : ℚ} (h : CloseAll ε ys (x :: xs) ss) :
    ∃ y ys' s ss', ys = y :: ys' ∧ ss = s :: ss' ∧ Close ε y x s ∧ CloseAll ε ys' xs ss' := by
  cases ys with
  | nil => exact h.elim
  | cons y ys =>
    cases ss with
    | nil => exact h.elim
    | cons s ss => exact ⟨y, ys, s, ss, rfl, rfl, h.1, h.2⟩

theorem CloseAll.nil {ε : ℚ} {ys ss : List ℚ} (h : CloseAll ε ys [] ss) : ys = [] ∧ ss = [] := by
  cases ys with
  | nil =>
    cases ss with
    | nil => exact ⟨rfl, rfl⟩
    | cons s ss => exact h.elim
  | cons y ys => exact h.elim

/-- What becomes of errors at the actuators, at the joints. -/
theorem closeAll_joint {ε : ℚ} (h0 : 0 ≤ ε) (q : Quantity) (t : Trans ℚ) {ys xs ss : List ℚ}
    (hl : xs.length = t.numActuators) (h : CloseAll ε ys xs ss) :
    CloseAll ε ((jointMaps q t).run ys) ((jointMaps q t).run xs) (jointScale q t ss) := by
  have one : ∀ x, xs = [x] → ∃ y s, ys = [y] ∧ ss = [s] ∧ Close ε y x s := by
    rintro x rfl
    obtain ⟨y, _, s, _, rfl, rfl, h1, h⟩ := h.cons
    obtain ⟨rfl, rfl⟩ := h.nil
    exact ⟨y, s, rfl, rfl, h1⟩
  have two : ∀ x x', xs = [x, x'] → ∃ y y' s s', ys = [y, y'] ∧ ss = [s, s'] ∧ Close ε y x s ∧ Close ε y' x' s' := by
    rintro x x' rfl
    obtain ⟨y, _, s, _, rfl, rfl, h1, h⟩ := h.cons
    obtain ⟨y', _, s', _, rfl, rfl, h2, h⟩ := h.cons
    obtain ⟨rfl, rfl⟩ := h.nil
    exact ⟨y, y', s, s', rfl, rfl, h1, h2⟩
  cases t with
  | simple t =>
    obtain ⟨x, rfl⟩ := List.length_eq_one_iff.1 hl
    obtain ⟨y, s, rfl, rfl, c⟩ := one x rfl
    cases q
    · exact closeAll_one ((c.div _).offset h0 _)
    · exact closeAll_one (c.div _)
    · exact closeAll_one (c.mul _)
  | differential t =>
    obtain ⟨x, x', rfl⟩ := List.length_eq_two.1 hl
    obtain ⟨y, y', s, s', rfl, rfl, c, c'⟩ := two x x' rfl
    cases q
    · exact closeAll_two ((((c.div _).add (c'.div _)).div _).offset h0 _) ((((c.div _).sub (c'.div _)).div _).offset h0 _)
    · exact closeAll_two (((c.div _).add (c'.div _)).div _) (((c.div _).sub (c'.div _)).div _)
    · exact closeAll_two (((c.mul _).add (c'.mul _)).mul' _) (((c.mul _).sub (c'.mul _)).mul' _)
  | fourBar t =>
    obtain ⟨x, x', rfl⟩ := List.length_eq_two.1 hl
    obtain ⟨y, y', s, s', rfl, rfl, c, c'⟩ := two x x' rfl
    cases q
    · exact closeAll_two ((c.div _).offset h0 _) ((((c'.div _).sub (c.div _)).div _).offset h0 _)
    · exact closeAll_two (c.div _) (((c'.div _).sub (c.div _)).div _)
    · exact closeAll_two ((c.mul _).mul' _) (((c'.mul _).sub ((c.mul _).mul _)).mul' _)

/-- Computed values that are near are numbers that are close. -/
theorem near_close {ε : ℚ} {as : List (Flt A)} {xs ss : List ℚ} (h : Near ε as xs ss) :
    ∃ ys, List.Forall₂ Is as ys ∧ CloseAll ε ys xs ss := by
  induction as generalizing xs ss with
  | nil =>
    match xs, ss, h with
    | [], [], _ => exact ⟨[], .nil, trivial⟩
  | cons a as ih =>
    match xs, ss, h with
    | x :: xs, s :: ss, h =>
      obtain ⟨⟨y, h1, h2⟩, h3⟩ := h
      obtain ⟨ys, h4, h5⟩ := ih h3
      exact ⟨y :: ys, .cons h1 h4, h2, h5⟩

theorem CloseAll.get {ε : ℚ} {ys xs ss : List ℚ} (h : CloseAll ε ys xs ss) (i : Nat) {x : ℚ} (hx : xs[i]? = some x) :
    ∃ y s, ys[i]? = some y ∧ ss[i]? = some s ∧ |y - x| ≤ ε * s := by
  induction ys generalizing xs ss i with
  | nil =>
    match xs, ss, h with
    | [], [], _ => simp at hx
  | cons y ys ih =>
    match xs, ss, h with
    | x' :: xs, s :: ss, h =>
      cases i with
      | zero =>
        simp only [List.getElem?_cons_zero, Option.some.injEq] at hx
        subst hx
        exact ⟨y, s, rfl, rfl, h.1⟩
      | succ i => exact ih h.2 i hx

/-- Values for distinct variables can be given. -/
theorem exists_mem {l : List Nat} (hn : l.Nodup) {ys : List ℚ} (hl : ys.length = l.length) :
    ∃ n : Mem ℚ, l.map n = ys := by
  induction l generalizing ys with
  | nil => exact ⟨fun _ => 0, by simp [List.eq_nil_of_length_eq_zero hl]⟩
  | cons c l ih =>
    match ys, hl with
    | y :: ys, hl =>
      obtain ⟨n, hn'⟩ := ih (List.nodup_cons.1 hn).2 (by simpa using hl)
      refine ⟨fun a => if a = c then y else n a, ?_⟩
      rw [List.map_cons, if_pos rfl]
      congr 1
      rw [← hn']
      refine List.map_congr_left fun a ha => if_neg ?_
      rintro rfl
      exact (List.nodup_cons.1 hn).1 ha

/-- A finite number is at most the largest one. -/
theorem fin_max {x : Fl binary64} (h : x.Fin) : |x.1| ≤ binary64.max := by
  obtain ⟨m, e, h1, _, h3, hx⟩ := (Limits.Fl.fin_iff x).1 h
  rw [hx, abs_mul, abs_of_pos (by positivity : (0 : ℚ) < 2 ^ e)]
  have h4 : (2 : ℚ) ^ e ≤ 2 ^ binary64.emax := zpow_le_zpow_right₀ (by norm_num) h3
  have h5 : |(m : ℚ)| ≤ 2 ^ binary64.prec - 1 := by
    have h6 : |m| ≤ 2 ^ binary64.prec - 1 := by omega
    have : ((|m| : ℤ) : ℚ) ≤ ((2 ^ binary64.prec - 1 : ℤ) : ℚ) := by exact_mod_cast h6
    simpa using this
  exact mul_le_mul h5 h4 (by positivity) ((abs_nonneg _).trans h5)

end Verif.Cycle
