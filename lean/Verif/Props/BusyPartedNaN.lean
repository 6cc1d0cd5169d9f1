import Verif.Props.BusyParted

/-!
Property C117, continued: where NaN comes from and how long it stays in a robot with a combined hardware that computes with doubles and
whose services are called in the middle of its cycles.
-/

namespace Verif.Parted

open Verif.Transmission (Mem Loader Cmd Doc TransInfo IsNaN)
open Verif.Limits (Machine Flt Fl Dbl binary64 UrdfJoint)
open Verif.Cycle (GoodPeriod limitsArith)
open Verif.Described (Robot Setting Assembled double_lawful)
open Verif.Whole (Input Stage Move Past Number)

section

variable {A : Machine binary64} {stod : String → Option (Flt A)} {L0 : Loader (Flt A)} {d : Doc} {infos : List TransInfo}
  {joints : List (Cmd × String × UrdfJoint (Dbl (Fl binary64)))} {r : Robot (Flt A) (Fl binary64)}
  {rs : List (Robot (Flt A) (Fl binary64))} {m : Mem (Flt A)} {ms : List (Move (Flt A))}

variable (nd : Bool) (k : Nat) (hr : rs[k]? = some r) (ha : Assembled stod (limitsArith A) L0 d infos joints r)

theorem orderly_prefix {pre post : List (Move (Flt A))} (h : Orderly stod (.double A) nd rs m (pre ++ post)) :
    Orderly stod (.double A) nd rs m pre :=
  ⟨h.assembled, allMoves_prefix pre _ _ h.fine, fun i hi => h.positive i (List.mem_append_left _ hi)⟩

include hr ha

/-- A step leaves it as it is whether a command is NaN, unless it calls controllers in the middle of a cycle. -/
theorem number_step (pre : List (Move (Flt A))) (mv : Move (Flt A)) (hms : Orderly stod (.double A) nd rs m (pre ++ [mv]))
    (ht : ∀ i, .begin i ∈ pre ++ [mv] → GoodPeriod i.period) (q : Cmd) (n : String) :
    let b := ((Team.start rs m).run (.double A) nd pre).2.1
    let b' := ((Team.start rs m).run (.double A) nd (pre ++ [mv])).2.1
    (Number r q n (own rs.length k b'.mem) ↔ Number r q n (own rs.length k b.mem)) ∨
      ∃ i es c cb, .begin i ∈ pre ∧ b'.sys.mgr.trace = b.sys.mgr.trace ++ es ∧ b'.mem = replay i.act es b.mem ∧ .cb c cb ∈ es ∧
        Holds rs b.sys c k q n := by
  intro b b'
  obtain ⟨b1, p, e, hnone, hsome⟩ := c117_commands (double_lawful A) nd hms pre mv [] rfl
  obtain ⟨b2, p2, e2, -, hgo, hidle, -⟩ := c117_steps (double_lawful A) nd hms pre mv [] rfl
  obtain ⟨rfl, rfl⟩ : b1 = b2 ∧ p = p2 := by
    rw [e] at e2
    cases e2
    exact ⟨rfl, rfl⟩
  obtain ⟨h0, -, -, -, hbeg, -⟩ := team_facts (double_lawful A) nd (orderly_prefix nd hms)
  have hrun := team_append (S := .double A) (nd := nd) pre [mv] (Team.start rs m) h0
  rw [run_cons_ok e] at hrun
  have hb' : b' = b1 := by
    show ((Team.start rs m).run (.double A) nd (pre ++ [mv])).2.1 = b1
    rw [hrun]
    rfl
  rw [hb']
  cases p with
  | none =>
    by_cases hne : r.jointCommand q n (own rs.length k b1.mem) = r.jointCommand q n (own rs.length k b.mem)
    · exact Or.inl (by unfold Number; rw [hne])
    · obtain ⟨hmv, c, cb, es, h1, h2, -, h4, -⟩ := hnone rfl k r q n hr hne
      right
      subst hmv
      cases hst : b.stage with
      | outside =>
        simp only [Team.step] at e
        rw [show ((Team.start rs m).run (.double A) nd pre).2.1.stage = .outside from hst] at e
        cases e
        exact absurd rfl hne
      | inside i s me =>
        by_cases hi : b.rt = .idle
        · obtain ⟨x, hx, -⟩ := hidle i s me rfl hst hi
          cases hx
        · obtain ⟨-, -, -, -, es', ht', hm'⟩ := hgo i s me rfl hst hi
          have : es' = es := List.append_cancel_left (ht'.symm.trans h1)
          subst this
          refine ⟨i, es', c, cb, begun_mem (S := .double A) (nd := nd) pre (Team.start rs m) i ?_, h1, hm', h2, h4⟩
          rw [hbeg, show ((Team.start rs m).run (.double A) nd pre).2.1.stage = .inside i s me from hst]
          simp [Stage.now]
  | some x =>
    obtain ⟨-, -, hw, -, hl⟩ := hsome x rfl
    have hx : x ∈ ((Team.start rs m).run (.double A) nd (pre ++ [mv])).1 := by
      rw [hrun]
      simp
    left
    have := c117_nan_iff nd hms ht k hr ha x hx q n
    rw [← Whole.not_number, ← Whole.not_number, not_iff_not] at this
    rw [show b.mem = x.record.wished from hw.symm, ← this]
    unfold Number
    rw [hl k r q n hr]

/-- **C117, NaN comes from controllers only.** If the command of a joint of a part is a number at first and no call of a controller
turns it from a number into NaN, it is a number at every moment, also in the middle of an update, whatever services are called, whatever
the limits of the parts are and the sensors report. -/
theorem c117_nan_source (hms : Orderly stod (.double A) nd rs m ms) (ht : ∀ i, .begin i ∈ ms → GoodPeriod i.period) (q : Cmd)
    (n : String) (hm : Number r q n (own rs.length k m))
    (hact : ∀ i, .begin i ∈ ms → ∀ c cb m', Number r q n (own rs.length k m') → Number r q n (own rs.length k (i.act c cb m'))) :
    Number r q n (own rs.length k ((Team.start rs m).run (.double A) nd ms).2.1.mem) := by
  induction ms using List.reverseRecOn with
  | nil => exact hm
  | append_singleton pre mv ih =>
    have hb := ih (orderly_prefix nd hms) (fun i hi => ht i (List.mem_append_left _ hi))
      fun i hi => hact i (List.mem_append_left _ hi)
    rcases number_step nd k hr ha pre mv hms ht q n with h | ⟨i, es, -, -, hi, -, hm', -⟩
    · exact h.2 hb
    · rw [hm']
      have hi' := hact i (List.mem_append_left _ hi)
      generalize ((Team.start rs m).run (.double A) nd pre).2.1.mem = m0 at hb
      clear hm' hms
      induction es generalizing m0 with
      | nil => exact hb
      | cons ev es ihes =>
        unfold replay at ihes ⊢
        rw [List.foldl_cons]
        refine ihes _ ?_
        cases ev with
        | cb c cb => exact hi' c cb m0 hb
        | _ => exact hb

/-- **C117, NaN stays.** If the command of a joint of a part is NaN at some moment, and from then on no controller that holds a handle
for it is called, it is NaN at every later moment: so services, other controllers and limits do not remove it. -/
theorem c117_nan_stays (pre post : List (Move (Flt A))) (hms : Orderly stod (.double A) nd rs m (pre ++ post))
    (ht : ∀ i, .begin i ∈ pre ++ post → GoodPeriod i.period) (q : Cmd) (n : String)
    (hnan : ¬Number r q n (own rs.length k ((Team.start rs m).run (.double A) nd pre).2.1.mem))
    (hno : ∀ mid mv rest, post = mid ++ mv :: rest →
      ∀ es, ((Team.start rs m).run (.double A) nd (pre ++ mid ++ [mv])).2.1.sys.mgr.trace =
        ((Team.start rs m).run (.double A) nd (pre ++ mid)).2.1.sys.mgr.trace ++ es →
      ∀ c cb, .cb c cb ∈ es → ¬Holds rs ((Team.start rs m).run (.double A) nd (pre ++ mid)).2.1.sys c k q n) :
    ¬Number r q n (own rs.length k ((Team.start rs m).run (.double A) nd (pre ++ post)).2.1.mem) := by
  induction post using List.reverseRecOn with
  | nil => simpa using hnan
  | append_singleton post mv ih =>
    rw [← List.append_assoc] at hms ht ⊢
    have hb := ih (orderly_prefix nd hms) (fun i hi => ht i (List.mem_append_left _ hi))
      fun mid mv' rest e => hno mid mv' (rest ++ [mv]) (by rw [e]; simp)
    rcases number_step nd k hr ha (pre ++ post) mv hms ht q n with h | ⟨i, es, c, cb, -, h1, -, h2, h3⟩
    · exact fun h' => hb (h.1 h')
    · exact absurd h3 (hno post mv [] rfl es h1 c cb h2)

end

/-! ### Concrete cases -/

section

variable {A : Machine binary64}

open Verif.Described (exStod64 exListed64 exOne exZero exThree64_case exOne_val exActuators exThree exKind exThree_driven)
open Verif.Transmission.Loader (exInfos)
open Verif.Whole (exInput64 exMoves64 interfaceName)

theorem exInput64_good {i : Input (Flt A)} (h : i = exInput64) : GoodPeriod i.period := by
  subst h
  exact ⟨_, rfl, Limits.Fl.int_fin _ _, by rw [exOne_val]; norm_num⟩

/-- `c117_nan_source`: two equal parts, "v" is loaded in the middle of the update of the first cycle, and the commands are 0 at first. -/
example (nd : Bool) (k : Nat) (hk : k < 2) : ∃ (r : Robot (Flt A) (Fl binary64)) (m : Mem (Flt A)),
    Assembled (exStod64 (A := A)) (limitsArith A) exActuators exThree (exInfos exThree) exListed64 r ∧
    Orderly (exStod64 (A := A)) (.double A) nd [r, r] m exMoves64 ∧ Number r .velocity "j3" (own 2 k m) ∧
    (∀ i, .begin i ∈ exMoves64 (A := A) → ∀ c cb m', Number r .velocity "j3" (own 2 k m') →
      Number r .velocity "j3" (own 2 k (i.act c cb m'))) ∧
    Number r .velocity "j3" (own 2 k ((Team.start [r, r] m).run (.double A) nd exMoves64).2.1.mem) := by
  obtain ⟨r, ha, -⟩ := exThree64_case (A := A) exKind
  have hone : ∀ i : Input (Flt A), .begin i ∈ exMoves64 (A := A) → i = exInput64 := by
    intro i hi
    simp only [exMoves64, List.mem_cons, List.not_mem_nil, or_false, reduceCtorEq] at hi
    cases hi
    rfl
  have hgood : ∀ i : Input (Flt A), .begin i ∈ exMoves64 (A := A) → GoodPeriod i.period := fun i hi => exInput64_good (hone i hi)
  let m : Mem (Flt A) := fun _ => Flt.fl exZero
  have hms : Orderly (exStod64 (A := A)) (.double A) nd [r, r] m exMoves64 := by
    refine c117_unhurried (double_lawful A) nd (fun x hx => ?_) ?_ fun i hi => Whole.period_double (hgood i hi)
    · simp only [List.mem_cons, List.not_mem_nil, or_false, or_self] at hx
      subst hx
      exact ⟨_, _, _, _, ha⟩
    refine ⟨rfl, fun b2 p2 e => ?_⟩
    simp only [Team.step, Team.start, Team.enter] at e
    split at e
    · cases e
    · cases e
      refine ⟨by rintro _ _ _ ⟨⟩ c k m a -; rfl, ?_⟩
      rintro b3 p3 ⟨⟩
      refine ⟨⟨sysClass_proper (interfaceName .velocity) "j3", fun _ => Option.some_ne_none false, by rintro _ _ ⟨⟩⟩, ?_⟩
      rintro b4 p4 ⟨⟩
      refine ⟨by rintro _ _ _ ⟨⟩ c k m a -; rfl, ?_⟩
      rintro b5 p5 ⟨⟩
      exact ⟨by rintro _ _ _ ⟨⟩ c k m a -; rfl, fun _ _ _ => trivial⟩
  have hm : Number r .velocity "j3" (own 2 k m) := by
    intro v hv
    unfold Robot.jointCommand at hv
    obtain ⟨a, -, rfl⟩ := Option.map_eq_some_iff.1 hv
    rintro ⟨⟩
  have hact : ∀ i, .begin i ∈ exMoves64 (A := A) → ∀ c cb m', Number r .velocity "j3" (own 2 k m') →
      Number r .velocity "j3" (own 2 k (i.act c cb m')) := by
    intro i hi c cb m' h
    rw [hone i hi]
    exact h
  have hr : [r, r][k]? = some r := by
    rcases (by omega : k = 0 ∨ k = 1) with rfl | rfl <;> rfl
  exact ⟨r, m, ha, hms, hm, hact, c117_nan_source nd k hr ha hms hgood .velocity "j3" hm hact⟩

/-- A cycle in the middle of which a controller that does not exist is to be unloaded. -/
def exUnload64 : List (Move (Flt A)) :=
  [.begin exInput64, .go, .service (.unload "v"), .go, .go]

theorem exUnload64_held (nd : Bool) (ms : List (Move (Flt A))) (b : Team (Flt A) (Fl binary64))
    (h : ∀ mv ∈ ms, mv ∈ exUnload64 (A := A)) : (b.run (.double A) nd ms).2.1.sys.held = b.sys.held := by
  induction ms generalizing b with
  | nil => rfl
  | cons mv ms ih =>
    cases e : b.step (.double A) nd mv with
    | error x => rw [run_cons_error e]
    | ok y =>
      obtain ⟨b', p⟩ := y
      rw [run_cons_ok e]
      show (b'.run (.double A) nd ms).2.1.sys.held = b.sys.held
      rw [ih b' fun x hx => h x (List.mem_cons_of_mem _ hx)]
      have hmv := h mv (by simp)
      simp only [exUnload64, List.mem_cons, List.not_mem_nil, or_false] at hmv
      rcases hmv with rfl | rfl | rfl | rfl | rfl
      · simp only [Team.step, Team.enter] at e
        split at e
        · split at e
          · cases e
          · cases e; rfl
        · cases e; rfl
      all_goals first
        | (cases e; rfl)
        | (simp only [Team.step, Team.leave] at e
           split at e
           · cases e; rfl
           · split at e
             · split at e
               · cases e
               · cases e; rfl
             · cases e; rfl)

/-- `c117_nan_stays`: all commands are NaN at first and no controller holds one. -/
example (nd : Bool) (k : Nat) (hk : k < 2) : ∃ (r : Robot (Flt A) (Fl binary64)) (m : Mem (Flt A)),
    Assembled (exStod64 (A := A)) (limitsArith A) exActuators exThree (exInfos exThree) exListed64 r ∧
    Orderly (exStod64 (A := A)) (.double A) nd [r, r] m exUnload64 ∧ ¬Number r .velocity "j3" (own 2 k m) ∧
    (∀ mid mv rest, exUnload64 (A := A) = mid ++ mv :: rest → ∀ c,
      ¬Holds [r, r] ((Team.start [r, r] m).run (.double A) nd mid).2.1.sys c k .velocity "j3") ∧
    ¬Number r .velocity "j3" (own 2 k ((Team.start [r, r] m).run (.double A) nd exUnload64).2.1.mem) := by
  obtain ⟨r, ha, hkind⟩ := exThree64_case (A := A) exKind
  obtain ⟨-, -, hd⟩ := exThree_driven (T := Flt A)
  have hcell := (Described.c111_init (joints := exListed64) (limitsArith A) ha.toBase exKind).2.2 _ _ hd
  obtain ⟨a, hcell⟩ := Option.ne_none_iff_exists'.1 hcell
  have hgood : ∀ i : Input (Flt A), .begin i ∈ exUnload64 (A := A) → GoodPeriod i.period := by
    intro i hi
    simp only [exUnload64, List.mem_cons, List.not_mem_nil, or_false, reduceCtorEq] at hi
    cases hi
    exact exInput64_good rfl
  let m : Mem (Flt A) := fun _ => (none : Option (Fl binary64))
  have hms : Orderly (exStod64 (A := A)) (.double A) nd [r, r] m exUnload64 := by
    refine c117_unhurried (double_lawful A) nd (fun x hx => ?_) ?_ fun i hi => Whole.period_double (hgood i hi)
    · simp only [List.mem_cons, List.not_mem_nil, or_false, or_self] at hx
      subst hx
      exact ⟨_, _, _, _, ha⟩
    refine ⟨rfl, fun b2 p2 e => ?_⟩
    simp only [Team.step, Team.start, Team.enter] at e
    split at e
    · cases e
    · cases e
      refine ⟨by rintro _ _ _ ⟨⟩ c k m a -; rfl, ?_⟩
      rintro b3 p3 ⟨⟩
      refine ⟨⟨trivial, fun _ => Option.some_ne_none false, by rintro _ _ ⟨⟩⟩, ?_⟩
      rintro b4 p4 ⟨⟩
      refine ⟨by rintro _ _ _ ⟨⟩ c k m a -; rfl, ?_⟩
      rintro b5 p5 ⟨⟩
      exact ⟨by rintro _ _ _ ⟨⟩ c k m a -; rfl, fun _ _ _ => trivial⟩
  have hm : ¬Number r .velocity "j3" (own 2 k m) :=
    Whole.not_number.2 ⟨(none : Option (Fl binary64)), by unfold Robot.jointCommand; rw [hcell]; rfl, rfl⟩
  have hno : ∀ mid mv rest, exUnload64 (A := A) = mid ++ mv :: rest → ∀ c,
      ¬Holds [r, r] ((Team.start [r, r] m).run (.double A) nd mid).2.1.sys c k .velocity "j3" := by
    rintro mid mv rest e c ⟨-, -, -, -, g, hg, -⟩
    rw [exUnload64_held nd mid _ fun x hx => by rw [e]; exact List.mem_append_left _ hx] at hg
    cases hg
  have hr : [r, r][k]? = some r := by
    rcases (by omega : k = 0 ∨ k = 1) with rfl | rfl <;> rfl
  exact ⟨r, m, ha, hms, hm, hno, c117_nan_stays nd k hr ha [] exUnload64 hms hgood .velocity "j3" hm
    fun mid mv rest e es _ c cb _ => hno mid mv rest e c⟩

end

end Verif.Parted
