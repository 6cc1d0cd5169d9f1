import Verif.Spec.PartedRobot
import Verif.Lemmas.WholeRobot
import Mathlib.Logic.Equiv.List

/-!
Lemmas about whole robots with a combined hardware: the interfaces of the parts, and cycles as cycles of the parts.
-/

namespace Verif.Parted

open Verif.Transmission (Mem Loader Cmd Doc TransInfo rawCommand)
open Verif.Cycle (Record Halt overwrite)
open Verif.Described (Robot Setting Lawful Base Made Cycled rawCommand_bounds)
open Verif.Whole (Input Seen)

variable {T K : Type}

/-! ### Places -/

theorem place_mod {n k : Nat} (h : k < n) (a : Nat) : place n k a % n = k := by
  rw [place, Nat.add_comm, Nat.add_mul_mod_self_right, Nat.mod_eq_of_lt h]

theorem place_div {n k : Nat} (h : k < n) (a : Nat) : place n k a / n = a := by
  rw [place, Nat.add_comm, Nat.add_mul_div_right _ _ (by omega), Nat.div_eq_of_lt h, Nat.zero_add]

theorem view_put {n k : Nat} (h : k < n) (v m : Mem T) : view n k (put n k v m) = v := by
  funext a
  simp only [view, put, place_mod h, place_div h, if_true]

theorem view_put_ne {n k j : Nat} (h : j < n) (hne : j ≠ k) (v m : Mem T) : view n j (put n k v m) = view n j m := by
  funext a
  simp only [view, put, place_mod h, if_neg hne]

theorem own_eq (n k : Nat) (m : Mem T) : own n k m = view n k m := rfl

/-! ### Interfaces -/

theorem mem_interfaces {ls : List (Loader T)} {o : Nat} {k : String} {hd : Handle}
    (h : (k, hd) ∈ ((interfaces ls).objs o).handles) :
    ∃ L hd', ls[o / 4]? = some L ∧ (k, hd') ∈ ((Whole.interfaces L).objs (o % 4)).handles ∧
      hd = ⟨hd'.name, place ls.length (o / 4) hd'.data⟩ := by
  unfold interfaces at h
  dsimp only at h
  split at h
  · cases h
  · rename_i L hL
    obtain ⟨e, he, h⟩ := List.mem_map.1 h
    cases h
    exact ⟨L, e.2, hL, he, rfl⟩

theorem interfaces_claiming {ls : List (Loader T)} {o : Nat} {L : Loader T} (h : ls[o / 4]? = some L) :
    ((interfaces ls).objs o).claiming = ((Whole.interfaces L).objs (o % 4)).claiming := by
  unfold interfaces
  dsimp only
  rw [h]

theorem interfaces_named (ls : List (Loader T)) : (interfaces ls).Named := by
  intro o k hd h
  obtain ⟨L, hd', -, h', rfl⟩ := mem_interfaces h
  exact Whole.interfaces_named L _ _ hd' h'

theorem interfaces_exclusive {ls : List (Loader T)} {hd : Handle} (h : (interfaces ls).Exclusive hd) :
    ∃ (k : Nat) (L : Loader T) (q : Cmd) (a : Nat), ls[k]? = some L ∧ L.commandCell q hd.name = some a ∧
      hd.data = place ls.length k a := by
  obtain ⟨o, h1, h2⟩ := h
  obtain ⟨L, hd', hL, h2, he⟩ := mem_interfaces h2
  rw [interfaces_claiming hL] at h1
  have hn : hd.name = hd'.name := by rw [he]
  obtain ⟨q, hq⟩ := Whole.interfaces_exclusive ⟨_, h1, hn ▸ h2⟩
  exact ⟨o / 4, L, q, hd'.data, hL, hn ▸ hq, by rw [he]⟩

theorem part_typed {ls : List (Loader T)} {k : Nat} (hk : k < ls.length) :
    TypedRobot stdEnv (interfaces ls) (part (interfaces ls) k) := by
  obtain ⟨L, hL⟩ : ∃ L, ls[k]? = some L := ⟨_, List.getElem?_eq_getElem hk⟩
  have cl : ∀ j : Nat, j < 4 → ((interfaces ls).objs (4 * k + j)).claiming = ((Whole.interfaces L).objs j).claiming := by
    intro j hj
    have e1 : (4 * k + j) / 4 = k := by omega
    have e2 : (4 * k + j) % 4 = j := by omega
    have := interfaces_claiming (ls := ls) (o := 4 * k + j) (L := L) (by rw [e1]; exact hL)
    rw [e2] at this
    exact this
  have lt : ∀ j : Nat, j < 4 → 4 * k + j < (interfaces ls).next := by
    intro j hj
    show 4 * k + j < 4 * ls.length
    omega
  have e : ∀ T o, smapFind T [("hardware_interface::EffortJointInterface", 4 * k + 2),
      ("hardware_interface::JointStateInterface", 4 * k + 3), ("hardware_interface::PositionJointInterface", 4 * k),
      ("hardware_interface::VelocityJointInterface", 4 * k + 1)] = some o →
      o < (interfaces ls).next ∧ ((interfaces ls).objs o).claiming = stdEnv.claiming T := by
    intro T o h
    have := mem_of_smapFind h
    simp only [List.mem_cons, Prod.mk.injEq, List.not_mem_nil, or_false] at this
    rcases this with ⟨rfl, rfl⟩ | ⟨rfl, rfl⟩ | ⟨rfl, rfl⟩ | ⟨rfl, rfl⟩
    · exact ⟨lt 2 (by decide), by rw [cl 2 (by decide)]; show true = _; decide⟩
    · exact ⟨lt 3 (by decide), by rw [cl 3 (by decide)]; show false = _; decide⟩
    · exact ⟨lt 0 (by decide), (cl 0 (by decide)).trans (by show true = _; decide)⟩
    · exact ⟨lt 1 (by decide), by rw [cl 1 (by decide)]; show true = _; decide⟩
  exact ⟨e, by simp [smapFind], trivial⟩

theorem typedRobots_iff {env : TypeEnv} {h : Heap} (ms : List IMan) : TypedRobots env h ms ↔ ∀ m ∈ ms, TypedRobot env h m := by
  induction ms with
  | nil => simp [TypedRobots]
  | cons m ms ih => simp [TypedRobots, ih]

theorem combined_eq (ls : List (Loader T)) :
    combined ls = .node [] [] [] [] ((List.range ls.length).map (part (interfaces ls))) := by
  have : ∀ (l : List Nat) (s : List IMan), l.foldl (fun m k => IMan.registerInterfaceManager (part (interfaces ls) k) m)
      (.node [] [] [] [] s) = .node [] [] [] [] (s ++ l.map (part (interfaces ls))) := by
    intro l
    induction l with
    | nil => intro s; simp
    | cons k l ih =>
      intro s
      rw [List.foldl_cons]
      exact (ih (s ++ [part (interfaces ls) k])).trans (by rw [List.append_assoc]; rfl)
  exact this _ []

theorem combined_typed (ls : List (Loader T)) : TypedRobot stdEnv (interfaces ls) (combined ls) := by
  rw [combined_eq]
  refine ⟨by simp [smapFind], by simp [smapFind], (typedRobots_iff _).2 fun m hm => ?_⟩
  obtain ⟨k, hk, rfl⟩ := List.mem_map.1 hm
  exact part_typed (List.mem_range.1 hk)

/-! ### Who can write what -/

/-- Strings can be told apart by numbers. -/
theorem numbered : ∃ f : String → Nat, f.Injective := by
  refine ⟨fun s => Encodable.encode (s.toList.map Char.toNat), fun s t h => ?_⟩
  have h := List.map_injective_iff.2 (fun a b => Char.toNat_inj.1) (Encodable.encode_injective h)
  exact String.toList_inj.1 h

/-- The joints whose command has the address. -/
def names (ls : List (Loader T)) (d : Nat) : List String :=
  match ls[d % ls.length]? with
  | none => []
  | some L => (smapKeys L.raw).filter fun n => [Cmd.position, .velocity, .effort].any fun c =>
      L.commandCell c n == some (d / ls.length)

theorem mem_names {ls : List (Loader T)} {k : Nat} {L : Loader T} (hL : ls[k]? = some L) {a : Nat} {n : String} :
    n ∈ names ls (place ls.length k a) ↔ n ∈ smapKeys L.raw ∧ ∃ c, L.commandCell c n = some a := by
  have hk := (List.getElem?_eq_some_iff.1 hL).1
  unfold names
  rw [place_mod hk, place_div hk, hL]
  simp only [List.mem_filter, List.any_cons, List.any_nil, Bool.or_false, Bool.or_eq_true, beq_iff_eq]
  refine and_congr_right fun _ => ⟨fun h => ?_, fun ⟨c, h⟩ => ?_⟩
  · rcases h with h | h | h
    exacts [⟨_, h⟩, ⟨_, h⟩, ⟨_, h⟩]
  · cases c
    exacts [Or.inl h, Or.inr (Or.inl h), Or.inr (Or.inr h)]

section

variable [Add T] [Sub T] [Mul T] [Div T] [OfNat T 0] [OfNat T 1] [OfNat T 2] [DecidableEq T] [LinearOrder K]
  {stod : String → Option T}

/-- The loader is made from a description. -/
def Based (stod : String → Option T) (L : Loader T) : Prop := ∃ L0 d infos, Base stod L0 d infos L

theorem Based.unique {L : Loader T} (hb : Based stod L) {q q' : Cmd} {n n' : String} {a : Nat}
    (h : L.commandCell q n = some a) (h' : L.commandCell q' n' = some a) : n = n' ∧ q = q' := by
  obtain ⟨L0, d, infos, hb⟩ := hb
  obtain ⟨b, hj⟩ := Whole.jointOf_cell hb h
  have hn := Whole.joint_apart hb h h' hj hj
  subst hn
  obtain ⟨b1, r1, e1, -⟩ := hb.command_above h
  obtain ⟨b2, r2, e2, -⟩ := hb.command_above h'
  rw [r1] at r2
  cases r2
  rw [e1] at e2
  exact ⟨rfl, Described.rawCommand_inj e2⟩

theorem Based.key {L : Loader T} (hb : Based stod L) {q : Cmd} {n : String} {a : Nat} (h : L.commandCell q n = some a) :
    n ∈ smapKeys L.raw := by
  obtain ⟨L0, d, infos, hb⟩ := hb
  obtain ⟨b, r, -⟩ := hb.command_above h
  exact List.mem_map.2 ⟨_, mem_of_smapFind r, rfl⟩

/-- Joints of different names have different variables, whatever the parts. -/
theorem interfaces_apart {ls : List (Loader T)} (hb : ∀ L ∈ ls, Based stod L) {f : String → Nat} (hf : f.Injective) :
    (interfaces ls).CellsApart fun d => (names ls d).map f := by
  intro hd hd' h h' hne x hx hx'
  obtain ⟨k, L, q, a, hL, hc, he⟩ := interfaces_exclusive h
  obtain ⟨k', L', q', a', hL', hc', he'⟩ := interfaces_exclusive h'
  obtain ⟨n, hn, rfl⟩ := List.mem_map.1 hx
  obtain ⟨n', hn', e⟩ := List.mem_map.1 hx'
  have := hf e
  subst this
  rw [he, mem_names hL] at hn
  rw [he', mem_names hL'] at hn'
  obtain ⟨-, c, g⟩ := hn
  obtain ⟨-, c', g'⟩ := hn'
  exact hne ((((hb L (List.mem_of_getElem? hL)).unique g hc).1).symm.trans ((hb L' (List.mem_of_getElem? hL')).unique g' hc').1)

variable {rs : List (Robot T K)}

/-- A command that a controller holds is one of its joint. -/
theorem Holds.canWrite (hb : ∀ L ∈ rs.map (·.loader), Based stod L) {s : Sys} {c : CId} {k : Nat} {q : Cmd} {n : String}
    (h : Holds rs s c k q n) (f : String → Nat) : s.CanWrite (fun d => (names (rs.map (·.loader)) d).map f) c (f n) := by
  obtain ⟨r, a, hr, hc, g, hg, he, hh⟩ := h
  have hL : (rs.map (·.loader))[k]? = some r.loader := by rw [List.getElem?_map, hr]; rfl
  refine ⟨g, hg, he, List.mem_map.2 ⟨n, ?_, rfl⟩⟩
  have := (mem_names hL (a := a) (n := n)).2 ⟨(hb _ (List.mem_of_getElem? hL)).key hc, q, hc⟩
  rw [List.length_map] at this
  rw [hh]
  exact this

/-- What a controller can write is a command of a joint of a part. -/
theorem canWrite_holds {s : Sys} (hv : SysInv stdEnv (interfaces (rs.map (·.loader))) s) {c : CId} {x : Nat}
    (h : s.CanWrite (fun d => [d]) c x) :
    ∃ k r q n a, rs[k]? = some r ∧ r.loader.commandCell q n = some a ∧ x = place rs.length k a ∧ Holds rs s c k q n := by
  obtain ⟨g, hg, he, hx⟩ := h
  rw [List.mem_singleton] at hx
  subst hx
  obtain ⟨k, L, q, a, hL, hc, hd⟩ := interfaces_exclusive (hv.heldExcl c g hg he)
  rw [List.getElem?_map] at hL
  obtain ⟨r, hr, rfl⟩ := Option.map_eq_some_iff.1 hL
  rw [List.length_map] at hd
  refine ⟨k, r, q, g.handle.name, a, hr, hc, hd, r, a, hr, hc, g, hg, he, ?_⟩
  show g.handle = ⟨_, place _ _ _⟩
  rw [← hd]

/-- The variables of a part that are not commands of its joints are left alone by the controllers. -/
theorem replay_commanded {s : Sys} (hv : SysInv stdEnv (interfaces (rs.map (·.loader))) s)
    {act : CId → Callback → Mem T → Mem T} (hw : ∀ c k m a, ¬s.CanWrite (fun d => [d]) c a → act c k m a = m a)
    (es : List Event) (m : Mem T) {k : Nat} {r : Robot T K} (hr : rs[k]? = some r) :
    overwrite r.commanded (view rs.length k (replay act es m)) (view rs.length k m) = view rs.length k (replay act es m) := by
  have hk := (List.getElem?_eq_some_iff.1 hr).1
  funext a
  unfold overwrite
  split
  · rfl
  · rename_i hn
    refine (replay_untouched act (place rs.length k a) (fun c => s.CanWrite (fun d => [d]) c (place rs.length k a))
      (fun c k' m => hw c k' m _) es (fun c k' _ h => ?_) m).symm
    obtain ⟨k', r', q, n, a', hr', hc, he, -⟩ := canWrite_holds hv h
    have hk' := (List.getElem?_eq_some_iff.1 hr').1
    have h1 : k = k' := by rw [← place_mod hk a, he, place_mod hk']
    subst h1
    have h2 : a = a' := by rw [← place_div hk a, he, place_div hk]
    subst h2
    rw [hr] at hr'
    cases hr'
    exact hn (Described.mem_commanded hc)

end

/-! ### Reading and writing -/

section

variable [Add T] [Sub T] [Mul T] [Div T] [OfNat T 2] [LinearOrder K] {S : Setting T K} {nd : Bool}

theorem readAll_ok (n : Nat) (sense : Mem T) (ps : List (Robot T K)) : ∀ (k : Nat) (m : Mem T), k + ps.length ≤ n →
    (∀ (j : Nat) r, ps[j]? = some r → ∃ v, r.read nd (view n (k + j) sense) (view n (k + j) m) = .ok v) →
    ∃ m', readAll nd n sense k ps m = .ok m' ∧
      (∀ (j : Nat) r, ps[j]? = some r →
        r.read nd (view n (k + j) sense) (view n (k + j) m) = .ok (view n (k + j) m')) ∧
      ∀ j, j < n → j < k ∨ k + ps.length ≤ j → view n j m' = view n j m := by
  induction ps with
  | nil => exact fun k m _ _ => ⟨m, rfl, by simp, fun _ _ _ => rfl⟩
  | cons r ps ih =>
    intro k m hk h
    rw [List.length_cons] at hk
    obtain ⟨v, hv⟩ := h 0 r rfl
    rw [Nat.add_zero] at hv
    obtain ⟨m', h1, h2, h3⟩ := ih (k + 1) (put n k v m) (by omega) fun j r' hj => by
      have hlt := (List.getElem?_eq_some_iff.1 hj).1
      obtain ⟨v', hv'⟩ := h (j + 1) r' hj
      refine ⟨v', ?_⟩
      rw [show k + 1 + j = k + (j + 1) by omega, view_put_ne (by omega) (by omega)]
      exact hv'
    refine ⟨m', by rw [readAll, hv]; exact h1, fun j r' hj => ?_, fun j hj hj' => ?_⟩
    · cases j with
      | zero =>
        simp only [List.getElem?_cons_zero, Option.some.injEq] at hj
        subst hj
        rw [Nat.add_zero, hv, h3 k (by omega) (by omega), view_put (by omega)]
      | succ j =>
        have hlt := (List.getElem?_eq_some_iff.1 hj).1
        rw [List.length_cons] at hlt
        have := h2 j r' hj
        rw [show k + 1 + j = k + (j + 1) by omega, view_put_ne (by omega) (by omega)] at this
        exact this
    · rw [List.length_cons] at hj'
      rw [h3 j hj (by omega), view_put_ne hj (by omega)]

/-- A part before its `write`. -/
def ready (reset : Bool) (r : Robot T K) : Robot T K :=
  if reset then { r with limits := fun c => Limits.resetAll (r.kind c) (r.limits c) } else r

theorem writeAll_ok (n : Nat) (reset : Bool) (dt : T) (ps : List (Robot T K)) : ∀ (k : Nat) (lim m : Mem T), k + ps.length ≤ n →
    (∀ (j : Nat) r, ps[j]? = some r → ∃ p, (ready reset r).write S nd dt (view n (k + j) m) = .ok p) →
    ∃ ps' lim' m', writeAll S nd n reset dt k ps lim m = .ok (ps', lim', m') ∧ ps'.length = ps.length ∧
      (∀ (j : Nat) r, ps[j]? = some r → ∃ r', ps'[j]? = some r' ∧
        (ready reset r).write S nd dt (view n (k + j) m) = .ok (r', view n (k + j) lim', view n (k + j) m')) ∧
      ∀ j, j < n → j < k ∨ k + ps.length ≤ j → view n j lim' = view n j lim ∧ view n j m' = view n j m := by
  induction ps with
  | nil => exact fun k lim m _ _ => ⟨[], lim, m, rfl, rfl, by simp, fun _ _ _ => ⟨rfl, rfl⟩⟩
  | cons r ps ih =>
    intro k lim m hk h
    rw [List.length_cons] at hk
    obtain ⟨⟨r1, m3, m4⟩, hv⟩ := h 0 r rfl
    rw [Nat.add_zero] at hv
    obtain ⟨ps', lim', m', h1, h0, h2, h3⟩ := ih (k + 1) (put n k m3 lim) (put n k m4 m) (by omega) fun j r' hj => by
      have hlt := (List.getElem?_eq_some_iff.1 hj).1
      obtain ⟨v', hv'⟩ := h (j + 1) r' hj
      refine ⟨v', ?_⟩
      rw [show k + 1 + j = k + (j + 1) by omega, view_put_ne (by omega) (by omega)]
      exact hv'
    refine ⟨r1 :: ps', lim', m', ?_, by simp [h0], fun j r' hj => ?_, fun j hj hj' => ?_⟩
    · have hv' : (if reset then { r with limits := fun c => Limits.resetAll (r.kind c) (r.limits c) } else r : Robot T K).write
          S nd dt (view n k m) = .ok (r1, m3, m4) := hv
      simp only [writeAll, hv', h1]
    · cases j with
      | zero =>
        simp only [List.getElem?_cons_zero, Option.some.injEq] at hj
        subst hj
        obtain ⟨g1, g2⟩ := h3 k (by omega) (by omega)
        refine ⟨r1, rfl, ?_⟩
        rw [Nat.add_zero, hv, g1, g2, view_put (by omega), view_put (by omega)]
      | succ j =>
        have hlt := (List.getElem?_eq_some_iff.1 hj).1
        rw [List.length_cons] at hlt
        obtain ⟨r2, e2, this⟩ := h2 j r' hj
        rw [show k + 1 + j = k + (j + 1) by omega, view_put_ne (by omega) (by omega)] at this
        exact ⟨r2, e2, this⟩
    · rw [List.length_cons] at hj'
      obtain ⟨g1, g2⟩ := h3 j hj (by omega)
      rw [g1, g2, view_put_ne hj (by omega), view_put_ne hj (by omega)]
      exact ⟨rfl, rfl⟩

end

end Verif.Parted
