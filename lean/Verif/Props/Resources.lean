import Verif.Lemmas.Resources

/-!
Properties C29 (registry is a map) and C30 (claims).
Every object starts empty; `claiming` is the claim policy of its class.
-/

namespace Verif

open Spec

/-- **C29, lookup.** After any sequence of calls `getHandle(name)` returns the last handle
registered under `name`, and throws (`none`) iff there is none. -/
theorem c29_lookup (claiming : Bool) (ops : List IfaceOp) (name : String) :
    ((Iface.run { claiming := claiming } ops).getHandle name).1 = lastRegistered name ops := by
  have h := Iface.find_run claiming ops name
  simp only [Iface.getHandle, Iface.rmGetHandle]
  rw [← h]
  split <;> simp_all

/-- **C29, listing.** `getNames` lists exactly the names registered, in strictly increasing
order (hence each once). -/
theorem c29_names (claiming : Bool) (ops : List IfaceOp) :
    let o := Iface.run { claiming := claiming } ops
    (∀ n, n ∈ o.getNames ↔ ∃ h, IfaceOp.registerHandle h ∈ ops ∧ h.name = n) ∧
    o.getNames.Pairwise (· < ·) := by
  refine ⟨fun n => ?_, ((Iface.WF.empty claiming).run ops).sorted⟩
  unfold Iface.getNames
  rw [← smapFind_isSome, Iface.find_run, lastRegistered, List.findSome?_isSome_iff]
  constructor
  · rintro ⟨op, hop, hs⟩
    cases op with
    | registerHandle h =>
      refine ⟨h, List.mem_reverse.1 hop, ?_⟩
      by_contra hn; simp [hn] at hs
    | getHandle m => simp at hs
    | clearClaims => simp at hs
  · rintro ⟨h, hop, rfl⟩
    exact ⟨_, List.mem_reverse.2 hop, by simp⟩

/-- **C30, one lookup.** `getHandle` changes the claims iff the lookup succeeds and the
interface is exclusive, and then adds exactly the name looked up. -/
theorem c30_one_lookup (o : Iface) (name n : String) :
    n ∈ (o.getHandle name).2.getClaims ↔
      n ∈ o.getClaims ∨ (n = name ∧ o.claiming = true ∧ ((o.getHandle name).1.isSome)) := by
  unfold Iface.getClaims
  rw [Iface.getHandle_claims]
  have hg : (o.getHandle name).1 = smapFind name o.handles := by
    unfold Iface.getHandle Iface.rmGetHandle; split <;> simp_all
  rw [hg]
  split
  · rename_i h; rw [mem_ssetInsert]
    constructor
    · rintro (rfl | h1)
      · exact Or.inr ⟨rfl, h.2, h.1⟩
      · exact Or.inl h1
    · rintro (h1 | ⟨rfl, _⟩)
      · exact Or.inr h1
      · exact Or.inl rfl
  · rename_i h
    constructor
    · exact Or.inl
    · rintro (h1 | ⟨rfl, h1, h2⟩)
      · exact h1
      · exact absurd ⟨h2, h1⟩ h

/-- **C30, history.** On an exclusive interface `getClaims` is, after any history, the set of
the names looked up successfully since the last `clearClaims`: the lookup is a `getHandle` in
`since` whose name had been registered before it. On a shared interface it is empty. -/
theorem c30_claims_history (claiming : Bool) (ops before since : List IfaceOp)
    (hs : SinceClear ops before since) (n : String) :
    n ∈ (Iface.run { claiming := claiming } ops).getClaims ↔
      claiming = true ∧ ∃ a b, since = a ++ .getHandle n :: b ∧
        (lastRegistered n (before ++ a)).isSome := by
  obtain ⟨rfl, hno, hb⟩ := hs
  unfold Iface.getClaims
  rw [Iface.run_append, Iface.mem_claims_run _ _ hno, Iface.run_claiming]
  have hempty : (Iface.run { claiming := claiming } before).claims = [] := by
    rcases hb with rfl | hb
    · rfl
    · obtain ⟨l, rfl⟩ := List.getLast?_eq_some_iff.1 hb
      rw [Iface.run_append]; rfl
  rw [hempty]
  simp only [List.not_mem_nil, false_or]
  constructor <;>
  · rintro ⟨h0, a, b, hab, h1⟩
    refine ⟨h0, a, b, hab, ?_⟩
    first
      | rwa [← Iface.run_append, Iface.find_run] at h1
      | rwa [← Iface.run_append, Iface.find_run]

/-- **C30, set.** The claims reported never contain duplicates. -/
theorem c30_claims_set (claiming : Bool) (ops : List IfaceOp) :
    (Iface.run { claiming := claiming } ops).getClaims.Pairwise (· < ·) :=
  ((Iface.WF.empty claiming).run ops).claims

/-- A registry with a replaced handle, a failed lookup, a repeated lookup and an earlier
claim that was cleared. -/
example :
    let ops := [.registerHandle ⟨"b", 1⟩, .getHandle "b", .clearClaims, .registerHandle ⟨"a", 2⟩,
      .registerHandle ⟨"b", 3⟩, .getHandle "c", .getHandle "a", .getHandle "a"]
    let o := Iface.run { claiming := true } ops
    o.getNames = ["a", "b"] ∧ (o.getHandle "b").1 = some ⟨"b", 3⟩ ∧ (o.getHandle "c").1 = none ∧
    o.getClaims = ["a"] ∧
    (Iface.run { claiming := false } ops).getClaims = [] ∧
    SinceClear ops (ops.take 3) (ops.drop 3) := by
  refine ⟨by decide, by decide, by decide, by decide, by decide, by decide, by decide, ?_⟩
  right; rfl

end Verif
