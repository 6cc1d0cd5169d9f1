import Verif.Spec.ToolsUtils
import Mathlib.Data.List.Infix

/-!
Helper lemmas for the Python helpers.
-/

namespace Verif.Tools

open Mgr

theorem ex_cons {α : Type} {p : α → Prop} {s : α} {l : List α} :
    (∃ t, t ∈ s :: l ∧ p t) ↔ p s ∨ ∃ t, t ∈ l ∧ p t := by simp

theorem strIn_iff (a b : List Char) : strIn a b = true ↔ a <:+: b := by
  unfold strIn
  rw [List.any_eq_true]
  constructor
  · rintro ⟨t, ht, hp⟩
    exact (List.isPrefixOf_iff_prefix.1 hp).isInfix.trans ((List.mem_tails _ _).1 ht).isInfix
  · rintro ⟨s, t, rfl⟩
    refine ⟨a ++ t, (List.mem_tails _ _).2 ⟨s, by simp⟩, List.isPrefixOf_iff_prefix.2 ⟨t, rfl⟩⟩

theorem foldl_filter {α : Type} (l : List α) (p : α → Prop) [DecidablePred p] (out : List α) (f : List α → α → List α)
    (hf : ∀ out e, e ∈ l → f out e = if p e then out ++ [e] else out) :
    l.foldl f out = out ++ l.filter p := by
  induction l generalizing out with
  | nil => simp
  | cons e l ih =>
    rw [List.foldl_cons, hf out e (by simp), ih _ fun o x hx => hf o x (by simp [hx])]
    by_cases h : p e <;> simp [h]

theorem interfaceLoop_iff (iface : String) (sub : Bool) (l : List InterfaceResources) :
    interfaceLoop iface sub l = true ↔ ∃ s ∈ l, Matches iface sub s.hardwareInterface := by
  induction l with
  | nil => simp [interfaceLoop]
  | cons s l ih =>
    unfold interfaceLoop
    cases sub
    · by_cases h : s.hardwareInterface = iface <;> simp [h, ih, Matches]
    · by_cases h : strIn iface.toList s.hardwareInterface.toList = true
      · simp only [if_true, h, true_iff]
        exact ⟨s, by simp, (strIn_iff _ _).1 h⟩
      · simp only [if_true, h, Bool.false_eq_true, if_false, ih, ex_cons]
        constructor
        · intro h'; exact .inr h'
        · rintro (h' | h')
          · exact absurd ((strIn_iff _ _).2 h') h
          · exact h'

/-- The flag after the loop over the requested resources. -/
theorem resourceLoop_eq (claimed : List String) (any : Bool) (rs : List String) (add : Option Bool)
    (h : rs ≠ [] ∨ add = some (!any)) :
    resourceLoop claimed any rs add =
      some (if any then decide (∃ r ∈ rs, r ∈ claimed) else decide (∀ r ∈ rs, r ∈ claimed)) := by
  induction rs generalizing add with
  | nil =>
    obtain rfl := h.resolve_left (by simp)
    cases any <;> simp [resourceLoop]
  | cons r rs ih =>
    unfold resourceLoop
    rw [ih _ (.inr rfl)]
    by_cases hr : r ∈ claimed <;> cases any <;> simp [hr]

theorem claimLoop_eq (resources : List String) (hne : resources ≠ []) (iface : Option String) (any : Bool)
    (l : List InterfaceResources) (add : Option Bool) :
    ∃ add' hit, claimLoop resources iface any l add = .ok (hit, add') ∧
      (hit = true ↔ ∃ s ∈ l, (∀ i, iface = some i → s.hardwareInterface = i) ∧
        (if any then ∃ r ∈ resources, r ∈ s.resources else ∀ r ∈ resources, r ∈ s.resources)) := by
  induction l generalizing add with
  | nil => exact ⟨add, false, rfl, by simp⟩
  | cons s l ih =>
    have hi : (iface = none ∨ iface = some s.hardwareInterface) ↔ ∀ i, iface = some i → s.hardwareInterface = i := by
      cases iface <;> simp [eq_comm]
    unfold claimLoop
    rw [resourceLoop_eq _ _ _ _ (.inl hne)]
    by_cases h : iface = none ∨ iface = some s.hardwareInterface
    · rw [if_pos h]
      by_cases h2 : (if any = true then ∃ r ∈ resources, r ∈ s.resources else ∀ r ∈ resources, r ∈ s.resources)
      · refine ⟨some true, true, ?_, ?_⟩
        · cases any <;> simp_all
        · simp only [true_iff]; exact ⟨s, by simp, hi.1 h, h2⟩
      · obtain ⟨a, b, e, hb⟩ := ih (some false)
        refine ⟨a, b, ?_, ?_⟩
        · cases any
          · simp only [Bool.false_eq_true, if_false] at h2 ⊢
            rw [decide_eq_false h2]; exact e
          · simp only [if_true] at h2 ⊢
            rw [decide_eq_false h2]; exact e
        · rw [hb, ex_cons]
          exact ⟨.inr, fun hh => hh.resolve_left fun hh => h2 hh.2⟩
    · rw [if_neg h]
      obtain ⟨a, b, e, hb⟩ := ih add
      refine ⟨a, b, e, ?_⟩
      rw [hb, ex_cons]
      exact ⟨.inr, fun hh => hh.resolve_left fun hh => h (hi.2 hh.1)⟩

open Classical in
theorem resourcesLoop_eq (resources : List String) (hne : resources ≠ []) (iface : Option String) (any : Bool)
    (l : List Entry) (add : Option Bool) (out : List Entry) :
    resourcesLoop resources iface any l add out =
      .ok (out ++ l.filter fun e => decide (Claims e resources iface any)) := by
  induction l generalizing add out with
  | nil => simp [resourcesLoop]
  | cons e l ih =>
    unfold resourcesLoop
    obtain ⟨a, b, h, hb⟩ := claimLoop_eq resources hne iface any e.claimed add
    rw [h]
    simp only
    rw [ih]
    by_cases hc : Claims e resources iface any
    · have : b = true := hb.2 hc
      simp [this, hc]
    · have : b = false := by
        cases b
        · rfl
        · exact absurd (hb.1 rfl) hc
      simp [this, hc]

/-- Without requested resources the loop over the claims fails at the first matching claim. -/
theorem claimLoop_empty (iface : Option String) (any : Bool) (l : List InterfaceResources) :
    claimLoop [] iface any l none =
      if ∃ s ∈ l, ∀ i, iface = some i → s.hardwareInterface = i then .error .unboundLocal else .ok (false, none) := by
  induction l with
  | nil => simp [claimLoop]
  | cons s l ih =>
    have hi : (iface = none ∨ iface = some s.hardwareInterface) ↔ ∀ i, iface = some i → s.hardwareInterface = i := by
      cases iface <;> simp [eq_comm]
    unfold claimLoop
    by_cases h : iface = none ∨ iface = some s.hardwareInterface
    · rw [if_pos h, if_pos ⟨s, by simp, hi.1 h⟩]; rfl
    · rw [if_neg h, ih]
      have : (∃ t ∈ s :: l, ∀ i, iface = some i → t.hardwareInterface = i) ↔
          ∃ t ∈ l, ∀ i, iface = some i → t.hardwareInterface = i := by
        rw [ex_cons]
        exact ⟨fun hh => hh.resolve_left fun hh => h (hi.2 hh), .inr⟩
      simp only [this]

theorem resourcesLoop_empty (iface : Option String) (any : Bool) (l : List Entry) (out : List Entry) :
    resourcesLoop [] iface any l none out =
      if ∃ e ∈ l, ∃ s ∈ e.claimed, ∀ i, iface = some i → s.hardwareInterface = i then .error .unboundLocal
      else .ok out := by
  induction l with
  | nil => simp [resourcesLoop]
  | cons e l ih =>
    unfold resourcesLoop
    rw [claimLoop_empty]
    by_cases h : ∃ s ∈ e.claimed, ∀ i, iface = some i → s.hardwareInterface = i
    · rw [if_pos h, if_pos ⟨e, by simp, h⟩]
    · rw [if_neg h]
      simp only [Bool.false_eq_true, if_false]
      rw [ih]
      have : (∃ e' ∈ e :: l, ∃ s ∈ e'.claimed, ∀ i, iface = some i → s.hardwareInterface = i) ↔
          ∃ e' ∈ l, ∃ s ∈ e'.claimed, ∀ i, iface = some i → s.hardwareInterface = i := by
        rw [ex_cons]
        exact ⟨fun hh => hh.resolve_left h, .inr⟩
      simp only [this]

/-! ### Searches -/

theorem sortedStr_sorted (l : List (List Char)) : Sorted (sortedStr l) := List.pairwise_insertionSort (· ≤ ·) l

theorem sortedStr_perm (l : List (List Char)) : (sortedStr l).Perm l := List.perm_insertionSort _ _

theorem splitFirst_prefix (sep s : List Char) (hs : sep ≠ []) : splitFirst sep (sep ++ s) = some ([], s) := by
  cases sep with
  | nil => exact absurd rfl hs
  | cons c sep =>
    rw [List.cons_append, splitFirst, if_pos (List.isPrefixOf_iff_prefix.2 (show c :: sep <+: c :: (sep ++ s) from ⟨s, rfl⟩))]
    simp

/-- What `splitFirst` returns: the part before the first occurrence, and the part after it. -/
theorem splitFirst_some {sep s a b : List Char} (h : splitFirst sep s = some (a, b)) :
    s = a ++ sep ++ b ∧ ∀ n < a.length, ¬ sep <+: s.drop n := by
  induction s generalizing a b with
  | nil =>
    unfold splitFirst at h
    split at h
    · rename_i hs; cases h; simp [hs]
    · cases h
  | cons c s ih =>
    unfold splitFirst at h
    split at h
    · rename_i hp
      cases h
      obtain ⟨t, ht⟩ := List.isPrefixOf_iff_prefix.1 hp
      rw [← ht]; simp
    · rename_i hp
      obtain ⟨⟨x, y⟩, hxy, he⟩ := Option.map_eq_some_iff.1 h
      cases he
      obtain ⟨h1, h2⟩ := ih hxy
      refine ⟨by simp [h1], ?_⟩
      intro n hn
      cases n with
      | zero => exact fun hh => hp (List.isPrefixOf_iff_prefix.2 hh)
      | succ n => simpa using h2 n (by simpa using hn)

theorem splitFirst_none {sep s : List Char} : splitFirst sep s = none ↔ ¬ sep <:+: s := by
  induction s with
  | nil =>
    unfold splitFirst
    by_cases hs : sep = [] <;> simp [hs]
  | cons c s ih =>
    unfold splitFirst
    rw [List.infix_cons_iff, not_or]
    by_cases hp : sep.isPrefixOf (c :: s) = true
    · rw [if_pos hp]; simp [List.isPrefixOf_iff_prefix.1 hp]
    · rw [if_neg hp, Option.map_eq_none_iff, ih]
      exact ⟨fun h => ⟨fun hh => hp (List.isPrefixOf_iff_prefix.2 hh), h⟩, fun h => h.2⟩

/-- The separator does not occur across `a ++ sep`, except at the end. -/
theorem splitFirst_first {sep a b : List Char} (hs : ∀ n < a.length, ¬ sep <+: (a ++ sep ++ b).drop n)
    (hne : sep ≠ []) : splitFirst sep (a ++ sep ++ b) = some (a, b) := by
  induction a with
  | nil => simpa using splitFirst_prefix sep b hne
  | cons c a ih =>
    have h0 := hs 0 (by simp)
    rw [List.drop_zero] at h0
    rw [List.cons_append, List.cons_append, splitFirst,
      if_neg (show ¬ sep.isPrefixOf (c :: (a ++ sep ++ b)) = true from fun hh => h0 (List.isPrefixOf_iff_prefix.1 hh))]
    rw [ih (fun n hn => by simpa using hs (n + 1) (by simpa using hn))]
    rfl

theorem withSlash_ne (ns : List Char) : withSlash ns ≠ [] := by
  unfold withSlash
  split
  · rename_i h; rintro rfl; simp at h
  · simp

theorem withSlash_last (ns : List Char) : (withSlash ns).getLast? = some '/' := by
  unfold withSlash
  split
  · assumption
  · simp

theorem withSlash_idem (ns : List Char) : withSlash (withSlash ns) = withSlash ns := by
  rw [withSlash, if_pos (withSlash_last ns)]

theorem globalNs_cases (ns : List Char) :
    (ns.head? = some '/' ∧ globalNs ns = withSlash ns) ∨ (ns = [] ∧ globalNs ns = withSlash ns) ∨
      (ns ≠ [] ∧ ns.head? ≠ some '/' ∧ globalNs ns = '/' :: withSlash ns) := by
  by_cases h : ns.head? = some '/'
  · exact .inl ⟨h, by simp [globalNs, h]⟩
  · by_cases h2 : ns = []
    · subst h2; exact .inr (.inl ⟨rfl, rfl⟩)
    · refine .inr (.inr ⟨h2, h, ?_⟩)
      unfold globalNs withSlash
      rw [if_neg h]
      obtain ⟨c, t, rfl⟩ := List.exists_cons_of_ne_nil h2
      rw [List.getLast?_cons_cons]
      split <;> simp

/-- Every parameter below the namespace is split behind it. -/
theorem splitFirst_global (ns x : List Char) : ∃ y, splitFirst (withSlash ns) (globalNs ns ++ x) = some (y, x) := by
  rcases globalNs_cases ns with ⟨_, e⟩ | ⟨_, e⟩ | ⟨h1, h2, e⟩
  · exact ⟨[], by rw [e]; exact splitFirst_prefix _ _ (withSlash_ne ns)⟩
  · exact ⟨[], by rw [e]; exact splitFirst_prefix _ _ (withSlash_ne ns)⟩
  · refine ⟨['/'], ?_⟩
    rw [e]
    have := splitFirst_first (sep := withSlash ns) (a := ['/']) (b := x) ?_ (withSlash_ne ns)
    · simpa using this
    · intro n hn
      obtain rfl : n = 0 := by simpa using hn
      obtain ⟨c, t, rfl⟩ := List.exists_cons_of_ne_nil h1
      rintro ⟨z, hz⟩
      apply h2
      have : (withSlash (c :: t)).head? = some c := by unfold withSlash; split <;> simp
      obtain ⟨t', ht'⟩ : ∃ t', withSlash (c :: t) = c :: t' := by
        cases hw : withSlash (c :: t) with
        | nil => exact absurd hw (withSlash_ne _)
        | cons d u => rw [hw] at this; simp at this; exact ⟨u, by rw [this]⟩
      rw [ht'] at hz
      simp at hz
      simp [hz.1]

theorem splitOn_pair {l a b : List Char} :
    l.splitOn '/' = [a, b] ↔ l = a ++ '/' :: b ∧ '/' ∉ a ∧ '/' ∉ b := by
  constructor
  · intro h
    have key : ∀ l : List Char, ∀ x ∈ l.splitOn '/', '/' ∉ x := by
      intro l
      induction l with
      | nil => simp
      | cons c l ih =>
        rw [List.splitOn_cons_eq_if_modifyHead]
        by_cases hc : (c == '/') = true
        · simp only [hc, if_true, List.mem_cons]
          rintro x (rfl | hx)
          · simp
          · exact ih x hx
        · simp only [hc, Bool.false_eq_true, if_false]
          cases hs : l.splitOn '/' with
          | nil => simp
          | cons d u =>
            rw [hs] at ih
            simp only [List.modifyHead_cons, List.mem_cons]
            rintro x (rfl | hx)
            · simp only [List.mem_cons, not_or]
              exact ⟨fun e => hc (by simp [← e]), ih d (by simp)⟩
            · exact ih x (by simp [hx])
    have h1 := List.intercalate_splitOn (xs := l) '/'
    rw [h] at h1
    refine ⟨?_, key l a (by simp [h]), key l b (by simp [h])⟩
    rw [← h1]; simp [List.intercalate, List.intersperse]
  · rintro ⟨rfl, ha, hb⟩
    rw [List.splitOn_append_cons_self_of_not_mem ha, List.splitOn_eq_singleton hb]

/-- The name a parameter contributes. -/
def nameIn (ns p : List Char) : Option (List Char) :=
  match (p.drop (globalNs ns).length).splitOn '/' with
  | [a, b] => if b = "type".toList then some a else none
  | _ => none

theorem nameIn_iff (ns x n : List Char) : nameIn ns (globalNs ns ++ x) = some n ↔ x = n ++ "/type".toList ∧ '/' ∉ n := by
  unfold nameIn
  rw [List.drop_left]
  constructor
  · intro h
    split at h
    · rename_i a b hab
      split at h
      · rename_i hb
        cases h
        obtain ⟨e, h1, h2⟩ := splitOn_pair.1 hab
        exact ⟨by rw [e, hb]; rfl, h1⟩
      · cases h
    · cases h
  · rintro ⟨rfl, hn⟩
    have : (n ++ "/type".toList).splitOn '/' = [n, "type".toList] :=
      splitOn_pair.2 ⟨rfl, hn, by decide⟩
    rw [this]; simp

theorem paramLoop_eq (ns : List Char) (ps : List (List Char)) (hps : ∀ p ∈ ps, globalNs ns <+: p)
    (ns' : List Char) (hns : withSlash ns' = withSlash ns) (out : List (List Char)) :
    paramLoop ps ns' out = .ok (out ++ ps.filterMap (nameIn ns)) := by
  induction ps generalizing out ns' with
  | nil => simp [paramLoop]
  | cons p ps ih =>
    obtain ⟨x, rfl⟩ := hps p (by simp)
    obtain ⟨y, hy⟩ := splitFirst_global ns x
    have hps' : ∀ p ∈ ps, globalNs ns <+: p := fun p hp => hps p (by simp [hp])
    have hw : withSlash (withSlash ns) = withSlash ns := withSlash_idem ns
    unfold paramLoop
    simp only [hns, hy]
    split
    · rename_i a b hab
      rw [ih hps' _ hw]
      by_cases hb : b = "type".toList
      · have hn : nameIn ns (globalNs ns ++ x) = some a := by
          unfold nameIn; rw [List.drop_left, hab]; simp [hb]
        rw [List.filterMap_cons_some hn]; simp [hb]
      · have hn : nameIn ns (globalNs ns ++ x) = none := by
          unfold nameIn; rw [List.drop_left, hab]; exact if_neg hb
        rw [List.filterMap_cons_none hn, if_neg hb]
    · rename_i hno
      rw [ih hps' _ hw]
      have hn : nameIn ns (globalNs ns ++ x) = none := by
        unfold nameIn; rw [List.drop_left]
        split
        · rename_i a b hab; exact absurd hab (hno a b)
        · rfl
      rw [List.filterMap_cons_none hn]

theorem filterByAttr_eq (list : List Entry) (attr : Entry → String) (val : String) (sub : Bool)
    (p : Entry → Prop) [DecidablePred p] (hp : ∀ e, p e ↔ Matches val sub (attr e)) :
    filterByAttr list attr val sub = list.filter p := by
  unfold filterByAttr
  rw [foldl_filter list p [] _ (by
    intro out e _
    have h := hp e
    cases sub
    · by_cases hm : attr e = val
      · simp [hm, h.2 hm]
      · have : ¬ p e := fun hh => hm (h.1 hh)
        simp [hm, this]
    · by_cases hm : strIn val.toList (attr e).toList = true
      · have : p e := h.2 ((strIn_iff _ _).1 hm)
        simp [hm, this]
      · have : ¬ p e := fun hh => hm ((strIn_iff _ _).2 (h.1 hh))
        simp [hm, this])]
  simp

theorem inNamespace_eq (ns x : List Char) : inNamespace ns x = globalNs ns ++ x := by
  unfold inNamespace
  congr 1
  rcases globalNs_cases ns with ⟨h, e⟩ | ⟨rfl, e⟩ | ⟨h1, h2, e⟩
  · have hne : ns ≠ [] := by rintro rfl; simp at h
    rw [e, if_pos h, withSlash]
    by_cases hl : ns.getLast? = some '/' <;> simp [hl, hne]
  · rfl
  · rw [e, if_neg h2, withSlash]
    by_cases hl : ns.getLast? = some '/' <;> simp [hl, h1]

theorem isControllerManager_iff (typeOf : List Char → Option (List Char)) (ns : List Char) :
    isControllerManager typeOf ns = true ↔ Offers typeOf ns := by
  have hw : ∀ x : List Char, withSlash ns ++ x = ns ++ (if ns.getLast? = some '/' then [] else ['/']) ++ x := by
    intro x; unfold withSlash; split <;> simp
  have hs : ∀ n t : List Char, n ≠ [] → t ≠ [] →
      (srvExists typeOf (withSlash ns ++ n) t = true ↔
        typeOf (ns ++ (if ns.getLast? = some '/' then [] else ['/']) ++ n) = some t) := by
    intro n t h1 h2
    rw [← hw]
    simp [srvExists, h1, h2]
  unfold isControllerManager Offers cmServices
  simp only [List.all_cons, List.all_nil, Bool.and_eq_true, and_true]
  rw [hs _ _ (by decide) (by decide), hs _ _ (by decide) (by decide), hs _ _ (by decide) (by decide),
    hs _ _ (by decide) (by decide), hs _ _ (by decide) (by decide), hs _ _ (by decide) (by decide)]

theorem namespaceOf_of {ns : List Char} (h : IsNamespace ns) (hno : ¬ "/list_controllers".toList <:+: ns) :
    namespaceOf (ns ++ (if ns.getLast? = some '/' then [] else ['/']) ++ "list_controllers".toList) = some ns := by
  rcases h with rfl | ⟨h1, h2⟩
  · decide
  · rw [if_neg h2]
    have e : ns ++ ['/'] ++ "list_controllers".toList = ns ++ "/list_controllers".toList ++ [] := by
      rw [List.append_nil, List.append_assoc]; rfl
    rw [e, namespaceOf, splitFirst_first _ (by decide)]
    · simp [h1]
    · intro n hn ⟨z, hz⟩
      rw [List.append_nil] at hz
      rw [List.drop_append_of_le_length (le_of_lt hn)] at hz
      generalize hd : ns.drop n = d at hz
      have hdl : d ≠ [] := by
        rw [← hd]; intro hh; rw [List.drop_eq_nil_iff] at hh; omega
      -- the occurrence lies within the namespace, or its tail contains a slash
      rcases List.append_eq_append_iff.1 hz with ⟨a, h3, h4⟩ | ⟨a, h3, h4⟩
      · refine hno ⟨ns.take n, a, ?_⟩
        rw [List.append_assoc, ← h3, ← hd, List.take_append_drop]
      · cases d with
        | nil => exact hdl rfl
        | cons c d =>
          cases a with
          | nil =>
            refine hno ⟨ns.take n, [], ?_⟩
            rw [List.append_nil] at h3 ⊢
            rw [h3, ← hd, List.take_append_drop]
          | cons x a =>
            have hx : x = '/' := by
              have := congrArg List.head? h4
              simpa using this.symm
            have ht : '/' ∈ d ++ x :: a := by simp [hx]
            have : ("/list_controllers".toList).tail = d ++ x :: a := by rw [h3]; rfl
            rw [← this] at ht
            exact absurd ht (by decide)

end Verif.Tools
