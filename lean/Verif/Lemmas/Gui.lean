import Verif.Spec.Gui
import Verif.Lemmas.ToolsUtils
import Verif.Lemmas.CommandLine

/-!
Lemmas on the graphical front end.
-/

namespace Verif.Gui

open Mgr Tools

theorem withSlash_eq (ns : List Char) : withSlash ns = slashed ns := by
  unfold withSlash slashed; split <;> simp

theorem sortedStr_eq_iff {a b : List (List Char)} : sortedStr a = sortedStr b ↔ a.Perm b := by
  constructor
  · intro h
    exact (sortedStr_perm a).symm.trans (h ▸ sortedStr_perm b)
  · intro h
    refine List.Perm.eq_of_pairwise (le := (· ≤ ·)) ?_ (sortedStr_sorted a) (sortedStr_sorted b)
      ((sortedStr_perm a).trans (h.trans (sortedStr_perm b).symm))
    intro x y _ _ h1 h2
    exact le_antisymm h1 h2

theorem isPermutation_iff {a b : List (List Char)} : isPermutation a b = true ↔ a.Perm b := by
  unfold isPermutation
  rw [decide_eq_true_eq, sortedStr_eq_iff]
  exact ⟨fun h => h.2, fun h => ⟨h.length_eq, h⟩⟩

/-! ### Combo box -/

/-- The index of a combo box is in range, and no item is empty. -/
structure Combo.Valid (c : Combo) : Prop where
  range : ∀ i, c.index = some i → i < c.items.length
  items : [] ∉ c.items

theorem Combo.Valid.text_mem {c : Combo} (h : c.Valid) : c.text = [] ∨ c.text ∈ c.items := by
  unfold Combo.text
  cases hi : c.index with
  | none => exact Or.inl rfl
  | some i =>
    right
    simp only [Option.bind_some]
    rw [List.getElem?_eq_getElem (h.range i hi)]
    exact List.getElem_mem _

theorem Combo.Valid.text_nil {c : Combo} (h : c.Valid) : c.text = [] ↔ c.index = none := by
  constructor
  · intro ht
    cases hi : c.index with
    | none => rfl
    | some i =>
      exfalso
      have hl := h.range i hi
      apply h.items
      rw [← ht]
      unfold Combo.text
      simp only [hi, Option.bind_some, List.getElem?_eq_getElem hl]
      exact List.getElem_mem _
  · intro hi; unfold Combo.text; rw [hi]; rfl

theorem setIndex_spec {c : Combo} (h : c.Valid) (i : Option Nat) :
    (c.setIndex i).1.Valid ∧ (c.setIndex i).1.items = c.items ∧
    ((c.setIndex i).2 = none ∧ (c.setIndex i).1 = c ∨ (c.setIndex i).2 = some (c.setIndex i).1.text) := by
  unfold Combo.setIndex
  dsimp only
  split
  · exact ⟨h, rfl, Or.inl ⟨rfl, rfl⟩⟩
  · refine ⟨⟨?_, h.items⟩, rfl, Or.inr rfl⟩
    intro j hj
    rw [Option.filter_eq_some_iff] at hj
    simpa using hj.2

theorem setIndex_fst (c : Combo) (i : Option Nat) :
    (c.setIndex i).1 = ⟨c.items, i.filter (· < c.items.length)⟩ := by
  unfold Combo.setIndex
  dsimp only
  split
  · rename_i hh; rw [hh]
  · rfl

theorem setIndex_none (c : Combo) :
    (c.setIndex none).1 = ⟨c.items, none⟩ ∧ (c.setIndex none).2 = if c.index = none then none else some [] := by
  unfold Combo.setIndex
  cases c with
  | mk items index => cases index <;> simp [Combo.text]

theorem idxOf?_some {l : List (List Char)} {a : List Char} (h : a ∈ l) : ∃ i, l.idxOf? a = some i ∧ l[i]? = some a := by
  cases hi : l.idxOf? a with
  | none => rw [List.idxOf?_eq_none_iff] at hi; exact absurd h hi
  | some i =>
    refine ⟨i, rfl, ?_⟩
    unfold List.idxOf? at hi
    obtain ⟨hlt, h1, _⟩ := List.findIdx?_eq_some_iff_getElem.1 hi
    rw [List.getElem?_eq_getElem hlt]
    simpa using h1

theorem updateCombo_spec {c : Combo} (h : c.Valid) {new : List (List Char)} (hn : [] ∉ new) :
    (updateCombo c new).1.Valid ∧ (updateCombo c new).1.items.Perm new ∧
    (updateCombo c new).1.text = (if c.text ∈ new then c.text else []) ∧
    (updateCombo c new).2 = (if c.text = [] ∨ c.text ∈ new then none else some []) := by
  unfold updateCombo
  by_cases hp : isPermutation c.items new = true
  · rw [if_pos hp]
    have hp := isPermutation_iff.1 hp
    rcases h.text_mem with ht | ht
    · exact ⟨h, hp, by simp [ht, hn], by simp [ht]⟩
    · have := hp.subset ht
      exact ⟨h, hp, by simp [this], by simp [this]⟩
  · rw [if_neg hp]
    by_cases ht : c.text ∈ new
    · obtain ⟨i, hi, hg⟩ := idxOf?_some ht
      rw [hi]
      obtain ⟨hlt, _⟩ := List.getElem?_eq_some_iff.1 hg
      have hv : (Combo.populate new).Valid := by
        refine ⟨?_, hn⟩
        intro j hj
        unfold Combo.populate at hj ⊢
        simp only at hj ⊢
        split at hj
        · cases hj
        · cases hj
          exact Nat.lt_of_le_of_lt (Nat.zero_le i) hlt
      obtain ⟨v1, v2, _⟩ := setIndex_spec hv (some i)
      have ht' : ((Combo.populate new).setIndex (some i)).1.text = c.text := by
        have : ((Combo.populate new).setIndex (some i)).1 = ⟨new, some i⟩ := by
          rw [setIndex_fst]
          simp [Combo.populate, Option.filter_some, hlt]
        rw [this]
        unfold Combo.text
        simp only [Option.bind_some]
        rw [hg]; rfl
      refine ⟨v1, by rw [v2]; exact List.Perm.refl _, by rw [ht', if_pos ht], by simp [ht]⟩
    · rw [List.idxOf?_eq_none_iff.2 ht]
      obtain ⟨s1, _⟩ := setIndex_none (Combo.populate new)
      simp only [s1, (setIndex_none c).2]
      refine ⟨⟨fun j hj => (by cases hj), hn⟩, List.Perm.refl _, ?_, ?_⟩
      · rw [if_neg ht]; rfl
      · simp only [ht, or_false, h.text_nil]

/-! ### Names -/

theorem beforeLastSlash_eq (p last : List Char) (h : '/' ∉ last) : beforeLastSlash (p ++ '/' :: last) = p := by
  unfold beforeLastSlash
  rw [if_pos (by simp)]
  have : (p ++ '/' :: last).reverse = last.reverse ++ '/' :: p.reverse := by simp
  rw [this, List.dropWhile_append_of_pos (by
    intro x hx
    simp only [List.mem_reverse] at hx
    simp only [ne_eq, decide_eq_true_eq]
    rintro rfl; exact h hx)]
  simp

theorem resolveNs_eq (p last : List Char) (h : '/' ∉ last) :
    resolveNs (p ++ '/' :: last) = if p = [] then ['/'] else p := by
  unfold resolveNs
  rw [beforeLastSlash_eq p last h]
  split <;> simp_all

theorem split_last_slash {ns : List Char} (h : '/' ∈ ns) : ∃ p last, ns = p ++ '/' :: last ∧ '/' ∉ last := by
  induction ns with
  | nil => cases h
  | cons c ns ih =>
    by_cases hh : '/' ∈ ns
    · obtain ⟨p, l, rfl, hl⟩ := ih hh
      exact ⟨c :: p, l, rfl, hl⟩
    · rcases List.mem_cons.1 h with rfl | hx
      · exact ⟨[], ns, rfl, hh⟩
      · exact absurd hx hh

theorem inNamespace_root (x : List Char) : inNamespace ['/'] x = inNamespace [] x := rfl

theorem appendNs_eq {ns : List Char} (h : ns.head? = some '/') (x : List Char) :
    appendNs ns x = .ok (inNamespace ns x) := by
  unfold appendNs inNamespace
  have hne : ns ≠ [] := by rintro rfl; cases h
  rw [if_neg hne, if_pos h]
  simp only [hne, false_or, List.nil_append]
  split <;> simp

theorem namespaceOf_head {s ns : List Char} (h : namespaceOf s = some ns) (hs : s.head? = some '/') :
    ns.head? = some '/' := by
  unfold namespaceOf at h
  split at h
  · cases h
  · rename_i a b hsp
    obtain ⟨h1, _⟩ := splitFirst_some hsp
    split at h
    · cases h; rfl
    · rename_i hne
      cases h
      cases ns with
      | nil => exact absurd rfl hne
      | cons c ns =>
        rw [h1] at hs
        simpa using hs

theorem managers_head {home} {w : World} (hw : w.Ordered home) {guess : List (List Char)} {ns : List Char}
    (h : ns ∈ controllerManagers w.services w.typeOf guess) : ns.head? = some '/' := by
  unfold controllerManagers at h
  rw [(sortedStr_perm _).mem_iff, List.mem_append] at h
  have hs : ns ∈ sloppyManagers w.services := by
    rcases h with h | h
    · simpa using (List.mem_filter.1 h).2
    · exact (List.mem_filter.1 h).1
  unfold sloppyManagers at hs
  cases hsv : w.services with
  | none => rw [hsv] at hs; cases hs
  | some l =>
    rw [hsv] at hs
    obtain ⟨s, hs1, hs2⟩ := List.mem_filterMap.1 hs
    exact namespaceOf_head hs2 (hw.global l hsv s hs1)

/-! ### Invariant -/

theorem slashed_last (ns : List Char) : (slashed ns).getLast? = some '/' := by
  unfold slashed
  by_cases h : ns.getLast? = some '/'
  · rw [if_pos h, List.append_nil, h]
  · rw [if_neg h]; simp

/-- A proxy for a service of the manager in the namespace. -/
structure Proxy.For (home : Nat → List Char) (ns : List Char) (srv : String) (p : Proxy) : Prop where
  name : p.name = slashed ns ++ srv.toList
  conn : ∀ i, p.conn = some i → home i = slashed ns

/-- The proxies are those of the namespace, or there are none. -/
structure Proxies (home : Nat → List Char) (g : Gui) : Prop where
  load : if g.cmNs = [] then g.load = none else ∃ p, g.load = some p ∧ p.For home g.cmNs "load_controller"
  unload : if g.cmNs = [] then g.unload = none else ∃ p, g.unload = some p ∧ p.For home g.cmNs "unload_controller"
  switch : if g.cmNs = [] then g.switch = none else ∃ p, g.switch = some p ∧ p.For home g.cmNs "switch_controller"
  lister : if g.cmNs = [] then g.lister = none else ∃ p, g.lister = some p ∧ p.For home g.cmNs "list_controllers"

/-- What always holds. -/
structure Inv (home : Nat → List Char) (g : Gui) : Prop where
  combo : g.combo.Valid
  text : g.cmNs = g.combo.text
  heads : ∀ x ∈ g.combo.items, x.head? = some '/'
  proxies : Proxies home g
  table : g.table = g.controllers

theorem inv_init (home) : Inv home {} where
  combo := ⟨fun i hi => (by cases hi), by simp⟩
  text := rfl
  heads := by simp
  proxies := ⟨rfl, rfl, rfl, rfl⟩
  table := rfl

theorem Inv.head {home g} (h : Inv home g) (hne : g.cmNs ≠ []) : g.cmNs.head? = some '/' := by
  rcases h.combo.text_mem with ht | ht
  · exact absurd (h.text.trans ht) hne
  · rw [h.text]; exact h.heads _ ht

theorem call_for {home ns srv} {p : Proxy} (hp : p.For home ns srv)
    (hsrv : srv ∈ ["load_controller", "unload_controller", "switch_controller", "list_controllers"])
    {w : World} (hw : w.Ordered home) :
    (p.call w).2.For home ns srv ∧ (∀ i, (p.call w).1 = some i → home i = slashed ns ∧ w.alive i = true) ∧
    (p.conn = none → (p.call w).1 = none → ∀ i, w.server (slashed ns ++ srv.toList) = some i → w.alive i = false) := by
  unfold Proxy.call
  cases hc : p.conn with
  | some i =>
    refine ⟨hp, ?_, by simp⟩
    intro j hj
    dsimp only at hj
    split at hj
    · rename_i ha; cases hj; exact ⟨hp.conn i hc, ha⟩
    · cases hj
  | none =>
    dsimp only
    cases hs : w.server p.name with
    | none =>
      refine ⟨hp, by simp, fun _ _ i hi => ?_⟩
      rw [← hp.name, hs] at hi; cases hi
    | some i =>
      have hh : home i = slashed ns := hw.homes _ i (slashed_last ns) srv hsrv (by rw [← hp.name]; exact hs)
      dsimp only
      split
      · rename_i ha
        refine ⟨⟨hp.name, fun j hj => by cases hj; exact hh⟩, fun j hj => by cases hj; exact ⟨hh, ha⟩, ?_⟩
        intro _ hx; cases hx
      · rename_i ha
        refine ⟨hp, by simp, fun _ _ j hj => ?_⟩
        rw [← hp.name, hs] at hj; cases hj
        simpa using ha

theorem callLister_for {home ns} {p : Proxy} (hp : p.For home ns "list_controllers") {w : World} (hw : w.Ordered home) :
    (callLister w p).2.For home ns "list_controllers" ∧
    ((∃ i, home i = slashed ns ∧ w.alive i = true ∧ (callLister w p).1 = w.listing i) ∨
      (callLister w p).1 = [] ∧
        ∀ i, w.server (slashed ns ++ "list_controllers".toList) = some i → w.alive i = false) := by
  unfold callLister
  obtain ⟨a1, a2, _⟩ := call_for hp (by simp) hw
  have hp' : (⟨p.name, none⟩ : Proxy).For home ns "list_controllers" := ⟨hp.name, fun i hi => by cases hi⟩
  obtain ⟨b1, b2, b3⟩ := call_for hp' (by simp) hw
  generalize hq : p.call w = q at a1 a2
  rcases q with ⟨_ | i, q⟩
  · dsimp only
    generalize hr : (⟨p.name, none⟩ : Proxy).call w = r at b1 b2 b3
    rcases r with ⟨_ | i, r⟩
    · exact ⟨b1, Or.inr ⟨rfl, b3 rfl rfl⟩⟩
    · exact ⟨b1, Or.inl ⟨i, (b2 i rfl).1, (b2 i rfl).2, rfl⟩⟩
  · exact ⟨a1, Or.inl ⟨i, (a2 i rfl).1, (a2 i rfl).2, rfl⟩⟩

/-! ### Listing -/

theorem addConfigs_spec {w : World} {ns : List Char} (hns : ns.head? = some '/') (names : List (List Char))
    (hnames : ∀ n ∈ names, inNamespace ns (n ++ "/type".toList) ∈ w.params.map (·.1)) (l : List Entry) :
    ∃ (kept : List (List Char)) (type : List Char → String),
      addConfigs w ns names l = .ok (l ++ kept.map (fun n => ⟨String.ofList n, type n, "uninitialized", []⟩)) ∧
      kept.Sublist names ∧ kept.Nodup ∧
      (∀ n ∈ kept, (inNamespace ns (n ++ "/type".toList), type n) ∈ w.params) ∧
      ∀ n, n ∈ kept ↔ n ∈ names ∧ ∀ e ∈ l, e.name ≠ String.ofList n := by
  induction names generalizing l with
  | nil => exact ⟨[], fun _ => "", by simp [addConfigs], by simp, by simp, by simp, by simp⟩
  | cons n names ih =>
    have hin : ∀ x y : List Char, inNamespace ns (x ++ y) = inNamespace ns x ++ y := by
      intro x y; unfold inNamespace; simp
    have hrest := fun x hx => hnames x (List.mem_cons_of_mem _ hx)
    unfold addConfigs
    by_cases hany : (l.any fun c => c.name = String.ofList n) = true
    · rw [if_pos hany]
      obtain ⟨kept, type, h1, h2, h3, h4, h5⟩ := ih hrest l
      refine ⟨kept, type, h1, h2.cons _, h3, h4, ?_⟩
      intro x
      rw [h5, List.mem_cons]
      constructor
      · rintro ⟨a, b⟩; exact ⟨Or.inr a, b⟩
      · rintro ⟨a | a, b⟩
        · exfalso
          obtain ⟨e, he, heq⟩ := List.any_eq_true.1 hany
          rw [a] at b
          exact b e he (by simpa using heq)
        · exact ⟨a, b⟩
    · rw [if_neg hany]
      have hno : ∀ e ∈ l, e.name ≠ String.ofList n := by
        intro e he heq
        exact hany (List.any_eq_true.2 ⟨e, he, by simpa using heq⟩)
      have hmem := hnames n List.mem_cons_self
      obtain ⟨t, ht⟩ : ∃ t, w.params.lookup (inNamespace ns (n ++ "/type".toList)) = some t := by
        cases hl : w.params.lookup (inNamespace ns (n ++ "/type".toList)) with
        | some t => exact ⟨t, rfl⟩
        | none =>
          rw [List.lookup_eq_none_iff] at hl
          obtain ⟨x, hx, hx2⟩ := List.mem_map.1 hmem
          exact absurd (hl x hx) (by simp [hx2])
      have htm : (inNamespace ns (n ++ "/type".toList), t) ∈ w.params := by
        obtain ⟨l1, l2, e, _⟩ := List.lookup_eq_some_iff.1 ht
        rw [e]; simp
      have hpt : paramType w ns n = .ok t := by
        unfold paramType
        rw [appendNs_eq hns]
        dsimp only
        rw [← hin, ht]
      rw [hpt]
      dsimp only
      obtain ⟨kept, type, h1, h2, h3, h4, h5⟩ := ih hrest (l ++ [⟨String.ofList n, t, "uninitialized", []⟩])
      have hnk : n ∉ kept := by
        intro hh
        exact ((h5 n).1 hh).2 _ (List.mem_append_right _ List.mem_cons_self) rfl
      refine ⟨n :: kept, fun x => if x = n then t else type x, ?_, h2.cons_cons _, List.nodup_cons.2 ⟨hnk, h3⟩, ?_, ?_⟩
      · rw [h1]
        congr 1
        rw [List.append_assoc, List.map_cons, List.singleton_append]
        congr 1
        refine congrArg₂ List.cons (by simp) (List.map_congr_left fun x hx => ?_)
        dsimp only
        rw [if_neg (fun hh : x = n => hnk (hh ▸ hx))]
      · intro x hx
        rcases List.mem_cons.1 hx with rfl | hx
        · dsimp only; rw [if_pos rfl]; exact htm
        · dsimp only; rw [if_neg (fun hh : x = n => hnk (hh ▸ hx))]; exact h4 x hx
      · intro x
        rw [List.mem_cons, List.mem_cons, h5]
        constructor
        · rintro (rfl | ⟨a, b⟩)
          · exact ⟨Or.inl rfl, hno⟩
          · exact ⟨Or.inr a, fun e he => b e (List.mem_append_left _ he)⟩
        · rintro ⟨a, b⟩
          by_cases hxn : x = n
          · exact Or.inl hxn
          · right
            refine ⟨a.resolve_left hxn, ?_⟩
            intro e he
            rcases List.mem_append.1 he with he | he
            · exact b e he
            · rw [List.mem_singleton.1 he]
              intro hh
              exact hxn (by simpa using congrArg String.toList hh.symm)

theorem listAll_spec {home g} (h : Proxies home g) (hhead : g.cmNs ≠ [] → g.cmNs.head? = some '/')
    {w : World} (hw : w.Ordered home) :
    (g.cmNs = [] → listAll g w = (.ok [], g.lister)) ∧
    (g.cmNs ≠ [] → ∃ t p, listAll g w = (.ok t, some p) ∧ p.For home g.cmNs "list_controllers" ∧
      ∀ par last, g.cmNs = par ++ '/' :: last → '/' ∉ last → Right home w g.cmNs par t) := by
  constructor
  · intro hn; unfold listAll; rw [if_pos hn]
  · intro hne
    have hlist := h.lister
    rw [if_neg hne] at hlist
    obtain ⟨p, hp, hpf⟩ := hlist
    obtain ⟨c1, c2⟩ := callLister_for hpf hw
    have hslash : '/' ∈ g.cmNs := List.mem_of_head? (hhead hne)
    obtain ⟨par, last, hsp, hla⟩ := split_last_slash hslash
    have hrh : (resolveNs g.cmNs).head? = some '/' := by
      rw [hsp, resolveNs_eq par last hla]
      split
      · rfl
      · rename_i hpar
        have := hhead hne
        rw [hsp] at this
        cases par with
        | nil => exact absurd rfl hpar
        | cons c par => simpa using this
    have hin : ∀ x, inNamespace (resolveNs g.cmNs) x = inNamespace par x := by
      intro x
      rw [hsp, resolveNs_eq par last hla]
      split
      · rename_i hpar; rw [hpar]; rfl
      · rfl
    have hnames : ∃ l, controllerNames (w.params.map (·.1)) (resolveNs g.cmNs) = .ok l ∧ Sorted l ∧
      (∀ n, n ∈ l ↔ inNamespace (resolveNs g.cmNs) (n ++ "/type".toList) ∈ w.params.map (·.1) ∧ '/' ∉ n) := by
      have hpre : ∀ q ∈ listParams (w.params.map (·.1)) (resolveNs g.cmNs), globalNs (resolveNs g.cmNs) <+: q :=
        fun q hq => List.isPrefixOf_iff_prefix.1 (List.mem_filter.1 hq).2
      have e := paramLoop_eq (resolveNs g.cmNs) (listParams (w.params.map (·.1)) (resolveNs g.cmNs)) hpre
        (resolveNs g.cmNs) rfl []
      refine ⟨sortedStr ((listParams (w.params.map (·.1)) (resolveNs g.cmNs)).filterMap (nameIn (resolveNs g.cmNs))),
        by simp [controllerNames, e], sortedStr_sorted _, ?_⟩
      intro n
      rw [(sortedStr_perm _).mem_iff, List.mem_filterMap, inNamespace_eq]
      constructor
      · rintro ⟨q, hq, hn⟩
        obtain ⟨x, rfl⟩ := hpre q hq
        obtain ⟨rfl, h2⟩ := (nameIn_iff _ x n).1 hn
        exact ⟨(List.mem_filter.1 hq).1, h2⟩
      · rintro ⟨h1, h2⟩
        exact ⟨_, List.mem_filter.2 ⟨h1, List.isPrefixOf_iff_prefix.2 ⟨_, rfl⟩⟩, (nameIn_iff _ _ _).2 ⟨rfl, h2⟩⟩
    obtain ⟨names, n1, n2, n3⟩ := hnames
    obtain ⟨kept, type, k1, k2, k3, k4, k5⟩ := addConfigs_spec hrh names (fun n hn => ((n3 n).1 hn).1) (callLister w p).1
    refine ⟨(callLister w p).1 ++ kept.map (fun n => ⟨String.ofList n, type n, "uninitialized", []⟩),
      (callLister w p).2, ?_, c1, ?_⟩
    · unfold listAll
      rw [if_neg hne, hp]
      dsimp only
      rw [n1]
      dsimp only
      rw [k1]
    · intro par' last' hsp' hla'
      have hpp : par' = par := by
        have h1 := beforeLastSlash_eq par' last' hla'
        rw [← hsp', hsp, beforeLastSlash_eq par last hla] at h1
        exact h1.symm
      subst hpp
      refine ⟨_, kept, type, rfl, c2, ?_, k3, ?_, ?_⟩
      · exact List.Pairwise.sublist k2 n2
      · intro n hn; rw [← hin]; exact k4 n hn
      · intro n
        rw [k5, n3, hin]
        constructor
        · rintro ⟨⟨a, b⟩, c⟩; exact ⟨b, a, c⟩
        · rintro ⟨b, a, c⟩; exact ⟨⟨a, b⟩, c⟩

end Verif.Gui
