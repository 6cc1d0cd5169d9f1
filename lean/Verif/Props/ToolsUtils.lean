import Verif.Lemmas.ToolsUtils

/-!
Properties C53 and C70 to C72: the Python helpers for clients of a controller manager.
-/

namespace Verif.Tools

open Mgr

/-! ### C53 -/

open Classical in
/-- **C53** (missing: an empty list of resources, `c53_empty_negation`). The result are, in order, exactly the
controllers claiming all (or at least one) of the resources in one interface. -/
theorem c53_resources_partial (list : List Entry) (resources : List String) (hne : resources ≠ [])
    (iface : Option String) (any : Bool) :
    filterByResources list resources iface any =
      .ok (list.filter fun e => decide (Claims e resources iface any)) := by
  unfold filterByResources
  rw [resourcesLoop_eq resources hne iface any list none []]; simp

/-- **C53**, the negation: without requested resources, whatever the other arguments, the call ends in an
exception as soon as some controller has a claim (in the given interface); otherwise no controller is
returned. -/
theorem c53_empty_negation (list : List Entry) (iface : Option String) (any : Bool) :
    ((∃ e ∈ list, ∃ s ∈ e.claimed, ∀ i, iface = some i → s.hardwareInterface = i) →
      filterByResources list [] iface any = .error .unboundLocal) ∧
    ((¬∃ e ∈ list, ∃ s ∈ e.claimed, ∀ i, iface = some i → s.hardwareInterface = i) →
      filterByResources list [] iface any = .ok []) := by
  unfold filterByResources
  rw [resourcesLoop_empty]
  exact ⟨fun h => if_pos h, fun h => if_neg h⟩

/-- A listing of three controllers. -/
def exListing : List Entry :=
  [⟨"arm", "Traj", "running", [⟨"Pos", ["j1", "j2"]⟩, ⟨"Vel", ["j3"]⟩]⟩,
   ⟨"base", "Diff", "stopped", [⟨"Vel", ["w1", "w2"]⟩]⟩,
   ⟨"states", "Pub", "running", []⟩]

example : filterByResources exListing ["j1", "j3"] none false = .ok [] ∧
    filterByResources exListing ["j1", "j3"] none true = .ok (exListing.take 1) ∧
    filterByResources exListing ["w2", "j3"] (some "Vel") true = .ok (exListing.take 2) ∧
    filterByResources exListing ["j2", "j1"] (some "Pos") false = .ok (exListing.take 1) ∧
    filterByResources exListing ["j2", "j1"] (some "Vel") false = .ok [] ∧
    filterByResources exListing [] (some "Eff") false = .ok [] ∧
    filterByResources exListing [] none false = .error .unboundLocal := by decide

/-! ### C70 -/

open Classical in
/-- **C70.** The filters by name, type and state return, in order, exactly the controllers whose name, type or
state is the given text, or contains it if substrings are allowed. -/
theorem c70_attributes (list : List Entry) (val : String) (sub : Bool) :
    filterByName list val sub = list.filter (fun e => decide (Matches val sub e.name)) ∧
    filterByType list val sub = list.filter (fun e => decide (Matches val sub e.type)) ∧
    filterByState list val sub = list.filter (fun e => decide (Matches val sub e.state)) :=
  ⟨filterByAttr_eq _ _ _ _ _ fun _ => Iff.rfl, filterByAttr_eq _ _ _ _ _ fun _ => Iff.rfl,
    filterByAttr_eq _ _ _ _ _ fun _ => Iff.rfl⟩

open Classical in
/-- **C70.** The filter by hardware interface returns, in order, exactly the controllers with a claim in the
given interface, each once. -/
theorem c70_interface (list : List Entry) (iface : String) (sub : Bool) :
    filterByHardwareInterface list iface sub =
      list.filter fun e => decide (∃ s ∈ e.claimed, Matches iface sub s.hardwareInterface) := by
  unfold filterByHardwareInterface
  rw [foldl_filter list (fun e => ∃ s ∈ e.claimed, Matches iface sub s.hardwareInterface) [] _ (by
    intro out e _
    by_cases h : ∃ s ∈ e.claimed, Matches iface sub s.hardwareInterface
    · simp only [(interfaceLoop_iff _ _ _).2 h, if_true, h]
    · have : interfaceLoop iface sub e.claimed = false := by
        rw [Bool.eq_false_iff]; exact fun hh => h ((interfaceLoop_iff _ _ _).1 hh)
      simp only [this, Bool.false_eq_true, if_false, h])]
  simp

example : filterByName exListing "a" true = exListing ∧ filterByName exListing "a" false = [] ∧
    filterByState exListing "running" false = [exListing[0], exListing[2]] ∧
    filterByType exListing "i" true = [exListing[1]] ∧
    filterByHardwareInterface exListing "Vel" false = exListing.take 2 ∧
    filterByHardwareInterface exListing "o" true = exListing.take 1 := by decide

/-! ### C71 -/

/-- **C71.** The search for controller configurations in any namespace never fails; it returns a sorted list of
exactly the names `n` (without slashes) for which the namespace has a parameter `n/type`. If the server lists
every parameter once, so does the result. -/
theorem c71_configurations (params : List (List Char)) (ns : List Char) :
    ∃ l, controllerNames params ns = .ok l ∧ Sorted l ∧
      (∀ n, n ∈ l ↔ inNamespace ns (n ++ "/type".toList) ∈ params ∧ '/' ∉ n) ∧
      (params.Nodup → l.Nodup) := by
  have hpre : ∀ p ∈ listParams params ns, globalNs ns <+: p := fun p hp =>
    List.isPrefixOf_iff_prefix.1 (List.mem_filter.1 hp).2
  have e := paramLoop_eq ns (listParams params ns) hpre ns rfl []
  refine ⟨sortedStr ((listParams params ns).filterMap (nameIn ns)), by simp [controllerNames, e],
    sortedStr_sorted _, ?_, ?_⟩
  · intro n
    rw [(sortedStr_perm _).mem_iff, List.mem_filterMap, inNamespace_eq]
    constructor
    · rintro ⟨p, hp, hn⟩
      obtain ⟨x, rfl⟩ := hpre p hp
      obtain ⟨rfl, h2⟩ := (nameIn_iff ns x n).1 hn
      exact ⟨(List.mem_filter.1 hp).1, h2⟩
    · rintro ⟨h1, h2⟩
      exact ⟨_, List.mem_filter.2 ⟨h1, List.isPrefixOf_iff_prefix.2 ⟨_, rfl⟩⟩, (nameIn_iff _ _ _).2 ⟨rfl, h2⟩⟩
  · intro hnd
    rw [(sortedStr_perm _).nodup_iff]
    unfold List.Nodup
    rw [List.pairwise_filterMap]
    refine List.Pairwise.imp_of_mem ?_ (hnd.filter _)
    rintro a b ha hb hab n hn n' hn' rfl
    obtain ⟨x, rfl⟩ := hpre a ha
    obtain ⟨y, rfl⟩ := hpre b hb
    exact hab (by rw [((nameIn_iff _ _ _).1 hn).1, ((nameIn_iff _ _ _).1 hn').1])

/-- The example of the documentation (utils.py 410-420), with one more controller. -/
example : let params := ["/foo/type", "/xxx/type/xxx", "/ns/bar/type", "/ns/yyy/type/yyy", "/ns/aaa/type"].map (·.toList)
    paramLoop (listParams params "/".toList) "/".toList [] = .ok ["foo".toList] ∧
    paramLoop (listParams params "/ns".toList) "/ns".toList [] = .ok ["bar".toList, "aaa".toList] ∧
    paramLoop (listParams params "ns".toList) "ns".toList [] = .ok ["bar".toList, "aaa".toList] ∧
    sortedStr ["bar".toList, "aaa".toList] = ["aaa".toList, "bar".toList] := by
  refine ⟨by decide, by decide, by decide, ?_⟩
  refine (sortedStr_perm _).trans (List.Perm.swap _ _ _) |>.eq_of_pairwise (le := (· ≤ ·)) ?_
    (sortedStr_sorted _) (by decide)
  intro a b _ _ h1 h2
  exact le_antisymm h1 h2

/-! ### C72 -/

/-- **C72** (missing: multiplicity and unusual names, see the negations). Without an initial guess, the search for
controller managers returns a sorted list of namespaces that offer all services of a controller manager; and
every listed namespace that does so is in it, unless its name contains `/list_controllers`. -/
theorem c72_managers_partial (services : List (List Char)) (typeOf : List Char → Option (List Char)) :
    Sorted (controllerManagers (some services) typeOf []) ∧
    (∀ ns ∈ controllerManagers (some services) typeOf [], Offers typeOf ns) ∧
    (∀ ns, IsNamespace ns → ¬ "/list_controllers".toList <:+: ns → Offers typeOf ns →
      ns ++ (if ns.getLast? = some '/' then [] else ['/']) ++ "list_controllers".toList ∈ services →
      ns ∈ controllerManagers (some services) typeOf []) := by
  refine ⟨sortedStr_sorted _, ?_, ?_⟩
  · intro ns h
    unfold controllerManagers at h
    rw [(sortedStr_perm _).mem_iff] at h
    simp only [List.filter_nil, List.nil_append, List.mem_filter, Bool.and_eq_true] at h
    exact (isControllerManager_iff _ _).1 h.2.2
  · intro ns h1 h2 h3 h4
    unfold controllerManagers
    rw [(sortedStr_perm _).mem_iff]
    simp only [List.filter_nil, List.nil_append, List.mem_filter, Bool.and_eq_true]
    exact ⟨List.mem_filterMap.2 ⟨_, h4, namespaceOf_of h1 h2⟩, by simp, (isControllerManager_iff _ _).2 h3⟩

/-- **C72** with an initial guess: what is returned was guessed or offers all services, and in either case some
service name starts with it followed by `/list_controllers` (for the root, also with `/list_controllers` alone). Nothing is lost compared to a search without
guess. -/
theorem c72_guess (services : List (List Char)) (typeOf : List Char → Option (List Char))
    (guess : List (List Char)) :
    (∀ ns ∈ controllerManagers (some services) typeOf guess, (ns ∈ guess ∨ Offers typeOf ns) ∧
      ∃ s ∈ services, ns ++ "/list_controllers".toList <+: s ∨
        (ns = ['/'] ∧ "/list_controllers".toList <+: s)) ∧
    (∀ ns ∈ controllerManagers (some services) typeOf [], ns ∈ controllerManagers (some services) typeOf guess) := by
  constructor
  · intro ns h
    unfold controllerManagers at h
    rw [(sortedStr_perm _).mem_iff] at h
    have key : ns ∈ sloppyManagers (some services) → ∃ s ∈ services,
        ns ++ "/list_controllers".toList <+: s ∨
        (ns = ['/'] ∧ "/list_controllers".toList <+: s) := by
      intro hh
      obtain ⟨s, hs, hn⟩ := List.mem_filterMap.1 hh
      refine ⟨s, hs, ?_⟩
      unfold namespaceOf at hn
      split at hn
      · cases hn
      · rename_i a b hab
        have := (splitFirst_some hab).1
        split at hn
        · rename_i ha
          cases hn
          exact .inr ⟨rfl, by rw [this, ha]; exact ⟨b, rfl⟩⟩
        · cases hn
          exact .inl ⟨b, this.symm⟩
    rcases List.mem_append.1 h with h | h
    · obtain ⟨h1, h2⟩ := List.mem_filter.1 h
      exact ⟨.inl h1, key (by simpa using h2)⟩
    · obtain ⟨h1, h2⟩ := List.mem_filter.1 h
      rw [Bool.and_eq_true] at h2
      exact ⟨.inr ((isControllerManager_iff _ _).1 h2.2), key h1⟩
  · intro ns h
    unfold controllerManagers at h ⊢
    rw [(sortedStr_perm _).mem_iff] at h ⊢
    simp only [List.filter_nil, List.nil_append, List.mem_filter, Bool.and_eq_true] at h
    by_cases hk : ns ∈ guess.filter (· ∈ sloppyManagers (some services))
    · exact List.mem_append.2 (.inl hk)
    · exact List.mem_append.2 (.inr (List.mem_filter.2 ⟨h.1, by rw [decide_eq_true hk, Bool.true_and]; exact h.2.2⟩))

/-- **C72.** Without an answer of the master nothing is found, and the guess is forgotten. -/
theorem c72_no_master (typeOf : List Char → Option (List Char)) (guess : List (List Char)) :
    controllerManagers none typeOf guess = [] := by
  unfold controllerManagers sloppyManagers
  simp [sortedStr]

/-- The services of a controller manager in a namespace. -/
def exServices (ns : String) : List (List Char × List Char) :=
  cmServices.map fun s => (ns.toList ++ '/' :: s.1, s.2)

/-- A master that knows these services. -/
def exTypeOf (l : List (List Char × List Char)) (n : List Char) : Option (List Char) :=
  (l.find? fun s => s.1 = n).map (·.2)

example : Offers (exTypeOf (exServices "/r/cm")) "/r/cm".toList ∧
    ¬ Offers (exTypeOf ((exServices "/r/cm").drop 1)) "/r/cm".toList ∧
    Offers (exTypeOf (exServices "")) ['/'] ∧
    (sloppyManagers (some ((exServices "/r/cm" ++ exServices "").map (·.1)))) = ["/r/cm".toList, ['/']] := by
  refine ⟨(isControllerManager_iff _ _).1 (by decide), fun h => absurd ((isControllerManager_iff _ _).2 h) (by decide),
    (isControllerManager_iff _ _).1 (by decide), by decide⟩

/-- **C72**, a negation: if another service in the namespace has a name starting with `list_controllers`, the
namespace is returned twice. -/
theorem c72_duplicate_negation : ∃ services typeOf ns,
    (controllerManagers (some services) typeOf []).count ns = 2 ∧ services.Nodup := by
  refine ⟨(exServices "/cm").map (·.1) ++ ["/cm/list_controllers_of_group".toList], exTypeOf (exServices "/cm"),
    "/cm".toList, ?_, by decide⟩
  unfold controllerManagers
  rw [(sortedStr_perm _).count_eq]
  decide

/-- **C72**, a negation: a manager in a namespace containing `/list_controllers` is not found. -/
theorem c72_missed_negation : ∃ services typeOf ns, IsNamespace ns ∧ Offers typeOf ns ∧
    ns ++ "/list_controllers".toList ∈ services ∧ ns ∉ controllerManagers (some services) typeOf [] := by
  refine ⟨(exServices "/list_controllers/cm").map (·.1), exTypeOf (exServices "/list_controllers/cm"),
    "/list_controllers/cm".toList, .inr ⟨by decide, by decide⟩, (isControllerManager_iff _ _).1 (by decide),
    by decide, ?_⟩
  unfold controllerManagers
  rw [(sortedStr_perm _).mem_iff]
  decide

/-- **C72**, a negation: a namespace that no longer offers the services stays in the list of a
`ControllerManagerLister` (whose guess is its previous answer) as long as a service name matches. -/
theorem c72_stale_negation : ∃ services typeOf ns, ns ∈ controllerManagers (some services) typeOf [ns] ∧
    ¬ Offers typeOf ns := by
  refine ⟨["/cm/list_controllers_of_group".toList], exTypeOf [], "/cm".toList, ?_,
    fun h => absurd ((isControllerManager_iff _ _).2 h) (by decide)⟩
  unfold controllerManagers
  rw [(sortedStr_perm _).mem_iff]
  decide

end Verif.Tools
