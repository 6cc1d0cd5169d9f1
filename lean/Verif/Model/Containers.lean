import Mathlib.Order.Defs.LinearOrder

/-!
Models of the standard containers used by the code.

`std::map<K, V>` and `std::set<K>` iterate in increasing key order and hold each key once.
They are modelled by association lists / lists kept in increasing key order by `insert`.
Simplification: node identity, iterators and complexity are not represented.
-/

namespace Verif

variable {κ : Type} {β : Type} [LinearOrder κ]

/-- `m[k] = v` on a `std::map` (insert or overwrite), used e.g. at
hardware_interface/internal/resource_manager.h 95-105 and
hardware_interface/internal/interface_manager.h 145. -/
def smapInsert (k : κ) (v : β) : List (κ × β) → List (κ × β)
  | [] => [(k, v)]
  | (k', v') :: t =>
    if k < k' then (k, v) :: (k', v') :: t
    else if k' < k then (k', v') :: smapInsert k v t
    else (k, v) :: t

/-- `m.find(k)` on a `std::map`, used e.g. at
hardware_interface/internal/resource_manager.h 115-123 (`none` is `end()`). -/
def smapFind (k : κ) : List (κ × β) → Option β
  | [] => none
  | (k', v') :: t => if k = k' then some v' else smapFind k t

/-- The keys in iteration order, hardware_interface/internal/resource_manager.h 81-84. -/
def smapKeys (m : List (κ × β)) : List κ := m.map Prod.fst

/-- `s.insert(k)` on a `std::set`, used at hardware_interface/hardware_interface.h 55. -/
def ssetInsert (k : κ) : List κ → List κ
  | [] => [k]
  | k' :: t =>
    if k < k' then k :: k' :: t
    else if k' < k then k' :: ssetInsert k t
    else k' :: t

end Verif
