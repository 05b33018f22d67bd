/-
Finite maps and sets as lists.  They stand for `std::map`, `std::unordered_map`,
`std::set` and `boost::unordered_set`; no order of the entries is implied.
-/
namespace Verif.AssocMap

variable {κ β : Type} [DecidableEq κ]

/-- `m.find(k)` / `m.at(k)` / `m.count(k)` of a C++ map. -/
def find (m : List (κ × β)) (k : κ) : Option β :=
  match m with
  | [] => none
  | (k', v) :: m => if k' = k then some v else find m k

/-- `m.erase(k)` of a C++ map. -/
def erase (m : List (κ × β)) (k : κ) : List (κ × β) := m.filter (fun e => !decide (e.1 = k))

/-- `m[k] = v` of a C++ map. -/
def put (m : List (κ × β)) (k : κ) (v : β) : List (κ × β) := (k, v) :: erase m k

/-- keys of a map -/
def keys (m : List (κ × β)) : List κ := m.map (·.1)

/-- `s.erase(x)` of a C++ set: the new set and the number of removed elements as a flag. -/
def setErase (s : List κ) (x : κ) : List κ × Bool := (s.filter (fun y => !decide (y = x)), decide (x ∈ s))

/-- `s.insert(x)` of a C++ set: the new set and `.second`. -/
def setInsert (s : List κ) (x : κ) : List κ × Bool :=
  if x ∈ s then (s, false) else (x :: s, true)

end Verif.AssocMap
