/-!
Model of src/diffpy/srreal/AtomUtils.cpp on lists of characters.
-/
namespace Verif.AtomUtils

/-- The characters `"0123456789- \t"` (AtomUtils.cpp:27). -/
def lead (c : Char) : Bool := "0123456789- \t".toList.contains c

/-- The characters `"+-012345678 \t"` (AtomUtils.cpp:28). -/
def trail (c : Char) : Bool := "+-012345678 \t".toList.contains c

/-- `find_first_not_of`: `none` is `npos`. -/
def findFirstNot (p : Char → Bool) : List Char → Option Nat
  | [] => none
  | c :: cs => if p c then (findFirstNot p cs).map (· + 1) else some 0

/-- `find_last_not_of`: `none` is `npos`. -/
def findLastNot (p : Char → Bool) (s : List Char) : Option Nat :=
  (findFirstNot p s.reverse).map fun k => s.length - 1 - k

/-- `atomBareSymbol` (AtomUtils.cpp:24-33).  The count `pe - pb + 1` is computed in `size_t`: it is
`npos` or another huge number when `pe + 1 < pb`, and `substr` then goes to the end of the string. -/
def atomBareSymbol (s : List Char) : List Char :=
  match findFirstNot lead s, findLastNot trail s with
  | some pb, some pe => if pb ≤ pe + 1 then (s.drop pb).take (pe + 1 - pb) else s.drop pb
  | _, _ => []

/-- `isspace` in the C locale. -/
def isSpace (c : Char) : Bool :=
  c = ' ' || c = '\t' || c = '\n' || c = '\r' || c = '\x0b' || c = '\x0c'

/-- The loop of `atomValence` (AtomUtils.cpp:41-66) over the reversed string; `rv` is the sign seen. -/
def valenceLoop (rv : Int) : List Char → Int
  | [] => rv
  | c :: cs =>
    if isSpace c then valenceLoop rv cs
    else if rv = 0 then
      if c = '+' then valenceLoop 1 cs
      else if c = '-' then valenceLoop (-1) cs
      else rv
    else if '0'.toNat ≤ c.toNat ∧ c.toNat ≤ '8'.toNat then rv * ((c.toNat : Int) - ('0'.toNat : Int))
    else rv

/-- `atomValence` (AtomUtils.cpp:37-67). -/
def atomValence (s : List Char) : Int := valenceLoop 0 s.reverse

end Verif.AtomUtils
