import Verif.Model.LineReader
import Verif.Model.Double
/-!
Model of formatted input of numbers from text data: `istream >> int` and `istream >> double` as used at
BVParam.cpp:94-108 and scatteringfactordata.cpp:167-175, :238-253, :305-311.  The behaviour of the extraction operators
is that of libstdc++ (`num_get`, C locale).
-/
namespace Verif.Input
open Verif.LineReader Verif.AtomUtils

/-- A decimal digit. -/
def isDigit (c : Char) : Bool := decide (48 ≤ c.toNat ∧ c.toNat ≤ 57)

/-- Value of a string of digits, as accumulated by `num_get`. -/
def natVal (s : Str) : Nat := s.foldl (fun n c => 10 * n + (c.toNat - 48)) 0

/-- An optional sign: whether it is a minus, and the rest. -/
def takeSign : Str → Bool × Str
  | [] => (false, [])
  | c :: r => if c = '-' then (true, r) else if c = '+' then (false, r) else (false, c :: r)

/-- `fp >> i` for an `int` (BVParam.cpp:100; scatteringfactordata.cpp:241, :248): skip white space, an optional sign,
digits.  A stream that is not good, no digit, or a number outside of the type sets `failbit`. -/
def getInt (fp : Stream) : Stream × Option Int :=
  if fp.eof || fp.fail then ({ fp with fail := true }, none)
  else
    let r := fp.rest.dropWhile isSpace
    if r.isEmpty then (⟨[], true, true⟩, none)
    else
      let s := takeSign r
      let ds := s.2.takeWhile isDigit
      let r2 := s.2.dropWhile isDigit
      let v : Int := if s.1 then -(natVal ds : Int) else natVal ds
      if ds.isEmpty then (⟨r2, r2.isEmpty, true⟩, none)
      else if v < -2147483648 ∨ 2147483647 < v then (⟨r2, r2.isEmpty, true⟩, none)
      else (⟨r2, r2.isEmpty, false⟩, some v)

/-- The part after an optional decimal point: the digits and the rest. -/
def takeFrac : Str → Str × Str
  | [] => ([], [])
  | c :: r => if c = '.' then (r.takeWhile isDigit, r.dropWhile isDigit) else ([], c :: r)

/-- An optional exponent: its value, or `none` when the digits are missing, and the rest. -/
def takeExp : Str → Option Int × Str
  | [] => (some 0, [])
  | c :: r =>
    if c = 'e' ∨ c = 'E' then
      let s := takeSign r
      let ds := s.2.takeWhile isDigit
      (if ds.isEmpty then none else some (if s.1 then -(natVal ds : Int) else natVal ds), s.2.dropWhile isDigit)
    else (some 0, c :: r)

/-- The characters that `num_get` takes for a `double` and their exact value. -/
def scanDouble (r : Str) : Option ℚ × Str :=
  let s := takeSign r
  let ip := s.2.takeWhile isDigit
  let f := takeFrac (s.2.dropWhile isDigit)
  if ip.isEmpty && f.1.isEmpty then (none, f.2)
  else
    let e := takeExp f.2
    match e.1 with
    | none => (none, e.2)
    | some k =>
      let q : ℚ := (natVal (ip ++ f.1) : ℚ) / 10 ^ f.1.length * 10 ^ k
      (some (if s.1 then -q else q), e.2)

/-- `fp >> x` for a `double` (BVParam.cpp:100; scatteringfactordata.cpp:168-170, :307): the value is rounded to nearest
(`fl64`); a value outside of the range of the type sets `failbit`.  Simplification: no subnormal numbers. -/
def getDouble (fp : Stream) : Stream × Option ℚ :=
  if fp.eof || fp.fail then ({ fp with fail := true }, none)
  else
    let r := fp.rest.dropWhile isSpace
    if r.isEmpty then (⟨[], true, true⟩, none)
    else
      let d := scanDouble r
      match d.1 with
      | none => (⟨d.2, d.2.isEmpty, true⟩, none)
      | some q =>
        if 2 ^ 1024 ≤ |Double.fl64 q| then (⟨d.2, d.2.isEmpty, true⟩, none)
        else (⟨d.2, d.2.isEmpty, false⟩, some (Double.fl64 q))

/-- The loop `for (int v; fpline >> v;)` (scatteringfactordata.cpp:248); every successful step takes a character. -/
def intLoop : Nat → Stream → List Int
  | 0, _ => []
  | n + 1, fp => match (getInt fp).2 with
    | some v => v :: intLoop n (getInt fp).1
    | none => []

/-- A line of the list of ions (scatteringfactordata.cpp:238-248): symbol, number of electrons, charges; `none` is the
exception. -/
def ionLine (line : Str) : Option (Str × Int × List Int) :=
  let w := getword (openStream line) []
  if w.1.fail then none
  else match getInt w.1 with
    | (_, none) => none
    | (fp, some z) => some (w.2, z, intLoop (line.length + 1) fp)

/-- Extraction of `n` numbers (scatteringfactordata.cpp:167-175). -/
def doubles : Nat → Stream → Option (List ℚ)
  | 0, _ => some []
  | n + 1, fp => match getDouble fp with
    | (_, none) => none
    | (fp', some x) => match doubles n fp' with
      | none => none
      | some l => some (x :: l)

/-- A line with the coefficients of a form factor (scatteringfactordata.cpp:167-175). -/
def wkLine (line : Str) : Option (List ℚ) := doubles 11 (openStream line)

/-- A scattering length (scatteringfactordata.cpp:305-311). -/
def bcField (w : Str) : Option ℚ := (getDouble (openStream w)).2

end Verif.Input
