/-!
Model of the search for the data directory (src/diffpy/runtimepath.cpp:40-133).

The environment variable and the file system are inputs of every call; the function-local `static`
variables are the state.  A file system is consulted several times during one call, and other processes
may change it in between, so that a call gets a sequence of file systems, one for each access.
Simplifications: paths are lists of characters; `dirname` of libc and the location of the library given
by `dladdr` are parameters, the latter a path below `PATH_MAX`; threads are not modelled.
-/
namespace Verif.RtPath

/-- A path or any other C string. -/
abbrev Path := List Char

/-- What `stat` and `realpath` of libc tell: whether a path is a directory (runtimepath.cpp:51-55) and the
canonical path, `none` for a null result. -/
structure FS where
  isdir : Path → Bool
  real : Path → Option Path

/-- The constants of an installed library: the `runtimerelpath` (runtimepath.cpp:40-49), the file name of
the shared library from `dladdr` (:92-93) and the libc function `dirname`. -/
structure Cfg where
  rel : Path
  lib : Path
  dirname : Path → Path

/-- The static variables of `diffpyruntime` (runtimepath.cpp:71-74, 79). -/
structure St where
  didLib : Bool := false
  lib : Path := []
  didEnv : Bool := false
  env : Path := []
  dprt : Path := []

/-- The end of a call: a path, the `runtime_error` that names a directory (runtimepath.cpp:59-65), or the
construction of a `std::string` from a null pointer, which is undefined behaviour. -/
inductive Out
  | path (p : Path)
  | noDir (d : Path)
  | crash
deriving DecidableEq

/-- The position after the last character that is not a slash (`find_last_not_of`, runtimepath.cpp:85),
`none` for `npos`. -/
def lastNotSlash : Path → Option Nat
  | [] => none
  | c :: cs =>
    match lastNotSlash cs with
    | some n => some (n + 1)
    | none => if c = '/' then none else some 0

/-- Removal of trailing slashes (runtimepath.cpp:85-87). -/
def stripSlashes (e : Path) : Path :=
  match lastNotSlash e with
  | none => e.take 1
  | some n => e.take (n + 1)

/-- The branch for a nonempty `DIFFPYRUNTIME` (runtimepath.cpp:77-93). -/
def envCall (w : Nat → FS) (e : Path) (s : St) : St × Out :=
  let did := s.didEnv && decide (s.dprt = e)
  if did then ({ s with didEnv := did }, .path s.env)
  else
    let t := stripSlashes e
    let s1 := { s with didEnv := did, dprt := e, env := t }
    if (w 0).isdir t then
      match (w 1).real t with
      | none => (s1, .crash)
      | some p => ({ s1 with env := p, didEnv := true }, .path p)
    else (s1, .noDir t)

/-- The first candidate, relative to the directory of the library (runtimepath.cpp:99-100). -/
def cand1 (c : Cfg) : Path := c.dirname c.lib ++ '/' :: c.rel

/-- The second candidate for the physical location `l` of the library (runtimepath.cpp:109-110). -/
def cand2 (c : Cfg) (l : Path) : Path := c.dirname l ++ "/../../src/runtime".toList

/-- The branch without `DIFFPYRUNTIME` (runtimepath.cpp:94-121). -/
def libCall (c : Cfg) (w : Nat → FS) (s : St) : St × Out :=
  if s.didLib then (s, .path s.lib)
  else if (w 0).isdir (cand1 c) then
    match (w 1).real (cand1 c) with
    | none => (s, .crash)
    | some p => ({ s with lib := p, didLib := true }, .path p)
  else
    match (w 1).real c.lib with
    | none => (s, .crash)
    | some l =>
      if (w 2).isdir (cand2 c l) then
        match (w 3).real (cand2 c l) with
        | none => (s, .crash)
        | some p => ({ s with lib := p, didLib := true }, .path p)
      else if (w 3).isdir (cand1 c) then (s, .path s.lib)
      else (s, .noDir (cand1 c))

/-- `diffpyruntime` (runtimepath.cpp:68-121): an empty variable counts as unset (:77). -/
def runtime (c : Cfg) (w : Nat → FS) (env : Option Path) (s : St) : St × Out :=
  match env with
  | some (ch :: cs) => envCall w (ch :: cs) s
  | _ => libCall c w s

/-- `datapath` (runtimepath.cpp:128-133). -/
def datapath (c : Cfg) (w : Nat → FS) (env : Option Path) (f : Path) (s : St) : St × Out :=
  match runtime c w env s with
  | (s1, .path p) => (s1, .path (p ++ if f = [] then [] else '/' :: f))
  | (s1, o) => (s1, o)

/-- One call of a program: the file systems it meets, the value of the variable and the file. -/
structure Call where
  w : Nat → FS
  env : Option Path
  file : Path

/-- The state after a sequence of calls, in order, from the start of the program. -/
def run (c : Cfg) : List Call → St → St
  | [], s => s
  | k :: ks, s => run c ks (datapath c k.w k.env k.file s).1

/-- The result of call `k` after the calls `h`. -/
def answer (c : Cfg) (h : List Call) (k : Call) : Out :=
  (datapath c k.w k.env k.file (run c h {})).2

end Verif.RtPath
