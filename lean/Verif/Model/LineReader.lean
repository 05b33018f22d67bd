import Verif.Model.AtomUtils
import Verif.Lemmas.AssocMap
/-!
Model of the reader of text data, `LineReader` (src/diffpy/runtimepath.cpp), and of the table of electron
numbers that is loaded with it (src/diffpy/srreal/scatteringfactordata.cpp).  `std::istream` is modelled by
its remaining characters and its state bits.
-/
namespace Verif.LineReader
open Verif.AssocMap Verif.AtomUtils

abbrev Str := List Char

/-- `std::istream`: the characters not yet extracted, `eofbit` and `failbit`. -/
structure Stream where
  rest : Str
  eof : Bool
  fail : Bool
deriving DecidableEq, Repr

/-- A newly opened stream. -/
def openStream (s : Str) : Stream := ⟨s, false, false⟩

/-- `std::getline(fp, str, delim)`: a stream that is not good fails and leaves the string alone. -/
def getline (delim : Char) (fp : Stream) (str : Str) : Stream × Str :=
  if fp.eof || fp.fail then ({ fp with fail := true }, str)
  else
    let w := fp.rest.takeWhile (fun c => c != delim)
    match fp.rest.dropWhile (fun c => c != delim) with
    | [] => (⟨[], true, w.isEmpty⟩, w)
    | _ :: r => (⟨r, false, false⟩, w)

/-- `fp >> str` for a string: skip white space, then extract up to white space. -/
def getword (fp : Stream) (str : Str) : Stream × Str :=
  if fp.eof || fp.fail then ({ fp with fail := true }, str)
  else
    let r := fp.rest.dropWhile isSpace
    if r.isEmpty then (⟨[], true, true⟩, str)
    else
      let r' := r.dropWhile (fun c => !isSpace c)
      (⟨r', r'.isEmpty, false⟩, r.takeWhile (fun c => !isSpace c))

/-- A measure that a successful extraction decreases. -/
def Stream.left (fp : Stream) : Nat := fp.rest.length + if fp.eof || fp.fail then 0 else 1

theorem dropWhile_le (p : Char → Bool) (l : Str) : (l.dropWhile p).length ≤ l.length :=
  (List.dropWhile_suffix p).length_le

theorem getline_left (d : Char) (fp : Stream) (s : Str) (h : (getline d fp s).1.fail = false) :
    (getline d fp s).1.left < fp.left := by
  unfold getline at *
  by_cases hs : (fp.eof || fp.fail) = true
  · rw [if_pos hs] at h; simp at h
  · rw [if_neg hs] at h ⊢
    have hl := dropWhile_le (fun c => c != d) fp.rest
    unfold Stream.left
    rw [if_neg hs]
    cases hd : fp.rest.dropWhile (fun c => c != d) with
    | nil => simp
    | cons c r =>
      rw [hd] at hl
      simp only [List.length_cons] at hl
      simp
      omega

theorem getword_left (fp : Stream) (s : Str) (h : (getword fp s).1.fail = false) :
    (getword fp s).1.left < fp.left := by
  unfold getword at *
  by_cases hs : (fp.eof || fp.fail) = true
  · rw [if_pos hs] at h; simp at h
  · rw [if_neg hs] at h ⊢
    simp only at h ⊢
    by_cases hr : (fp.rest.dropWhile isSpace).isEmpty = true
    · rw [if_pos hr] at h; simp at h
    · rw [if_neg hr]
      unfold Stream.left
      rw [if_neg hs]
      have h1 := dropWhile_le isSpace fp.rest
      have h2 := dropWhile_le (fun c => !isSpace c) (fp.rest.dropWhile isSpace)
      simp only [Bool.or_false]
      have h3 : ((fp.rest.dropWhile isSpace).dropWhile (fun c => !isSpace c)).length +
          (if ((fp.rest.dropWhile isSpace).dropWhile (fun c => !isSpace c)).isEmpty = true then 0 else 1) ≤
          (fp.rest.dropWhile isSpace).length := by
        cases hd : fp.rest.dropWhile isSpace with
        | nil => rw [hd] at hr; simp at hr
        | cons c r =>
          have hc : isSpace c = false := by
            have := List.head?_dropWhile_not isSpace fp.rest
            rw [hd] at this
            simpa using this
          have hdr : (c :: r).dropWhile (fun c => !isSpace c) = r.dropWhile (fun c => !isSpace c) := by
            rw [List.dropWhile_cons, if_pos (by rw [hc]; rfl)]
          rw [hdr]
          have := dropWhile_le (fun c => !isSpace c) r
          split
          · simp only [List.length_cons]; omega
          · simp only [List.length_cons]; omega
      omega

/-- The loop `while (fpline >> w) words.push_back(w)` (runtimepath.cpp:193). -/
def wordLoop (fp : Stream) (w : Str) : List Str :=
  if _h : (getword fp w).1.fail = false then (getword fp w).2 :: wordLoop (getword fp w).1 (getword fp w).2 else []
termination_by fp.left
decreasing_by exact getword_left fp w _h

/-- The loop `while (getline(fpline, w, sep)) words.push_back(w)` (runtimepath.cpp:198). -/
def fieldLoop (sep : Char) (fp : Stream) (w : Str) : List Str :=
  if _h : (getline sep fp w).1.fail = false then
    (getline sep fp w).2 :: fieldLoop sep (getline sep fp w).1 (getline sep fp w).2
  else []
termination_by fp.left
decreasing_by exact getline_left sep fp w _h

/-- `LineReader` (runtimepath.hpp:42-63). -/
structure Reader where
  lineno : Nat
  commentmark : Str
  separator : Str
  line : Str
  words : List Str
deriving DecidableEq, Repr

/-- `LineReader()` (runtimepath.cpp:140-143). -/
def new : Reader := ⟨0, ['#'], [], [], []⟩

/-- `isblank` (runtimepath.cpp:161-164). -/
def Reader.isblank (r : Reader) : Bool := r.words.isEmpty

/-- `iscomment` (runtimepath.cpp:153-158); `s.compare(0, n, mark)` compares the first `n` characters, or all
when there are fewer. -/
def Reader.iscomment (r : Reader) : Bool :=
  !r.commentmark.isEmpty && match r.words with
    | [] => false
    | w :: _ => w.take r.commentmark.length == r.commentmark

/-- `isignored` (runtimepath.cpp:147-150). -/
def Reader.isignored (r : Reader) : Bool := r.words.isEmpty || r.iscomment

/-- `wcount` (runtimepath.cpp:167-170). -/
def Reader.wcount (r : Reader) : Nat := r.words.length

/-- The words of a line (runtimepath.cpp:189-199). -/
def parseWords (separator line : Str) : List Str :=
  match separator with
  | [] => wordLoop (openStream line) []
  | sep :: _ => fieldLoop sep (openStream line) []

/-- `operator>>(istream&, LineReader&)` (runtimepath.cpp:185-201). -/
def read (fp : Stream) (r : Reader) : Stream × Reader :=
  let g := getline '\n' fp r.line
  (g.1, { r with
    line := g.2
    lineno := if g.1.fail then r.lineno else r.lineno + 1
    words := parseWords r.separator g.2 })

theorem read_left (fp : Stream) (r : Reader) (h : (read fp r).1.fail = false) : (read fp r).1.left < fp.left :=
  getline_left '\n' fp r.line h

/-- The reader at every step of the loop `while (fp >> line)` that all users of the class run
(scatteringfactordata.cpp:142, :235, :285; BVParametersTable.cpp:178-193). -/
def readAll (fp : Stream) (r : Reader) : List Reader :=
  if _h : (read fp r).1.fail = false then (read fp r).2 :: readAll (read fp r).1 (read fp r).2 else []
termination_by fp.left
decreasing_by exact read_left fp r _h

/-! ### Electron numbers -/

/-- The table of electron numbers. -/
abbrev Table := List (Str × Int)

/-- `unordered_map::insert`: an existing entry is kept. -/
def insertNew (t : Table) (k : Str) (v : Int) : Table := if (find t k).isSome then t else put t k v

/-- The text of a non-negative number written to a stream. -/
def digits (n : Nat) : Str := (toString n).toList

/-- The symbol built at scatteringfactordata.cpp:250-251 and :390-393: bare symbol, absolute value, sign. -/
def ionSymbol (el : Str) (v : Int) : Str := el ++ digits v.natAbs ++ [if v > 0 then '+' else '-']

/-- The body of the loading loop (scatteringfactordata.cpp:247-253) for a parsed line: element, Z, charges. -/
def addIons (t : Table) (el : Str) (z : Int) (vs : List Int) : Table :=
  vs.foldl (fun t v => insertNew t (ionSymbol el v) (z - v)) (insertNew t el z)

/-- The loading loop (scatteringfactordata.cpp:235-254); the result is the table when the loop ends and
whether it ended without an exception.  `parse` is the formatted input at lines 238-248. -/
def loadLoop (parse : Str → Option (Str × Int × List Int)) : List Reader → Table → Table × Bool
  | [], t => (t, true)
  | r :: rs, t =>
    if r.isignored then loadLoop parse rs t
    else match parse r.line with
      | none => (t, false)
      | some (el, z, vs) => loadLoop parse rs (addIons t el z vs)

/-- `getElectronNumberTable` (scatteringfactordata.cpp:222-265) with the static pointer as its state: the new
state and the result, `none` for an exception.  `minsize` is 447. -/
def getTable (parse : Str → Option (Str × Int × List Int)) (minsize : Nat) (text : Str) (st : Option Table) :
    Option Table × Option Table :=
  match st with
  | some t => (some t, some t)
  | none =>
    let r := loadLoop parse (readAll (openStream text) new) []
    (some r.1, if r.2 && decide (minsize ≤ r.1.length) then some r.1 else none)

/-- `electronnumber` (scatteringfactordata.cpp:382-404) on a loaded table; `none` is the exception. -/
def electronnumber (t : Table) (smbl : Str) : Option Int :=
  match find t smbl with
  | some n => some n
  | none =>
    let v := atomValence smbl
    find t (if v = 0 then atomBareSymbol smbl else ionSymbol (atomBareSymbol smbl) v)

end Verif.LineReader
