import Verif.Lemmas.Archive
/-
C74: archives.  An object loaded from its archive equals the saved one in every archived member, whatever the target held
before; tickers are kept when the clock of the process is not behind.  Truncated and newer archives are rejected.
-/
namespace Verif.Archive
open Verif.Ticker

/-! ## Specification -/

/-- For all clocks, saved objects `x` and targets `x0`: loading the archive of `x` into `x0` succeeds, uses exactly the items
of the archive and gives `f x x0` up to tickers, which `nt` erases; when the clock `g` of the loading process is not behind the
clock `ga` of the archive the tickers agree as well. -/
def Restored {σ : Type} (s : Ser σ) (nt : σ → σ) (f : σ → σ → σ) : Prop :=
  ∀ ga g x x0 toks rest, s.save ga x = some toks →
    ∃ y g', s.load g x0 (toks ++ rest) = .ok y rest g' ∧ nt y = nt (f x x0) ∧ (Ticker.le ga g = true → y = f x x0)

/-- Everything is restored, at any clock. -/
def RestoredExactly {σ : Type} (s : Ser σ) : Prop :=
  ∀ ga g x x0 toks rest, s.save ga x = some toks → ∃ g', s.load g x0 (toks ++ rest) = .ok x rest g'

/-- An archive that ends early throws. -/
def RejectsTruncated {σ : Type} (s : Ser σ) : Prop :=
  ∀ ga g x x0 toks p q, s.save ga x = some toks → toks = p ++ q → q ≠ [] → ∃ y, s.load g x0 p = .fail y

/-- Exactly the objects with property `c` can be saved. -/
def Saves {σ : Type} (s : Ser σ) (c : σ → Prop) : Prop := ∀ ga x, (∃ toks, s.save ga x = some toks) ↔ c x

/-- The wrapped structures have an exported class. -/
def StruSaves : Stru → Prop
  | .nometa s => StruSaves s
  | .nosymmetry s => StruSaves s
  | .other => False
  | _ => True

/-- No CHECK evaluator, and the structure of the last OPTIMIZED evaluation has an exported class. -/
def EvSaves : Option Evaluator → Prop
  | none => True
  | some (.basic _) => True
  | some (.optimized e) => StruSaves e.mlast_structure
  | some (.check _) => False

/-- The structure and the evaluator can be saved. -/
def PQSaves (x : PQ) : Prop := StruSaves x.mstructure ∧ EvSaves x.mevaluator

/-- Peak width model of an exported class. -/
def WidthSaves (x : WidthOwner) : Prop := x.mpwmodel ≠ some .other
/-- Scattering table of an exported class. -/
def SftSaves (x : SftOwner) : Prop := ∀ t, x.msftable ≠ some (.other, t)
/-- Envelopes of exported classes. -/
def EnvSaves (x : EnvelopeOwner) : Prop := ∀ k, x.find k ≠ some (some .other)

/-- Tickers erased. -/
def Pdf.nt (x : Pdf) : Pdf :=
  { x with
    pq := x.pq.nt
    pwo := x.pwo.nt
    sfo := x.sfo.nt
    mpeakprofile := x.mpeakprofile.map Profile.nt }

/-- Tickers erased. -/
def DebyeSum.nt (x : DebyeSum) : DebyeSum :=
  { x with
    pq := x.pq.nt
    pwo := x.pwo.nt }

/-- Tickers erased. -/
def DebyePdf.nt (x : DebyePdf) : DebyePdf :=
  { x with
    base := x.base.nt
    sfo := x.sfo.nt }

/-- Tickers erased. -/
def Bonds.nt (x : Bonds) : Bonds := { x with pq := x.pq.nt }
/-- Tickers erased. -/
def Bvs.nt (x : Bvs) : Bvs := { x with pq := x.pq.nt }
/-- Tickers erased. -/
def Overlap.nt (x : Overlap) : Overlap := { x with pq := x.pq.nt }

/-! ## From the laws -/

theorem Ok.restored {σ : Type} {s : Ser σ} {nt : σ → σ} {f : σ → σ → σ} (h : Ok s (Upto nt f)) :
    Restored s nt f ∧ RejectsTruncated s := by
  refine ⟨?_, h.trunc⟩
  intro ga g x x0 toks rest h1
  obtain ⟨g', y, h2, h3, _⟩ := h.round (TLe ga g) ga g x x0 toks rest h1 (fun h => h)
  exact ⟨y, g', h2, h3.1, h3.2⟩

theorem Ok.exactly {σ : Type} {s : Ser σ} (h : Ok s Same) : RestoredExactly s ∧ RejectsTruncated s := by
  refine ⟨?_, h.trunc⟩
  intro ga g x x0 toks rest h1
  obtain ⟨g', y, h2, rfl, _⟩ := h.round (TLe ga g) ga g x x0 toks rest h1 (fun h => h)
  exact ⟨g', h2⟩

/-! ## Structures and tables -/

/-- Structures of all classes, wrapped or not, and their parts. -/
theorem structures_restored :
    (RestoredExactly sStru ∧ RejectsTruncated sStru) ∧ (RestoredExactly sAtom ∧ RejectsTruncated sAtom) ∧
    (RestoredExactly sLatt ∧ RejectsTruncated sLatt) ∧ (RestoredExactly sAtomic ∧ RejectsTruncated sAtomic) ∧
    (RestoredExactly sPeriodic ∧ RejectsTruncated sPeriodic) ∧ (RestoredExactly sCrystal ∧ RejectsTruncated sCrystal) :=
  ⟨ok_Stru.exactly, ok_Atom.exactly, ok_Latt.exactly, ok_Atomic.exactly, ok_Periodic.exactly, ok_Crystal.exactly⟩

/-- Baselines, envelopes, radii tables, bond valence tables: every parameter and every custom entry. -/
theorem tables_restored (it : Orders) (nw : News) :
    (RestoredExactly (sBaseline nw) ∧ RejectsTruncated (sBaseline nw)) ∧
    (RestoredExactly (sEnvelopeOwner it nw) ∧ RejectsTruncated (sEnvelopeOwner it nw)) ∧
    (RestoredExactly (sRadii it nw) ∧ RejectsTruncated (sRadii it nw)) ∧
    (RestoredExactly (sBVTable it) ∧ RejectsTruncated (sBVTable it)) ∧
    (RestoredExactly (sBVTablePtr it) ∧ RejectsTruncated (sBVTablePtr it)) :=
  ⟨(ok_Baseline nw).exactly, (ok_EnvelopeOwner it nw).exactly, (ok_Radii it nw).exactly, (ok_BVTable it).exactly,
    (ok_BVTablePtr it).exactly⟩

/-- Peak profiles, peak widths, scattering tables and evaluators; the evaluator forgets which evaluation it used last. -/
theorem components_restored (it : Orders) (nw : News) :
    (Restored (sProfile nw) (Option.map Profile.nt) (fun x _ => x) ∧ RejectsTruncated (sProfile nw)) ∧
    (Restored (sWidthOwner nw) WidthOwner.nt (fun x _ => x) ∧ RejectsTruncated (sWidthOwner nw)) ∧
    (Restored (sSftOwner it nw) SftOwner.nt (fun x _ => x) ∧ RejectsTruncated (sSftOwner it nw)) ∧
    (Restored sEvaluator (Option.map Evaluator.nt) (fun x _ => x.map Evaluator.unused) ∧ RejectsTruncated sEvaluator) ∧
    (Restored (sPQ it) PQ.nt (fun x _ => x.unused) ∧ RejectsTruncated (sPQ it)) :=
  ⟨(ok_Profile nw).restored, (ok_WidthOwner nw).restored, (ok_SftOwner it nw).restored, ok_Evaluator.restored,
    (ok_PQ it).restored⟩

/-! ## Calculators -/

theorem ok_Pdf (it : Orders) (nw : News) : Ok (sPdf it nw) (Upto Pdf.nt (fun x x0 =>
    { x with
      pq := x.pq.unused
      stashedvalue := x0.stashedvalue
      stashedrclosteps := x0.stashedrclosteps })) := by
  refine (ok_cls (ok_cons (ok_memb (ok_PQ it)) (ok_cons (ok_memb (ok_WidthOwner nw)) (ok_cons (ok_memb (ok_SftOwner it nw))
    (ok_cons (ok_memb (ok_EnvelopeOwner it nw)) (ok_cons (ok_memb ok_dbl) (ok_cons (ok_memb ok_dbl) (ok_cons (ok_memb ok_dbl)
    (ok_cons (ok_memb ok_dbl) (ok_cons (ok_memb (ok_Profile nw)) (ok_cons (ok_memb (ok_Baseline nw))
    (ok_cons (ok_memb (ok_vec 0 ok_dbl)) (ok_cons (ok_memb ok_dbl) (ok_cons (ok_memb ok_dbl) (ok_cons (ok_memb ok_dbl)
    (ok_cons (ok_memb ok_int) (ok_cons (ok_memb ok_int) (ok_cons (ok_memb ok_int) (ok_cons (ok_memb ok_int)
    ok_nil))))))))))))))))))).imp ?_
  rintro ex x x0 y ⟨_, ⟨a, ha, rfl⟩, _, ⟨b, hb, rfl⟩, _, ⟨c, hc, rfl⟩, _, ⟨_, rfl, rfl⟩, _, ⟨_, rfl, rfl⟩, _, ⟨_, rfl, rfl⟩,
    _, ⟨_, rfl, rfl⟩, _, ⟨_, rfl, rfl⟩, _, ⟨d, hd, rfl⟩, _, ⟨_, rfl, rfl⟩, _, ⟨_, rfl, rfl⟩, _, ⟨_, rfl, rfl⟩, _, ⟨_, rfl, rfl⟩,
    _, ⟨_, rfl, rfl⟩, _, ⟨_, rfl, rfl⟩, _, ⟨_, rfl, rfl⟩, _, ⟨_, rfl, rfl⟩, _, ⟨_, rfl, rfl⟩, rfl⟩
  refine ⟨?_, fun e => ?_⟩
  · have h1 := ha.1
    have h2 := hb.1
    have h3 := hc.1
    have h4 := hd.1
    simp only [Pdf.nt, h1, h2, h3, h4]
  · rw [ha.2 e, hb.2 e, hc.2 e, hd.2 e]

theorem ok_DebyeSum (it : Orders) (nw : News) : Ok (sDebyeSum it nw) (Upto DebyeSum.nt (fun x x0 =>
    { x with
      pq := x.pq.unused
      mdbsumstash := x0.mdbsumstash })) := by
  refine (ok_cls (ok_cons (ok_memb (ok_PQ it)) (ok_cons (ok_memb (ok_WidthOwner nw)) (ok_cons (ok_memb ok_dbl)
    (ok_cons (ok_memb ok_dbl) (ok_cons (ok_memb ok_dbl) (ok_cons (ok_memb ok_dbl) (ok_cons (ok_memb (ok_vec 0 ok_int))
    (ok_cons (ok_memb (ok_vec [] ok_Quantity)) (ok_cons (ok_memb ok_Quantity) (ok_cons (ok_memb ok_dbl)
    ok_nil))))))))))).imp ?_
  rintro ex x x0 y ⟨_, ⟨a, ha, rfl⟩, _, ⟨b, hb, rfl⟩, _, ⟨_, rfl, rfl⟩, _, ⟨_, rfl, rfl⟩, _, ⟨_, rfl, rfl⟩, _, ⟨_, rfl, rfl⟩,
    _, ⟨_, rfl, rfl⟩, _, ⟨_, rfl, rfl⟩, _, ⟨_, rfl, rfl⟩, _, ⟨_, rfl, rfl⟩, rfl⟩
  refine ⟨?_, fun e => ?_⟩
  · have h1 := ha.1
    have h2 := hb.1
    simp only [DebyeSum.nt, h1, h2]
  · rw [ha.2 e, hb.2 e]

theorem ok_debyeBody0 (it : Orders) (nw : News) : Ok (debyePdfBody it nw 0) (Upto DebyePdf.nt (fun x x0 =>
    { x with
      base := { x.base with
        pq := x.base.pq.unused
        mdbsumstash := x0.base.mdbsumstash }
      mrlimits_are_cached := x0.mrlimits_are_cached })) := by
  refine (ok_cons (ok_memb (ok_DebyeSum it nw)) (ok_cons (ok_memb (ok_SftOwner it nw)) (ok_cons (ok_memb (ok_EnvelopeOwner it nw))
    (ok_cons (ok_memb ok_dbl) (ok_cons (ok_memb ok_bool) (ok_cons (ok_memb ok_dbl) (ok_cons (ok_memb ok_dbl)
    (ok_cons (ok_memb ok_int) (ok_cons (ok_memb ok_int) (ok_cons ok_nop ok_nil)))))))))).imp ?_
  rintro ex x x0 y ⟨_, ⟨a, ha, rfl⟩, _, ⟨b, hb, rfl⟩, _, ⟨_, rfl, rfl⟩, _, ⟨_, rfl, rfl⟩, _, ⟨_, rfl, rfl⟩, _, ⟨_, rfl, rfl⟩,
    _, ⟨_, rfl, rfl⟩, _, ⟨_, rfl, rfl⟩, _, ⟨_, rfl, rfl⟩, _, rfl, rfl⟩
  refine ⟨?_, fun e => ?_⟩
  · have h1 := ha.1
    have h2 := hb.1
    simp only [DebyePdf.nt, h1, h2]
  · rw [ha.2 e, hb.2 e]

theorem ok_DebyePdf (it : Orders) (nw : News) : Ok (sDebyePdf it nw) (Upto DebyePdf.nt (fun x x0 =>
    { x with base := { x.base with
        pq := x.base.pq.unused
        mdbsumstash := x0.base.mdbsumstash } })) := by
  refine Ok.imp (ok_cls (ok_cons (ok_memb (ok_DebyeSum it nw)) (ok_cons (ok_memb (ok_SftOwner it nw))
    (ok_cons (ok_memb (ok_EnvelopeOwner it nw)) (ok_cons (ok_memb ok_dbl) (ok_cons (ok_memb ok_bool) (ok_cons (ok_memb ok_dbl)
    (ok_cons (ok_memb ok_dbl) (ok_cons (ok_memb ok_int) (ok_cons (ok_memb ok_int) (ok_cons (ok_memb ok_bool) ok_nil))))))))))) ?_
  rintro ex x x0 y ⟨_, ⟨a, ha, rfl⟩, _, ⟨b, hb, rfl⟩, _, ⟨_, rfl, rfl⟩, _, ⟨_, rfl, rfl⟩, _, ⟨_, rfl, rfl⟩, _, ⟨_, rfl, rfl⟩,
    _, ⟨_, rfl, rfl⟩, _, ⟨_, rfl, rfl⟩, _, ⟨_, rfl, rfl⟩, _, ⟨_, rfl, rfl⟩, rfl⟩
  refine ⟨?_, fun e => ?_⟩
  · have h1 := ha.1
    have h2 := hb.1
    simp only [DebyePdf.nt, h1, h2]
  · rw [ha.2 e, hb.2 e]

theorem ok_BondEntry : Ok sBondEntry Same := by
  apply Sets.same
  · unfold sBondEntry; sets
  · intro x x0; rfl

theorem ok_Bonds (it : Orders) : Ok (sBonds it) (Upto Bonds.nt (fun x x0 =>
    { x0 with
      pq := x.pq.unused
      mbonds := x.mbonds
      mfilter_directions := x.mfilter_directions
      mfilter_degrees := x.mfilter_degrees })) := by
  refine (ok_cls (ok_cons (ok_memb (ok_PQ it)) (ok_cons (ok_memb (ok_vec default ok_BondEntry))
    (ok_cons (ok_memb (ok_vec default ok_V3)) (ok_cons (ok_memb (ok_vec 0 ok_dbl)) ok_nil))))).imp ?_
  rintro ex x x0 y ⟨_, ⟨a, ha, rfl⟩, _, ⟨_, rfl, rfl⟩, _, ⟨_, rfl, rfl⟩, _, ⟨_, rfl, rfl⟩, rfl⟩
  refine ⟨?_, fun e => ?_⟩
  · have h1 := ha.1
    simp only [Bonds.nt, h1]
  · rw [ha.2 e]

theorem ok_Bvs (it : Orders) : Ok (sBvs it) (Upto Bvs.nt (fun x _ => { x with pq := x.pq.unused })) := by
  refine (ok_cls (ok_cons (ok_memb (ok_PQ it)) (ok_cons (ok_memb (ok_BVTablePtr it)) (ok_cons (ok_memb ok_dbl)
    (ok_cons (ok_memb (ok_vec "" ok_str)) (ok_cons (ok_memb (ok_vec 0 ok_int)) ok_nil)))))).imp ?_
  rintro ex x x0 y ⟨_, ⟨a, ha, rfl⟩, _, ⟨_, rfl, rfl⟩, _, ⟨_, rfl, rfl⟩, _, ⟨_, rfl, rfl⟩, _, ⟨_, rfl, rfl⟩, rfl⟩
  refine ⟨?_, fun e => ?_⟩
  · have h1 := ha.1
    simp only [Bvs.nt, h1]
  · rw [ha.2 e]

theorem ok_Overlap (it : Orders) (nw : News) : Ok (sOverlap it nw) (Upto Overlap.nt (fun x x0 =>
    { x with
      pq := x.pq.unused
      mneighborids_cached := x0.mneighborids_cached })) := by
  refine (ok_cls (ok_cons (ok_memb (ok_PQ it)) (ok_cons (ok_memb (ok_Radii it nw))
    (ok_cons (ok_memb (ok_assoc it _ (ok_pair ok_int (ok_vec 0 ok_int)))) (ok_cons (ok_memb ok_Quantity)
    (ok_cons (ok_memb ok_dbl) ok_nil)))))).imp ?_
  rintro ex x x0 y ⟨_, ⟨a, ha, rfl⟩, _, ⟨_, rfl, rfl⟩, _, ⟨_, rfl, rfl⟩, _, ⟨_, rfl, rfl⟩, _, ⟨_, rfl, rfl⟩, rfl⟩
  refine ⟨?_, fun e => ?_⟩
  · have h1 := ha.1
    simp only [Overlap.nt, h1]
  · rw [ha.2 e]

/-- PDF calculator: everything but the value stashed during an evaluation. -/
theorem pdf_restored (it : Orders) (nw : News) : Restored (sPdf it nw) Pdf.nt (fun x x0 =>
    { x with
      pq := x.pq.unused
      stashedvalue := x0.stashedvalue
      stashedrclosteps := x0.stashedrclosteps }) ∧ RejectsTruncated (sPdf it nw) := (ok_Pdf it nw).restored

/-- Debye PDF calculator: everything but the value stashed during an evaluation. -/
theorem debye_restored (it : Orders) (nw : News) : Restored (sDebyePdf it nw) DebyePdf.nt (fun x x0 =>
    { x with base := { x.base with
        pq := x.base.pq.unused
        mdbsumstash := x0.base.mdbsumstash } }) ∧ RejectsTruncated (sDebyePdf it nw) := (ok_DebyePdf it nw).restored

/-- Bond calculator: the bonds and filters; the working lists of an evaluation stay those of the target. -/
theorem bonds_restored (it : Orders) : Restored (sBonds it) Bonds.nt (fun x x0 =>
    { x0 with
      pq := x.pq.unused
      mbonds := x.mbonds
      mfilter_directions := x.mfilter_directions
      mfilter_degrees := x.mfilter_degrees }) ∧ RejectsTruncated (sBonds it) := (ok_Bonds it).restored

/-- Bond valence sums: everything. -/
theorem bvs_restored (it : Orders) : Restored (sBvs it) Bvs.nt (fun x _ => { x with pq := x.pq.unused }) ∧
    RejectsTruncated (sBvs it) := (ok_Bvs it).restored

/-- Overlaps: everything but the mark that the neighbor lists are built, which stays that of the target (see C52). -/
theorem overlap_restored (it : Orders) (nw : News) : Restored (sOverlap it nw) Overlap.nt (fun x x0 =>
    { x with
      pq := x.pq.unused
      mneighborids_cached := x0.mneighborids_cached }) ∧ RejectsTruncated (sOverlap it nw) := (ok_Overlap it nw).restored

/-! ## What can be saved -/

section Save
variable {σ α : Type}

theorem saves_prim {mk : α → Tok} {un : Tok → Option α} : Saves (prim mk un) (fun _ => True) := fun _ _ => by simp [prim]

theorem saves_memb {get : σ → α} {set : σ → α → σ} {s : Ser α} {c : α → Prop} (h : Saves s c) :
    Saves (memb get set s) (fun x => c (get x)) := fun ga x => h ga (get x)

theorem saves_nop : Saves (nop : Ser σ) (fun _ => True) := fun _ _ => by simp [nop]

theorem saves_nil : Saves (seqs ([] : List (Ser σ))) (fun _ => True) := saves_nop

theorem saves_cons {s : Ser σ} {ss : List (Ser σ)} {c d : σ → Prop} (hs : Saves s c) (ht : Saves (seqs ss) d) :
    Saves (seqs (s :: ss)) (fun x => c x ∧ d x) := by
  intro ga x
  simp only [seqs, seq, Option.bind_eq_bind, Option.pure_def, Option.bind_eq_some_iff, Option.some.injEq]
  rw [← hs ga x, ← ht ga x]
  constructor
  · rintro ⟨_, a, ha, b, hb, rfl⟩; exact ⟨⟨a, ha⟩, ⟨b, hb⟩⟩
  · rintro ⟨⟨a, ha⟩, ⟨b, hb⟩⟩; exact ⟨_, a, ha, b, hb, rfl⟩

theorem saves_cls {cur : Nat} {body : Nat → Ser σ} {c : σ → Prop} (h : Saves (body cur) c) : Saves (cls cur body) c := by
  intro ga x
  simp only [cls, Option.bind_eq_bind, Option.pure_def, Option.bind_eq_some_iff, Option.some.injEq]
  rw [← h ga x]
  constructor
  · rintro ⟨_, a, ha, rfl⟩; exact ⟨a, ha⟩
  · rintro ⟨a, ha⟩; exact ⟨_, a, ha, rfl⟩

theorem saves_list {s : Ser α} {c : α → Prop} (h : Saves s c) (ga : Tick) : ∀ l : List α,
    (∃ toks, saveList s ga l = some toks) ↔ ∀ a ∈ l, c a
  | [] => by simp [saveList]
  | a :: as => by
    have ih := saves_list h ga as
    simp only [saveList, Option.bind_eq_bind, Option.pure_def, Option.bind_eq_some_iff, Option.some.injEq, List.forall_mem_cons]
    rw [← h ga a, ← ih]
    constructor
    · rintro ⟨_, t, ht, b, hb, rfl⟩; exact ⟨⟨t, ht⟩, ⟨b, hb⟩⟩
    · rintro ⟨⟨t, ht⟩, ⟨b, hb⟩⟩; exact ⟨_, t, ht, b, hb, rfl⟩

theorem saves_vec {s : Ser α} {c : α → Prop} (d : α) (h : Saves s c) : Saves (vec d s) (fun x => ∀ a ∈ x, c a) := by
  intro ga x
  simp only [vec, Option.bind_eq_bind, Option.pure_def, Option.bind_eq_some_iff, Option.some.injEq]
  rw [← saves_list h ga x]
  constructor
  · rintro ⟨_, a, ha, rfl⟩; exact ⟨a, ha⟩
  · rintro ⟨a, ha⟩; exact ⟨_, a, ha, rfl⟩

theorem saves_assoc (it : Orders) {K V : Type} [DecidableEq K] {s : Ser (K × V)} {c : K × V → Prop} (d : K × V) (h : Saves s c) :
    Saves (assoc it d s) (fun m => ∀ k v, m.find k = some v → c (k, v)) := by
  intro ga x
  simp only [assoc, Option.bind_eq_bind, Option.pure_def, Option.bind_eq_some_iff, Option.some.injEq]
  have : (∀ k v, x.find k = some v → c (k, v)) ↔ ∀ a ∈ it.enum x, c a := by
    constructor
    · rintro h ⟨k, v⟩ ha; exact h k v ((it.mem_enum x k v).mp ha)
    · intro h k v hk; exact h _ ((it.mem_enum x k v).mpr hk)
  rw [this, ← saves_list h ga]
  constructor
  · rintro ⟨_, a, ha, rfl⟩; exact ⟨a, ha⟩
  · rintro ⟨a, ha⟩; exact ⟨_, a, ha, rfl⟩

theorem Saves.congr {s : Ser σ} {c d : σ → Prop} (h : Saves s c) (e : ∀ x, c x ↔ d x) : Saves s d :=
  fun ga x => (h ga x).trans (e x)

theorem saves_tick : Saves sTick (fun _ => True) := fun _ _ => by simp [sTick]

theorem saves_ptr {τ : Type} {alts : List (Alt τ)} (ga : Tick) (x : Option τ) :
    (∃ toks, (ptr alts).save ga x = some toks) ↔
      match x with
      | none => True
      | some o => ∃ av, findAlt alts o = some av ∧ ∃ t, av.1.ser.save ga av.2 = some t := by
  cases x with
  | none => simp [ptr]
  | some o =>
    simp only [ptr]
    cases h : findAlt alts o with
    | none => simp
    | some av =>
      simp only [Option.some.injEq, exists_eq_left', Option.bind_eq_bind, Option.pure_def, Option.bind_eq_some_iff]
      constructor
      · rintro ⟨_, t, ht, rfl⟩; exact ⟨t, ht⟩
      · rintro ⟨t, ht⟩; exact ⟨_, t, ht, rfl⟩

end Save

/-- Laws for savable bodies. -/
macro "saves" : tactic => `(tactic| repeat' first
  | assumption | apply saves_cons | apply saves_memb | apply saves_cls | exact saves_nil | exact saves_nop | exact saves_prim
  | exact saves_tick | apply saves_vec | apply saves_assoc)

/-- All objects can be saved. -/
def Total {σ : Type} (s : Ser σ) : Prop := Saves s (fun _ => True)

theorem total_V3 : Total sV3 := by
  apply Saves.congr
  · unfold sV3; saves
  · intro x; simp
theorem total_M3 : Total sM3 := by
  have h : Saves sV3 _ := total_V3
  apply Saves.congr
  · unfold sM3; saves
  · intro x; simp
theorem total_Atom : Total sAtom := by
  have h : Saves sV3 _ := total_V3
  have h : Saves sM3 _ := total_M3
  apply Saves.congr
  · unfold sAtom; saves
  · intro x; simp
theorem total_Latt : Total sLatt := by
  have h : Saves sV3 _ := total_V3
  have h : Saves sM3 _ := total_M3
  apply Saves.congr
  · unfold sLatt; saves
  · intro x; simp
theorem total_Atomic : Total sAtomic := by
  have h : Saves sAtom _ := total_Atom
  apply Saves.congr
  · unfold sAtomic; saves
  · intro x; simp
theorem total_Periodic : Total sPeriodic := by
  have h : Saves sAtomic _ := total_Atomic
  have h : Saves sLatt _ := total_Latt
  apply Saves.congr
  · unfold sPeriodic; saves
  · intro x; simp
theorem total_SymOp : Total sSymOp := by
  have h : Saves sV3 _ := total_V3
  have h : Saves sM3 _ := total_M3
  apply Saves.congr
  · unfold sSymOp; saves
  · intro x; simp
theorem total_Crystal : Total sCrystal := by
  have h : Saves sPeriodic _ := total_Periodic
  have h : Saves sSymOp _ := total_SymOp
  have h : Saves sAtom _ := total_Atom
  apply Saves.congr
  · unfold sCrystal; saves
  · intro x; simp

/-- A structure can be saved when its class is exported, wrappers when what they wrap can be saved. -/
theorem structure_saves : Saves sStru StruSaves := by
  intro ga x
  show (∃ toks, saveStru ga x = some toks) ↔ StruSaves x
  induction x with
  | null => simp [saveStru, StruSaves]
  | empty => simp [saveStru, StruSaves]
  | atomic s =>
    obtain ⟨t, ht⟩ := (total_Atomic ga s).mpr trivial
    simp [saveStru, StruSaves, ht]
  | periodic s =>
    obtain ⟨t, ht⟩ := (total_Periodic ga s).mpr trivial
    simp [saveStru, StruSaves, ht]
  | crystal s =>
    obtain ⟨t, ht⟩ := (total_Crystal ga s).mpr trivial
    simp [saveStru, StruSaves, ht]
  | nometa s ih => simpa [saveStru, StruSaves] using ih
  | nosymmetry s ih => simpa [saveStru, StruSaves] using ih
  | other => simp [saveStru, StruSaves]

theorem total_EvBasic : Total sEvBasic := by
  apply Saves.congr
  · unfold sEvBasic; saves
  · intro x; simp

theorem saves_EvOptimized : Saves sEvOptimized (fun e => StruSaves e.mlast_structure) := by
  have h : Saves sEvBasic _ := total_EvBasic
  have h2 := structure_saves
  apply Saves.congr
  · unfold sEvOptimized; saves
  · intro x; simp

theorem saves_Evaluator : Saves sEvaluator EvSaves := by
  intro ga x
  unfold sEvaluator
  rw [saves_ptr]
  cases x with
  | none => simp [EvSaves]
  | some o =>
    cases o with
    | basic e =>
      obtain ⟨t, ht⟩ := (total_EvBasic ga e).mpr trivial
      simp [findAlt, EvSaves, ht]
    | optimized e =>
      simp only [findAlt, EvSaves, Option.some.injEq, exists_eq_left']
      exact saves_EvOptimized ga e
    | check e => simp [findAlt, EvSaves]

theorem saves_Quantity : Saves sQuantity (fun _ => True) := by
  apply Saves.congr
  · unfold sQuantity; saves
  · intro x; simp

/-- A calculator can be saved when its structure and evaluator can. -/
theorem pq_saves (it : Orders) : Saves (sPQ it) PQSaves := by
  have h1 := structure_saves
  have h2 := saves_Evaluator
  have h3 := saves_Quantity
  apply Saves.congr
  · unfold sPQ sPair sUnit; saves
  · intro x; simp [PQSaves]

theorem saves_number : Saves (cls 0 fun _ => seqs [nop, sDbl]) (fun _ => True) := by
  apply Saves.congr
  · saves
  · intro x; simp

theorem saves_Envelope (nw : News) : Saves (sEnvelope nw) (fun x => x ≠ some .other) := by
  intro ga x
  unfold sEnvelope
  rw [saves_ptr]
  have hn := fun (d : Dbl) => (saves_number ga d).mpr trivial
  cases x with
  | none => simp
  | some o => cases o <;> simp [findAlt, hn]

theorem saves_EnvelopeOwner (it : Orders) (nw : News) : Saves (sEnvelopeOwner it nw) EnvSaves := by
  have h := saves_Envelope nw
  apply Saves.congr
  · unfold sEnvelopeOwner sPair; saves
  · intro x
    simp only [EnvSaves, true_and, and_true]
    constructor
    · intro h k hk; exact h k _ hk rfl
    · rintro h k v hk rfl; exact h k hk

theorem saves_Baseline (nw : News) : Saves (sBaseline nw) (fun x => x ≠ some .other) := by
  intro ga x
  unfold sBaseline
  rw [saves_ptr]
  have hn := fun (d : Dbl) => (saves_number ga d).mpr trivial
  cases x with
  | none => simp
  | some o =>
    have h0 : ∃ t, (cls 0 fun _ => (nop : Ser Unit)).save ga () = some t := ⟨_, rfl⟩
    cases o <;> simp [findAlt, hn, h0]

theorem saves_Gauss : Saves sGauss (fun _ => True) := by
  apply Saves.congr
  · unfold sGauss; saves
  · intro x; simp

theorem saves_Cropped : Saves sCropped (fun _ => True) := by
  have h := saves_Gauss
  apply Saves.congr
  · unfold sCropped; saves
  · intro x; simp

theorem saves_Profile (nw : News) : Saves (sProfile nw) (fun x => x ≠ some .other) := by
  intro ga x
  unfold sProfile
  rw [saves_ptr]
  have h1 := fun d => (saves_Gauss ga d).mpr trivial
  have h2 := fun d => (saves_Cropped ga d).mpr trivial
  cases x with
  | none => simp
  | some o => cases o <;> simp [findAlt, h1, h2]

theorem saves_WidthOwner (nw : News) : Saves (sWidthOwner nw) WidthSaves := by
  have h : Saves (sWidth nw) (fun x => x ≠ some .other) := by
    intro ga x
    unfold sWidth
    rw [saves_ptr]
    have h1 : ∀ w, ∃ t, sConstWidth.save ga w = some t := by
      have : Saves sConstWidth (fun _ => True) := by
        apply Saves.congr
        · unfold sConstWidth; saves
        · intro x; simp
      exact fun w => (this ga w).mpr trivial
    have h2 : ∀ w, ∃ t, sJeong.save ga w = some t := by
      have : Saves sJeong (fun _ => True) := by
        apply Saves.congr
        · unfold sJeong; saves
        · intro x; simp
      exact fun w => (this ga w).mpr trivial
    have h3 : ∀ w, ∃ t, (cls 0 fun _ => seqs [cls 0 fun _ => seqs [sTick]]).save ga w = some t := by
      have : Saves (cls 0 fun _ => seqs [cls 0 fun _ => seqs [sTick]]) (fun _ => True) := by
        apply Saves.congr
        · saves
        · intro x; simp
      exact fun w => (this ga w).mpr trivial
    cases x with
    | none => simp
    | some o => cases o <;> simp [findAlt, h1, h2, h3]
  apply Saves.congr
  · unfold sWidthOwner; saves
  · intro x; simp [WidthSaves]

theorem saves_SfTable (it : Orders) : Saves (sSfTable it) (fun _ => True) := by
  apply Saves.congr
  · unfold sSfTable sPair; saves
  · intro x; simp

theorem saves_SftOwner (it : Orders) (nw : News) : Saves (sSftOwner it nw) SftSaves := by
  have h : Saves (sSft it nw) (fun x => ∀ t, x ≠ some (.other, t)) := by
    intro ga x
    unfold sSft
    rw [saves_ptr]
    have h1 := fun d => (saves_SfTable it ga d).mpr trivial
    cases x with
    | none => simp
    | some o =>
      obtain ⟨k, t⟩ := o
      cases k <;> simp [findAlt, sftAlt, h1]
  apply Saves.congr
  · unfold sSftOwner; saves
  · intro x; simp [SftSaves]

/-- A PDF calculator can be saved exactly when every component has an exported class and the evaluator is not CHECK. -/
theorem pdf_saves (it : Orders) (nw : News) : Saves (sPdf it nw) (fun x => PQSaves x.pq ∧ WidthSaves x.pwo ∧ SftSaves x.sfo ∧
    EnvSaves x.peo ∧ x.mpeakprofile ≠ some .other ∧ x.mbaseline ≠ some .other) := by
  have h1 := pq_saves it
  have h2 := saves_WidthOwner nw
  have h3 := saves_SftOwner it nw
  have h4 := saves_EnvelopeOwner it nw
  have h5 := saves_Profile nw
  have h6 := saves_Baseline nw
  apply Saves.congr
  · unfold sPdf; saves
  · intro x; simp

/-- The recipe for structures without exported class: with another structure in place of `mstructure` the calculator can be
saved exactly when the evaluator can; an OPTIMIZED evaluator that holds a copy of such a structure still throws. -/
theorem replace_saves (it : Orders) (x : PQ) (s : Stru) (hs : StruSaves s) (ga : Tick) :
    (∃ toks, (sPQ it).save ga (replaceStructure x s).1 = some toks) ↔ EvSaves x.mevaluator := by
  rw [pq_saves it ga]
  simp [PQSaves, replaceStructure, hs]

/-- After loading, putting the structure back gives the calculator. -/
theorem replace_restores (it : Orders) (x x0 : PQ) (s : Stru) (ga g : Tick) (toks rest : List Tok)
    (h : (sPQ it).save ga (replaceStructure x s).1 = some toks) :
    ∃ y g', (sPQ it).load g x0 (toks ++ rest) = .ok y rest g' ∧ y.mstructure = s ∧
      (replaceStructure y (replaceStructure x s).2).1.nt = x.unused.nt ∧
      (Ticker.le ga g = true → (replaceStructure y (replaceStructure x s).2).1 = x.unused) := by
  obtain ⟨y, g', h1, h2, h3⟩ := (ok_PQ it).restored.1 ga g _ x0 toks rest h
  have h4 := congrArg PQ.mstructure h2
  have hs : y.mstructure = s := h4
  refine ⟨y, g', h1, hs, ?_, fun e => ?_⟩
  · have h5 := congrArg (fun z : PQ => ({ z with mstructure := x.mstructure } : PQ)) h2
    exact h5
  · rw [h3 e]
    rfl

/-! ## Versions -/

/-- Archives of a newer version of any class are rejected, the target is unchanged. -/
theorem newer_rejected {σ : Type} (cur v : Nat) (body : Nat → Ser σ) (g : Tick) (x0 : σ) (toks : List Tok) (h : cur < v) :
    (cls cur body).load g x0 (.ver v :: toks) = .fail x0 := by
  simp [cls, Nat.not_le.mpr h]

/-- A bond valence table archived by version 0 of the class gives the custom parameters; custom valences of atom types are those
of the target. -/
theorem bvtable_version0 (it : Orders) (ga g : Tick) (x x0 : BVTable) (toks rest : List Tok)
    (h : (bvTableBody it 0).save ga x = some toks) :
    ∃ g', (sBVTable it).load g x0 (.ver 0 :: (toks ++ rest)) = .ok ⟨x.mcustomtable, x0.matomvalence⟩ rest g' := by
  obtain ⟨g', y, h1, h2, _⟩ := (sets_bvTable0 it).ok.round False ga g x x0 toks rest h (fun h => h.elim)
  subst h2
  exact ⟨g', by simpa [sBVTable, cls] using h1⟩

/-- A Debye PDF calculator archived by version 0 of the class: everything except the mark that the range is evaluated, which
stays that of the target. -/
theorem debye_version0 (it : Orders) (nw : News) (ga g : Tick) (x x0 : DebyePdf) (toks rest : List Tok)
    (h : (debyePdfBody it nw 0).save ga x = some toks) :
    ∃ y g', (sDebyePdf it nw).load g x0 (.ver 0 :: (toks ++ rest)) = .ok y rest g' ∧
      y.mrlimits_are_cached = x0.mrlimits_are_cached ∧
      (Ticker.le ga g = true → y = { x with
        base := { x.base with
          pq := x.base.pq.unused
          mdbsumstash := x0.base.mdbsumstash }
        mrlimits_are_cached := x0.mrlimits_are_cached }) := by
  obtain ⟨g', y, h1, h2, _⟩ := (ok_debyeBody0 it nw).round (TLe ga g) ga g x x0 toks rest h (fun h => h)
  refine ⟨y, g', by simpa [sDebyePdf, cls] using h1, ?_, h2.2⟩
  have := congrArg DebyePdf.mrlimits_are_cached h2.1
  exact this

/-! ## Examples -/

/-- An atom at the origin. -/
def exAtom : Atom := ⟨"Na", ⟨1, 2, 3⟩, 4, true, ⟨⟨5, 6, 7⟩, ⟨8, 9, 10⟩, ⟨11, 12, 13⟩⟩⟩

/-- Another atom. -/
def exAtom2 : Atom := ⟨"Cl", ⟨0, 0, 0⟩, 0, false, ⟨⟨0, 0, 0⟩, ⟨0, 0, 0⟩, ⟨0, 0, 0⟩⟩⟩

/-- Loading from an archive that ends early leaves the target half loaded: here the new atom type at the old position. -/
theorem truncated_corrupts_bug :
    ∃ toks p q, sAtom.save (0, 0) exAtom = some toks ∧ toks = p ++ q ∧ q ≠ [] ∧
      ∃ y, sAtom.load (0, 0) exAtom2 p = .fail y ∧ y.atomtype = exAtom.atomtype ∧ y.xyz = exAtom2.xyz ∧ y ≠ exAtom2 ∧ y ≠ exAtom := by
  refine ⟨_, [.ver 0, .str "Na"], _, rfl, rfl, by simp, ⟨"Na", ⟨0, 0, 0⟩, 0, false, ⟨⟨0, 0, 0⟩, ⟨0, 0, 0⟩, ⟨0, 0, 0⟩⟩⟩,
    rfl, rfl, rfl, by decide, by decide⟩

/-- Some iteration order exists. -/
noncomputable def someOrders : Orders where
  enum m := (m.fin.toFinset.toList).filterMap (fun k => (m.find k).map (fun v => (k, v)))
  mem_enum m k v := by
    simp only [List.mem_filterMap, Finset.mem_toList, Set.Finite.mem_toFinset, Set.mem_ofPred_eq, Option.map_eq_some_iff]
    constructor
    · rintro ⟨a, _, w, hw, he⟩
      cases he
      exact hw
    · intro h
      exact ⟨k, by simp [h], v, h, rfl⟩
  nodup {K V} m := by
    have key : ∀ l : List K, l.Nodup → ((l.filterMap (fun k => (m.find k).map (fun v => (k, v)))).map Prod.fst).Nodup := by
      intro l
      induction l with
      | nil => simp
      | cons a l ih =>
        intro h
        simp only [List.nodup_cons] at h
        have h2 := ih h.2
        cases hf : m.find a with
        | none => simpa [hf] using h2
        | some v =>
          simp only [List.filterMap_cons, hf, Option.map_some, List.map_cons, List.nodup_cons]
          refine ⟨?_, h2⟩
          intro hm
          simp only [List.mem_map, List.mem_filterMap, Option.map_eq_some_iff] at hm
          obtain ⟨e, ⟨k, hk, w, _, rfl⟩, he⟩ := hm
          cases he
          exact h.1 hk
    exact key _ (Finset.nodup_toList _)

/-- Default objects with zero parameters and constructors that do not click. -/
def someNews : News := ⟨fun _ => 0, fun _ g => g, fun _ _ _ h => h⟩

/-- A calculator with a wrapped crystal, an OPTIMIZED evaluator and masks. -/
def exPQ : PQ := ⟨[1, 2], .nometa (.crystal default), 0, 7, some (.optimized ⟨⟨1, 0, 1, (0, 5), .optimized⟩, .empty⟩), true,
  FMap.empty.insert (1, 2) (), FMap.empty.insert 3 false, FMap.empty.insert ("C", "O") true, 0, (0, 4)⟩

/-- A PDF calculator. -/
def exPdf : Pdf := ⟨exPQ, ⟨some (.jeong ⟨(0, 1), 1, 2, 3, 4⟩), (0, 2)⟩,
  ⟨some (.xray, ⟨FMap.empty.insert "Na" ("Cl", 3), (0, 3)⟩), (0, 3)⟩, FMap.empty.insert "scale" (some (.scale 8)), 0, 1, 2, 3,
  some (.gaussian ⟨(0, 1), 3, 4⟩), some (.linear 5), [1], 2, 3, 4, 5, 6, 7, 8, [9], 10⟩

/-- It can be saved. -/
theorem exPdf_saves : ∃ toks, (sPdf someOrders someNews).save (0, 9) exPdf = some toks := by
  rw [pdf_saves]
  refine ⟨⟨trivial, trivial⟩, by simp [WidthSaves, exPdf], by simp [SftSaves, exPdf], ?_, by simp [exPdf], by simp [exPdf]⟩
  intro k
  simp only [exPdf, FMap.insert, FMap.empty]
  split
  · simp
  · simp

example : ∃ toks y g', (sPdf someOrders someNews).save (0, 9) exPdf = some toks ∧
    (sPdf someOrders someNews).load (0, 12) exPdf (toks ++ [.null]) = .ok y [.null] g' ∧ y.mrstep = 2 ∧ y.pq.mticker = (0, 4) := by
  obtain ⟨toks, h⟩ := exPdf_saves
  obtain ⟨y, g', h1, _, h2⟩ := (pdf_restored someOrders someNews).1 (0, 9) (0, 12) exPdf exPdf toks [.null] h
  have h3 := h2 (by decide)
  exact ⟨toks, y, g', h, h1, by rw [h3]; rfl, by rw [h3]; rfl⟩

/-- In a process whose clock is behind, the tickers change but the settings are restored. -/
example : ∃ toks y g', (sPdf someOrders someNews).save (0, 9) exPdf = some toks ∧
    (sPdf someOrders someNews).load (0, 1) exPdf toks = .ok y [] g' ∧ y.mrstep = 2 ∧ y.pq.mrmax = 7 := by
  obtain ⟨toks, h⟩ := exPdf_saves
  obtain ⟨y, g', h1, h2, _⟩ := (pdf_restored someOrders someNews).1 (0, 9) (0, 1) exPdf exPdf toks [] h
  rw [List.append_nil] at h1
  exact ⟨toks, y, g', h, h1, congrArg Pdf.mrstep h2, congrArg (fun z : Pdf => z.pq.mrmax) h2⟩

/-- A CHECK evaluator cannot be saved; a Python structure cannot be saved after an OPTIMIZED evaluation even with the recipe. -/
example (e : EvOptimized) (it : Orders) (x : PQ) (ga : Tick) :
    (sPQ it).save ga { x with mevaluator := some (.check e) } = none ∧
    (sPQ it).save ga (replaceStructure { x with mevaluator := some (.optimized { e with mlast_structure := .other }) } .empty).1
      = none := by
  constructor
  · by_contra h
    have := (pq_saves it ga _).mp (Option.ne_none_iff_exists'.mp h)
    exact this.2
  · by_contra h
    have := (replace_saves it _ .empty trivial ga).mp (Option.ne_none_iff_exists'.mp h)
    exact this

end Verif.Archive
