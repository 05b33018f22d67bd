import Verif.Model.RuntimePath
import Mathlib.Tactic.ByContra
import Mathlib.Data.List.Induction
/-!
# C75: where the data files are looked for

`datapath` finds the data directory either from the variable DIFFPYRUNTIME or from the place of the
library.  The specification below does not mention the static variables.
-/
namespace Verif.RtPath

/-! ### Specification -/

/-- The variable is set to `e`: it exists and is not empty. -/
def Set (env : Option Path) (e : Path) : Prop := env = some e ∧ e ≠ []

/-- The variable is absent or empty. -/
def Unset (env : Option Path) : Prop := env = none ∨ env = some []

/-- `t` is `e` without trailing slashes; of a row of slashes one remains. -/
def Trimmed (e t : Path) : Prop :=
  (∃ k, e = t ++ List.replicate k '/') ∧ (t = ['/'] ∨ ∃ u c, t = u ++ [c] ∧ c ≠ '/')

/-- Directories have canonical paths, and so has the library. -/
structure Sane (c : Cfg) (fs : FS) : Prop where
  dir : ∀ d, fs.isdir d = true → (fs.real d).isSome
  lib : (fs.real c.lib).isSome

/-- The data directory of a program that asks for the first time, in a file system `fs`. -/
inductive Resolves (c : Cfg) (fs : FS) (env : Option Path) : Out → Prop
  | env {e t p} : Set env e → Trimmed e t → fs.isdir t = true → fs.real t = some p → Resolves c fs env (.path p)
  | envBad {e t} : Set env e → Trimmed e t → fs.isdir t = false → Resolves c fs env (.noDir t)
  | first {p} : Unset env → fs.isdir (cand1 c) = true → fs.real (cand1 c) = some p → Resolves c fs env (.path p)
  | second {l p} : Unset env → fs.isdir (cand1 c) = false → fs.real c.lib = some l →
      fs.isdir (cand2 c l) = true → fs.real (cand2 c l) = some p → Resolves c fs env (.path p)
  | neither {l} : Unset env → fs.isdir (cand1 c) = false → fs.real c.lib = some l →
      fs.isdir (cand2 c l) = false → Resolves c fs env (.noDir (cand1 c))

/-- The answer for a file: the directory, a slash and the name, or only the directory for an empty name. -/
def inDir (f : Path) : Out → Out
  | .path p => .path (if f = [] then p else p ++ ['/'] ++ f)
  | o => o

/-! ### Trimming -/

theorem last_none {e : Path} (h : lastNotSlash e = none) : e = List.replicate e.length '/' := by
  induction e with
  | nil => rfl
  | cons c cs ih =>
    unfold lastNotSlash at h
    cases hh : lastNotSlash cs with
    | some n => rw [hh] at h; cases h
    | none =>
      rw [hh] at h
      by_cases hc : c = '/'
      · rw [List.length_cons, List.replicate_succ, ← ih hh, hc]
      · simp only [hc, if_false] at h; cases h

theorem last_some {e : Path} {n : Nat} (h : lastNotSlash e = some n) :
    ∃ c, c ≠ '/' ∧ e.take (n + 1) = e.take n ++ [c] ∧ e = e.take (n + 1) ++ List.replicate (e.length - (n + 1)) '/' := by
  induction e generalizing n with
  | nil => cases h
  | cons a cs ih =>
    unfold lastNotSlash at h
    cases hh : lastNotSlash cs with
    | some m =>
      rw [hh] at h
      cases h
      obtain ⟨c, hc, h1, h2⟩ := ih hh
      refine ⟨c, hc, ?_, ?_⟩
      · rw [List.take_succ_cons, h1, List.take_succ_cons]; rfl
      · rw [List.take_succ_cons, List.length_cons, List.cons_append]
        have : cs.length + 1 - (m + 1 + 1) = cs.length - (m + 1) := by omega
        rw [this, ← h2]
    | none =>
      rw [hh] at h
      by_cases hc : a = '/'
      · simp only [hc, if_true] at h; cases h
      · simp only [hc, if_false] at h
        cases h
        refine ⟨a, hc, by simp, ?_⟩
        have := last_none hh
        simpa using this

theorem strip_trimmed {e : Path} (h : e ≠ []) : Trimmed e (stripSlashes e) := by
  unfold stripSlashes
  cases hh : lastNotSlash e with
  | none =>
    obtain ⟨a, cs, rfl⟩ := List.exists_cons_of_ne_nil h
    have hr := last_none hh
    rw [List.length_cons, List.replicate_succ] at hr
    obtain ⟨ha, hcs⟩ := List.cons.inj hr
    exact ⟨⟨cs.length, by simpa using hcs⟩, Or.inl (by simp [ha])⟩
  | some n =>
    obtain ⟨c, hc, h1, h2⟩ := last_some hh
    exact ⟨⟨_, h2⟩, Or.inr ⟨_, c, h1, hc⟩⟩

theorem replicate_end {u : Path} {c : Char} {k : Nat} {v : Path} (h : u ++ [c] ++ List.replicate k '/' = v)
    (hc : c ≠ '/') : (v.reverse.dropWhile (· == '/')).reverse = u ++ [c] := by
  subst h
  rw [List.reverse_append, List.reverse_replicate]
  have : ∀ k (l : Path), (List.replicate k '/' ++ l).dropWhile (· == '/') = l.dropWhile (· == '/') := by
    intro k
    induction k with
    | zero => intro l; rfl
    | succ k ih => intro l; rw [List.replicate_succ, List.cons_append, List.dropWhile_cons_of_pos (by decide), ih]
  rw [this, List.reverse_append, List.reverse_singleton, List.singleton_append,
    List.dropWhile_cons_of_neg (by simpa using hc)]
  simp

theorem trimmed_unique {e t t' : Path} (h : Trimmed e t) (h' : Trimmed e t') : t = t' := by
  obtain ⟨⟨k, hk⟩, h⟩ := h
  obtain ⟨⟨k', hk'⟩, h'⟩ := h'
  rcases h with rfl | ⟨u, c, rfl, hc⟩ <;> rcases h' with rfl | ⟨u', c', rfl, hc'⟩
  · rfl
  · exfalso
    have h1 := replicate_end (hk'.symm.trans hk) hc'
    rw [show ['/'] ++ List.replicate k '/' = List.replicate (k + 1) '/' from rfl, List.reverse_replicate,
      List.dropWhile_replicate] at h1
    simp at h1
  · exfalso
    have h1 := replicate_end (hk.symm.trans hk') hc
    rw [show ['/'] ++ List.replicate k' '/' = List.replicate (k' + 1) '/' from rfl, List.reverse_replicate,
      List.dropWhile_replicate] at h1
    simp at h1
  · rw [← replicate_end hk.symm hc, ← replicate_end hk'.symm hc']

/-- Trailing slashes of the variable do not matter. -/
theorem trim_spec (e : Path) (h : e ≠ []) (t : Path) : Trimmed e t ↔ t = stripSlashes e :=
  ⟨fun ht => trimmed_unique ht (strip_trimmed h), fun ht => ht ▸ strip_trimmed h⟩

/-! ### The specification determines the answer -/

theorem resolves_unique {c : Cfg} {fs : FS} {env : Option Path} {o o' : Out} (h : Resolves c fs env o)
    (h' : Resolves c fs env o') : o = o' := by
  have hsu : ∀ e, Set env e → ¬ Unset env := by
    rintro e ⟨rfl, hne⟩ (h | h)
    · cases h
    · exact hne (Option.some.inj h)
  have hss : ∀ e e', Set env e → Set env e' → e = e' := fun e e' h h' => Option.some.inj (h.1.symm.trans h'.1)
  cases h with
  | env hs ht hd hr =>
    cases h' with
    | env hs' ht' hd' hr' =>
      rw [← hss _ _ hs hs'] at ht'
      rw [← trimmed_unique ht ht', hr] at hr'
      rw [Option.some.inj hr']
    | envBad hs' ht' hd' =>
      rw [← hss _ _ hs hs'] at ht'
      rw [← trimmed_unique ht ht', hd] at hd'; cases hd'
    | first hu => exact absurd hu (hsu _ hs)
    | second hu => exact absurd hu (hsu _ hs)
    | neither hu => exact absurd hu (hsu _ hs)
  | envBad hs ht hd =>
    cases h' with
    | env hs' ht' hd' hr' =>
      rw [← hss _ _ hs hs'] at ht'
      rw [← trimmed_unique ht ht', hd] at hd'; cases hd'
    | envBad hs' ht' hd' =>
      rw [← hss _ _ hs hs'] at ht'
      rw [trimmed_unique ht ht']
    | first hu => exact absurd hu (hsu _ hs)
    | second hu => exact absurd hu (hsu _ hs)
    | neither hu => exact absurd hu (hsu _ hs)
  | first hu hd hr =>
    cases h' with
    | env hs => exact absurd hu (hsu _ hs)
    | envBad hs => exact absurd hu (hsu _ hs)
    | first _ hd' hr' => rw [hr] at hr'; rw [Option.some.inj hr']
    | second _ hd' => rw [hd] at hd'; cases hd'
    | neither _ hd' => rw [hd] at hd'; cases hd'
  | second hu hd hl hd2 hr =>
    cases h' with
    | env hs => exact absurd hu (hsu _ hs)
    | envBad hs => exact absurd hu (hsu _ hs)
    | first _ hd' => rw [hd] at hd'; cases hd'
    | second _ _ hl' hd2' hr' =>
      rw [hl] at hl'
      cases hl'
      rw [hr] at hr'; rw [Option.some.inj hr']
    | neither _ _ hl' hd2' =>
      rw [hl] at hl'
      cases hl'
      rw [hd2] at hd2'; cases hd2'
  | neither hu hd hl hd2 =>
    cases h' with
    | env hs => exact absurd hu (hsu _ hs)
    | envBad hs => exact absurd hu (hsu _ hs)
    | first _ hd' => rw [hd] at hd'; cases hd'
    | second _ _ hl' hd2' =>
      rw [hl] at hl'
      cases hl'
      rw [hd2] at hd2'; cases hd2'
    | neither => rfl

/-! ### Single calls -/

theorem runtime_set {c : Cfg} {w : Nat → FS} {env : Option Path} {e : Path} (h : Set env e) (s : St) :
    runtime c w env s = envCall w e s := by
  obtain ⟨rfl, hne⟩ := h
  cases e with
  | nil => exact absurd rfl hne
  | cons a l => rfl

theorem runtime_unset {c : Cfg} {w : Nat → FS} {env : Option Path} (h : Unset env) (s : St) :
    runtime c w env s = libCall c w s := by
  rcases h with rfl | rfl <;> rfl

theorem set_or_unset (env : Option Path) : Unset env ∨ ∃ e, Set env e := by
  match env with
  | none => exact Or.inl (Or.inl rfl)
  | some [] => exact Or.inl (Or.inr rfl)
  | some (a :: l) => exact Or.inr ⟨a :: l, rfl, by simp⟩

theorem datapath_out (c : Cfg) (w : Nat → FS) (env : Option Path) (f : Path) (s : St) :
    (datapath c w env f s).2 = inDir f (runtime c w env s).2 := by
  unfold datapath
  cases hr : runtime c w env s with
  | mk s1 o =>
    cases o with
    | path p =>
      dsimp only [inDir]
      by_cases hf : f = []
      · rw [if_pos hf, if_pos hf, List.append_nil]
      · rw [if_neg hf, if_neg hf, List.append_assoc]; rfl
    | noDir d => rfl
    | crash => rfl

theorem datapath_state (c : Cfg) (w : Nat → FS) (env : Option Path) (f : Path) (s : St) :
    (datapath c w env f s).1 = (runtime c w env s).1 := by
  unfold datapath
  cases hr : runtime c w env s with
  | mk s1 o => cases o <;> rfl

/-- A call that consults the file system, in a file system that is sane and does not change during the
call, gives what the specification says. -/
theorem fresh_env {c : Cfg} {fs : FS} (hfs : Sane c fs) {env : Option Path} {e : Path} (he : Set env e) (s : St)
    (hf : ¬ (s.didEnv = true ∧ s.dprt = e)) : Resolves c fs env (envCall (fun _ => fs) e s).2 := by
  have hd : (s.didEnv && decide (s.dprt = e)) = false := by
    cases h1 : s.didEnv
    · rfl
    · simp only [Bool.true_and, decide_eq_false_iff_not]
      intro h2; exact hf ⟨h1, h2⟩
  unfold envCall
  dsimp only
  rw [hd]
  simp only [Bool.false_eq_true, if_false]
  cases h1 : fs.isdir (stripSlashes e)
  · simp only [Bool.false_eq_true, if_false]
    exact .envBad he (strip_trimmed he.2) h1
  · simp only [if_true]
    obtain ⟨p, hp⟩ := Option.isSome_iff_exists.1 (hfs.dir _ h1)
    rw [hp]
    exact .env he (strip_trimmed he.2) h1 hp

theorem fresh_lib {c : Cfg} {fs : FS} (hfs : Sane c fs) {env : Option Path} (he : Unset env) (s : St)
    (hf : s.didLib = false) : Resolves c fs env (libCall c (fun _ => fs) s).2 := by
  unfold libCall
  rw [hf]
  simp only [Bool.false_eq_true, if_false]
  cases h1 : fs.isdir (cand1 c)
  · simp only [Bool.false_eq_true, if_false]
    obtain ⟨l, hl⟩ := Option.isSome_iff_exists.1 hfs.lib
    rw [hl]
    dsimp only
    cases h2 : fs.isdir (cand2 c l)
    · simp only [Bool.false_eq_true, if_false]
      exact .neither he h1 hl h2
    · simp only [if_true]
      obtain ⟨p, hp⟩ := Option.isSome_iff_exists.1 (hfs.dir _ h2)
      rw [hp]
      exact .second he h1 hl h2 hp
  · simp only [if_true]
    obtain ⟨p, hp⟩ := Option.isSome_iff_exists.1 (hfs.dir _ h1)
    rw [hp]
    exact .first he h1 hp

/-! ### What the static variables remember -/

/-- The variable is set in the call. -/
def Call.isSet (k : Call) : Prop := ∃ e, Set k.env e

/-- The call found a directory `p` and did not meet a change of the file system that empties the answer. -/
def Found (c : Cfg) (h : List Call) (k : Call) (p : Path) : Prop :=
  (runtime c k.w k.env (run c h {})).2 = .path p

theorem run_append (c : Cfg) (h h' : List Call) (s : St) : run c (h ++ h') s = run c h' (run c h s) := by
  induction h generalizing s with
  | nil => rfl
  | cons k ks ih => exact ih _

theorem run_snoc (c : Cfg) (h : List Call) (k : Call) (s : St) :
    run c (h ++ [k]) s = (runtime c k.w k.env (run c h s)).1 := by
  rw [run_append, run, run, datapath_state]

theorem lib_keeps_env (c : Cfg) (w : Nat → FS) (s : St) :
    (libCall c w s).1.didEnv = s.didEnv ∧ (libCall c w s).1.env = s.env ∧ (libCall c w s).1.dprt = s.dprt := by
  unfold libCall
  split
  · exact ⟨rfl, rfl, rfl⟩
  · split
    · split <;> exact ⟨rfl, rfl, rfl⟩
    · split
      · exact ⟨rfl, rfl, rfl⟩
      · split
        · split <;> exact ⟨rfl, rfl, rfl⟩
        · split <;> exact ⟨rfl, rfl, rfl⟩

theorem env_keeps_lib (w : Nat → FS) (e : Path) (s : St) :
    (envCall w e s).1.didLib = s.didLib ∧ (envCall w e s).1.lib = s.lib := by
  unfold envCall
  dsimp only
  split
  · exact ⟨rfl, rfl⟩
  · split
    · split <;> exact ⟨rfl, rfl⟩
    · exact ⟨rfl, rfl⟩

/-- After a call with the variable set to `e`: the value is remembered exactly when the call found a
directory. -/
theorem env_after (w : Nat → FS) (e : Path) (s : St) :
    (envCall w e s).1.dprt = e ∧
    ((envCall w e s).1.didEnv = true ↔ ∃ p, (envCall w e s).2 = .path p) ∧
    ∀ p, (envCall w e s).2 = .path p → (envCall w e s).1.env = p := by
  unfold envCall
  dsimp only
  split
  · rename_i h
    simp only [Bool.and_eq_true, decide_eq_true_eq] at h
    refine ⟨h.2, ⟨fun _ => ⟨_, rfl⟩, fun _ => by simp [h]⟩, fun p hp => ?_⟩
    exact Out.path.inj hp
  · rename_i h
    split
    · split
      · refine ⟨rfl, ⟨fun h1 => absurd h1 h, ?_⟩, ?_⟩
        · rintro ⟨p, hp⟩; cases hp
        · intro p hp; cases hp
      · exact ⟨rfl, ⟨fun _ => ⟨_, rfl⟩, fun _ => rfl⟩, fun p hp => Out.path.inj hp⟩
    · refine ⟨rfl, ⟨fun h1 => absurd h1 h, ?_⟩, ?_⟩
      · rintro ⟨p, hp⟩; cases hp
      · intro p hp; cases hp

/-- Calls without the variable do not touch what is remembered for it. -/
theorem unset_keeps (c : Cfg) (h : List Call) (hu : ∀ k ∈ h, Unset k.env) (s : St) :
    (run c h s).didEnv = s.didEnv ∧ (run c h s).env = s.env ∧ (run c h s).dprt = s.dprt := by
  induction h generalizing s with
  | nil => exact ⟨rfl, rfl, rfl⟩
  | cons k ks ih =>
    rw [run, datapath_state, runtime_unset (hu k (by simp))]
    obtain ⟨h1, h2, h3⟩ := ih (fun k hk => hu k (by simp [hk])) (libCall c k.w s).1
    obtain ⟨g1, g2, g3⟩ := lib_keeps_env c k.w s
    exact ⟨h1.trans g1, h2.trans g2, h3.trans g3⟩

theorem set_keeps_lib (c : Cfg) (h : List Call) (hu : ∀ k ∈ h, k.isSet) (s : St) :
    (run c h s).didLib = s.didLib ∧ (run c h s).lib = s.lib := by
  induction h generalizing s with
  | nil => exact ⟨rfl, rfl⟩
  | cons k ks ih =>
    obtain ⟨e, he⟩ := hu k (by simp)
    rw [run, datapath_state, runtime_set he]
    obtain ⟨h1, h2⟩ := ih (fun k hk => hu k (by simp [hk])) (envCall k.w e s).1
    obtain ⟨g1, g2⟩ := env_keeps_lib k.w e s
    exact ⟨h1.trans g1, h2.trans g2⟩

theorem cached_env (w : Nat → FS) (e : Path) (s : St) (h1 : s.didEnv = true) (h2 : s.dprt = e) :
    envCall w e s = (s, .path s.env) := by
  unfold envCall
  dsimp only
  rw [h1, decide_eq_true h2]
  simp only [Bool.and_self, if_true]
  cases s; cases h1; rfl

/-- A directory found for a value of the variable is given for as long as the variable keeps that value
(it may be unset in between), even when the directory has been moved or deleted. -/
theorem env_sticky (c : Cfg) (h h' : List Call) (k k' : Call) (e p : Path) (hk : Set k.env e) (hk' : Set k'.env e)
    (hf : Found c h k p) (hh : ∀ m ∈ h', Unset m.env ∨ Set m.env e) :
    answer c (h ++ k :: h') k' = inDir k'.file (.path p) := by
  rw [answer, datapath_out, runtime_set hk']
  have key : ∀ h' : List Call, (∀ m ∈ h', Unset m.env ∨ Set m.env e) → ∀ s : St, s.didEnv = true → s.dprt = e →
      s.env = p → (run c h' s).didEnv = true ∧ (run c h' s).dprt = e ∧ (run c h' s).env = p := by
    intro h'
    induction h' with
    | nil => intro _ s h1 h2 h3; exact ⟨h1, h2, h3⟩
    | cons m ms ih =>
      intro hm s h1 h2 h3
      rw [run, datapath_state]
      have hms := ih (fun m hm' => hm m (by simp [hm']))
      rcases hm m (by simp) with hu | hs
      · rw [runtime_unset hu]
        obtain ⟨g1, g2, g3⟩ := lib_keeps_env c m.w s
        exact hms _ (g1.trans h1) (g3.trans h2) (g2.trans h3)
      · rw [runtime_set hs, cached_env _ _ _ h1 h2]
        exact hms s h1 h2 h3
  rw [run_append, run, datapath_state, runtime_set hk]
  unfold Found at hf
  rw [runtime_set hk] at hf
  obtain ⟨g1, g2, g3⟩ := env_after k.w e (run c h {})
  obtain ⟨r1, r2, r3⟩ := key h' hh _ (g2.2 ⟨p, hf⟩) g1 (g3 p hf)
  rw [cached_env _ _ _ r1 r2, r3]

/-- Otherwise the call looks into the file system: when the variable was never set, when its last value was
another one, or when the last search failed. -/
theorem env_looks (c : Cfg) (h : List Call) (k' : Call) (e : Path) (fs : FS) (hfs : Sane c fs)
    (hk' : Set k'.env e) (hw : k'.w = fun _ => fs)
    (hh : (∀ m ∈ h, Unset m.env) ∨
      ∃ h1 k h2 e1, h = h1 ++ k :: h2 ∧ Set k.env e1 ∧ (∀ m ∈ h2, Unset m.env) ∧ (e1 ≠ e ∨ ¬ ∃ p, Found c h1 k p)) :
    ∃ o, Resolves c fs k'.env o ∧ answer c h k' = inDir k'.file o := by
  refine ⟨(runtime c k'.w k'.env (run c h {})).2, ?_, datapath_out ..⟩
  · rw [runtime_set hk', hw]
    refine fresh_env hfs hk' _ ?_
    rcases hh with hu | ⟨h1, k, h2, e1, rfl, hk, hu, hd⟩
    · rw [(unset_keeps c h hu {}).1]
      rintro ⟨h, _⟩; cases h
    · rw [run_append, run, datapath_state, runtime_set hk, (unset_keeps c h2 hu _).1, (unset_keeps c h2 hu _).2.2]
      obtain ⟨g1, g2, g3⟩ := env_after k.w e1 (run c h1 {})
      rintro ⟨r1, r2⟩
      rcases hd with hd | hd
      · exact hd (g1.symm.trans r2)
      · obtain ⟨p, hp⟩ := g2.1 r1
        exact hd ⟨p, by unfold Found; rw [runtime_set hk]; exact hp⟩

/-- Within one call the file system stands still and is sane. -/
def Steady (c : Cfg) (k : Call) : Prop := ∃ fs, Sane c fs ∧ k.w = fun _ => fs

theorem lib_after {c : Cfg} {fs : FS} (_ : Sane c fs) (s : St) :
    ((libCall c (fun _ => fs) s).1.didLib = true ↔ ∃ p, (libCall c (fun _ => fs) s).2 = .path p) ∧
    ∀ p, (libCall c (fun _ => fs) s).2 = .path p → (libCall c (fun _ => fs) s).1.lib = p := by
  unfold libCall
  split
  · rename_i h
    exact ⟨⟨fun _ => ⟨_, rfl⟩, fun _ => h⟩, fun p hp => Out.path.inj hp⟩
  · rename_i h
    have hb : s.didLib = false := by simpa using h
    split
    · split
      · refine ⟨⟨fun h1 => absurd h1 h, ?_⟩, ?_⟩
        · rintro ⟨p, hp⟩; cases hp
        · intro p hp; cases hp
      · exact ⟨⟨fun _ => ⟨_, rfl⟩, fun _ => rfl⟩, fun p hp => Out.path.inj hp⟩
    · rename_i hd
      split
      · refine ⟨⟨fun h1 => absurd h1 h, ?_⟩, ?_⟩
        · rintro ⟨p, hp⟩; cases hp
        · intro p hp; cases hp
      · split
        · split
          · refine ⟨⟨fun h1 => absurd h1 h, ?_⟩, ?_⟩
            · rintro ⟨p, hp⟩; cases hp
            · intro p hp; cases hp
          · exact ⟨⟨fun _ => ⟨_, rfl⟩, fun _ => rfl⟩, fun p hp => Out.path.inj hp⟩
        · refine ⟨⟨fun h1 => absurd h1 h, ?_⟩, ?_⟩
          · rintro ⟨p, hp⟩
            cases hp
          · intro p hp
            cases hp

/-- A directory found without the variable is given for the rest of the program whenever the variable is
unset, even when the directory has been moved or deleted. -/
theorem lib_sticky (c : Cfg) (h h' : List Call) (k k' : Call) (p : Path) (hk : Unset k.env) (hk' : Unset k'.env)
    (hs : Steady c k) (hf : Found c h k p) :
    answer c (h ++ k :: h') k' = inDir k'.file (.path p) := by
  rw [answer, datapath_out, runtime_unset hk']
  have key : ∀ h' : List Call, ∀ s : St, s.didLib = true → s.lib = p →
      (run c h' s).didLib = true ∧ (run c h' s).lib = p := by
    intro h'
    induction h' with
    | nil => intro s h1 h2; exact ⟨h1, h2⟩
    | cons m ms ih =>
      intro s h1 h2
      rw [run, datapath_state]
      rcases set_or_unset m.env with hu | ⟨e, he⟩
      · rw [runtime_unset hu, libCall, if_pos h1]
        exact ih s h1 h2
      · rw [runtime_set he]
        obtain ⟨g1, g2⟩ := env_keeps_lib m.w e s
        exact ih _ (g1.trans h1) (g2.trans h2)
  obtain ⟨fs, hfs, hw⟩ := hs
  unfold Found at hf
  rw [runtime_unset hk, hw] at hf
  obtain ⟨g1, g2⟩ := lib_after hfs (run c h {})
  rw [run_append, run, datapath_state, runtime_unset hk, hw]
  obtain ⟨r1, r2⟩ := key h' _ (g1.2 ⟨p, hf⟩) (g2 p hf)
  rw [libCall, if_pos r1, r2]

/-- As long as every earlier call without the variable failed, a call looks into the file system again. -/
theorem lib_looks (c : Cfg) (h : List Call) (k' : Call) (fs : FS) (hfs : Sane c fs) (hk' : Unset k'.env)
    (hw : k'.w = fun _ => fs) (hs : ∀ k ∈ h, Steady c k)
    (hh : ∀ h1 k h2, h = h1 ++ k :: h2 → Unset k.env → ¬ ∃ p, Found c h1 k p) :
    ∃ o, Resolves c fs k'.env o ∧ answer c h k' = inDir k'.file o := by
  refine ⟨(runtime c k'.w k'.env (run c h {})).2, ?_, datapath_out ..⟩
  · rw [runtime_unset hk', hw]
    refine fresh_lib hfs hk' _ ?_
    have key : ∀ h2 h1 : List Call, h = h1 ++ h2 → (run c h1 {}).didLib = false →
        (run c h {}).didLib = false := by
      intro h2
      induction h2 with
      | nil => intro h1 hh1 h; rw [hh1, List.append_nil]; exact h
      | cons k ks ih =>
        intro h1 hh1 hd
        refine ih (h1 ++ [k]) (by rw [hh1]; simp) ?_
        rw [run_snoc]
        rcases set_or_unset k.env with hu | ⟨e, he⟩
        · obtain ⟨fs', hfs', hw'⟩ := hs k (by rw [hh1]; simp)
          have hn := hh h1 k ks hh1 hu
          unfold Found at hn
          rw [runtime_unset hu, hw'] at hn
          rw [runtime_unset hu, hw']
          by_contra hc
          exact hn ((lib_after hfs' _).1.1 (by simpa using hc))
        · rw [runtime_set he, (env_keeps_lib k.w e _).1]
          exact hd
    exact key h [] rfl rfl

/-- In a file system that does not change, the answer depends only on the variable and the file name, not
on earlier calls, failed or not. -/
theorem datapath_pure (c : Cfg) (fs : FS) (hfs : Sane c fs) (h : List Call) (k : Call)
    (hw : ∀ m ∈ k :: h, m.w = fun _ => fs) :
    ∃ o, Resolves c fs k.env o ∧ answer c h k = inDir k.file o := by
  -- what is remembered is what the specification gives
  have inv : ∀ h : List Call, (∀ m ∈ h, m.w = fun _ => fs) →
      ((run c h {}).didEnv = true → (run c h {}).dprt ≠ [] ∧
        Resolves c fs (some (run c h {}).dprt) (.path (run c h {}).env)) ∧
      ((run c h {}).didLib = true → Resolves c fs none (.path (run c h {}).lib)) := by
    intro h
    induction h using List.reverseRecOn with
    | nil => intro _; exact ⟨fun h => absurd h (by simp [run]), fun h => absurd h (by simp [run])⟩
    | append_singleton h m ih =>
      intro hm
      obtain ⟨i1, i2⟩ := ih (fun m hm' => hm m (by simp [hm']))
      have hmw := hm m (by simp)
      rw [run_snoc, hmw]
      rcases set_or_unset m.env with hu | ⟨e, he⟩
      · rw [runtime_unset hu]
        obtain ⟨g1, g2, g3⟩ := lib_keeps_env c (fun _ => fs) (run c h {})
        rw [g1, g2, g3]
        refine ⟨i1, fun hd => ?_⟩
        cases hl : (run c h {}).didLib
        · obtain ⟨p, hp⟩ := (lib_after hfs (run c h {})).1.1 hd
          rw [(lib_after hfs (run c h {})).2 p hp]
          have := fresh_lib hfs (Or.inl rfl : Unset none) (run c h {}) hl
          rwa [hp] at this
        · rw [libCall, if_pos hl]; exact i2 hl
      · rw [runtime_set he]
        obtain ⟨g1, g2⟩ := env_keeps_lib (fun _ => fs) e (run c h {})
        rw [g1, g2]
        refine ⟨fun hd => ?_, i2⟩
        obtain ⟨r1, r2, r3⟩ := env_after (fun _ => fs) e (run c h {})
        by_cases hc : (run c h {}).didEnv = true ∧ (run c h {}).dprt = e
        · rw [cached_env _ _ _ hc.1 hc.2]; exact i1 hc.1
        · obtain ⟨p, hp⟩ := r2.1 hd
          rw [r1, r3 p hp]
          have := fresh_env hfs (⟨rfl, he.2⟩ : Set (some e) e) (run c h {}) hc
          rw [hp] at this
          exact ⟨he.2, this⟩
  obtain ⟨i1, i2⟩ := inv h (fun m hm => hw m (by simp [hm]))
  refine ⟨(runtime c k.w k.env (run c h {})).2, ?_, datapath_out ..⟩
  · rw [hw k (by simp)]
    rcases set_or_unset k.env with hu | ⟨e, he⟩
    · rw [runtime_unset hu]
      cases hl : (run c h {}).didLib
      · exact fresh_lib hfs hu _ hl
      · rw [libCall, if_pos hl]
        cases i2 hl with
        | env hs => cases hs.1
        | first _ h1 h2 => exact .first hu h1 h2
        | second _ h1 h2 h3 h4 => exact .second hu h1 h2 h3 h4
    · rw [runtime_set he]
      by_cases hc : (run c h {}).didEnv = true ∧ (run c h {}).dprt = e
      · rw [cached_env _ _ _ hc.1 hc.2]
        have := (i1 hc.1).2
        rw [hc.2] at this
        rw [he.1]; exact this
      · exact fresh_env hfs he _ hc

/-- An answer is an existing directory, an error names a missing one, and neither is undefined behaviour, in
a steady file system. -/
theorem answer_sound (c : Cfg) (fs : FS) (hfs : Sane c fs) (h : List Call) (k : Call)
    (hw : ∀ m ∈ k :: h, m.w = fun _ => fs) :
    (∃ d p, fs.isdir d = true ∧ fs.real d = some p ∧
        answer c h k = .path (if k.file = [] then p else p ++ ['/'] ++ k.file)) ∨
    ∃ d, fs.isdir d = false ∧ answer c h k = .noDir d := by
  obtain ⟨o, ho, ha⟩ := datapath_pure c fs hfs h k hw
  rw [ha]
  cases ho with
  | env _ _ h1 h2 => exact Or.inl ⟨_, _, h1, h2, rfl⟩
  | envBad _ _ h1 => exact Or.inr ⟨_, h1, rfl⟩
  | first _ h1 h2 => exact Or.inl ⟨_, _, h1, h2, rfl⟩
  | second _ _ _ h1 h2 => exact Or.inl ⟨_, _, h1, h2, rfl⟩
  | neither _ h1 => exact Or.inr ⟨_, h1, rfl⟩

/-- When another process creates the directory of the first candidate during a failing search, the call
returns without an error an empty directory: the answer for a file `f` is the absolute path `/f`. -/
theorem race_bug (c : Cfg) (w : Nat → FS) (f l : Path) (hf : f ≠ [])
    (h0 : (w 0).isdir (cand1 c) = false) (h1 : (w 1).real c.lib = some l) (h2 : (w 2).isdir (cand2 c l) = false)
    (h3 : (w 3).isdir (cand1 c) = true) :
    answer c [] ⟨w, none, f⟩ = .path ('/' :: f) := by
  rw [answer, datapath_out]
  show inDir f (libCall c w {}).2 = _
  unfold libCall
  rw [if_neg (by simp), h0, h1]
  simp only [Bool.false_eq_true, if_false, h2, h3, if_true, inDir, hf]
  rfl

/-- When the directory disappears between the test and the conversion to a canonical path, a string is made
from a null pointer. -/
theorem race_crash_bug (c : Cfg) (w : Nat → FS) (e f : Path) (he : e ≠ [])
    (h0 : (w 0).isdir (stripSlashes e) = true) (h1 : (w 1).real (stripSlashes e) = none) :
    answer c [] ⟨w, some e, f⟩ = .crash := by
  rw [answer, datapath_out]
  show inDir f (runtime c w (some e) {}).2 = _
  rw [runtime_set ⟨rfl, he⟩]
  unfold envCall
  simp only [Bool.false_and, Bool.false_eq_true, if_false, h0, h1, if_true, inDir]

/-! ### Examples -/

/-- A file system with the directories `/a`, its link `/b`, and `/`. -/
def exFS : FS where
  isdir d := d = "/a".toList || d = "/b".toList || d = "/".toList || d = "/lib/rel".toList
  real d := if d = "/b".toList then some "/a".toList else some d

/-- The library is `/lib/x`, its data are in `/lib/rel`. -/
def exCfg : Cfg where
  rel := "rel".toList
  lib := "/lib/x".toList
  dirname _ := "/lib".toList

theorem exSane : Sane exCfg exFS := by
  refine ⟨fun d _ => ?_, ?_⟩
  · unfold exFS
    dsimp only
    split <;> rfl
  · rfl

/-- A history with a valid value, an invalid one and the variable unset, then a link with slashes. -/
example : answer exCfg
    [⟨fun _ => exFS, some "/a".toList, []⟩, ⟨fun _ => exFS, some "/c".toList, []⟩, ⟨fun _ => exFS, none, []⟩]
    ⟨fun _ => exFS, some "/b//".toList, "f".toList⟩ = .path "/a/f".toList := by decide +kernel

example : answer exCfg [] ⟨fun _ => exFS, none, "f".toList⟩ = .path "/lib/rel/f".toList := by decide +kernel

example : answer exCfg [] ⟨fun _ => exFS, some "/c/".toList, "f".toList⟩ = .noDir "/c".toList := by decide +kernel

example : stripSlashes "///".toList = "/".toList := by decide +kernel

/-- The hypotheses of `env_sticky` are met by a directory that disappears. -/
example : answer exCfg [⟨fun _ => exFS, some "/b".toList, []⟩]
    ⟨fun _ => ⟨fun _ => false, fun _ => none⟩, some "/b".toList, []⟩ = .path "/a".toList :=
  env_sticky exCfg [] [] ⟨fun _ => exFS, some "/b".toList, []⟩ ⟨fun _ => ⟨fun _ => false, fun _ => none⟩, some "/b".toList, []⟩
    "/b".toList "/a".toList ⟨rfl, by decide⟩ ⟨rfl, by decide⟩ (by unfold Found; decide +kernel) (by simp)

/-- The hypotheses of `race_bug` are met: the directory appears at the fourth access. -/
example : answer exCfg [] ⟨fun n => ⟨fun d => decide (n = 3) && decide (d = cand1 exCfg), fun d => some d⟩, none, "f".toList⟩ =
    .path "/f".toList :=
  race_bug exCfg _ _ "/lib/x".toList (by decide) (by simp) rfl (by simp) (by simp)

end Verif.RtPath
