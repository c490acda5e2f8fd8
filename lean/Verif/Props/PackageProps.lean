import Mathlib.Data.List.Basic
import Mathlib.Tactic.ByContra
import Verif.Base.CharList
import Verif.Spec.PackageSpec

/-!
# C93: the file of a task is imported under its own name

`get_func` loads a file under a module name and puts a directory on `sys.path`.  Files of packages: the directory is the
one above the package, and importing the name from there takes the file.  Files outside of packages are loaded under a
name that no import finds, and a relative path may have no package root although the file has one.
-/

namespace Rocketry.Props

open Rocketry Spec Package

/-- The ancestors from the nearest, by the number of names kept. -/
def ancestors (p : FPath) : Nat → List FPath
  | 0 => []
  | n + 1 => { p with names := p.names.take n } :: ancestors p n

theorem parents_eq (p : FPath) : p.parents = ancestors p p.names.length := by
  rw [FPath.parents]
  generalize p.names.length = n
  induction n with
  | zero => rfl
  | succ n ih => rw [List.range_succ, List.reverse_append, ancestors, ← ih]; rfl

theorem findLoop_root {isFile : FPath → Bool} {p r : FPath} : ∀ (n : Nat) (first : Bool),
    findLoop isFile first (ancestors p n) = .root r ↔
      ∃ k, k < n ∧ (first = true → k + 1 < n) ∧ r = { p with names := p.names.take k } ∧ isFile (r.child initName) = false ∧
        ∀ j, k < j → j < n → isFile (({ p with names := p.names.take j } : FPath).child initName) = true
  | 0, first => by
    refine ⟨fun h => ?_, fun ⟨k, h, _⟩ => absurd h (Nat.not_lt_zero k)⟩
    simp [ancestors, findLoop] at h
  | n + 1, first => by
    rw [ancestors, findLoop]
    by_cases hf : isFile (({ p with names := p.names.take n } : FPath).child initName) = true
    · rw [hf]
      simp only [Bool.not_true, Bool.false_eq_true, if_false]
      rw [findLoop_root n false]
      constructor
      · rintro ⟨k, h1, _, h3, h4, h5⟩
        refine ⟨k, by omega, fun _ => by omega, h3, h4, ?_⟩
        intro j j1 j2
        by_cases hj : j = n
        · subst hj; exact hf
        · exact h5 j j1 (by omega)
      · rintro ⟨k, h1, h2, h3, h4, h5⟩
        have : k ≠ n := by
          rintro rfl
          rw [h3] at h4
          rw [h4] at hf
          cases hf
        exact ⟨k, by omega, (fun h => nomatch h), h3, h4, fun j j1 j2 => h5 j j1 (by omega)⟩
    · have hf' : isFile (({ p with names := p.names.take n } : FPath).child initName) = false := by simpa using hf
      rw [hf']
      simp only [Bool.not_false, if_true]
      cases first with
      | true =>
        rw [if_pos rfl]
        refine ⟨fun h => (by cases h), ?_⟩
        rintro ⟨k, h1, h2, h3, h4, h5⟩
        have := h5 n (by have := h2 rfl; omega) (by omega)
        rw [hf'] at this
        cases this
      | false =>
        rw [if_neg (by simp)]
        constructor
        · intro h
          cases h
          exact ⟨n, by omega, (fun h => nomatch h), rfl, hf', fun j j1 j2 => by omega⟩
        · rintro ⟨k, h1, _, h3, h4, h5⟩
          have : k = n := by
            by_contra hk
            have := h5 n (by omega) (by omega)
            rw [hf'] at this
            cases this
          subst this
          rw [h3]

theorem findLoop_missing {isFile : FPath → Bool} {p : FPath} : ∀ (n : Nat) (first : Bool),
    findLoop isFile first (ancestors p n) = .missing ↔
      ∀ j, j < n → isFile (({ p with names := p.names.take j } : FPath).child initName) = true
  | 0, first => by
    refine ⟨fun _ j hj => absurd hj (Nat.not_lt_zero j), fun _ => by simp [ancestors, findLoop]⟩
  | n + 1, first => by
    rw [ancestors, findLoop]
    by_cases hf : isFile (({ p with names := p.names.take n } : FPath).child initName) = true
    · rw [hf]
      simp only [Bool.not_true, Bool.false_eq_true, if_false]
      rw [findLoop_missing n false]
      constructor
      · intro h j hj
        by_cases hjn : j = n
        · subst hjn; exact hf
        · exact h j (by omega)
      · intro h j hj
        exact h j (by omega)
    · have hf' : isFile (({ p with names := p.names.take n } : FPath).child initName) = false := by simpa using hf
      rw [hf']
      simp only [Bool.not_false, if_true]
      refine ⟨fun h => by cases first <;> simp at h, fun h => ?_⟩
      have := h n (by omega)
      rw [hf'] at this
      cases this

/-- C93: the root that is found is the directory above the package of the file, for every file system and path. -/
theorem C93_root (isFile : FPath → Bool) (p r : FPath) :
    findPackageRoot isFile p = .root r ↔ PackageRootOf isFile r p := by
  rw [findPackageRoot, parents_eq, findLoop_root]
  constructor
  · rintro ⟨k, h1, h2, rfl, h4, h5⟩
    have hk := h2 rfl
    have hne : p.names.drop k ≠ [] := by
      intro h
      have := congrArg List.length h
      simp at this
      omega
    refine ⟨(p.names.drop k).dropLast, (p.names.drop k).getLast hne, ?_, ?_, ?_, ?_⟩
    · intro h
      have := congrArg List.length h
      simp at this
      omega
    · rw [List.dropLast_append_getLast]
      simp [under]
    · rw [IsPackage]
      simpa [FPath.child, under] using h4
    · intro j hj
      rw [List.length_dropLast, List.length_drop] at hj
      have := h5 (k + j + 1) (by omega) (by omega)
      rw [IsPackage]
      have e : (p.names.drop k).dropLast.take (j + 1) = (p.names.drop k).take (j + 1) := by
        rw [List.dropLast_eq_take, List.take_take, List.length_drop]
        congr 1
        omega
      rw [e]
      have e2 : p.names.take (k + j + 1) = p.names.take k ++ (p.names.drop k).take (j + 1) := by
        rw [show k + j + 1 = k + (j + 1) by omega, List.take_add]
      rw [e2] at this
      simpa [under, FPath.child] using this
  · rintro ⟨dirs, file, h1, rfl, h3, h4⟩
    have hl : 0 < dirs.length := List.length_pos_iff.2 h1
    refine ⟨r.names.length, ?_, ?_, ?_, ?_, ?_⟩
    · simp only [under, List.length_append, List.length_singleton]; omega
    · intro _; simp only [under, List.length_append, List.length_singleton]; omega
    · simp [under]
    · simpa [IsPackage, FPath.child, under] using h3
    · intro j j1 j2
      simp only [under, List.length_append, List.length_singleton] at j2
      have := h4 (j - r.names.length - 1) (by omega)
      rw [IsPackage] at this
      have e : (r.names ++ (dirs ++ [file])).take j = r.names ++ dirs.take (j - r.names.length) := by
        rw [List.take_append, List.take_of_length_le (by omega), List.take_append,
          show j - r.names.length - dirs.length = 0 by omega]
        simp
      simp only [under, FPath.child] at this ⊢
      rw [e]
      rw [show j - r.names.length - 1 + 1 = j - r.names.length by omega] at this
      simpa using this

/-- C93: an absolute path has a package root or is in no package, unless the root of the file system is a package. -/
theorem C93_absolute (isFile : FPath → Bool) (p : FPath) (hn : p.names ≠ []) (hr : ¬ IsPackage isFile ⟨p.abs, []⟩) :
    findPackageRoot isFile p ≠ .missing := by
  rw [findPackageRoot, parents_eq]
  intro h
  rw [findLoop_missing] at h
  have := h 0 (List.length_pos_iff.2 hn)
  rw [List.take_zero] at this
  exact hr this

theorem suffix_py {stem : List Char} (h : stem ≠ []) : (stem ++ ['.', 'p', 'y']).take
    ((stem ++ ['.', 'p', 'y']).length - suffixLen (stem ++ ['.', 'p', 'y'])) = stem := by
  have hl : 0 < stem.length := List.length_pos_iff.2 h
  have : suffixLen (stem ++ ['.', 'p', 'y']) = 3 := by
    have ht : (stem ++ ['.', 'p', 'y']).reverse.takeWhile (fun c => decide (c ≠ '.')) = ['y', 'p'] := by
      rw [List.reverse_append]
      simp
    rw [suffixLen, ht, if_pos]
    · rfl
    · simp only [List.length_append, List.length_cons, List.length_nil]
      omega
  rw [this]
  simp

/-- C93: a file `….py` of a package is loaded under the name by which Python imports it from the directory that is put on
`sys.path`.  `dirs` are the names of the directories of the package. -/
theorem C93_module_partial (isFile : FPath → Bool) (cwd : List (List Char)) (p r : FPath) (name : List Char)
    (h : getFunc isFile cwd p = some (r, name)) (dirs : List (List Char)) (stem : List Char)
    (hp : p = under r (dirs ++ [stem ++ ['.', 'p', 'y']])) (hpk : findPackageRoot isFile p = .root r)
    (hs : stem ≠ []) (hd : ∀ d ∈ dirs ++ [stem], '.' ∉ d) :
    ImportsFrom isFile r name p ∧ ¬ IsPackage isFile r := by
  rw [getFunc, hpk] at h
  simp only [Option.some.injEq, Prod.mk.injEq, true_and] at h
  obtain ⟨dirs', file, _, h2, h3, h4⟩ := (C93_root isFile p r).1 hpk
  have hdirs : dirs' = dirs := by
    rw [hp] at h2
    simp only [under, FPath.mk.injEq, List.append_cancel_left_eq, true_and] at h2
    have := congrArg List.dropLast h2
    simpa using this.symm
  subst hdirs
  refine ⟨⟨dirs', stem, ?_, h4, hp⟩, h3⟩
  rw [← h, moduleName]
  have : p.noSuffix.parts.drop r.parts.length = dirs' ++ [stem] := by
    subst hp
    rw [FPath.noSuffix]
    simp only [under]
    rw [show r.names ++ (dirs' ++ [stem ++ ['.', 'p', 'y']]) = (r.names ++ dirs') ++ [stem ++ ['.', 'p', 'y']] by simp]
    rw [List.dropLast_concat, List.getLast?_concat]
    simp only [Option.map_some, Option.toList_some, suffix_py hs, FPath.parts]
    rw [show (if r.abs = true then [['/']] else []) ++ (r.names ++ dirs' ++ [stem]) =
      ((if r.abs = true then [['/']] else []) ++ r.names) ++ (dirs' ++ [stem]) by simp, List.drop_left]
  rw [this]
  exact splitChar_join (by simp) hd

/-- Splitting never gives fewer parts than dots and one more. -/
theorem splitChar_py {stem : List Char} (h : '.' ∉ stem) : splitChar '.' (stem ++ ['.', 'p', 'y']) = [stem, ['p', 'y']] := by
  rw [splitChar_cons _ h]
  rfl

/-- C93 does not hold for files outside of packages: the directory of the file is appended to the path, but their module is named after the file with its suffix, and no import
of that name takes the file, from no directory. -/
theorem C93_alone_violated (isFile : FPath → Bool) (cwd : List (List Char)) (dirs : List (List Char)) (a : Bool)
    (stem : List Char) (hs : '.' ∉ stem) (hp : ¬ IsPackage isFile ⟨a, dirs⟩) :
    getFunc isFile cwd ⟨a, dirs ++ [stem ++ ['.', 'p', 'y']]⟩ =
        some (if a then ⟨true, dirs⟩ else ⟨true, cwd ++ dirs⟩, stem ++ ['.', 'p', 'y']) ∧
      ∀ r', ¬ ImportsFrom isFile r' (stem ++ ['.', 'p', 'y']) ⟨a, dirs ++ [stem ++ ['.', 'p', 'y']]⟩ := by
  have hf : findPackageRoot isFile ⟨a, dirs ++ [stem ++ ['.', 'p', 'y']]⟩ = .none := by
    have hp' : isFile (FPath.child ⟨a, dirs⟩ initName) = false := by
      simpa [IsPackage, under, FPath.child] using hp
    rw [findPackageRoot, parents_eq]
    simp only [List.length_append, List.length_singleton]
    rw [ancestors, findLoop]
    simp only [List.take_left', hp', Bool.not_false, if_true]
  refine ⟨by rw [getFunc, hf]; cases a <;> simp [moduleName, FPath.parent, FPath.absolute], ?_⟩
  rintro r' ⟨pkgs, last, h1, h2, h3⟩
  rw [splitChar_py hs] at h1
  have h4 : pkgs = [stem] := by
    have := congrArg List.dropLast h1
    simpa using this.symm
  subst h4
  have h5 := h2 0 (by simp)
  apply hp
  simp only [under, FPath.mk.injEq] at h3
  have h6 : dirs = r'.names ++ [stem] := by
    have := congrArg List.dropLast h3.2
    rw [List.dropLast_concat, ← List.append_assoc, List.dropLast_concat] at this
    exact this
  rw [h6, h3.1]
  exact h5

/-! ### a file system -/

/-- The files of a disc by their absolute names; relative paths begin in the working directory. -/
def onDisc (files : List (List (List Char))) (cwd : List (List Char)) (p : FPath) : Bool :=
  decide ((p.absolute cwd).names ∈ files)

/-- A project with a package: `/home/pkg/__init__.py`, `/home/pkg/sub/__init__.py`, `/home/pkg/sub/tasks.py` and
`/home/pkg/sub/a.b.py`. -/
def sampleFiles : List (List (List Char)) :=
  [[c!"home", c!"pkg", initName], [c!"home", c!"pkg", c!"sub", initName], [c!"home", c!"pkg", c!"sub", c!"tasks.py"],
   [c!"home", c!"pkg", c!"sub", c!"a.b.py"]]

/-- A case for C93: from `/home`, the file is loaded as `pkg.sub.tasks`. -/
example : getFunc (onDisc sampleFiles [c!"home"]) [c!"home"] ⟨true, [c!"home", c!"pkg", c!"sub", c!"tasks.py"]⟩ =
    some (⟨true, [c!"home"]⟩, c!"pkg.sub.tasks") := by decide

example : getFunc (onDisc sampleFiles [c!"home"]) [c!"home"] ⟨false, [c!"pkg", c!"sub", c!"tasks.py"]⟩ =
    some (⟨false, []⟩, c!"pkg.sub.tasks") := by decide

/-- C93 does not hold for relative paths inside a package: with the working directory `/home/pkg`, `sub/tasks.py` is refused
with FileExistsError ("No package root found."), although the file is in a package with the root `/home`, which the
absolute path finds. -/
theorem C93_relative_violated :
    getFunc (onDisc sampleFiles [c!"home", c!"pkg"]) [c!"home", c!"pkg"] ⟨false, [c!"sub", c!"tasks.py"]⟩ = none ∧
    (FPath.absolute [c!"home", c!"pkg"] ⟨false, [c!"sub", c!"tasks.py"]⟩) = ⟨true, [c!"home", c!"pkg", c!"sub", c!"tasks.py"]⟩ ∧
    getFunc (onDisc sampleFiles [c!"home", c!"pkg"]) [c!"home", c!"pkg"] ⟨true, [c!"home", c!"pkg", c!"sub", c!"tasks.py"]⟩ =
      some (⟨true, [c!"home"]⟩, c!"pkg.sub.tasks") := by decide

/-- C93 does not hold for file names with a dot: `a.b.py` is loaded as `pkg.sub.a.b`, which names the file `a/b.py`. -/
theorem C93_dot_violated :
    getFunc (onDisc sampleFiles []) [] ⟨true, [c!"home", c!"pkg", c!"sub", c!"a.b.py"]⟩ =
      some (⟨true, [c!"home"]⟩, c!"pkg.sub.a.b") ∧
    ¬ ImportsFrom (onDisc sampleFiles []) ⟨true, [c!"home"]⟩ c!"pkg.sub.a.b" ⟨true, [c!"home", c!"pkg", c!"sub", c!"a.b.py"]⟩ := by
  refine ⟨by decide, ?_⟩
  rintro ⟨pkgs, last, h1, _, h3⟩
  rw [show splitChar '.' c!"pkg.sub.a.b" = [c!"pkg", c!"sub", c!"a"] ++ [c!"b"] by decide] at h1
  have h4 : pkgs = [c!"pkg", c!"sub", c!"a"] := by
    have := congrArg List.dropLast h1
    rw [List.dropLast_concat, List.dropLast_concat] at this
    exact this.symm
  subst h4
  simp only [under, FPath.mk.injEq] at h3
  have := congrArg List.length h3.2
  simp at this

/-- C93: a name whose only dot comes first has no suffix: a file `.py` of a package is not loaded under the name of its
directory. -/
theorem C93_hidden (a : Bool) (dirs : List (List Char)) (stem : List Char) (h : '.' ∉ stem) :
    FPath.noSuffix ⟨a, dirs ++ ['.' :: stem]⟩ = ⟨a, dirs ++ ['.' :: stem]⟩ := by
  have h1 : suffixLen ('.' :: stem) = 0 := by
    have h2 : (('.' :: stem).reverse.takeWhile fun c => decide (c ≠ '.')) = stem.reverse := by
      rw [List.reverse_cons, List.takeWhile_append_of_pos]
      · simp
      · intro c hc
        simp only [ne_eq, decide_eq_true_eq]
        rintro rfl
        exact h (List.mem_reverse.1 hc)
    rw [suffixLen, h2, if_neg]
    simp only [List.length_reverse, List.length_cons]
    omega
  rw [FPath.noSuffix]
  simp [h1]

example : getFunc (onDisc sampleFiles []) [] ⟨true, [c!"home", c!"pkg", c!"sub", c!".py"]⟩ =
    some (⟨true, [c!"home"]⟩, c!"pkg.sub..py") := by decide

end Rocketry.Props
