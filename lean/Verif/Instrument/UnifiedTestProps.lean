/-
C62: unified tests.
-/
import Verif.Instrument.UnifiedTestSpec
import Mathlib.Data.List.Nodup

namespace Verif.Instrument.Unified
open Verif.Support (Str digit_toDigits)

/-! ### Names with numbers -/

theorem digits_free (n : Nat) : '_' ∉ Nat.toDigits 10 n := by
  intro h
  have := digit_toDigits h
  revert this; decide

theorem digits_inj {m n : Nat} (h : Nat.toDigits 10 m = Nat.toDigits 10 n) : m = n := by
  have := congrArg (Nat.ofDigitChars 10 · 0) h
  simpa using this

theorem last_split {a b r s : Str} (hr : '_' ∉ r) (hs : '_' ∉ s) (h : a ++ '_' :: r = b ++ '_' :: s) : a = b ∧ r = s := by
  induction a generalizing b with
  | nil =>
    cases b with
    | nil => simpa using h
    | cons c b =>
      simp at h
      rw [h.2] at hr
      exact absurd (by simp : '_' ∈ b ++ '_' :: s) hr
  | cons c a ih =>
    cases b with
    | nil =>
      simp at h
      rw [← h.2] at hs
      exact absurd (by simp : '_' ∈ a ++ '_' :: r) hs
    | cons d b =>
      simp at h
      obtain ⟨x, y⟩ := ih h.2
      simp [h.1, x, y]

theorem numbered_inj {n m : Str} {j k : Nat} (h : numbered n j = numbered m k) : n = m ∧ j = k := by
  obtain ⟨a, b⟩ := last_split (digits_free j) (digits_free k) h
  exact ⟨a, digits_inj b⟩

/-- The name of the `j`-th test called `n`, from 0. -/
def nth (x : Str × Nat) : Str := if x.2 > 0 then numbered x.1 x.2 else x.1

/-- The names with the number of earlier ones, counting from `c`. -/
def nums (c : Str → Nat) : List Str → List (Str × Nat)
  | [] => []
  | n :: ns => (n, c n) :: nums (fun m => if m = n then c m + 1 else c m) ns

theorem mem_nums (ns : List Str) : ∀ (c : Str → Nat) (n : Str) (j : Nat),
    (n, j) ∈ nums c ns ↔ c n ≤ j ∧ j < c n + ns.count n := by
  induction ns with
  | nil => intro c n j; simp [nums]
  | cons m ns ih =>
    intro c n j
    simp only [nums, List.mem_cons, Prod.mk.injEq, ih, List.count_cons]
    rcases Classical.em (n = m) with e | e
    · subst e; simp; omega
    · simp [e, Ne.symm e]

theorem nums_nodup (ns : List Str) : ∀ c : Str → Nat, (nums c ns).Nodup := by
  induction ns with
  | nil => intro c; simp [nums]
  | cons m ns ih =>
    intro c
    simp only [nums, List.nodup_cons, mem_nums]
    exact ⟨by simp; omega, ih _⟩

theorem nth_nodup (ns : List Str) : ((nums (fun _ => 0) ns).map nth).Nodup ↔ NoClash ns := by
  rw [List.nodup_map_iff_inj_on (nums_nodup ns _)]
  constructor
  · intro h n j hj hc hm
    have a := h (numbered n j, 0) (by rw [mem_nums]; simp; exact hm)
      (n, j) (by rw [mem_nums]; simp; exact hc) (by simp [nth, hj])
    simp at a; omega
  · rintro h ⟨n, j⟩ hn ⟨m, k⟩ hm e
    rw [mem_nums] at hn hm
    simp at hn hm
    simp only [nth] at e
    split at e
    · rename_i hj
      split at e
      · obtain ⟨a, b⟩ := numbered_inj e; simp [a, b]
      · exfalso
        apply h n j hj hn
        rw [e]; exact List.count_pos_iff.mp (by omega)
    · rename_i hj
      split at e
      · rename_i hk
        exfalso
        apply h m k hk hm
        rw [← e]; exact List.count_pos_iff.mp (by omega)
      · have : j = k := by omega
        simp [e, this]

/-! ### The renaming -/

/-- The tests of all packages, one after the other. -/
def flat : List Pkg → Nat → List (Nat × Pkg × Str)
  | [], _ => []
  | p :: ps, i => p.tests.map (fun n => (i, p, n)) ++ flat ps (i + 1)

def toTest (x : (Nat × Pkg × Str) × (Str × Nat)) : Test :=
  { idx := x.1.1, pkg := x.1.2.1, name := nth x.2, ref := x.1.2.2 }

theorem get_cons (d : Dups) (n m : Str) (k : Nat) : Dups.get ((n, k) :: d) m = if m = n then k else d.get m := by
  simp only [Dups.get, List.lookup_cons]
  rcases Classical.em (m = n) with e | e
  · simp [e]
  · have : (m == n) = false := by simpa using e
    simp [this, e]

/-- Counters after some names. -/
def after (c : Str → Nat) : List Str → Str → Nat
  | [] => c
  | n :: ns => after (fun m => if m = n then c m + 1 else c m) ns

theorem nums_append (a b : List Str) : ∀ c, nums c (a ++ b) = nums c a ++ nums (after c a) b := by
  induction a with
  | nil => intro c; rfl
  | cons n a ih => intro c; simp [nums, after, ih]

theorem nums_length (a : List Str) : ∀ c, (nums c a).length = a.length := by
  induction a with
  | nil => intro c; rfl
  | cons n a ih => intro c; simp [nums, ih]

theorem renameTests_eq (i : Nat) (p : Pkg) (ns : List Str) : ∀ (d : Dups) (c : Str → Nat), d.get = c →
    (renameTests i p ns d).1 = ((ns.map fun n => (i, p, n)).zip (nums c ns)).map toTest ∧
    (renameTests i p ns d).2.get = after c ns := by
  induction ns with
  | nil => intro d c h; exact ⟨rfl, h⟩
  | cons n ns ih =>
    intro d c h
    have hg : Dups.get ((n, d.get n + 1) :: d) = fun m => if m = n then c m + 1 else c m := by
      funext m
      rw [get_cons, h]
      split
      · rename_i e; rw [e]
      · rfl
    obtain ⟨a, b⟩ := ih _ _ hg
    refine ⟨?_, ?_⟩
    · simp only [renameTests, nums, List.map_cons, List.zip_cons_cons]
      rw [a]
      congr 1
      simp only [toTest, nth]
      rw [h]
    · simp only [renameTests]
      rw [b]; rfl

theorem flat_names : ∀ (ps : List Pkg) (i : Nat), (flat ps i).map (fun x => x.2.2) = ps.flatMap Pkg.tests := by
  intro ps
  induction ps with
  | nil => intro i; rfl
  | cons p ps ih => intro i; simp [flat, ih, Function.comp_def]

theorem renamePkgs_eq (ps : List Pkg) : ∀ (i : Nat) (d : Dups) (c : Str → Nat), d.get = c →
    renamePkgs ps i d = ((flat ps i).zip (nums c ((flat ps i).map fun x => x.2.2))).map toTest := by
  induction ps with
  | nil => intro i d c h; rfl
  | cons p ps ih =>
    intro i d c h
    obtain ⟨a, b⟩ := renameTests_eq i p p.tests d c h
    simp only [renamePkgs, flat, List.map_append, List.map_map, Function.comp_def]
    rw [a, ih (i + 1) _ _ b]
    have hm : (p.tests.map fun x => x) = p.tests := by simp
    rw [hm, nums_append, List.zip_append (by simp [nums_length]), List.map_append]

/-- All tests of the unified package. -/
def unifiedTests (pkgs : List Pkg) : List Test := renamePkgs (pkgs.filter fun p => !p.alone) 0 []

theorem unifiedTests_eq (pkgs : List Pkg) : unifiedTests pkgs =
    ((flat (pkgs.filter fun p => !p.alone) 0).zip (nums (fun _ => 0) (togetherNames pkgs))).map toTest := by
  unfold unifiedTests
  rw [renamePkgs_eq _ 0 [] (fun _ => 0) (by funext m; rfl), flat_names]
  rfl

theorem flat_length (ps : List Pkg) (i : Nat) : (flat ps i).length = (ps.flatMap Pkg.tests).length := by
  rw [← flat_names ps i]; simp

theorem names_eq (pkgs : List Pkg) :
    (unifiedTests pkgs).map Test.name = (nums (fun _ => 0) (togetherNames pkgs)).map nth := by
  rw [unifiedTests_eq, List.map_map]
  have : Test.name ∘ toTest = nth ∘ Prod.snd := by funext x; rfl
  rw [this, ← List.map_map, List.map_snd_zip]
  rw [nums_length, flat_length]; exact Nat.le_refl _

theorem refs_eq (pkgs : List Pkg) :
    (unifiedTests pkgs).map (fun t => (t.idx, t.pkg, t.ref)) = flat (pkgs.filter fun p => !p.alone) 0 := by
  rw [unifiedTests_eq, List.map_map]
  have : (fun t : Test => (t.idx, t.pkg, t.ref)) ∘ toTest = Prod.fst := by funext x; rfl
  rw [this, List.map_fst_zip]
  rw [nums_length, flat_length]; exact Nat.le_refl _

/-- **C62.** The names of the unified tests are all different exactly if no test has a name that another one gets. -/
theorem C62_names (pkgs : List Pkg) : ((unifiedTests pkgs).map Test.name).Nodup ↔ NoClash (togetherNames pkgs) := by
  rw [names_eq, nth_nodup]

theorem flat_mem (ps : List Pkg) : ∀ (i : Nat) (x : Nat × Pkg × Str), x ∈ flat ps i →
    ∃ k, x.1 = i + k ∧ ps[k]? = some x.2.1 ∧ x.2.2 ∈ x.2.1.tests := by
  induction ps with
  | nil => intro i x h; simp [flat] at h
  | cons p ps ih =>
    intro i x h
    simp only [flat, List.mem_append, List.mem_map] at h
    rcases h with ⟨n, hn, rfl⟩ | h
    · exact ⟨0, rfl, rfl, hn⟩
    · obtain ⟨k, a, b, c⟩ := ih (i + 1) x h
      exact ⟨k + 1, by omega, by simpa using b, c⟩

/-- **C62.** Each unified test calls a test function of its own package: the alias number is the package's position. -/
theorem C62_alias (pkgs : List Pkg) (t : Test) (h : t ∈ unifiedTests pkgs) :
    (pkgs.filter fun p => !p.alone)[t.idx]? = some t.pkg ∧ t.ref ∈ t.pkg.tests := by
  have : (t.idx, t.pkg, t.ref) ∈ flat (pkgs.filter fun p => !p.alone) 0 := by
    rw [← refs_eq]; exact List.mem_map_of_mem h
  obtain ⟨k, a, b, c⟩ := flat_mem _ 0 _ this
  simp at a b c
  rw [a]; exact ⟨b, c⟩

theorem unique_name {ts : List Test} (nd : (ts.map Test.name).Nodup) {t u : Test} (ht : t ∈ ts) (hu : u ∈ ts)
    (e : t.name = u.name) : t = u := List.inj_on_of_nodup_map nd ht hu e

theorem mapping_own {ts : List Test} (nd : (ts.map Test.name).Nodup) {t : Test} (ht : t ∈ ts) :
    mapping ts t.name = some t := by
  unfold mapping
  cases h : ts.reverse.find? fun u => u.name = t.name with
  | none =>
    exfalso
    rw [List.find?_eq_none] at h
    exact h t (by simpa using ht) (by simp)
  | some u =>
    have hu : u ∈ ts := by simpa using List.mem_of_find?_eq_some h
    have e : u.name = t.name := by simpa using List.find?_some h
    rw [unique_name nd hu ht e]

/-- **C62 (part).** If no test has a name that another one gets, the generated main file has no map key twice. -/
theorem C62_keys_partial (pkgs : List Pkg) (h : NoClash (togetherNames pkgs)) : (dirKeys (unifiedTests pkgs)).Nodup := by
  have := (C62_names pkgs).mpr h
  exact this.sublist (List.Sublist.map _ List.filter_sublist)

/-- **C62 (part).** If no test has a name that another one gets, `-json` events of a test or subtest show its own package
    and its own name. (Test names are identifiers, import paths are not empty.) -/
theorem C62_report_partial (pkgs : List Pkg) (h : NoClash (togetherNames pkgs)) (t : Test) (ht : t ∈ unifiedTests pkgs)
    (hp : t.pkg.path ≠ []) (hr : t.ref ≠ []) (hn : '/' ∉ t.name) (sub : Str) (hs : sub = [] ∨ ∃ s, sub = '/' :: s) :
    rename (unifiedTests pkgs) "github.com/xhd2015/xgo/runtime/testunified".toList (t.name ++ sub) = (t.pkg.path, t.ref ++ sub) := by
  show rename (unifiedTests pkgs) unifiedPackage (t.name ++ sub) = (t.pkg.path, t.ref ++ sub)
  have nd := (C62_names pkgs).mpr h
  have a : (t.name ++ sub).takeWhile (· ≠ '/') = t.name := by
    rw [List.takeWhile_append_of_pos (by intro c hc; simp; rintro rfl; exact hn hc)]
    rcases hs with rfl | ⟨s, rfl⟩ <;> simp
  have b : (t.name ++ sub).dropWhile (· ≠ '/') = sub := by
    rw [List.dropWhile_append_of_pos (by intro c hc; simp; rintro rfl; exact hn hc)]
    rcases hs with rfl | ⟨s, rfl⟩ <;> simp
  unfold rename
  rw [if_neg (by simp)]
  dsimp only
  rw [a, b, mapping_own nd ht]
  simp [hp, hr]

/-! ### What is run -/

theorem flat_flatMap (ps : List Pkg) : ∀ i, (flat ps i).map (fun x => (x.2.1.path, x.2.2)) =
    ps.flatMap fun p => p.tests.map fun n => (p.path, n) := by
  induction ps with
  | nil => intro i; rfl
  | cons p ps ih => intro i; simp [flat, ih, Function.comp_def]

theorem partition_perm (pkgs : List Pkg) (f : Pkg → List (Str × Str)) :
    ((pkgs.filter fun p => !p.alone).flatMap f ++ (pkgs.filter Pkg.alone).flatMap f).Perm (pkgs.flatMap f) := by
  induction pkgs with
  | nil => simp
  | cons p ps ih =>
    cases h : p.alone with
    | true =>
      simp only [List.filter_cons, h, Bool.not_true, Bool.false_eq_true, if_false, if_true, List.flatMap_cons]
      refine List.Perm.trans ?_ (List.Perm.append_left _ ih)
      rw [← List.append_assoc, ← List.append_assoc]
      exact List.Perm.append_right _ List.perm_append_comm
    | false =>
      simp only [List.filter_cons, h, Bool.not_false, Bool.false_eq_true, if_false, if_true, List.flatMap_cons,
        List.append_assoc]
      exact List.Perm.append_left _ ih

theorem pkg_runs (sel : Str → Bool) (ps : List Pkg) :
    ((ps.map Job.pkg).flatMap (Job.runs sel)).map (fun e => (e.pkg, e.func)) = plain sel ps := by
  induction ps with
  | nil => rfl
  | cons p ps ih =>
    have : plain sel (p :: ps) = ((p.tests.filter sel).map fun n => (p.path, n)) ++ plain sel ps := rfl
    rw [this, ← ih]
    simp only [List.map_cons, List.flatMap_cons, List.map_append, Job.runs]
    congr 1
    rw [List.filter_map, List.map_map]
    rfl

theorem unify_runs (sel : Str → Bool) (pkgs : List Pkg)
    (h : ∀ t ∈ unifiedTests pkgs, sel t.name = sel t.ref) :
    (((unify pkgs).flatMap (Job.runs sel)).map fun e => (e.pkg, e.func)).Perm (plain sel pkgs) := by
  unfold unify
  dsimp only
  split
  · rw [pkg_runs]
  · rw [List.flatMap_cons, List.map_append, pkg_runs]
    refine List.Perm.trans (List.Perm.append_right _ ?_) (partition_perm pkgs fun p => (p.tests.filter sel).map fun n => (p.path, n))
    have e : (Job.runs sel (.unified (renamePkgs (pkgs.filter fun p => !p.alone) 0 []))).map (fun e => (e.pkg, e.func)) =
        ((flat (pkgs.filter fun p => !p.alone) 0).filter fun x => sel x.2.2).map fun x => (x.2.1.path, x.2.2) := by
      rw [← refs_eq]
      simp only [Job.runs, List.filter_map, List.map_map]
      show ((unifiedTests pkgs).filter _).map _ = _
      have : (unifiedTests pkgs).filter ((fun e : Exec => sel e.name) ∘ fun t => { pkg := t.pkg.path, func := t.ref, name := t.name }) =
          (unifiedTests pkgs).filter ((fun x : Nat × Pkg × Str => sel x.2.2) ∘ fun t => (t.idx, t.pkg, t.ref)) := by
        apply List.filter_congr
        intro t ht
        exact h t ht
      rw [this]
      rfl
    rw [e]
    have : ∀ (ps : List Pkg) i, ((flat ps i).filter fun x => sel x.2.2).map (fun x => (x.2.1.path, x.2.2)) =
        ps.flatMap fun p => (p.tests.filter sel).map fun n => (p.path, n) := by
      intro ps
      induction ps with
      | nil => intro i; rfl
      | cons p ps ih =>
        intro i
        simp only [flat, List.filter_append, List.map_append, List.flatMap_cons, ih, List.filter_map, List.map_map]
        rfl
    rw [this]

/-- **C62.** Without `-run`, the unified binary and those of the other packages together run every test of every package
    exactly once, as plain `go test` does. -/
theorem C62_all_run (pkgs : List Pkg) :
    (((unify pkgs).flatMap (Job.runs fun _ => true)).map fun e => (e.pkg, e.func)).Perm (plain (fun _ => true) pkgs) :=
  unify_runs _ pkgs (by simp)

/-- **C62 (part).** If no two of the tests put together have the same name, `-run` selects the same tests as plain
    `go test`. -/
theorem C62_select_partial (sel : Str → Bool) (pkgs : List Pkg) (h : (togetherNames pkgs).Nodup) :
    (((unify pkgs).flatMap (Job.runs sel)).map fun e => (e.pkg, e.func)).Perm (plain sel pkgs) := by
  apply unify_runs
  intro t ht
  have : t.name = t.ref := by
    rw [unifiedTests_eq] at ht
    obtain ⟨⟨⟨i, p, n⟩, m, j⟩, hx, rfl⟩ := List.mem_map.mp ht
    -- the name and the number belong together
    have key : ∀ (l : List (Nat × Pkg × Str)) (c : Str → Nat), ((i, p, n), (m, j)) ∈ l.zip (nums c (l.map fun x => x.2.2)) → m = n := by
      intro l
      induction l with
      | nil => intro c h; simp at h
      | cons x l ih =>
        intro c h
        simp only [List.map_cons, nums, List.zip_cons_cons, List.mem_cons, Prod.mk.injEq] at h
        rcases h with ⟨h1, h2⟩ | h
        · rw [h2.1, ← h1]
        · exact ih _ h
    have hm : m = n := by
      apply key (flat (pkgs.filter fun p => !p.alone) 0) (fun _ => 0)
      rw [flat_names]; exact hx
    have hj := (List.of_mem_zip hx).2
    rw [mem_nums] at hj
    simp at hj
    have := List.nodup_iff_count_le_one.mp h m
    have j0 : j = 0 := by omega
    simp [toTest, nth, j0, hm]
  rw [this]

/-! ### Working directories -/

/-- **C62 (part).** If no test has a name that another one gets, and no test is parallel, each runs in the directory of its
    package. -/
theorem C62_dir_partial (pkgs : List Pkg) (h : NoClash (togetherNames pkgs)) (cwd : Str)
    (hd : ∀ p ∈ pkgs, p.dir ≠ []) (x : Test × Str × Str) (hx : x ∈ cwds (fun _ => false) (unifiedTests pkgs) cwd) :
    x.1 ∈ unifiedTests pkgs ∧ x.2.1 = x.1.pkg.dir ∧ x.2.2 = x.1.pkg.dir := by
  have nd := (C62_names pkgs).mpr h
  have hdir : ∀ t ∈ unifiedTests pkgs, t.pkg.dir ≠ [] := by
    intro t ht
    have := (C62_alias pkgs t ht).1
    exact hd _ (List.mem_filter.mp (List.mem_of_getElem? this)).1
  have own : ∀ t ∈ unifiedTests pkgs, dirOf (unifiedTests pkgs) t.name = some t.pkg.dir := by
    intro t ht; simp [dirOf, mapping_own nd ht]
  unfold cwds at hx
  dsimp only at hx
  generalize unifiedTests pkgs = ts at *
  generalize ts.foldl _ cwd = last at hx
  have gen : ∀ (us : List Test) (acc : List (Test × Str × Str)) (c : Str), (∀ t ∈ us, t ∈ ts) →
      (∀ y ∈ acc, y.1 ∈ ts ∧ y.2.1 = y.1.pkg.dir ∧ y.2.2 = y.1.pkg.dir) →
      ∀ y ∈ (us.foldl (fun (acc : List (Test × Str × Str) × Str) t =>
        let c := match dirOf ts t.name with
          | some d => if d ≠ [] then d else acc.2
          | none => acc.2
        (acc.1 ++ [(t, c, if false = true then last else c)], c)) (acc, c)).1,
        y.1 ∈ ts ∧ y.2.1 = y.1.pkg.dir ∧ y.2.2 = y.1.pkg.dir := by
    intro us
    induction us with
    | nil => intro acc c _ ha y hy; exact ha y hy
    | cons t us ih =>
      intro acc c hus ha
      rw [List.foldl_cons]
      apply ih _ _ (fun u hu => hus u (List.mem_cons_of_mem _ hu))
      intro y hy
      have ht := hus t (by simp)
      simp only [own t ht, if_pos (hdir t ht), List.mem_append, List.mem_cons, List.not_mem_nil, or_false] at hy
      rcases hy with hy | rfl
      · exact ha y hy
      · exact ⟨ht, rfl, by simp⟩
  exact gen ts [] cwd (fun t ht => ht) (by simp) x hx

/-! ### Examples -/

def pkgA : Pkg := { path := "m/a".toList, dir := "/m/a".toList, tests := ["TestX".toList, "TestY".toList] }
def pkgB : Pkg := { path := "m/b".toList, dir := "/m/b".toList, tests := ["TestX".toList], others := ["BenchmarkB".toList] }
def pkgC : Pkg := { path := "m/c".toList, dir := "/m/c".toList, tests := ["TestX_1".toList] }
def pkgD : Pkg := { path := "m/d".toList, dir := "/m/d".toList, tests := ["TestD".toList], testMain := true }

example : NoClash (togetherNames [pkgA, pkgB, pkgD]) ∧
    (unifiedTests [pkgA, pkgB, pkgD]).map Test.name = ["TestX".toList, "TestY".toList, "TestX_1".toList] := by
  refine ⟨(C62_names _).mp (by decide +kernel), by decide +kernel⟩

example : rename (unifiedTests [pkgA, pkgB]) unifiedPackage "TestX_1/sub".toList = ("m/b".toList, "TestX/sub".toList) := by
  decide +kernel

example : (togetherNames [pkgA, pkgC, pkgD]).Nodup := by decide +kernel

/-- A test called `TestX_1` in one package and two tests `TestX`: the generated main file has a map key twice, and does not
    compile. -/
theorem C62_counterexample_clash :
    (unifiedTests [pkgA, pkgB, pkgC]).map Test.name =
      ["TestX".toList, "TestY".toList, "TestX_1".toList, "TestX_1".toList] ∧
    ¬ (dirKeys (unifiedTests [pkgA, pkgB, pkgC])).Nodup := by
  decide +kernel

/-- Two packages with a test `TestX`: `-run ^TestX$` runs only one of them. -/
theorem C62_counterexample_select :
    ((unify [pkgA, pkgB]).flatMap (Job.runs fun n => n = "TestX".toList)).map (fun e => (e.pkg, e.func)) =
      [("m/a".toList, "TestX".toList)] ∧
    plain (fun n => n = "TestX".toList) [pkgA, pkgB] = [("m/a".toList, "TestX".toList), ("m/b".toList, "TestX".toList)] := by
  decide +kernel

/-- Benchmarks of the packages put together are not run. -/
theorem C62_counterexample_bench :
    (unify [pkgA, pkgB]).flatMap Job.others = [] ∧
    ([pkgA, pkgB].map Job.pkg).flatMap Job.others = [("m/b".toList, "BenchmarkB".toList)] := by
  decide +kernel

/-- A parallel test continues in the directory of the last package. -/
theorem C62_counterexample_parallel :
    ∃ x ∈ cwds (fun n => n = "TestY".toList) (unifiedTests [pkgA, pkgB]) "/m/a".toList,
      x.1.pkg.dir = "/m/a".toList ∧ x.2.1 = "/m/a".toList ∧ x.2.2 = "/m/b".toList := by
  refine ⟨({ idx := 0, pkg := pkgA, name := "TestY".toList, ref := "TestY".toList }, "/m/a".toList, "/m/b".toList), ?_, ?_⟩
  · decide +kernel
  · decide +kernel

end Verif.Instrument.Unified
