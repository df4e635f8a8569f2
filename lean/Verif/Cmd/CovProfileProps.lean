/-
C108: each project has its own coverage, as long as the names are ordinary.
-/
import Verif.Cmd.CovProfileSpec

namespace Verif.Cmd.CovProfile
open Verif.Cmd.GorootDir (Str Path cleanSpecial keeps)
open Verif.Cmd.CovProfile.Spec

theorem clean_ordinary : ∀ {s : Str}, (∀ c ∈ s, Ordinary c) → cleanSpecial s = s
  | [], _ => rfl
  | c :: s, h => by
    have hc := h c (by simp)
    have ih := clean_ordinary (s := s) fun x hx => h x (List.mem_cons_of_mem _ hx)
    unfold cleanSpecial
    have h1 : c ≠ ' ' := by
      rintro rfl
      revert hc
      unfold Ordinary
      decide
    rw [if_neg h1, if_neg, ih]
    unfold Ordinary at hc
    unfold keeps
    simp only [Bool.and_eq_true, decide_eq_true_eq, Bool.not_eq_true', Bool.or_eq_false_iff, beq_eq_false_iff_ne, Bool.and_eq_false_iff,
      decide_eq_false_iff_not]
    rintro ⟨h128, hk⟩
    rcases hc with h | h | h | h | h | h | h
    · exact hk.1.2.elim (fun x => x h.1) fun x => x h.2
    · exact hk.2.elim (fun x => x h.1) fun x => x h.2
    · exact hk.1.1.2.elim (fun x => x h.1) fun x => x h.2
    · exact hk.1.1.1.1.1 h
    · exact hk.1.1.1.1.2 h
    · exact hk.1.1.1.2 h
    · omega

theorem join_elements : ∀ (l st : Path), (∀ s ∈ l, Element s) → l.foldl joinStep st = st ++ l
  | [], st, _ => by simp
  | x :: l, st, h => by
    have hx := h x (by simp)
    rw [List.foldl_cons, joinStep, if_neg (fun e => e.elim hx.1 hx.2.1), if_neg hx.2.2,
      join_elements l _ fun s hs => h s (List.mem_cons_of_mem _ hs)]
    simp

/-- tmp/xgo/coverage -/
def base (tmp : Path) : Path := tmp ++ ["xgo".toList, "coverage".toList]

theorem map_plain {tmp dir : Path} (h : Plain dir) : mapCovDir tmp dir = base tmp ++ dir := by
  unfold mapCovDir base
  have : dir.map cleanSpecial = dir := by
    have : dir.map cleanSpecial = dir.map id := List.map_congr_left fun s hs => clean_ordinary (h s hs).2.1
    rw [this, List.map_id]
  rw [this, join_elements]
  · simp
  · intro s hs
    simp only [List.cons_append, List.nil_append, List.mem_cons] at hs
    rcases hs with rfl | rfl | hs
    · exact ⟨by decide, by decide, by decide⟩
    · exact ⟨by decide, by decide, by decide⟩
    · exact (h s hs).1

theorem profile_plain {tmp dir : Path} (h : Plain dir) : profile tmp dir = base tmp ++ (dir ++ ["coverage.out".toList]) := by
  unfold profile
  rw [map_plain h, List.append_assoc]

theorem not_mem_plain {dir : Path} (h : Plain dir) : "coverage.out".toList ∉ dir := fun hm => (h _ hm).2.2 rfl

/-- What is on the disk: no file on the way, directories without the name of the profile, files at the end. -/
structure Inv (tmp : Path) (d : Disk) : Prop where
  way : ∀ x, x <+: base tmp → ∀ c, d x ≠ some (.file c)
  dirs : ∀ r, d (base tmp ++ r) = some .dir → "coverage.out".toList ∉ r
  files : ∀ r c, d (base tmp ++ r) = some (.file c) → "coverage.out".toList ∈ r

theorem inv_fresh {tmp : Path} {d : Disk} (h : Fresh tmp d) : Inv tmp d := by
  have he : ∀ r, d (base tmp ++ r) = none := by
    intro r
    have := h.empty (["xgo".toList, "coverage".toList] ++ r) (by simp)
    rw [← this]
    unfold base
    simp
  refine ⟨?_, ?_, ?_⟩
  · intro x hx c
    unfold base at hx
    rcases Nat.lt_or_ge tmp.length x.length with hl | hl
    · have : tmp <+: x := List.prefix_of_prefix_length_le (List.prefix_append _ _) hx (by omega)
      obtain ⟨r, rfl⟩ := this
      rw [h.empty r (by rintro rfl; simp at hl)]
      exact fun e => by cases e
    · exact h.way x (List.prefix_of_prefix_length_le hx (List.prefix_append _ _) hl) c
  · intro r hr
    rw [he] at hr
    cases hr
  · intro r c hr
    rw [he] at hr
    cases hr

theorem isFile_iff {e : Option Entry} : isFile e = true ↔ ∃ c, e = some (.file c) := by
  cases e with
  | none => simp [isFile]
  | some e => cases e <;> simp [isFile]

/-- Prefixes of the directory are not files. -/
theorem prefix_file {tmp dir x : Path} {d : Disk} (hi : Inv tmp d) (hn : "coverage.out".toList ∉ dir) (hx : x <+: base tmp ++ dir) (c : Str) :
    d x ≠ some (.file c) := by
  intro e
  rcases Nat.lt_or_ge (base tmp).length x.length with hl | hl
  · have : base tmp <+: x := List.prefix_of_prefix_length_le (List.prefix_append _ _) hx (by omega)
    obtain ⟨r, rfl⟩ := this
    have hr : r <+: dir := (List.prefix_append_right_inj _).1 hx
    exact hn (hr.subset (hi.files r c e))
  · exact hi.way x (List.prefix_of_prefix_length_le hx (List.prefix_append _ _) hl) c e

/-- The disk after the directories have been made. -/
def made (d : Disk) (p : Path) : Disk := fun x => if x.isPrefixOf p then some .dir else d x

theorem mkdir_ok {tmp dir : Path} {d : Disk} (hi : Inv tmp d) (hn : "coverage.out".toList ∉ dir) :
    mkdirAll d (base tmp ++ dir) = some (made d (base tmp ++ dir)) := by
  unfold mkdirAll made
  rw [if_neg]
  intro h
  rw [List.any_eq_true] at h
  obtain ⟨n, _, hn'⟩ := h
  obtain ⟨c, hc⟩ := isFile_iff.1 hn'
  exact prefix_file hi hn (List.take_prefix _ _) c hc

theorem made_dir {d : Disk} {p x : Path} (h : x <+: p) : made d p x = some .dir := by
  unfold made
  rw [if_pos (List.isPrefixOf_iff_prefix.2 h)]

theorem made_other {d : Disk} {p x : Path} (h : ¬ x <+: p) : made d p x = d x := by
  unfold made
  rw [if_neg (fun e => h (List.isPrefixOf_iff_prefix.1 e))]

theorem inv_made {tmp dir : Path} {d : Disk} (hi : Inv tmp d) (hn : "coverage.out".toList ∉ dir) : Inv tmp (made d (base tmp ++ dir)) := by
  refine ⟨?_, ?_, ?_⟩
  · intro x hx c
    rw [made_dir (hx.trans (List.prefix_append _ _))]
    exact fun e => by cases e
  · intro r hr
    by_cases hp : base tmp ++ r <+: base tmp ++ dir
    · exact fun hm => hn (((List.prefix_append_right_inj _).1 hp).subset hm)
    · rw [made_other hp] at hr
      exact hi.dirs r hr
  · intro r c hr
    by_cases hp : base tmp ++ r <+: base tmp ++ dir
    · rw [made_dir hp] at hr
      cases hr
    · rw [made_other hp] at hr
      exact hi.files r c hr

/-- The profile is not on the way to a directory. -/
theorem profile_not_prefix {tmp p dir : Path} (hn : "coverage.out".toList ∉ dir) :
    ¬ base tmp ++ (p ++ ["coverage.out".toList]) <+: base tmp ++ dir := by
  intro h
  exact hn (((List.prefix_append_right_inj _).1 h).subset (by simp))

theorem profile_inj {tmp p q : Path} (h : base tmp ++ (p ++ ["coverage.out".toList]) = base tmp ++ (q ++ ["coverage.out".toList])) : p = q :=
  List.append_cancel_right (List.append_cancel_left h)

/-- One session: the invariant stays, it ends well, and only the coverage of its project changes. -/
theorem step_ok {tmp : Path} {d : Disk} (hi : Inv tmp d) {o : Op} (hp : Plain (dirOf o)) :
    Inv tmp (step tmp d o).1 ∧ (step tmp d o).2 = true ∧ ∀ q, Plain q → shown tmp (step tmp d o).1 q = lastRun q [o] (shown tmp d q) := by
  cases o with
  | run dir cov =>
    have hp : Plain dir := hp
    have hn := not_mem_plain hp
    have im := inv_made hi hn
    have hnd : made d (base tmp ++ dir) (base tmp ++ (dir ++ ["coverage.out".toList])) ≠ some .dir := fun e => im.dirs _ e (by simp)
    have hw : writeFile (made d (base tmp ++ dir)) (base tmp ++ (dir ++ ["coverage.out".toList])) cov =
        some fun x => if x = base tmp ++ (dir ++ ["coverage.out".toList]) then some (.file cov) else made d (base tmp ++ dir) x := by
      unfold writeFile
      rw [if_neg]
      rintro (e | e)
      · exact hnd e
      · apply e
        have : (base tmp ++ (dir ++ ["coverage.out".toList])).dropLast = base tmp ++ dir := by
          rw [← List.append_assoc, List.dropLast_concat]
        rw [this]
        exact made_dir (List.prefix_refl _)
    have hs : step tmp d (.run dir cov) =
        ((fun x => if x = base tmp ++ (dir ++ ["coverage.out".toList]) then some (.file cov) else made d (base tmp ++ dir) x), true) := by
      simp only [step, map_plain hp, profile_plain hp, mkdir_ok hi hn, hw]
    rw [hs]
    refine ⟨⟨?_, ?_, ?_⟩, rfl, ?_⟩
    · intro x hx c
      dsimp only
      rw [if_neg]
      · exact im.way x hx c
      · rintro rfl
        have := hx.length_le
        simp at this
        omega
    · intro r hr
      dsimp only at hr
      by_cases e : base tmp ++ r = base tmp ++ (dir ++ ["coverage.out".toList])
      · rw [if_pos e] at hr
        cases hr
      · rw [if_neg e] at hr
        exact im.dirs r hr
    · intro r c hr
      dsimp only at hr
      by_cases e : base tmp ++ r = base tmp ++ (dir ++ ["coverage.out".toList])
      · rw [List.append_cancel_left e]
        simp
      · rw [if_neg e] at hr
        exact im.files r c hr
    · intro q hq
      unfold shown
      rw [profile_plain hq]
      dsimp only [lastRun]
      by_cases e : dir = q
      · subst e
        rw [if_pos rfl, if_pos rfl]
      · rw [if_neg (fun h => e (profile_inj h).symm), if_neg e, made_other (profile_not_prefix hn)]
  | clear dir =>
    have hp : Plain dir := hp
    have hn := not_mem_plain hp
    have im := inv_made hi hn
    have hnd : made d (base tmp ++ dir) (base tmp ++ (dir ++ ["coverage.out".toList])) ≠ some .dir := fun e => im.dirs _ e (by simp)
    have hq' : ∀ q, base tmp ++ (q ++ ["coverage.out".toList]) ≠ base tmp ++ (dir ++ ["coverage.out".toList]) ∨ q = dir := by
      intro q
      by_cases e : q = dir
      · exact .inr e
      · exact .inl fun h => e (profile_inj h)
    cases hd : made d (base tmp ++ dir) (base tmp ++ (dir ++ ["coverage.out".toList])) with
    | none =>
      have hs : step tmp d (.clear dir) = (made d (base tmp ++ dir), true) := by
        simp only [step, map_plain hp, profile_plain hp, mkdir_ok hi hn, clear, hd]
      rw [hs]
      refine ⟨im, rfl, ?_⟩
      intro q hq
      unfold shown
      rw [profile_plain hq]
      dsimp only [lastRun]
      by_cases e : dir = q
      · subst e
        rw [hd, if_pos rfl]
      · rw [if_neg e, made_other (profile_not_prefix hn)]
    | some en =>
      cases en with
      | dir => exact absurd hd hnd
      | file c0 =>
        have hs : step tmp d (.clear dir) =
            ((fun x => if x = base tmp ++ (dir ++ ["coverage.out".toList]) then none else made d (base tmp ++ dir) x), true) := by
          simp only [step, map_plain hp, profile_plain hp, mkdir_ok hi hn, clear, hd]
        rw [hs]
        refine ⟨⟨?_, ?_, ?_⟩, rfl, ?_⟩
        · intro x hx c e
          dsimp only at e
          by_cases h : x = base tmp ++ (dir ++ ["coverage.out".toList])
          · rw [if_pos h] at e
            cases e
          · rw [if_neg h] at e
            exact im.way x hx c e
        · intro r hr
          dsimp only at hr
          by_cases h : base tmp ++ r = base tmp ++ (dir ++ ["coverage.out".toList])
          · rw [if_pos h] at hr
            cases hr
          · rw [if_neg h] at hr
            exact im.dirs r hr
        · intro r c hr
          dsimp only at hr
          by_cases h : base tmp ++ r = base tmp ++ (dir ++ ["coverage.out".toList])
          · rw [if_pos h] at hr
            cases hr
          · rw [if_neg h] at hr
            exact im.files r c hr
        · intro q hq
          unfold shown
          rw [profile_plain hq]
          dsimp only [lastRun]
          by_cases e : dir = q
          · subst e
            rw [if_pos rfl, if_pos rfl]
          · rw [if_neg (fun h => e (profile_inj h).symm), if_neg e, made_other (profile_not_prefix hn)]

theorem runAll_ok {tmp : Path} : ∀ {ops : List Op} {d : Disk}, Inv tmp d → (∀ o ∈ ops, Plain (dirOf o)) → ∀ q, Plain q →
    shown tmp (runAll tmp d ops) q = lastRun q ops (shown tmp d q)
  | [], d, _, _, q, _ => rfl
  | o :: ops, d, hi, hp, q, hq => by
    obtain ⟨h1, _, h3⟩ := step_ok hi (hp o (by simp))
    rw [runAll, runAll_ok h1 (fun x hx => hp x (List.mem_cons_of_mem _ hx)) q hq, h3 q hq]
    cases o <;> rfl

theorem runAll_inv {tmp : Path} : ∀ {ops : List Op} {d : Disk}, Inv tmp d → (∀ o ∈ ops, Plain (dirOf o)) → Inv tmp (runAll tmp d ops)
  | [], _, hi, _ => hi
  | o :: ops, d, hi, hp => by
    rw [runAll]
    exact runAll_inv (ops := ops) (step_ok hi (hp o (by simp))).1 fun x hx => hp x (List.mem_cons_of_mem _ hx)

/-- **C108, partial.** After any history of sessions of any projects with ordinary names, the coverage that is shown for a project is that of
    its own last run, or none if it has been cleared since; and no session fails. Missing: other names, see below. -/
theorem C108_own_partial (tmp : Path) (d : Disk) (hd : Fresh tmp d) (ops : List Op) (hp : ∀ o ∈ ops, Plain (dirOf o)) :
    (∀ q, Plain q → shown tmp (runAll tmp d ops) q = lastRun q ops none) ∧
    ∀ o, Plain (dirOf o) → (step tmp (runAll tmp d ops) o).2 = true := by
  have hi := inv_fresh hd
  refine ⟨fun q hq => ?_, fun o ho => (step_ok (runAll_inv hi hp) ho).2.1⟩
  rw [runAll_ok hi hp q hq]
  have : shown tmp d q = none := by
    unfold shown
    rw [profile_plain hq]
    unfold base
    rw [List.append_assoc, hd.empty _ (by simp)]
  rw [this]

/-- **C108.** Two directories whose names are the same without special characters share their coverage. -/
theorem C108_shared (tmp p q : Path) (h : p.map cleanSpecial = q.map cleanSpecial) (d : Disk) : shown tmp d p = shown tmp d q := by
  unfold shown profile mapCovDir
  rw [h]

/-- **C108.** So the coverage of one project is shown for another one: of "c++" for "c", of "my app" for "my_app". -/
theorem C108_clash : ∃ (p q : Path) (ops : List Op), p ≠ q ∧ (∀ o ∈ ops, dirOf o = p) ∧
    shown ["tmp".toList] (runAll ["tmp".toList] (fun _ => none) ops) q = some "coverage of c++".toList ∧ lastRun q ops none = none :=
  ⟨["c++".toList], ["c".toList], [.run ["c++".toList] "coverage of c++".toList], by decide, by decide, by decide +kernel, by decide⟩

theorem base_join {tmp : Path} : ∀ (l : Path) {st : Path}, base tmp <+: st → (∀ s ∈ l, s ≠ "..".toList) → base tmp <+: l.foldl joinStep st
  | [], _, h, _ => h
  | x :: l, st, h, hl => by
    rw [List.foldl_cons]
    refine base_join l ?_ fun s hs => hl s (List.mem_cons_of_mem _ hs)
    unfold joinStep
    by_cases e : x = [] ∨ x = ".".toList
    · rw [if_pos e]; exact h
    · rw [if_neg e, if_neg (hl x (by simp))]
      exact h.trans (List.prefix_append _ _)

/-- **C108, partial.** The profile is below the directory of xgo for temporary files, if no name becomes `..` without its special characters. -/
theorem C108_below_partial (tmp dir : Path) (h : ∀ s ∈ dir, cleanSpecial s ≠ "..".toList) :
    tmp ++ ["xgo".toList, "coverage".toList] <+: profile tmp dir := by
  unfold profile mapCovDir
  rw [List.foldl_append]
  have h1 : (["xgo".toList, "coverage".toList] : Path).foldl joinStep tmp = base tmp := by
    rw [join_elements]
    · rfl
    · intro s hs
      simp only [List.mem_cons, List.not_mem_nil, or_false] at hs
      rcases hs with rfl | rfl <;> exact ⟨by decide, by decide, by decide⟩
  rw [h1]
  refine (base_join _ (List.prefix_refl _) ?_).trans (List.prefix_append _ _)
  intro s hs
  obtain ⟨x, hx, rfl⟩ := List.mem_map.1 hs
  exact h x hx

/-- **C108.** In a directory with such names the profile is anywhere: that of "/(..)/(..)/(..)/etc" is /etc/coverage.out. -/
theorem C108_escape : profile ["tmp".toList] ["(..)".toList, "(..)".toList, "(..)".toList, "etc".toList] = ["etc".toList, "coverage.out".toList] := by
  decide +kernel

/-- **C108.** A project in a directory named coverage.out takes the place of the profile of the project above, whose sessions fail then; if that
    one has been run first, it is the sessions of the project in the directory that fail. -/
theorem C108_nested :
    (step ["tmp".toList] (runAll ["tmp".toList] (fun _ => none) [.clear ["a".toList, "coverage.out".toList]]) (.run ["a".toList] [])).2 = false ∧
    (step ["tmp".toList] (runAll ["tmp".toList] (fun _ => none) [.run ["a".toList] []]) (.clear ["a".toList, "coverage.out".toList])).2 = false ∧
    (step ["tmp".toList] (runAll ["tmp".toList] (fun _ => none) [.run ["a".toList] []]) (.run ["a".toList, "coverage.out".toList] [])).2 = false := by
  decide +kernel

/-- Two projects, one of which is in the other, and a clearing. -/
example : lastRun ["a".toList] [.run ["a".toList] "1".toList, .run ["a".toList, "b".toList] "2".toList, .clear ["a".toList, "b".toList]] none = some "1".toList := by decide

example : Plain ["a".toList, "my-app_1.0".toList] := by
  intro s hs
  simp only [List.mem_cons, List.not_mem_nil, or_false] at hs
  rcases hs with rfl | rfl <;> exact ⟨⟨by decide, by decide, by decide⟩, by unfold Ordinary; decide +kernel, by decide⟩

example : Fresh ["tmp".toList] (fun x => if x.isPrefixOf ["tmp".toList] then some .dir else none) := by
  refine ⟨fun x _ c => ?_, fun r hr => ?_⟩
  · split
    · exact fun e => by cases e
    · exact fun e => by cases e
  · rw [if_neg]
    intro h
    have := (List.isPrefixOf_iff_prefix.1 h).length_le
    simp only [List.length_append, List.length_cons, List.length_nil] at this
    exact hr (List.length_eq_zero_iff.1 (by omega))

end Verif.Cmd.CovProfile
