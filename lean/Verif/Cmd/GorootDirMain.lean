import Verif.Cmd.GorootDir
import Mathlib.Data.Fintype.Pigeonhole
import Mathlib.Data.Fintype.Pi
/-
C82: each Go installation has its own instrumented copy.
-/
namespace Verif.Cmd.GorootDir

open Verif.Support

/-! ### Specification -/

/-- A path lies in the tree of another. -/
def Under (t p : Path) : Prop := ∃ q, p = t ++ q

/-- An element of a path as it may stand in a file system. -/
def Element (s : Str) : Prop := s ≠ [] ∧ '/' ∉ s ∧ s ≠ ".".toList ∧ s ≠ "..".toList

/-! ### Names -/

theorem cut_eq {c : Char} {a a' b b' : Str} (h : a ++ c :: b = a' ++ c :: b') (h1 : c ∉ a) (h2 : c ∉ a') : a = a' ∧ b = b' := by
  induction a generalizing a' with
  | nil =>
    cases a' with
    | nil => injection h with _ h; exact ⟨rfl, h⟩
    | cons x a' => injection h with h _; exact absurd (by simp [h]) h2
  | cons x a ih =>
    cases a' with
    | nil => injection h with h _; exact absurd (by simp [h]) h1
    | cons y a' =>
      injection h with hx h
      obtain ⟨h3, h4⟩ := ih h (fun hm => h1 (by simp [hm])) (fun hm => h2 (by simp [hm]))
      exact ⟨by rw [hx, h3], h4⟩

theorem dec_inj {m n : Nat} (h : dec m = dec n) : m = n := by
  have := congrArg (Nat.ofDigitChars 10 · 0) h
  simpa [dec] using this

theorem dec_not {c : Char} (hc : isDig c = false) (n : Nat) : c ∉ dec n := fun h => by
  have := digit_toDigits h
  rw [hc] at this; cases this

theorem version_inj {v v' : Version} {x y : Str} (h : versionName v ++ "_".toList ++ x = versionName v' ++ "_".toList ++ y) :
    v = v' ∧ x = y := by
  have e : ∀ (v : Version) (x : Str), versionName v ++ "_".toList ++ x =
      'g' :: 'o' :: (dec v.major ++ '.' :: (dec v.minor ++ '.' :: (dec v.patch ++ '_' :: x))) := by
    intro v x; simp [versionName]
  rw [e, e] at h
  have h : dec v.major ++ '.' :: (dec v.minor ++ '.' :: (dec v.patch ++ '_' :: x)) =
      dec v'.major ++ '.' :: (dec v'.minor ++ '.' :: (dec v'.patch ++ '_' :: y)) := by injection h with _ h; injection h
  obtain ⟨h1, h⟩ := cut_eq h (dec_not (by decide) _) (dec_not (by decide) _)
  obtain ⟨h2, h⟩ := cut_eq h (dec_not (by decide) _) (dec_not (by decide) _)
  obtain ⟨h3, h⟩ := cut_eq h (dec_not (by decide) _) (dec_not (by decide) _)
  refine ⟨?_, h⟩
  obtain ⟨a, b, c⟩ := v
  obtain ⟨a', b', c'⟩ := v'
  simp only at h1 h2 h3
  rw [dec_inj h1, dec_inj h2, dec_inj h3]

theorem hex_inj {a b : Fin 16} (h : hexDigit a = hexDigit b) : a = b := by
  revert a b; decide

theorem identSum_inj {md5 : Md5} {p q : Path} (h : identSum md5 p = identSum md5 q) : md5 (text p) = md5 (text q) := by
  unfold identSum at h
  have := List.map_injective_iff.mpr (fun a b => hex_inj) h
  exact List.ofFn_injective this

theorem identSum_length (md5 : Md5) (p : Path) : (identSum md5 p).length = 8 := by simp [identSum]

theorem pathSum_inj {md5 : Md5} {v v' : Version} {p q : Path}
    (h : pathSum md5 (versionName v ++ "_".toList) p = pathSum md5 (versionName v' ++ "_".toList) q) :
    v = v' ∧ shortPath p 8 = shortPath q 8 ∧ md5 (text p) = md5 (text q) := by
  unfold pathSum at h
  simp only [List.append_assoc] at h
  rw [← List.append_assoc, ← List.append_assoc (versionName v')] at h
  obtain ⟨hv, h⟩ := version_inj h
  rw [← List.append_assoc, ← List.append_assoc] at h
  obtain ⟨h1, h2⟩ := List.append_inj' h (by rw [identSum_length, identSum_length])
  exact ⟨hv, (List.append_inj' h1 rfl).1, identSum_inj h2⟩

theorem clean_slash (s : Str) : '/' ∉ cleanSpecial s := by
  induction s with
  | nil => simp [cleanSpecial]
  | cons c s ih =>
    unfold cleanSpecial
    split
    · simp [ih]
    · split
      · exact ih
      · rename_i h1 h2
        intro hm
        rcases List.mem_cons.mp hm with hm | hm
        · apply h2; rw [← hm]; decide
        · exact ih hm

theorem shortSegs_slash (m : Nat) : ∀ (p : Path) (n : Nat), ∀ s ∈ shortSegs m n p, '/' ∉ s := by
  intro p
  induction p with
  | nil => intro n s hs; cases hs
  | cons seg rest ih =>
    intro n s hs
    have hseg : '/' ∉ (cleanSpecial seg).take 2 := fun h => clean_slash seg (List.mem_of_mem_take h)
    unfold shortSegs at hs
    simp only at hs
    split at hs
    · exact ih n s hs
    · split at hs
      · rw [List.mem_singleton.mp hs]; exact hseg
      · rcases List.mem_cons.mp hs with hs | hs
        · rw [hs]; exact hseg
        · exact ih _ s hs

theorem join_slash (l : List Str) (h : ∀ s ∈ l, '/' ∉ s) : '/' ∉ joinWith '_' l := by
  induction l with
  | nil => simp [joinWith]
  | cons s l ih =>
    cases l with
    | nil => exact h s (by simp)
    | cons x l =>
      unfold joinWith
      intro hm
      rcases List.mem_append.mp hm with hm | hm
      · exact h s (by simp) hm
      · rcases List.mem_cons.mp hm with hm | hm
        · revert hm; decide
        · exact ih (fun y hy => h y (by simp [hy])) hm

theorem ident_slash (md5 : Md5) (p : Path) : '/' ∉ identSum md5 p := by
  intro h
  unfold identSum at h
  obtain ⟨d, _, hd⟩ := List.mem_map.mp h
  have : ∀ d : Fin 16, hexDigit d ≠ '/' := by decide
  exact this d hd

/-- **C82.** The name of a copy is one element of a path, so that it lies directly in its directory, whatever the GOROOT is called. -/
theorem C82_name (md5 : Md5) (v : Version) (p : Path) : Element (pathSum md5 (versionName v ++ "_".toList) p) := by
  have hlen : 2 < (pathSum md5 (versionName v ++ "_".toList) p).length := by
    unfold pathSum
    simp only [List.length_append, identSum_length]
    omega
  refine ⟨?_, ?_, ?_, ?_⟩
  · intro h; rw [h] at hlen; simp at hlen
  · unfold pathSum versionName
    simp only [List.mem_append, not_or]
    refine ⟨⟨⟨⟨⟨⟨⟨⟨⟨?_, ?_⟩, ?_⟩, ?_⟩, ?_⟩, ?_⟩, ?_⟩, ?_⟩, ?_⟩, ?_⟩
    all_goals first
      | exact dec_not (by decide) _
      | exact ident_slash md5 p
      | exact join_slash _ (shortSegs_slash 8 p 0)
      | decide
  · intro h; rw [h] at hlen; revert hlen; decide
  · intro h; rw [h] at hlen; revert hlen; decide

theorem shortSegs_size (m : Nat) (hm : 0 < m) : ∀ (p : Path) (n : Nat), n < m →
    (shortSegs m n p).length ≤ m - n ∧ ∀ s ∈ shortSegs m n p, s.length ≤ 2 := by
  intro p
  induction p with
  | nil => intro n _; exact ⟨Nat.zero_le _, fun s hs => (by cases hs)⟩
  | cons seg rest ih =>
    intro n hn
    have hseg : ((cleanSpecial seg).take 2).length ≤ 2 := by rw [List.length_take]; omega
    unfold shortSegs
    simp only
    split
    · exact ih n hn
    · split
      · refine ⟨by simp only [List.length_singleton]; omega, fun s hs => ?_⟩
        rw [List.mem_singleton.mp hs]; exact hseg
      · rename_i h
        have hlt : n + 1 < m := by
          simp only [Bool.and_eq_true, decide_eq_true_eq, not_and] at h
          have := h hm
          omega
        obtain ⟨h1, h2⟩ := ih (n + 1) hlt
        refine ⟨by rw [List.length_cons]; omega, fun s hs => ?_⟩
        rcases List.mem_cons.mp hs with hs | hs
        · rw [hs]; exact hseg
        · exact h2 s hs

theorem join_size (l : List Str) (h : ∀ s ∈ l, s.length ≤ 2) : (joinWith '_' l).length ≤ 3 * l.length := by
  induction l with
  | nil => exact Nat.zero_le _
  | cons s l ih =>
    have hs := h s (by simp)
    cases l with
    | nil => show s.length ≤ 3 * 1; omega
    | cons x l =>
      have := ih (fun y hy => h y (by simp [hy]))
      unfold joinWith
      simp only [List.length_append, List.length_cons] at this ⊢
      omega

/-- **C82.** However long the path of the GOROOT, the name of its copy has at most 34 bytes more than that of the version. -/
theorem C82_length (md5 : Md5) (v : Version) (p : Path) :
    (pathSum md5 (versionName v ++ "_".toList) p).length ≤ (versionName v).length + 34 := by
  obtain ⟨h1, h2⟩ := shortSegs_size 8 (by decide) p 0 (by decide)
  have h3 := join_size _ h2
  unfold pathSum shortPath
  simp only [List.length_append, identSum_length]
  have e : ("_".toList : Str).length = 1 := by decide
  rw [e]
  omega

/-! ### Directories -/

/-- **C82.** A GOROOT with no revision file beside it, or whose directory has not the name of its version, is left as it is: the
    copy is in xgo's own directory. -/
theorem C82_fresh (w : World) (v : Version) (g : Path)
    (h : w.isFile (g.dropLast ++ ["xgo-revision.txt".toList]) = false ∨ g.getLast? ≠ some (versionName v) ∨ g.length ≤ 1) :
    instrumented w v g = false ∧ Under (w.home ++ [goInstrument w.dev]) (instrumentGoroot w v false g) := by
  have h : w.isFile (g.dropLast ++ [revisionName]) = false ∨ g.getLast? ≠ some (versionName v) ∨ g.length ≤ 1 := h
  have hi : instrumented w v g = false := by
    unfold instrumented
    cases hl : g.getLast? with
    | none => rfl
    | some b =>
      rw [hl] at h
      simp only
      rcases h with h | h | h
      · rw [h, Bool.and_false]
      · have : (b == versionName v) = false := by
          rw [beq_eq_false_iff_ne]; intro he; exact h (by rw [he])
        rw [this, Bool.and_false, Bool.false_and]
      · have : g.dropLast = [] := by
          cases g with
          | nil => rfl
          | cons a g =>
            cases g with
            | nil => rfl
            | cons b g => simp at h
        rw [this]
        rfl
  refine ⟨hi, [pathSum w.md5 (versionName v ++ "_".toList) g, versionName v], ?_⟩
  show instrumentDir w v g ++ [versionName v] = _
  unfold instrumentDir
  rw [hi]
  simp

theorem dir_ne_nil (w : World) (v : Version) (g : Path) : instrumentDir w v g ≠ [] := by
  unfold instrumentDir
  split
  · rename_i h
    unfold instrumented at h
    split at h
    · cases h
    · simp only [Bool.and_eq_true] at h
      intro he
      rw [he] at h
      exact absurd h.1.1 (by decide)
  · simp

/-- **C82.** xgo run with the GOROOT that `xgo setup` printed uses that GOROOT, the same directory and the same build cache, and
    makes no copy of the copy: so too when it is called by the go of that GOROOT. -/
theorem C82_again (w : World) (v : Version) (g : Path) (h : w.isFile (instrumentDir w v g ++ ["xgo-revision.txt".toList]) = true) :
    let r := instrumentGoroot w v false g
    instrumented w v r = true ∧ instrumentDir w v r = instrumentDir w v g ∧ cacheDir w v r = cacheDir w v g ∧
      instrumentGoroot w v false r = r := by
  intro r
  have h : w.isFile (instrumentDir w v g ++ [revisionName]) = true := h
  have hr : r = instrumentDir w v g ++ [versionName v] := rfl
  have hi : instrumented w v r = true := by
    unfold instrumented
    rw [hr]
    simp only [List.getLast?_append, List.getLast?_singleton, Option.some_or, List.dropLast_concat, beq_self_eq_true, Bool.and_true, h]
    cases hd : instrumentDir w v g with
    | nil => exact absurd hd (dir_ne_nil w v g)
    | cons a b => rfl
  have hd : instrumentDir w v r = instrumentDir w v g := by
    have : instrumentDir w v r = r.dropLast := by
      unfold instrumentDir; rw [if_pos hi]
    rw [this, hr, List.dropLast_concat]
  refine ⟨hi, hd, ?_, ?_⟩
  · unfold cacheDir; rw [hd]
  · show instrumentDir w v r ++ [versionName v] = r
    rw [hd, hr]

theorem siblings {a : Path} {x y : Str} (h : x ≠ y) (p : Path) : ¬ (Under (a ++ [x]) p ∧ Under (a ++ [y]) p) := by
  rintro ⟨⟨q, hq⟩, ⟨q', hq'⟩⟩
  rw [hq, List.append_assoc, List.append_assoc] at hq'
  have := List.append_cancel_left hq'
  injection this with this _
  exact h this

/-- **C82.** Two installations, with different versions or at different places, have copies with no file in common, unless the
    shortened paths and the eight digits of the checksum agree; then the versions are the same. -/
theorem C82_apart_partial (w : World) (v v' : Version) (g g' : Path) (h : instrumented w v g = false) (h' : instrumented w v' g' = false) :
    (v = v' ∧ shortPath g 8 = shortPath g' 8 ∧ w.md5 (text g) = w.md5 (text g')) ∨
    (∀ p, ¬ (Under (instrumentDir w v g) p ∧ Under (instrumentDir w v' g') p)) ∧
      instrumentGoroot w v false g ≠ instrumentGoroot w v' false g' := by
  have hd : instrumentDir w v g = (w.home ++ [goInstrument w.dev]) ++ [pathSum w.md5 (versionName v ++ "_".toList) g] := by
    unfold instrumentDir; rw [h]; simp
  have hd' : instrumentDir w v' g' = (w.home ++ [goInstrument w.dev]) ++ [pathSum w.md5 (versionName v' ++ "_".toList) g'] := by
    unfold instrumentDir; rw [h']; simp
  by_cases he : pathSum w.md5 (versionName v ++ "_".toList) g = pathSum w.md5 (versionName v' ++ "_".toList) g'
  · exact .inl (pathSum_inj he)
  · right
    have hp : ∀ p, ¬ (Under (instrumentDir w v g) p ∧ Under (instrumentDir w v' g') p) := by
      intro p
      rw [hd, hd']
      exact siblings he p
    refine ⟨hp, fun heq => ?_⟩
    apply hp (instrumentGoroot w v false g)
    refine ⟨⟨_, rfl⟩, ?_⟩
    rw [heq]
    exact ⟨_, rfl⟩

/-- **C82.** Two versions of Go never share a copy, even at one place. -/
theorem C82_versions (w : World) (v v' : Version) (g g' : Path) (h : instrumented w v g = false) (h' : instrumented w v' g' = false)
    (hv : v ≠ v') : ∀ p, ¬ (Under (instrumentDir w v g) p ∧ Under (instrumentDir w v' g') p) := by
  rcases C82_apart_partial w v v' g g' h h' with ⟨he, _⟩ | ⟨hp, _⟩
  · exact absurd he hv
  · exact hp

/-- **C82.** An instrumented GOROOT has a build cache of its own: the caches of two copies have no file in common, unless checksum
    and shortened path of the two agree. -/
theorem C82_caches_partial (w : World) (v v' : Version) (g g' : Path) :
    (v = v' ∧ shortPath (instrumentDir w v g) 8 = shortPath (instrumentDir w v' g') 8 ∧
      w.md5 (text (instrumentDir w v g)) = w.md5 (text (instrumentDir w v' g'))) ∨
    ∀ p, ¬ (Under (cacheDir w v g) p ∧ Under (cacheDir w v' g') p) := by
  have hd : ∀ v g, cacheDir w v g =
      (w.tmp ++ ["xgo".toList, goInstrument w.dev]) ++ [pathSum w.md5 (versionName v ++ "_".toList) (instrumentDir w v g)] := by
    intro v g; unfold cacheDir; simp
  by_cases he : pathSum w.md5 (versionName v ++ "_".toList) (instrumentDir w v g) =
      pathSum w.md5 (versionName v' ++ "_".toList) (instrumentDir w v' g')
  · exact .inl (pathSum_inj he)
  · right
    intro p
    rw [hd, hd]
    exact siblings he p

/-! ### Deletion -/

theorem isPrefix_under (t p : Path) : t.isPrefixOf p = true ↔ Under t p := by
  rw [List.isPrefixOf_iff_prefix]
  constructor
  · rintro ⟨q, hq⟩; exact ⟨q, hq.symm⟩
  · rintro ⟨q, hq⟩; exact ⟨q, hq.symm⟩

theorem under_trans {a b p : Path} (h : Under (a ++ b) p) : Under a p := by
  obtain ⟨q, hq⟩ := h
  exact ⟨b ++ q, by rw [hq, List.append_assoc]⟩

/-- **C82.** `xgo setup --delete` removes the copy and its cache whole, and nothing else: a file that is in neither stays; for a
    GOROOT that is not a copy these are trees inside the directories that xgo keeps, so that GOROOT itself and the rest of the
    user's files stay. -/
theorem C82_delete (w : World) (v : Version) (g : Path) (files : Path → Bool) (p : Path) :
    (removeAll (deletes w v g) files p = true ↔
      files p = true ∧ ¬ Under (instrumentDir w v g) p ∧ ¬ Under (cacheDir w v g) p) ∧
    (instrumented w v g = false → files p = true → ¬ Under (w.home ++ [goInstrument w.dev]) p →
      ¬ Under (w.tmp ++ ["xgo".toList, goInstrument w.dev]) p → removeAll (deletes w v g) files p = true) := by
  have h1 : removeAll (deletes w v g) files p = true ↔
      files p = true ∧ ¬ Under (instrumentDir w v g) p ∧ ¬ Under (cacheDir w v g) p := by
    unfold removeAll deletes
    simp only [List.any_cons, List.any_nil, Bool.or_false, Bool.and_eq_true, Bool.not_eq_true', Bool.or_eq_false_iff]
    rw [← isPrefix_under, ← isPrefix_under, Bool.not_eq_true, Bool.not_eq_true]
  refine ⟨h1, fun hi hf ha hb => h1.mpr ⟨hf, fun hu => ha ?_, fun hu => hb ?_⟩⟩
  · have : instrumentDir w v g = (w.home ++ [goInstrument w.dev]) ++ [pathSum w.md5 (versionName v ++ "_".toList) g] := by
      unfold instrumentDir; rw [hi]; simp
    rw [this] at hu
    exact under_trans hu
  · have : cacheDir w v g =
        (w.tmp ++ ["xgo".toList, goInstrument w.dev]) ++ [pathSum w.md5 (versionName v ++ "_".toList) (instrumentDir w v g)] := by
      unfold cacheDir; simp
    rw [this] at hu
    exact under_trans hu

/-- **C82.** Deleting the copy of one installation leaves the copy of another, if the two do not share one (and the home of xgo is
    not in the directory of its caches). -/
theorem C82_delete_other (w : World) (v v' : Version) (g g' : Path) (files : Path → Bool) (p : Path)
    (h : instrumented w v g = false) (h' : instrumented w v' g' = false)
    (hne : ¬ (v = v' ∧ shortPath g 8 = shortPath g' 8 ∧ w.md5 (text g) = w.md5 (text g')))
    (hp : Under (instrumentDir w v' g') p) (hf : files p = true) (ht : ¬ Under (w.tmp ++ ["xgo".toList, goInstrument w.dev]) p) :
    removeAll (deletes w v g) files p = true := by
  rw [(C82_delete w v g files p).1]
  refine ⟨hf, fun hu => ?_, fun hu => ht ?_⟩
  · rcases C82_apart_partial w v v' g g' h h' with he | ⟨ha, _⟩
    · exact hne he
    · exact ha p ⟨hu, hp⟩
  · have : cacheDir w v g =
        (w.tmp ++ ["xgo".toList, goInstrument w.dev]) ++ [pathSum w.md5 (versionName v ++ "_".toList) (instrumentDir w v g)] := by
      unfold cacheDir; simp
    rw [this] at hu
    exact under_trans hu

/-! ### Which GOROOT -/

/-- **C82.** The GOROOT is the one given on the command line, if it exists; without one it is that of the go command in the
    project's directory, and only without a go command the one xgo was built with. -/
theorem C82_goroot (stat : Str → Stat) (plain : Str → Bool) (given : Str) (env : Option Str) (own : Str) :
    (given ≠ [] → (stat given = .dir ∨ stat given = .file) → checkGoroot stat plain given env own = some given) ∧
    (∀ r, given = [] → env = some r → r ≠ [] → checkGoroot stat plain given env own = some r) ∧
    (given = [] → env = none → own ≠ [] → checkGoroot stat plain given env own = some own) ∧
    (∀ r, given ≠ [] → checkGoroot stat plain given env own = some r →
      (r = given ∧ (stat given = .dir ∨ stat given = .file)) ∨ (plain given = true ∧ r = "go-release/".toList ++ given ∧ stat r = .dir)) := by
  refine ⟨?_, ?_, ?_, ?_⟩
  · intro hg hs
    unfold checkGoroot
    rw [if_neg hg]
    rcases hs with hs | hs <;> rw [hs]
  · intro r hg he hr
    unfold checkGoroot
    rw [if_pos hg, he, if_pos ⟨by simp, by simpa using hr⟩]
  · intro hg he ho
    unfold checkGoroot
    rw [if_pos hg, he, if_neg (by simp), if_pos ho]
  · intro r hg hc
    unfold checkGoroot at hc
    rw [if_neg hg] at hc
    cases hs : stat given with
    | dir => rw [hs] at hc; exact .inl ⟨(Option.some.inj hc).symm, .inl rfl⟩
    | file => rw [hs] at hc; exact .inl ⟨(Option.some.inj hc).symm, .inr rfl⟩
    | error => rw [hs] at hc; cases hc
    | missing =>
      rw [hs] at hc
      simp only at hc
      split at hc
      · rename_i hp
        split at hc
        · rename_i hd
          have := Option.some.inj hc
          exact .inr ⟨hp, this.symm, by rw [← this]; exact hd⟩
        · cases hc
      · cases hc

/-! ### What is missing -/

theorem flat_dir (w : World) (v : Version) (s : Str) : instrumented w v [s] = false := by
  simp [instrumented]

theorem short_go (n : Nat) : shortPath ["go".toList ++ dec n] 8 = "go".toList := by
  have : cleanSpecial ("go".toList ++ dec n) = 'g' :: 'o' :: cleanSpecial (dec n) := by
    show cleanSpecial ('g' :: 'o' :: dec n) = _
    rw [cleanSpecial, if_neg (by decide), if_neg (by decide), cleanSpecial, if_neg (by decide), if_neg (by decide)]
  unfold shortPath shortSegs
  simp only [this]
  rfl

/-- Eight hexadecimal digits are not enough for all paths: whatever the checksum, there are two installations at different places
    that get the same copy; the second one is then run with the standard library of the first. -/
theorem C82_shared (w : World) (v : Version) : ∃ g g' : Path, g ≠ g' ∧ (∀ s ∈ g ++ g', Element s) ∧
    instrumentDir w v g = instrumentDir w v g' ∧ instrumentGoroot w v false g = instrumentGoroot w v false g' := by
  obtain ⟨m, n, hne, heq⟩ := Finite.exists_ne_map_eq_of_infinite (fun n : ℕ => w.md5 (text ["go".toList ++ dec n]))
  have hd : instrumentDir w v ["go".toList ++ dec m] = instrumentDir w v ["go".toList ++ dec n] := by
    unfold instrumentDir
    rw [flat_dir, flat_dir]
    simp only [Bool.false_eq_true, if_false]
    unfold pathSum identSum
    rw [short_go, short_go, heq]
  refine ⟨["go".toList ++ dec m], ["go".toList ++ dec n], ?_, ?_, hd, ?_⟩
  · intro h
    injection h with h _
    exact hne (dec_inj (List.append_cancel_left h))
  · have he : ∀ n, Element ("go".toList ++ dec n) := by
      intro n
      refine ⟨by simp, ?_, ?_, ?_⟩
      · intro h
        rcases List.mem_append.mp h with h | h
        · revert h; decide
        · exact dec_not (by decide) n h
      · intro h
        exact absurd (show 'g' = '.' from Option.some.inj (congrArg List.head? h)) (by decide)
      · intro h
        exact absurd (show 'g' = '.' from Option.some.inj (congrArg List.head? h)) (by decide)
    intro s hs
    rcases List.mem_append.mp hs with hs | hs <;> (rw [List.mem_singleton.mp hs]; exact he _)
  · show instrumentDir w v _ ++ _ = instrumentDir w v _ ++ _
    rw [hd]

/-- A directory that holds a file of that name, whoever put it there, is taken for one of xgo's: a GOROOT in it is instrumented in
    place, and `--delete` removes all that is beside it. -/
theorem C82_mistaken (w : World) (v : Version) (d : Path) (hd : d ≠ []) (h : w.isFile (d ++ ["xgo-revision.txt".toList]) = true) :
    instrumentGoroot w v false (d ++ [versionName v]) = d ++ [versionName v] ∧
    ∀ files p, Under d p → removeAll (deletes w v (d ++ [versionName v])) files p = false := by
  have h : w.isFile (d ++ [revisionName]) = true := h
  have hi : instrumented w v (d ++ [versionName v]) = true := by
    unfold instrumented
    simp only [List.getLast?_append, List.getLast?_singleton, Option.some_or, List.dropLast_concat, beq_self_eq_true, Bool.and_true, h]
    cases d with
    | nil => exact absurd rfl hd
    | cons a b => rfl
  have hdir : instrumentDir w v (d ++ [versionName v]) = d := by
    unfold instrumentDir
    rw [if_pos hi, List.dropLast_concat]
  refine ⟨?_, ?_⟩
  · show instrumentDir w v _ ++ _ = _
    rw [hdir]
  · intro files p hp
    rw [← Bool.not_eq_true, (C82_delete w v _ files p).1, hdir]
    exact fun hh => hh.2.1 hp

/-! ### A concrete world -/

def demoWorld : World where
  isFile := fun p => p == ["root".toList, ".xgo".toList, "go-instrument".toList, "go1.24.1_us_lo_go_00000000".toList, revisionName]
  home := ["root".toList, ".xgo".toList]
  tmp := ["tmp".toList]
  dev := false
  md5 := fun _ _ => 0

def demoGoroot : Path := ["usr".toList, "local".toList, "go".toList]

example : instrumented demoWorld ⟨1, 24, 1⟩ demoGoroot = false ∧
    demoWorld.isFile (instrumentDir demoWorld ⟨1, 24, 1⟩ demoGoroot ++ [revisionName]) = true ∧
    instrumentGoroot demoWorld ⟨1, 24, 1⟩ false demoGoroot =
      ["root".toList, ".xgo".toList, "go-instrument".toList, "go1.24.1_us_lo_go_00000000".toList, "go1.24.1".toList] ∧
    shortPath ["home".toList, "a b+c".toList, "~~".toList, "go".toList] 8 = "ho_a__go".toList := by decide +kernel

end Verif.Cmd.GorootDir
