/-
**C86**: `xgo tool coverage merge` writes the sum of the profiles.
-/
import Verif.Cmd.CovMergeSpec
import Verif.Support.CoverageProps

namespace Verif.Cmd.CovMerge
open Verif.Support.Coverage Verif.Support.Coverage.Spec Verif.Cmd.CovMerge.Spec Verif.Support.GoVersion

/-! ### From lines to the text -/

theorem addresses_flatten (covs : List (List CovLine)) (n : Nat) : (addresses n covs).flatten = List.range' n covs.flatten.length := by
  induction covs generalizing n with
  | nil => rfl
  | cons c l ih =>
    rw [addresses, List.flatten_cons, ih, List.flatten_cons, List.length_append, List.range'_append_1]

theorem map_heap (covs : List (List CovLine)) : (List.range' 0 covs.flatten.length).map (heapOf covs) = covs.flatten := by
  apply List.ext_getElem?
  intro i
  rw [List.getElem?_map]
  by_cases h : i < covs.flatten.length
  · rw [List.getElem?_range' h, Option.map_some, List.getElem?_eq_getElem h]
    simp only [heapOf, List.getD_eq_getElem?_getD, Nat.one_mul, Nat.zero_add]
    rw [List.getElem?_eq_getElem h, Option.getD_some]
  · rw [List.getElem?_eq_none (by rw [List.length_range']; omega), List.getElem?_eq_none (by omega)]
    rfl

theorem mergeText_eq (covs : List (List CovLine)) (ex : List Str) :
    mergeText covs ex = format "count".toList ((merged covs.flatten).filter fun l => !hasAnyPrefix l.pfx ex) := by
  have hn : (addresses 0 covs).flatten.Nodup := by rw [addresses_flatten]; exact List.nodup_range'
  have := C31_merge (heapOf covs) (addresses 0 covs) hn
  rw [addresses_flatten, map_heap] at this
  rw [mergeText, this]
  rfl

/-! ### Command lines -/

theorem parse_items (l : List Item) (h : ∀ i ∈ l, i.Good) (more : List Str) (f : Flags) :
    ∃ g, parseFlags f ((l.map Item.args).flatten ++ (if more = [] then [] else "--".toList :: more)) = some g ∧
    g.files = f.files ++ (filesOf l ++ more) ∧ g.exclude = f.exclude ++ excludesOf l ∧ g.help = f.help ∧
    g.out = ((l.filterMap fun | .out f => some f | _ => none).getLast?).getD f.out := by
  induction l generalizing f with
  | nil =>
    by_cases hm : more = []
    · subst hm
      exact ⟨f, by rw [if_pos rfl]; rfl, by simp [filesOf], by simp [excludesOf], rfl, rfl⟩
    · refine ⟨{ f with files := f.files ++ more }, ?_, by simp [filesOf], by simp [excludesOf], rfl, rfl⟩
      rw [if_neg hm, List.map_nil, List.flatten_nil, List.nil_append, parseFlags.eq_def]
      simp only
      rw [if_pos trivial]
  | cons i l ih =>
    have hl : ∀ i ∈ l, i.Good := fun x hx => h x (List.mem_cons_of_mem _ hx)
    have hi := h i List.mem_cons_self
    cases i with
    | file x =>
      obtain ⟨g, h1, h2, h3, h4, h5⟩ := ih hl { f with files := f.files ++ [x] }
      refine ⟨g, ?_, by rw [h2]; simp [filesOf], by rw [h3]; simp [excludesOf], h4, by rw [h5]; simp⟩
      have hx : x.head? ≠ some '-' := hi
      rw [List.map_cons, List.flatten_cons, List.append_assoc, show (Item.file x).args = [x] from rfl, List.singleton_append, parseFlags.eq_def]
      simp only
      rw [if_neg (by rintro rfl; exact hx rfl), if_neg (by rintro rfl; exact hx rfl), if_neg (by rintro rfl; exact hx rfl),
        if_neg (by rintro (rfl | rfl) <;> exact hx rfl), if_pos hx]
      exact h1
    | out x =>
      obtain ⟨g, h1, h2, h3, h4, h5⟩ := ih hl { f with out := x }
      refine ⟨g, ?_, by rw [h2]; simp [filesOf], by rw [h3]; simp [excludesOf], h4, ?_⟩
      · rw [List.map_cons, List.flatten_cons, List.append_assoc, show (Item.out x).args = ["-o".toList, x] from rfl, List.cons_append,
          List.singleton_append, parseFlags.eq_def]
        simp only
        rw [if_neg (by decide), if_pos trivial]
        exact h1
      · rw [h5]
        have : ∀ (x : Str) (l : List Str), (l.getLast?).getD x = ((x :: l).getLast?).getD f.out := by
          intro x l; rw [List.getLast?_cons, Option.getD_some]
        exact this _ _
    | exclude x =>
      obtain ⟨g, h1, h2, h3, h4, h5⟩ := ih hl { f with exclude := f.exclude ++ [x] }
      refine ⟨g, ?_, by rw [h2]; simp [filesOf], by rw [h3]; simp [excludesOf], h4, by rw [h5]; simp⟩
      rw [List.map_cons, List.flatten_cons, List.append_assoc, show (Item.exclude x).args = ["--exclude-prefix".toList, x] from rfl, List.cons_append,
        List.singleton_append, parseFlags.eq_def]
      simp only
      rw [if_neg (by decide), if_neg (by decide), if_pos trivial]
      rw [if_neg (show ¬ x = [] from hi)]
      exact h1

theorem main_line (fs : FS) (can : Str → Bool) (l : List Item) (more : List Str) (h : ∀ i ∈ l, i.Good) (hf : named l more ≠ []) :
    main fs can (line l more) = mergeCover fs can ⟨named l more, outOf l, excludesOf l, false⟩ := by
  obtain ⟨g, h1, h2, h3, h4, h5⟩ := parse_items l h more ⟨[], [], [], false⟩
  rw [line, List.cons_append, main, if_neg (by decide), if_neg (by decide), h1]
  simp only
  rw [h4, if_neg (by decide), if_neg (by rw [h2]; simpa [named] using hf), if_neg (fun h => absurd h.1 (by decide))]
  have : g = ⟨named l more, outOf l, excludesOf l, false⟩ := by
    cases g
    simp only at h2 h3 h4 h5
    rw [h2, h3, h4, h5]
    rfl
  rw [this]

theorem readAll_some {fs : FS} {files : List Str} {texts : Str → Str} (h : ∀ f ∈ files, fs f = some (texts f)) :
    readAll fs files = some (files.map fun f => (parse (texts f)).2) := by
  induction files with
  | nil => rfl
  | cons f l ih =>
    rw [readAll, h f List.mem_cons_self, ih fun x hx => h x (List.mem_cons_of_mem _ hx)]
    rfl

theorem readAll_none {fs : FS} {files : List Str} {f : Str} (hf : f ∈ files) (h : fs f = none) : readAll fs files = none := by
  induction files with
  | nil => cases hf
  | cons g l ih =>
    rw [readAll]
    rcases List.mem_cons.mp hf with rfl | hf
    · rw [h]
    · rw [ih hf]
      split <;> rfl

/-! ### Profiles -/

theorem profile_split (mode : Str) (lines : List CovLine) (hm : '\n' ∉ mode) (hl : ∀ l ∈ lines, '\n' ∉ l.pfx) :
    splitOn '\n' [] (profile mode lines) =
      ("mode: ".toList ++ mode) :: (lines.map fun l => l.pfx ++ ' ' :: itoa l.count.toInt) ++ [[]] := by
  have e : ∀ (a : Str) (ls : List Str), joinLines (a :: ls ++ [[]]) = a ++ '\n' :: (ls.map fun l => l ++ ['\n']).flatten := by
    intro a ls
    induction ls generalizing a with
    | nil => rfl
    | cons b ls ih =>
      rw [List.cons_append, List.cons_append, joinLines.eq_def]
      simp only
      have := ih b
      rw [List.cons_append] at this
      rw [this]
      simp
  have he : profile mode lines = joinLines (("mode: ".toList ++ mode) :: (lines.map fun l => l.pfx ++ ' ' :: itoa l.count.toInt) ++ [[]]) := by
    rw [e, profile, List.map_map]
    simp [Function.comp_def]
  rw [he]
  refine split_join _ (by simp) ?_
  intro t ht
  rcases List.mem_append.mp ht with ht | ht
  · rcases List.mem_cons.1 ht with rfl | ht
    · simp [hm]
    · obtain ⟨l, hl', rfl⟩ := List.mem_map.1 ht
      have := itoa_nat_nosep (d := '\n') (by decide) (by decide) l.count.toInt
      simp [hl l hl', this]
  · rw [List.mem_singleton.mp ht]; simp

theorem lines_back (lines : List CovLine) : (lines.map fun l => l.pfx ++ ' ' :: itoa l.count.toInt).filterMap parseCovLine = lines := by
  rw [List.filterMap_map]
  have : (parseCovLine ∘ fun l : CovLine => l.pfx ++ ' ' :: itoa l.count.toInt) = some := by
    funext l; exact parseCovLine_format l
  rw [this, List.filterMap_some]

theorem parse_profile (mode : Str) (lines : List CovLine) (hm : '\n' ∉ mode) (hl : ∀ l ∈ lines, '\n' ∉ l.pfx) :
    (parse (profile mode lines)).2 = lines := by
  unfold parse
  rw [profile_split mode lines hm hl]
  have hp : ("mode:".toList).isPrefixOf ("mode: ".toList ++ mode) = true := by simp [List.isPrefixOf]
  simp only [List.cons_append, hp, if_true]
  rw [List.filterMap_append, lines_back]
  simp [parseCovLine]

theorem merged_newline {ls : List CovLine} (h : ∀ l ∈ ls, '\n' ∉ l.pfx) : ∀ l ∈ merged ls, '\n' ∉ l.pfx := by
  intro l hl
  have : l.pfx ∈ (merged ls).map (·.pfx) := List.mem_map_of_mem hl
  rw [merged_pfx, mem_distinct, List.mem_map] at this
  obtain ⟨k, hk, e⟩ := this
  rw [← e]; exact h k hk

theorem parse_lines_newline (text : Str) : ∀ l ∈ (parse text).2, '\n' ∉ l.pfx := by
  have hn := splitOn_nonl text [] (by simp)
  intro l hl
  unfold parse at hl
  cases hsp : splitOn '\n' [] text with
  | nil => rw [hsp] at hl; cases hl
  | cons first rest =>
    rw [hsp] at hl hn
    have : ∃ line ∈ first :: rest, parseCovLine line = some l := by
      simp only at hl
      split at hl
      · obtain ⟨x, hx, hp⟩ := List.mem_filterMap.mp hl
        exact ⟨x, List.mem_cons_of_mem _ hx, hp⟩
      · obtain ⟨x, hx, hp⟩ := List.mem_filterMap.mp hl
        exact ⟨x, hx, hp⟩
    obtain ⟨x, hx, hp⟩ := this
    exact fun hc => hn x hx (parseCovLine_mem hp hc)

theorem parse_mergeText (covs : List (List CovLine)) (ex : List Str) (h : ∀ l ∈ covs.flatten, '\n' ∉ l.pfx) :
    parse (mergeText covs ex) = ("count".toList, (merged covs.flatten).filter fun l => !hasAnyPrefix l.pfx ex) := by
  rw [mergeText_eq]
  refine C32_parse_format _ _ (by decide) (by decide) (by decide) fun l hl => ?_
  exact merged_newline h l ((List.mem_filter.mp hl).1)

/-- What a run of `merge` writes: to the standard output, or to the file behind `-o`. -/
def Writes (fs : FS) (r : Res) (out text : Str) : Prop :=
  r.code = 0 ∧ ((out = [] ∧ r.stdout = text ∧ r.fs = fs) ∨
    (out ≠ [] ∧ r.stdout = [] ∧ r.fs out = some text ∧ ∀ n, n ≠ out → r.fs n = fs n))

/-- **C86** (the sum) `merge` with any files and options, of which all files can be read and the output can be created, writes one profile
    of mode `count`: every block of every file that does not begin with an excluded prefix, once, with the sum of its counts in all files –
    also where the output is one of the files. -/
theorem C86_merge (fs : FS) (can : Str → Bool) (l : List Item) (more : List Str) (h : ∀ i ∈ l, i.Good) (hf : named l more ≠ []) (ho : can (outOf l) = true)
    (mode : Str → Str) (lines : Str → List CovLine)
    (hr : ∀ f ∈ named l more, fs f = some (profile (mode f) (lines f)) ∧ '\n' ∉ mode f ∧ ∀ x ∈ lines f, '\n' ∉ x.pfx) :
    ∃ text res, Writes fs (main fs can (line l more)) (outOf l) text ∧ parse text = ("count".toList, res) ∧
      (res.map (·.pfx)).Nodup ∧
      ∀ b : CovLine, b ∈ res ↔ (∃ f ∈ named l more, ∃ x ∈ lines f, x.pfx = b.pfx) ∧ (∀ p ∈ excludesOf l, ¬ p <+: b.pfx) ∧
        b.count = total ((named l more).flatMap lines) b.pfx := by
  have hread : readAll fs (named l more) = some ((named l more).map lines) := by
    rw [readAll_some (texts := fun f => profile (mode f) (lines f)) fun f hf => (hr f hf).1]
    congr 1
    apply List.map_congr_left
    intro f hf
    exact parse_profile _ _ (hr f hf).2.1 (hr f hf).2.2
  have hnl : ∀ x ∈ ((named l more).map lines).flatten, '\n' ∉ x.pfx := by
    intro x hx
    obtain ⟨c, hc, hx⟩ := List.mem_flatten.mp hx
    obtain ⟨f, hf, rfl⟩ := List.mem_map.mp hc
    exact (hr f hf).2.2 x hx
  have hfm : (named l more).flatMap lines = ((named l more).map lines).flatten := List.flatMap_def
  refine ⟨mergeText ((named l more).map lines) (excludesOf l), _, ?_, parse_mergeText _ _ hnl, ?_, ?_⟩
  · rw [main_line fs can l more h hf, mergeCover, hread]
    simp only
    by_cases ho' : outOf l = []
    · rw [if_pos ho']; exact ⟨rfl, .inl ⟨ho', rfl, rfl⟩⟩
    · rw [if_neg ho', if_pos ho]
      exact ⟨rfl, .inr ⟨ho', rfl, by simp [FS.write], fun n hn => by simp [FS.write, hn]⟩⟩
  · have h1 : ((merged ((named l more).map lines).flatten).map (·.pfx)).Nodup := by rw [merged_pfx]; exact nodup_distinct _
    exact h1.sublist (List.Sublist.map _ List.filter_sublist)
  · intro b
    rw [List.mem_filter, hfm]
    unfold merged
    simp only [List.mem_map, mem_distinct]
    have hex : (!hasAnyPrefix b.pfx (excludesOf l)) = true ↔ ∀ p ∈ excludesOf l, ¬ p <+: b.pfx := by
      simp [hasAnyPrefix, List.isPrefixOf_iff_prefix]
    rw [hex]
    constructor
    · rintro ⟨⟨p, ⟨x, hx, rfl⟩, rfl⟩, he⟩
      obtain ⟨c, hc, hx⟩ := List.mem_flatten.mp hx
      obtain ⟨f, hf, rfl⟩ := List.mem_map.mp hc
      exact ⟨⟨f, hf, x, hx, rfl⟩, he, rfl⟩
    · rintro ⟨⟨f, hf, x, hx, e⟩, he, ht⟩
      exact ⟨⟨b.pfx, ⟨x, List.mem_flatten.mpr ⟨_, List.mem_map_of_mem hf, hx⟩, e⟩, by rw [← ht]⟩, he⟩

/-- **C86** (all or nothing) If one of the files cannot be read, or the output cannot be created, the command fails and no file is changed. -/
theorem C86_missing (fs : FS) (can : Str → Bool) (l : List Item) (more : List Str) (h : ∀ i ∈ l, i.Good)
    (hbad : (∃ f ∈ named l more, fs f = none) ∨ (named l more ≠ [] ∧ outOf l ≠ [] ∧ can (outOf l) = false)) :
    (main fs can (line l more)).code = 1 ∧ (main fs can (line l more)).fs = fs := by
  have hf : named l more ≠ [] := by
    rcases hbad with ⟨f, hf, _⟩ | ⟨h, _⟩
    · exact List.ne_nil_of_mem hf
    · exact h
  rw [main_line fs can l more h hf, mergeCover]
  simp only
  rcases hbad with ⟨f, hf, hn⟩ | ⟨_, ho, hc⟩
  · rw [readAll_none hf hn]; exact ⟨rfl, rfl⟩
  · cases readAll fs (named l more) with
    | none => exact ⟨rfl, rfl⟩
    | some covs =>
      simp only
      rw [if_neg ho, hc, if_neg (by simp)]
      exact ⟨rfl, rfl⟩

/-! ### Covered -/

/-- The sum as a number. -/
def sum : List CovLine → Str → Int
  | [], _ => 0
  | l :: ls, p => (if l.pfx = p then l.count.toInt else 0) + sum ls p

theorem sum_nonneg {ls : List CovLine} {p : Str} (h : ∀ l ∈ ls, 0 ≤ l.count.toInt) : 0 ≤ sum ls p := by
  induction ls with
  | nil => simp [sum]
  | cons l ls ih =>
    have h1 := h l List.mem_cons_self
    have h2 := ih fun x hx => h x (List.mem_cons_of_mem _ hx)
    rw [sum]; split <;> omega

theorem total_sum {ls : List CovLine} {p : Str} (h : ∀ l ∈ ls, 0 ≤ l.count.toInt) (hb : sum ls p < 2 ^ 63) :
    (total ls p).toInt = sum ls p := by
  induction ls with
  | nil => rfl
  | cons l ls ih =>
    have h1 := h l List.mem_cons_self
    have hl : ∀ x ∈ ls, 0 ≤ x.count.toInt := fun x hx => h x (List.mem_cons_of_mem _ hx)
    have h2 := sum_nonneg (p := p) hl
    rw [sum] at hb ⊢
    rw [total]
    by_cases hp : l.pfx = p
    · rw [if_pos hp] at hb ⊢
      rw [if_pos hp, Int64.toInt_add, ih hl (by omega), Int.bmod_eq_of_le (by omega) (by omega)]
    · rw [if_neg hp] at hb ⊢
      rw [if_neg hp, ih hl (by omega)]
      omega

/-- **C86** (covered) As long as no sum passes 2⁶³ a block has been run according to the merged profile exactly if it has been according to
    one of the files. -/
theorem C86_covered {ls : List CovLine} {p : Str} (h : ∀ l ∈ ls, 0 ≤ l.count.toInt) (hb : sum ls p < 2 ^ 63) :
    0 < (total ls p).toInt ↔ ∃ l ∈ ls, l.pfx = p ∧ 0 < l.count.toInt := by
  rw [total_sum h hb]
  clear hb
  induction ls with
  | nil => simp [sum]
  | cons l ls ih =>
    have h1 := h l List.mem_cons_self
    have hl : ∀ x ∈ ls, 0 ≤ x.count.toInt := fun x hx => h x (List.mem_cons_of_mem _ hx)
    have h2 := sum_nonneg (p := p) hl
    have ih := ih hl
    rw [sum]
    constructor
    · intro hs
      by_cases hp : l.pfx = p
      · rw [if_pos hp] at hs
        by_cases hc : 0 < l.count.toInt
        · exact ⟨l, List.mem_cons_self, hp, hc⟩
        · obtain ⟨x, hx, h⟩ := ih.mp (by omega)
          exact ⟨x, List.mem_cons_of_mem _ hx, h⟩
      · rw [if_neg hp] at hs
        obtain ⟨x, hx, h⟩ := ih.mp (by omega)
        exact ⟨x, List.mem_cons_of_mem _ hx, h⟩
    · rintro ⟨x, hx, hp, hc⟩
      rcases List.mem_cons.mp hx with rfl | hx
      · rw [if_pos hp]; omega
      · have := ih.mpr ⟨x, hx, hp, hc⟩
        split <;> omega

/-! ### Step by step -/

theorem total_merged (ls : List CovLine) (p : Str) : total (merged ls) p = total ls p := by
  have key : ∀ ps : List Str, ps.Nodup → total (ps.map fun q => ⟨q, total ls q⟩) p = if p ∈ ps then total ls p else 0 := by
    intro ps
    induction ps with
    | nil => intro _; rfl
    | cons q ps ih =>
      intro hn
      obtain ⟨h1, h2⟩ := List.nodup_cons.mp hn
      rw [List.map_cons, total, ih h2]
      by_cases hq : q = p
      · subst hq
        simp only [if_true, h1, if_false, List.mem_cons, true_or]
        simp
      · simp only [if_neg hq, List.mem_cons, Ne.symm hq, false_or]
  rw [merged, key _ (nodup_distinct _)]
  split
  · rfl
  · rename_i h
    rw [mem_distinct] at h
    exact (total_not_mem h).symm

theorem distinct_append (a b : List Str) : distinct (a ++ b) = distinct a ++ (distinct b).filter fun p => decide (p ∉ a) := by
  induction a with
  | nil =>
    rw [List.nil_append, show distinct [] = [] from rfl, List.nil_append]
    exact (List.filter_eq_self.mpr fun _ _ => by simp).symm
  | cons p a ih =>
    rw [List.cons_append, distinct, distinct, ih, List.filter_append, List.cons_append, List.filter_filter]
    congr 2
    apply List.filter_congr
    intro q _
    simp [List.mem_cons, not_or, Bool.and_comm]

theorem distinct_distinct_append (a b : List Str) : distinct (distinct a ++ b) = distinct (a ++ b) := by
  have idem : ∀ l : List Str, l.Nodup → distinct l = l := by
    intro l
    induction l with
    | nil => intro _; rfl
    | cons p l ih =>
      intro hn
      obtain ⟨h1, h2⟩ := List.nodup_cons.mp hn
      rw [distinct, ih h2]
      congr 1
      rw [List.filter_eq_self]
      intro q hq
      simp
      rintro rfl
      exact h1 hq
  rw [distinct_append, distinct_append, idem _ (nodup_distinct a)]
  congr 1
  apply List.filter_congr
  intro q _
  simp [mem_distinct]

theorem merged_merged_append (a b : List CovLine) : merged (merged a ++ b) = merged (a ++ b) := by
  rw [show merged (merged a ++ b) = (distinct ((merged a ++ b).map (·.pfx))).map (fun p => ⟨p, total (merged a ++ b) p⟩) from rfl,
    List.map_append, merged_pfx, distinct_distinct_append,
    show merged (a ++ b) = (distinct ((a ++ b).map (·.pfx))).map (fun p => ⟨p, total (a ++ b) p⟩) from rfl, List.map_append]
  apply List.map_congr_left
  intro p _
  rw [total_append, total_append, total_merged]

/-- **C86** (step by step) Merging a merged profile with more files gives what merging all files at once gives: the same text. -/
theorem C86_step_by_step (texts more : List Str) (ex : List Str) :
    mergeText ((parse (mergeText (texts.map fun t => (parse t).2) [])).2 :: more.map fun t => (parse t).2) ex =
      mergeText ((texts ++ more).map fun t => (parse t).2) ex := by
  have hnl : ∀ x ∈ (texts.map fun t => (parse t).2).flatten, '\n' ∉ x.pfx := by
    intro x hx
    obtain ⟨c, hc, hx⟩ := List.mem_flatten.mp hx
    obtain ⟨t, _, rfl⟩ := List.mem_map.mp hc
    exact parse_lines_newline t x hx
  rw [parse_mergeText _ _ hnl, mergeText_eq, mergeText_eq, List.flatten_cons, List.map_append, List.flatten_append]
  have : ∀ l : List CovLine, (l.filter fun l => !hasAnyPrefix l.pfx []) = l := by intro l; simp [hasAnyPrefix]
  simp only [this]
  rw [merged_merged_append]

/-- **C86** (`compact`) is `merge` of one file; doing it again changes nothing. -/
theorem C86_compact (fs : FS) (can : Str → Bool) (f out : Str) (hf : f.head? ≠ some '-') :
    main fs can ["compact".toList, f, "-o".toList, out] = main fs can (line [.file f, .out out] []) := by
  obtain ⟨g, h1, h2, h3, h4, h5⟩ := parse_items [.file f, .out out] (by simpa [Item.Good] using hf) [] ⟨[], [], [], false⟩
  have e : ([Item.file f, .out out].map Item.args).flatten ++ (if ([] : List Str) = [] then [] else "--".toList :: []) =
      [f, "-o".toList, out] := by rw [if_pos rfl]; rfl
  rw [line, List.cons_append, e, main, main, ← e, h1]
  have hl : g.files = [f] := by rw [h2]; rfl
  simp only [hl]
  simp [show ("compact".toList = "help".toList) = False by decide +kernel, show ("merge".toList = "help".toList) = False by decide +kernel,
    show ("merge".toList = "compact".toList) = False by decide +kernel]

theorem C86_compact_again (text : Str) (ex : List Str) :
    mergeText [(parse (mergeText [(parse text).2] [])).2] ex = mergeText [(parse text).2] ex := by
  have := C86_step_by_step [text] [] ex
  simpa using this

/-! ### What is wrong -/

/-- The help says that `--exclude-prefix` excludes a package and its sub packages: others are excluded too. -/
theorem C86_exclude_other : hasAnyPrefix "example.com/ab/x.go:1.1,2.2 1".toList ["example.com/a".toList] = true := by decide +kernel

/-- **C86** (a profile that was appended to another) The mode line in the middle becomes a block of its own, which `go tool cover` refuses:
    the merged profile has the line `mode: 0`. -/
theorem C86_mode_line (m₁ m₂ : Str) (a b : List CovLine) (h₁ : '\n' ∉ m₁) (h₂ : '\n' ∉ m₂) (hs : ' ' ∉ m₂)
    (hm : parseInt64 m₂ = none) (ha : ∀ l ∈ a, '\n' ∉ l.pfx) (hb : ∀ l ∈ b, '\n' ∉ l.pfx)
    (hno : ∀ l ∈ a ++ b, l.pfx ≠ "mode:".toList) :
    (⟨"mode:".toList, 0⟩ : CovLine) ∈ (parse (mergeText [(parse (profile m₁ a ++ profile m₂ b)).2] [])).2 := by
  have hline : parseCovLine ("mode: ".toList ++ m₂) = some ⟨"mode:".toList, 0⟩ := by
    have hrev : ("mode: ".toList ++ m₂).reverse = m₂.reverse ++ ' ' :: "mode:".toList.reverse := by
      rw [show "mode: ".toList ++ m₂ = "mode:".toList ++ ' ' :: m₂ from rfl]; simp
    have hcut := cut_at ' ' m₂.reverse "mode:".toList.reverse (by simpa using hs)
    unfold parseCovLine
    rw [if_neg (by simp), hrev]
    simp only
    rw [hcut.1, List.drop_one, hcut.2, List.reverse_reverse, List.reverse_reverse, hm]
  have hsplit : ∀ (x y : Str) (w : Str), '\n' ∉ x → splitOn '\n' w (x ++ '\n' :: y) = (w ++ x) :: splitOn '\n' [] y := by
    intro x y
    induction x with
    | nil => intro w _; simp [splitOn]
    | cons c x ih =>
      intro w hx
      have hc : c ≠ '\n' := fun e => hx (by rw [e]; simp)
      rw [List.cons_append, splitOn, if_neg hc, ih _ fun h => hx (List.mem_cons_of_mem _ h)]
      simp
  have hparts : ∀ (ts : List Str) (y : Str), (∀ t ∈ ts, '\n' ∉ t) →
      splitOn '\n' [] ((ts.map fun t => t ++ ['\n']).flatten ++ y) = ts ++ splitOn '\n' [] y := by
    intro ts y
    induction ts with
    | nil => intro _; rfl
    | cons t ts ih =>
      intro h
      have := hsplit t ((ts.map fun t => t ++ ['\n']).flatten ++ y) [] (h t List.mem_cons_self)
      rw [List.map_cons, List.flatten_cons, List.append_assoc, List.append_assoc, List.singleton_append, this,
        ih fun x hx => h x (List.mem_cons_of_mem _ hx)]
      rfl
  have hall : (parse (profile m₁ a ++ profile m₂ b)).2 = a ++ ⟨"mode:".toList, 0⟩ :: b := by
    have e : profile m₁ a ++ profile m₂ b =
        (((("mode: ".toList ++ m₁) :: a.map fun l => l.pfx ++ ' ' :: itoa l.count.toInt).map fun t => t ++ ['\n']).flatten) ++ profile m₂ b := by
      congr 1
      rw [profile, List.map_cons, List.flatten_cons, List.map_map]
      simp [Function.comp_def]
    unfold parse
    rw [e, hparts _ _ (by
      intro t ht
      rcases List.mem_cons.1 ht with rfl | ht
      · simp [h₁]
      · obtain ⟨l, hl', rfl⟩ := List.mem_map.1 ht
        have := itoa_nat_nosep (d := '\n') (by decide) (by decide) l.count.toInt
        simp [ha l hl', this]), profile_split m₂ b h₂ hb]
    have hp : ("mode:".toList).isPrefixOf ("mode: ".toList ++ m₁) = true := by simp [List.isPrefixOf]
    simp only [List.cons_append, hp, if_true]
    rw [List.filterMap_append, lines_back, List.filterMap_cons, hline]
    simp only
    rw [List.filterMap_append, lines_back]
    simp [parseCovLine]
  have hnl : ∀ x ∈ ([(parse (profile m₁ a ++ profile m₂ b)).2] : List (List CovLine)).flatten, '\n' ∉ x.pfx := by
    intro x hx
    rw [List.flatten_cons, List.flatten_nil, List.append_nil] at hx
    exact parse_lines_newline _ x hx
  rw [parse_mergeText _ _ hnl, List.mem_filter]
  refine ⟨?_, by simp [hasAnyPrefix]⟩
  rw [List.flatten_cons, List.flatten_nil, List.append_nil, hall, merged]
  refine List.mem_map.mpr ⟨"mode:".toList, mem_distinct.mpr (by simp), ?_⟩
  have ht : total (a ++ ⟨"mode:".toList, 0⟩ :: b) "mode:".toList = 0 := by
    rw [total_append, total, if_pos rfl, total_not_mem, total_not_mem]
    · rfl
    · intro h; obtain ⟨l, hl, e⟩ := List.mem_map.mp h; exact hno l (List.mem_append_right _ hl) e
    · intro h; obtain ⟨l, hl, e⟩ := List.mem_map.mp h; exact hno l (List.mem_append_left _ hl) e
  rw [ht]

/-- **C86** (unknown commands) A misspelt command does nothing, and exits with success. -/
theorem C86_unknown (fs : FS) (can : Str → Bool) (cmd : Str) (args : List Str) (h : cmd ≠ "merge".toList) (h' : cmd ≠ "compact".toList)
    (_ : cmd ≠ "serve".toList) (_ : cmd ≠ "load".toList) : main fs can (cmd :: args) = ⟨0, [], fs⟩ := by
  rw [main]
  split
  · rfl
  · rw [if_pos ⟨h, h'⟩]

/-- **C86** (`serve`, `load`) A flag without its value at the end of the line is no error but an index out of range. -/
theorem C86_serve_panic (s : Serve) (files : List Str) (hf : ∀ f ∈ files, f.head? ≠ some '-') (flag : Str)
    (h : flag ∈ ["--bind".toList, "--port".toList, "--project-dir".toList, "--include".toList, "--exclude".toList, "--build-arg".toList,
      "--build-args".toList, "--diff-with".toList]) :
    parseServe s (files ++ [flag]) = .panic := by
  have h : flag ∈ valueFlags := h
  have hv : ∀ f ∈ valueFlags, f.head? = some '-' ∧ f ≠ "--".toList := by decide +kernel
  induction files generalizing s with
  | nil =>
    rw [List.nil_append, parseServe.eq_def]
    simp only
    rw [if_neg (hv flag h).2, if_pos (List.contains_iff_mem.mpr h)]
  | cons f l ih =>
    have hh := hf f List.mem_cons_self
    rw [List.cons_append, parseServe.eq_def]
    simp only
    rw [if_neg (by rintro rfl; exact hh rfl),
      if_neg (fun hc => hh (hv f (List.contains_iff_mem.mp hc)).1), if_neg (by rintro rfl; exact hh rfl), if_pos hh]
    exact ih _ fun x hx => hf x (List.mem_cons_of_mem _ hx)

/-! ### serve -/

theorem setFlag_one (k : One) (v : Str) (s : Serve) (h : k = .diffWith → v ≠ []) : setFlag s k.flag v = some (match k with
    | .bind => { s with bind := v } | .port => { s with port := v } | .dir => { s with dir := v }
    | .diffWith => { s with diffWith := v }) := by
  cases k
  · rfl
  · rfl
  · rfl
  · show (if v = [] then none else some { s with diffWith := v }) = _
    rw [if_neg (h rfl)]

theorem setFlag_many (k : Many) (v : Str) (s : Serve) : setFlag s k.flag v = some (match k with
    | .include_ => { s with include_ := s.include_ ++ [v] } | .exclude => { s with exclude := s.exclude ++ [v] }
    | _ => { s with buildArgs := s.buildArgs ++ [v] }) := by
  cases k <;> rfl

theorem flag_one (k : One) : k.flag ≠ "--".toList ∧ valueFlags.contains k.flag = true := by cases k <;> decide +kernel
theorem flag_many (k : Many) : k.flag ≠ "--".toList ∧ valueFlags.contains k.flag = true := by cases k <;> decide +kernel

/-- What the items of a line make of the options. -/
def after (s : Serve) (l : List SItem) : Serve where
  bind := lastOf l .bind s.bind
  port := lastOf l .port s.port
  dir := lastOf l .dir s.dir
  include_ := s.include_ ++ allOf l [.include_]
  exclude := s.exclude ++ allOf l [.exclude]
  buildArgs := s.buildArgs ++ allOf l [.buildArg, .buildArgs]
  diffWith := lastOf l .diffWith s.diffWith
  full := s.full || l.any fun | .full => true | _ => false
  profiles := s.profiles ++ profilesOf l

theorem lastOf_same (k : One) (v d : Str) (l : List SItem) : lastOf (.one k v :: l) k d = lastOf l k v := by
  simp only [lastOf, List.filterMap_cons, if_true, List.getLast?_cons, Option.getD_some]

theorem lastOf_other (i : SItem) (k : One) (d : Str) (l : List SItem) (h : ∀ v, i ≠ .one k v) : lastOf (i :: l) k d = lastOf l k d := by
  cases i with
  | one k' v =>
    have : k' ≠ k := by rintro rfl; exact h v rfl
    simp only [lastOf, List.filterMap_cons, if_neg this]
  | _ => simp only [lastOf, List.filterMap_cons]

theorem parseServe_items (l : List SItem) (h : ∀ i ∈ l, i.Good) (s : Serve) : parseServe s (sline l) = parseServe (after s l) [] := by
  induction l generalizing s with
  | nil => simp [sline, after, lastOf, allOf, profilesOf]
  | cons i l ih =>
    have ih := ih fun x hx => h x (List.mem_cons_of_mem _ hx)
    have hi := h i List.mem_cons_self
    have e : sline (i :: l) = i.args ++ sline l := by rw [sline, List.map_cons, List.flatten_cons]; rfl
    rw [e]
    cases i with
    | profile f =>
      have hx : f.head? ≠ some '-' := hi
      have hv : ∀ f ∈ valueFlags, f.head? = some '-' := by decide +kernel
      rw [show (SItem.profile f).args = [f] from rfl, List.singleton_append, parseServe.eq_def]
      simp only
      rw [if_neg (by rintro rfl; exact hx rfl), if_neg (fun hc => hx (hv f (List.contains_iff_mem.mp hc))),
        if_neg (by rintro rfl; exact hx rfl), if_pos hx, ih]
      congr 1
      simp [after, lastOf, allOf, profilesOf]
    | full =>
      rw [show SItem.full.args = ["--full".toList] from rfl, List.singleton_append, parseServe.eq_def]
      simp only
      rw [if_neg (by decide), if_neg (by decide +kernel), if_pos trivial, ih]
      congr 1
      simp [after, lastOf, allOf, profilesOf]
    | one k v =>
      rw [show (SItem.one k v).args = [k.flag, v] from rfl, List.cons_append, List.singleton_append, parseServe.eq_def]
      simp only
      rw [if_neg (flag_one k).1, if_pos (flag_one k).2, setFlag_one k v s hi]
      simp only
      rw [ih]
      congr 1
      cases k <;> simp [after, lastOf, allOf, profilesOf, List.getLast?_cons]
    | many k v =>
      rw [show (SItem.many k v).args = [k.flag, v] from rfl, List.cons_append, List.singleton_append, parseServe.eq_def]
      simp only
      rw [if_neg (flag_many k).1, if_pos (flag_many k).2, setFlag_many k v s]
      simp only
      rw [ih]
      congr 1
      cases k <;> simp [after, lastOf, allOf, profilesOf]

/-- **C86** (`serve`, `load`) With all values given, in any order: the last value of each setting is used, the lists collect in order, and
    without `--diff-with` it is `origin/master`; without a profile it is an error. -/
theorem C86_serve (l : List SItem) (h : ∀ i ∈ l, i.Good) :
    (profilesOf l = [] → parseServe .start (sline l) = .err) ∧
    (profilesOf l ≠ [] → parseServe .start (sline l) = .ok
      { bind := lastOf l .bind [], port := lastOf l .port "8000".toList, dir := lastOf l .dir [], include_ := allOf l [.include_],
        exclude := allOf l [.exclude], buildArgs := allOf l [.buildArg, .buildArgs],
        diffWith := lastOf l .diffWith "origin/master".toList,
        full := l.any fun | .full => true | _ => false, profiles := profilesOf l }) := by
  rw [parseServe_items l h, parseServe.eq_def]
  simp only
  have hp : (after .start l).profiles = profilesOf l := rfl
  refine ⟨fun he => by rw [hp, if_pos he], fun hne => ?_⟩
  rw [hp, if_neg hne]
  congr 1
  have hd : ∀ l : List SItem, (∀ i ∈ l, i.Good) → (lastOf l .diffWith [] = [] → ∀ d, lastOf l .diffWith d = d) ∧
      (lastOf l .diffWith [] ≠ [] → ∀ d, lastOf l .diffWith d = lastOf l .diffWith []) := by
    intro l hl
    simp only [lastOf]
    cases hx : (l.filterMap fun | .one k' v => if k' = .diffWith then some v else none | _ => none).getLast? with
    | none => simp
    | some v =>
      have hm := List.mem_of_getLast? hx
      obtain ⟨i, hi, e⟩ := List.mem_filterMap.mp hm
      have hg := hl i hi
      cases i with
      | one k' w =>
        simp only at e
        split at e
        · rename_i hk
          have := hg hk
          cases e
          simp [this]
        · cases e
      | _ => cases e
  by_cases hx : (after .start l).diffWith = []
  · rw [if_pos hx]
    have := (hd l h).1 hx "origin/master".toList
    rw [this]
    simp [after, Serve.start]
  · rw [if_neg hx]
    have := (hd l h).2 hx "origin/master".toList
    rw [this]
    simp [after, Serve.start]

/-! ### Examples -/

def exFs : FS := fun n =>
  if n = "a".toList then some "mode: set\nm/x.go:1.1,2.2 1 1\nm/y.go:1.1,2.2 1 0\n".toList
  else if n = "b".toList then some "mode: count\nm/x.go:1.1,2.2 1 4\nm/z.go:1.1,2.2 1 2\n".toList else none

example : (main exFs (fun _ => true) (line [.file "a".toList, .exclude "m/y".toList, .file "b".toList] [])).stdout =
    "mode: count\nm/x.go:1.1,2.2 1 5\nm/z.go:1.1,2.2 1 2".toList := by decide +kernel

example : exFs "a".toList = some (profile "set".toList [⟨"m/x.go:1.1,2.2 1".toList, 1⟩, ⟨"m/y.go:1.1,2.2 1".toList, 0⟩]) := by
  decide +kernel

example : parseServe .start ["--port".toList, "9000".toList, "p".toList] =
    .ok { Serve.start with port := "9000".toList, diffWith := "origin/master".toList, profiles := ["p".toList] } := by decide +kernel

end Verif.Cmd.CovMerge
