import Verif.Cmd.RuntimeCopyRuns
/-
C71: the main theorems, an example of a release, and counterexamples.
-/
namespace Verif.Cmd.RuntimeCopy
open Verif.Text Verif.Instrument.PatchText Spec

/-! ### What a copy depends on -/

theorem unlines_inj {L M : List Str} (hL : ∀ l ∈ L, '\n' ∉ l) (hM : ∀ l ∈ M, '\n' ∉ l) (h : unlines L = unlines M) : L = M := by
  have := congrArg splitLines h
  rw [splitLines_unlines hL, splitLines_unlines hM] at this
  exact List.append_cancel_right this

theorem copy_congr {b c x : Xgo} {rb : Release b} {rc : Release c} {rx : Release x} (hb : rb.WF) (hc : rc.WF)
    (h : b.files = c.files) (f : Opts) (cover : Bool) : copy rb rx f cover = copy rc rx f cover := by
  have key : ∀ {p a a' : Str}, (p, a) ∈ b.files → (p, a') ∈ c.files → a = a' := by
    intro p a a' h1 h2
    have e1 := lookup_mem hb.nodup h1
    have e2 := lookup_mem hc.nodup h2
    rw [h, e2] at e1
    exact (Option.some.inj e1).symm
  have hv := unlines_inj hb.versionLines hc.versionLines (key hb.hversion hc.hversion)
  have hf := unlines_inj hb.flagsLines hc.flagsLines (key hb.hflags hc.hflags)
  have hm := key hb.hmod hc.hmod
  have hl : rb.link = rc.link := by
    have h1 := removed hb
    rw [key hb.htemplate hc.htemplate, removed hc] at h1
    exact (Option.some.inj h1).symm
  funext p
  rw [copy_at, copy_at, hv, hf, hm, hl, h]

theorem copy_flags {b x : Xgo} {rb : Release b} {rx : Release x} (hb : rb.WF) {f o : Opts} (hf : On f = false) (ho : On o = false)
    (cover : Bool) : copy rb rx f cover = copy rb rx o cover := by
  funext p
  rw [copy_at, copy_at, flags_off hb f hf, flags_off hb o ho]

theorem copy_flagsOf {b x : Xgo} {rb : Release b} {rx : Release x} (hb : rb.WF) (o : Opts) (cover : Bool) :
    copy rb rx (flagsOf o) cover = copy rb rx o cover := by
  unfold flagsOf
  cases h : On o
  · exact copy_flags hb on_off h cover
  · rfl

/-! ### The theorems -/

/-- **C71.** The copy after any number of complete runs of any executables: it comes from the run that last extracted it, has
    the version of the last run, and its trace.go is the one of the last run; its flags are those of the last run that had
    some since it was extracted. `d` is any directory from which the first run extracts. -/
theorem C71_history_partial (first : Run) (more : List Run) (hf : Good first) (hm : ∀ n ∈ more, Good n) (d : Dir)
    (hd : first.o.force = true ∨ needCopy first.x d = some true) :
    runs ((first :: more).map fun n => (n.x, n.o)) d = some (after first more) := by
  rw [List.map_cons, runs, run_fresh hf.1 hf.2 hd]
  simp only
  have hdir : DirOk (flagsOf first.o) := by
    unfold flagsOf
    split
    · exact hf.2
    · exact dirOk_off
  exact runs_from ⟨first, flagsOf first.o⟩ first hf.1 hdir hf.1 more hm

/-- The directory is extracted to when there is no readable version in it. -/
theorem C71_first (x : Xgo) (r : Release x) (h : r.WF) (d : Dir) :
    (d "core/version.go".toList = none → needCopy x d = some true) ∧
    (∀ c, d "core/version.go".toList = some c → numberOf c = none → needCopy x d = some true) := by
  have hm : x.embedded versionPath = some (unlines r.version) := lookup_mem h.nodup h.hversion
  constructor
  · intro hd
    unfold needCopy
    have hd : d versionPath = none := hd
    rw [hd]
  · intro c hc hn
    have hc : d versionPath = some c := hc
    unfold needCopy
    rw [hc]
    simp only [hm, hn]
    split <;> rfl

/-- **C71.** A run that is told to (`--reset-instrument`, `-a`) makes the copy its own, whatever is in the directory. -/
theorem C71_forced (n : Run) (hn : Good n) (hf : n.o.force = true) (d : Dir) :
    run n.x n.o d = some (copy n.r n.r n.o n.o.cover) := by
  rw [run_fresh hn.1 hn.2 (Or.inl hf), copy_flagsOf hn.1]

theorem readLiteral_quoteChar (c : Char) (r : Str) : readLiteral (quoteChar c ++ r) = (readLiteral r).map (c :: ·) := by
  unfold quoteChar
  by_cases h1 : c = '"'
  · subst h1; simp only [if_true, List.cons_append, List.nil_append, readLiteral]; cases readLiteral r <;> rfl
  by_cases h2 : c = '\\'
  · subst h2; rw [if_neg (by decide), if_pos rfl]; simp only [List.cons_append, List.nil_append, readLiteral]; cases readLiteral r <;> rfl
  by_cases h3 : c = '\n'
  · subst h3; rw [if_neg (by decide), if_neg (by decide), if_pos rfl]
    simp only [List.cons_append, List.nil_append, readLiteral]; cases readLiteral r <;> rfl
  by_cases h4 : c = '\r'
  · subst h4; rw [if_neg (by decide), if_neg (by decide), if_neg (by decide), if_pos rfl]
    simp only [List.cons_append, List.nil_append, readLiteral]; cases readLiteral r <;> rfl
  by_cases h5 : c = '\t'
  · subst h5; rw [if_neg (by decide), if_neg (by decide), if_neg (by decide), if_neg (by decide), if_pos rfl]
    simp only [List.cons_append, List.nil_append, readLiteral]; cases readLiteral r <;> rfl
  rw [if_neg h1, if_neg h2, if_neg h3, if_neg h4, if_neg h5]
  rw [List.cons_append, List.nil_append]
  rw [readLiteral.eq_def]
  split
  · cases ‹_ = []›
  · rename_i h; injection h with h _; exact absurd h h1
  · rename_i h; injection h with h _; exact absurd h h1
  · rename_i h; injection h with h _; exact absurd h h2
  · rename_i h; injection h with h6 h7; subst h6; subst h7; rw [if_neg (by simp [h3, h2])]

/-- **C71.** The trace directory in flags.go is, for the compiler, the one that was given. -/
theorem C71_dir (o : Opts) (rest : Str) : ∃ lit, flagsLine o ("const COLLECT_TEST_TRACE_DIR = ".toList ++ rest) =
    "const COLLECT_TEST_TRACE_DIR = \"".toList ++ lit ∧ readLiteral lit = some o.dir := by
  refine ⟨o.dir.flatMap quoteChar ++ ['"'], ?_, ?_⟩
  · unfold flagsLine
    rw [if_neg (by simp [List.isPrefixOf]), if_pos (by rw [List.isPrefixOf_iff_prefix]; exact List.prefix_append _ _)]
    simp
  · induction o.dir with
    | nil => rfl
    | cons c s ih =>
      rw [List.flatMap_cons, List.append_assoc, readLiteral_quoteChar, ih]; rfl

example : ∃ lit, flagsLine ⟨false, true, "C:\\tmp\\a\"b".toList, false, false⟩ "const COLLECT_TEST_TRACE_DIR = \"\"".toList =
    "const COLLECT_TEST_TRACE_DIR = \"".toList ++ lit ∧ readLiteral lit = some "C:\\tmp\\a\"b".toList :=
  C71_dir _ "\"\"".toList

theorem origin_mem (g : Origin) : ∀ more : List Run, (more.foldl Origin.next g).from_ = g.from_ ∨ (more.foldl Origin.next g).from_ ∈ more := by
  intro more
  induction more generalizing g with
  | nil => exact Or.inl rfl
  | cons n more ih =>
    rw [List.foldl_cons]
    rcases ih (g.next n) with h | h
    · rw [h]
      unfold Origin.next
      by_cases hc : n.o.force = true ∨ g.from_.r.number < n.r.number
      · rw [if_pos hc]; exact Or.inr List.mem_cons_self
      · rw [if_neg hc]; exact Or.inl rfl
    · exact Or.inr (List.mem_cons_of_mem _ h)

theorem flags_mem (g : Origin) : ∀ more : List Run, (∀ n ∈ more, On n.o = false) → On g.flags = false →
    On (more.foldl Origin.next g).flags = false := by
  intro more
  induction more generalizing g with
  | nil => intro _ h; exact h
  | cons n more ih =>
    intro hm hg
    refine ih _ (fun m hm' => hm m (by simp [hm'])) ?_
    unfold Origin.next
    have := hm n (by simp)
    by_cases hc : n.o.force = true ∨ g.from_.r.number < n.r.number
    · rw [if_pos hc]; simp [this, on_off]
    · rw [if_neg hc]; simp [this, hg]

/-- **C71.** After runs of executables that were at most as new as the one of the last run, the copy is that of the last run:
    its files, its version and its flags. The flags are not, if the last run has none, it keeps the copy, and an earlier run
    had some. -/
theorem C71_own_partial (first : Run) (more : List Run) (last : Run) (hf : Good first) (hm : ∀ n ∈ more, Good n) (hl : Good last) (d : Dir)
    (hd : first.o.force = true ∨ needCopy first.x d = some true)
    (hup : ∀ n ∈ first :: more, n.r.number ≤ last.r.number ∧ (n.r.number = last.r.number → n.x.files = last.x.files))
    (hon : On last.o = true ∨ last.o.force = true ∨ ∀ n ∈ first :: more, On n.o = false) :
    runs ((first :: (more ++ [last])).map fun n => (n.x, n.o)) d = some (copy last.r last.r last.o last.o.cover) := by
  rw [C71_history_partial first (more ++ [last]) hf (by
    intro n hn
    rcases List.mem_append.1 hn with h | h
    · exact hm n h
    · rw [List.mem_singleton.1 h]; exact hl) d hd]
  congr 1
  unfold after origin
  have e1 : (first :: (more ++ [last])).getLast (List.cons_ne_nil _ _) = last :=
    List.getLast_concat (l := first :: more)
  have e2 : List.foldl Origin.next ⟨first, if On first.o = true then first.o else off⟩ (more ++ [last]) =
      (List.foldl Origin.next ⟨first, if On first.o = true then first.o else off⟩ more).next last := by
    rw [List.foldl_append]; rfl
  simp only
  rw [e1, e2]
  generalize hg : List.foldl Origin.next ⟨first, if On first.o = true then first.o else off⟩ more = g
  have hmem : g.from_ ∈ first :: more := by
    rcases origin_mem ⟨first, if On first.o = true then first.o else off⟩ more with h | h
    · rw [hg] at h; rw [h]; exact List.mem_cons_self
    · rw [hg] at h; exact List.mem_cons_of_mem _ h
  have hgood : Good g.from_ := by
    rcases List.mem_cons.1 hmem with h | h
    · rw [h]; exact hf
    · exact hm _ h
  unfold Origin.next
  by_cases hc : last.o.force = true ∨ g.from_.r.number < last.r.number
  · rw [if_pos hc]; exact copy_flagsOf hl.1 _ _
  · rw [if_neg hc]
    have hle := hup _ hmem
    have hfiles : g.from_.x.files = last.x.files := hle.2 (by
      have := fun h => hc (Or.inr h)
      omega)
    simp only
    rw [copy_congr hgood.1 hl.1 hfiles]
    rcases hon with h | h | h
    · rw [if_pos h]
    · exact absurd (Or.inl h) hc
    · cases hlo : On last.o
      · simp only [Bool.false_eq_true, if_false]
        refine copy_flags hl.1 ?_ hlo _
        rw [← hg]
        refine flags_mem _ more (fun n hn => h n (by simp [hn])) ?_
        rw [h first (by simp)]
        exact on_off
      · rfl

/-- The changes that linking makes keep it a copy that can be linked again. -/
theorem near_crash {b x : Xgo} {rb : Release b} {rx : Release x} (hb : rb.WF) (hx : rx.WF) {f o : Opts} (ho : DirOk o) {d : Dir}
    (h : Near rb f d) {ops : List Op} (hops : linkOps x o d = some ops) (k : Nat) :
    ∃ f', (f' = f ∨ f' = o ∧ On o = true) ∧ Near rb f' (applyAll (ops.take k) d) := by
  obtain ⟨t, ht⟩ := h.trace
  obtain ⟨V, hr, hV⟩ := near_ready hb h ht
  have hv : versionOps x d = some [.write versionPath (unlines (rb.version.map (versionLine x)))] := by
    unfold versionOps
    rw [hr.version]
    simp only [link_version hr.vok (linkable hb).2 hx.plainVersion hx.plainRevision, Option.map_some, hV]
  obtain ⟨c, hc⟩ := hr.link
  have hl : runtimeLinkOps x d = some [.write linkPath rb.link] := by
    unfold runtimeLinkOps
    rw [hc, hr.template]
    simp only [removed hb, Option.map_some]
  have hfl : flagsOps o d = if On o then [.write flagsPath (unlines (rb.flags.map (flagsLine o)))] else [] := by
    unfold flagsOps
    rw [hr.flags]
    simp only [inject hr.fok ho, flags_twice]
    rfl
  have ht : traceOps x o d = [.write tracePath (x.trap o.cover t)] := by
    unfold traceOps
    rw [hc, hr.trace]
  have hall : ∀ op ∈ ops, op = .write versionPath (unlines (rb.version.map (versionLine x))) ∨ (∃ c, op = .write linkPath c) ∨
      (op = .write flagsPath (unlines (rb.flags.map (flagsLine o))) ∧ On o = true) ∨ ∃ c, op = .write tracePath c := by
    unfold linkOps at hops
    rw [hv, hl, hfl, ht] at hops
    injection hops with hops
    subst hops
    intro op hop
    cases hon : On o <;> rw [hon] at hop <;> simp only [Bool.false_eq_true, if_false, if_true, List.append_nil, List.cons_append,
      List.nil_append, List.mem_cons, List.not_mem_nil, or_false] at hop
    · rcases hop with rfl | rfl | rfl
      · exact Or.inl rfl
      · exact Or.inr (Or.inl ⟨_, rfl⟩)
      · exact Or.inr (Or.inr (Or.inr ⟨_, rfl⟩))
    · rcases hop with rfl | rfl | rfl | rfl
      · exact Or.inl rfl
      · exact Or.inr (Or.inl ⟨_, rfl⟩)
      · exact Or.inr (Or.inr (Or.inl ⟨rfl, rfl⟩))
      · exact Or.inr (Or.inr (Or.inr ⟨_, rfl⟩))
  have fold : ∀ (l : List Op) (d : Dir) (f' : Opts), (f' = f ∨ f' = o ∧ On o = true) → Near rb f' d → (∀ op ∈ l, op ∈ ops) →
      ∃ f', (f' = f ∨ f' = o ∧ On o = true) ∧ Near rb f' (applyAll l d) := by
    intro l
    induction l with
    | nil => intro d f' h1 h2 _; exact ⟨f', h1, h2⟩
    | cons op l ih =>
      intro d f' h1 h2 hsub
      change ∃ f', _ ∧ Near rb f' (applyAll l (op.apply d))
      rcases hall op (hsub op (by simp)) with rfl | ⟨c, rfl⟩ | ⟨rfl, hon⟩ | ⟨c, rfl⟩
      · exact ih _ f' h1 (near_version hb hx h2) fun q hq => hsub q (by simp [hq])
      · exact ih _ f' h1 (near_link h2 c) fun q hq => hsub q (by simp [hq])
      · exact ih _ o (Or.inr ⟨rfl, hon⟩) (near_flags ho h2) fun q hq => hsub q (by simp [hq])
      · exact ih _ f' h1 (near_trace h2 c) fun q hq => hsub q (by simp [hq])
  exact fold _ _ f (Or.inl rfl) h fun op hop => List.mem_of_mem_take hop

/-- A run that starts from a copy, whatever was interrupted before it. -/
theorem run_from_near {b : Xgo} {rb : Release b} (hb : rb.WF) {f : Opts} {d : Dir} (h : Near rb f d) (m : Run) (hm : Good m) (o : Opts) :
    let g : Origin := (⟨⟨b, rb, o⟩, f⟩ : Origin).next m
    run m.x m.o d = some (copy g.from_.r m.r g.flags m.o.cover) := by
  unfold Origin.next
  by_cases hc : m.o.force = true ∨ rb.number < m.r.number
  · rw [if_pos hc]
    refine run_fresh hm.1 hm.2 (hc.imp id fun hc => ?_)
    rw [needCopy_near hm.1 h, decide_eq_true hc]
  · rw [if_neg hc]
    have hc1 : m.o.force = false := by
      rw [Bool.eq_false_iff]; exact fun h => hc (Or.inl h)
    exact (run_near hb hm.1 hm.2 h hc1 fun h => hc (Or.inr h)).2

/-- **C71.** A run `n` that is interrupted while it links (after `k` of its writes, or while it writes trace.go) does no harm:
    after the next complete run `m` the copy is what it would be if `n` had been completed, or if `n` had done nothing but
    extract the copy, in case it was to. -/
theorem C71_crash_partial (g : Origin) (last n m : Run) (hg : Good g.from_) (hgf : DirOk g.flags) (hl : Good last) (hn : Good n) (hm : Good m)
    (d : Dir) (hd : d = copy g.from_.r last.r g.flags last.o.cover) :
    ∃ ops ops', extractOps n.x n.o.force d = some ops ∧ linkOps n.x n.o (applyAll ops d) = some ops' ∧
      ∀ k (torn : Option Str) d', d' = (match torn with
          | none => applyAll (ops'.take k) (applyAll ops d)
          | some t => set (applyAll (ops'.take k) (applyAll ops d)) "trace/trace.go".toList (some t)) →
        ∃ f, (f = (g.next n).flags ∨ f = (g.next n.quiet).flags) ∧
          let g' := (⟨(g.next n).from_, f⟩ : Origin).next m
          run m.x m.o d' = some (copy g'.from_.r m.r g'.flags m.o.cover) := by
  have hnear := near_copy hg.1 hl.1 hgf last.o.cover
  rw [← hd] at hnear
  by_cases hc : n.o.force = true ∨ g.from_.r.number < n.r.number
  · have he : extractOps n.x n.o.force d = some (.clear :: n.x.files.map (fun f => .write f.1 f.2) ++ [.rename goModTxt goMod]) := by
      unfold extractOps
      rcases hc with hc | hc
      · rw [hc]; rfl
      · have := needCopy_near hn.1 hnear
        rw [decide_eq_true hc] at this
        cases n.o.force
        · rw [this]; rfl
        · rfl
    have hfr := near_fresh hn.1
    obtain ⟨ops', h1, -⟩ := link_run hn.1 hn.1 hn.2 (fresh_ready hn.1)
    refine ⟨_, ops', he, by rw [extracted hn.1]; exact h1, ?_⟩
    rw [extracted hn.1]
    intro k torn d' hd'
    obtain ⟨f', hf', hnear'⟩ := near_crash hn.1 hn.1 hn.2 hfr h1 k
    have hnear' : Near n.r f' d' := by
      rw [hd']
      cases torn with
      | none => exact hnear'
      | some t => exact near_trace hnear' t
    refine ⟨f', ?_, ?_⟩
    · unfold Origin.next
      have hoff : On n.quiet.o = false := rfl
      have hx : n.quiet.r.number = n.r.number := rfl
      have hy : n.quiet.o.force = n.o.force := rfl
      rw [if_pos hc, hx, hy, if_pos hc]
      simp only
      rcases hf' with rfl | ⟨rfl, hon⟩
      · right; rw [hoff]; rfl
      · left; rw [if_pos hon]
    · have hfrom : (g.next n).from_ = n := by unfold Origin.next; rw [if_pos hc]
      rw [hfrom]
      exact run_from_near hn.1 hnear' m hm n.o
  · have hforce : n.o.force = false := by
      rw [Bool.eq_false_iff]; exact fun h => hc (Or.inl h)
    obtain ⟨he, -⟩ := run_near hg.1 hn.1 hn.2 hnear hforce fun h => hc (Or.inr h)
    have hfr := near_trace hnear n.r.trace
    obtain ⟨V, hr, -⟩ := near_ready hg.1 hfr (t := n.r.trace) (by unfold set; rw [if_pos rfl])
    obtain ⟨ops', h1, -⟩ := link_run hg.1 hn.1 hn.2 hr
    refine ⟨_, ops', he, h1, ?_⟩
    intro k torn d' hd'
    obtain ⟨f', hf', hnear'⟩ := near_crash hg.1 hn.1 hn.2 hfr h1 k
    have hnear' : Near g.from_.r f' d' := by
      rw [hd']
      cases torn with
      | none => exact hnear'
      | some t => exact near_trace hnear' t
    refine ⟨f', ?_, ?_⟩
    · unfold Origin.next
      have hoff : On n.quiet.o = false := rfl
      have hx : n.quiet.r.number = n.r.number := rfl
      have hy : n.quiet.o.force = n.o.force := rfl
      rw [if_neg hc, hx, hy, if_neg hc]
      simp only
      rcases hf' with rfl | ⟨rfl, hon⟩
      · right; rw [hoff]; rfl
      · left; rw [if_pos hon]
    · have hfrom : (g.next n).from_ = g.from_ := by unfold Origin.next; rw [if_neg hc]
      rw [hfrom]
      exact run_from_near hg.1 hnear' m hm g.from_.o

end Verif.Cmd.RuntimeCopy
