import Verif.Cmd.RuntimeCopyProps
/-
C71: the local copy of the runtime after any history of runs.
-/
namespace Verif.Cmd.RuntimeCopy
open Verif.Text Verif.Instrument.PatchText Spec

/-! ### Extraction -/

theorem applyAll_append (a b : List Op) (d : Dir) : applyAll (a ++ b) d = applyAll b (applyAll a d) := by
  simp [applyAll]

theorem applyAll_writes : ∀ (fs : List (Str × Str)) (d : Dir) (p : Str), (fs.map (·.1)).Nodup →
    applyAll (fs.map fun f => .write f.1 f.2) d p = (fs.lookup p).or (d p) := by
  intro fs
  induction fs with
  | nil => intro d p _; simp [applyAll]
  | cons f fs ih =>
    intro d p hn
    obtain ⟨q, c⟩ := f
    rw [List.map_cons, List.nodup_cons] at hn
    change applyAll (fs.map fun f => .write f.1 f.2) (set d q (some c)) p = _
    rw [ih _ _ hn.2]
    by_cases h : p = q
    · subst h
      have : fs.lookup p = none := by
        rw [List.lookup_eq_none_iff]
        intro q hq
        simp only [bne_iff_ne, ne_eq]
        intro e
        exact hn.1 (List.mem_map.2 ⟨q, hq, e.symm⟩)
      rw [this]
      simp [set]
    · have hb : (p == q) = false := by simpa using h
      simp [set, h, List.lookup_cons, hb]

theorem lookup_mem {fs : List (Str × Str)} (hn : (fs.map (·.1)).Nodup) {p c : Str} (h : (p, c) ∈ fs) : fs.lookup p = some c := by
  induction fs with
  | nil => cases h
  | cons f fs ih =>
    rw [List.map_cons, List.nodup_cons] at hn
    rw [List.lookup_cons]
    rcases List.mem_cons.1 h with h | h
    · subst h; simp
    · have : (p == f.1) = false := by
        simp only [beq_eq_false_iff_ne]
        rintro rfl
        exact hn.1 (List.mem_map.2 ⟨_, h, rfl⟩)
      rw [this]
      exact ih hn.2 h

theorem lookup_some {fs : List (Str × Str)} {p c : Str} (h : fs.lookup p = some c) : (p, c) ∈ fs := by
  induction fs with
  | nil => cases h
  | cons f fs ih =>
    rw [List.lookup_cons] at h
    split at h
    · rename_i hb
      have : p = f.1 := by simpa using hb
      injection h with h
      rw [this, ← h]; exact List.mem_cons_self
    · exact List.mem_cons_of_mem _ (ih h)

/-- The files just extracted. -/
def fresh (x : Xgo) (mod : Str) : Dir := fun p =>
  if p = goMod then some mod else if p = goModTxt then none else x.files.lookup p

theorem extracted {x : Xgo} {r : Release x} (h : r.WF) (d : Dir) :
    applyAll (.clear :: x.files.map (fun f => .write f.1 f.2) ++ [.rename goModTxt goMod]) d = fresh x r.mod := by
  rw [List.cons_append]
  change applyAll (x.files.map (fun f => .write f.1 f.2) ++ [.rename goModTxt goMod]) (fun _ => none) = _
  rw [applyAll_append]
  have e : applyAll (x.files.map fun f => Op.write f.1 f.2) (fun _ => none) = fun p => x.files.lookup p := by
    funext p
    rw [applyAll_writes _ _ _ h.nodup]; simp
  rw [e]
  change set (set _ goMod (x.files.lookup goModTxt)) goModTxt none = _
  have : x.files.lookup goModTxt = some r.mod := lookup_mem h.nodup h.hmod
  rw [this]
  funext p
  have ne : goMod ≠ goModTxt := by decide +kernel
  unfold set fresh
  by_cases h1 : p = goModTxt
  · subst h1; simp [ne.symm]
  · by_cases h2 : p = goMod
    · simp [h2, ne]
    · simp [h1, h2]

/-! ### Linking -/

theorem removed {x : Xgo} {r : Release x} (h : r.WF) : removeMarker r.template "//go:build ignore".toList = some r.link := by
  obtain ⟨a, b, he, hn, hl, hr⟩ := h.ignore
  have e : "//go:build ignore\n".toList = "//go:build ignore".toList ++ "\n".toList := by decide +kernel
  rw [he, e, hr, ← List.append_assoc a]
  refine (C26_remove _ a b (by decide) ?_).1
  have ha : a ≠ [] := by rintro rfl; cases hl
  have hz : a.getLast ha = '\n' := by
    rw [List.getLast?_eq_some_getLast ha] at hl
    exact Option.some.inj hl
  rw [← List.dropLast_concat_getLast ha, hz]
  refine notBefore_of_last (by decide +kernel) (by decide +kernel) fun hi => hn ?_
  exact hi.trans (List.dropLast_prefix a).isInfix

/-- What the linking reads. -/
structure Ready {b : Xgo} (rb : Release b) (V F : List Str) (trace : Str) (d : Dir) : Prop where
  version : d versionPath = some (unlines V)
  flags : d flagsPath = some (unlines F)
  link : ∃ c, d linkPath = some c
  template : d templatePath = some rb.template
  trace : d tracePath = some trace
  vok : Linkable rb.core V
  fok : Flags F

/-- What it leaves. -/
def linked (x : Xgo) (o : Opts) (V F : List Str) (link trace : Str) (d : Dir) : Dir := fun p =>
  if p = versionPath then some (unlines (V.map (versionLine x)))
  else if p = flagsPath then some (unlines (if On o then F.map (flagsLine o) else F))
  else if p = linkPath then some link
  else if p = tracePath then some (x.trap o.cover trace)
  else d p

theorem link_run {b x : Xgo} {rb : Release b} {rx : Release x} (hb : rb.WF) (hx : rx.WF) {V F : List Str} {trace : Str} {d : Dir}
    {o : Opts} (ho : DirOk o) (h : Ready rb V F trace d) :
    ∃ ops, linkOps x o d = some ops ∧ applyAll ops d = linked x o V F rb.link trace d := by
  have hv : versionOps x d = some [.write versionPath (unlines (V.map (versionLine x)))] := by
    unfold versionOps
    rw [h.version]
    simp only [link_version h.vok (linkable hb).2 hx.plainVersion hx.plainRevision, Option.map_some]
  obtain ⟨c, hc⟩ := h.link
  have hl : runtimeLinkOps x d = some [.write linkPath rb.link] := by
    unfold runtimeLinkOps
    rw [hc, h.template]
    simp only [removed hb, Option.map_some]
  have hf : flagsOps o d = if On o then [.write flagsPath (unlines (F.map (flagsLine o)))] else [] := by
    unfold flagsOps
    rw [h.flags]
    simp only [inject h.fok ho]
    rfl
  have ht : traceOps x o d = [.write tracePath (x.trap o.cover trace)] := by
    unfold traceOps
    rw [hc, h.trace]
  unfold linkOps
  rw [hv, hl]
  refine ⟨_, rfl, ?_⟩
  rw [hf, ht]
  have n1 : versionPath ≠ flagsPath := by decide +kernel
  have n2 : versionPath ≠ linkPath := by decide +kernel
  have n3 : versionPath ≠ tracePath := by decide +kernel
  have n4 : flagsPath ≠ linkPath := by decide +kernel
  have n5 : flagsPath ≠ tracePath := by decide +kernel
  have n6 : linkPath ≠ tracePath := by decide +kernel
  funext p
  unfold linked
  cases hon : On o
  · simp only [applyAll, Bool.false_eq_true, if_false, List.append_nil, List.cons_append, List.nil_append, List.foldl_cons,
      List.foldl_nil, Op.apply, set]
    by_cases e1 : p = versionPath
    · subst e1; simp [n2, n3]
    · by_cases e2 : p = flagsPath
      · subst e2; simp [n1.symm, n4, n5, h.flags]
      · by_cases e3 : p = linkPath
        · subst e3; simp [n2.symm, n4.symm, n6]
        · simp [e1, e2, e3]
  · simp only [applyAll, if_true, List.cons_append, List.nil_append, List.foldl_cons, List.foldl_nil, Op.apply, set]
    by_cases e1 : p = versionPath
    · subst e1; simp [n1, n2, n3]
    · by_cases e2 : p = flagsPath
      · subst e2; simp [n1.symm, n5]
      · by_cases e3 : p = linkPath
        · subst e3; simp [n2.symm, n4.symm, n6]
        · simp [e1, e2, e3]

/-! ### One run -/

/-- The flags of a fresh copy. -/
def flagsOf (o : Opts) : Opts := if On o then o else off

theorem on_off : On off = false := by decide

theorem fresh_flags {x : Xgo} {r : Release x} (h : r.WF) (o : Opts) :
    (if On o then r.flags.map (flagsLine o) else r.flags) = r.flags.map (flagsLine (flagsOf o)) := by
  unfold flagsOf
  cases On o
  · simp only [Bool.false_eq_true, if_false]; exact (flags_off h off on_off).symm
  · rfl

theorem path_ne : versionPath ≠ goMod ∧ versionPath ≠ goModTxt ∧ flagsPath ≠ goMod ∧ flagsPath ≠ goModTxt ∧ linkPath ≠ goMod ∧
    linkPath ≠ goModTxt ∧ tracePath ≠ goMod ∧ tracePath ≠ goModTxt ∧ templatePath ≠ goMod ∧ templatePath ≠ goModTxt := by
  decide +kernel

theorem fresh_ready {x : Xgo} {r : Release x} (h : r.WF) : Ready r r.version r.flags r.trace (fresh x r.mod) := by
  have e : ∀ p, p ≠ goMod → p ≠ goModTxt → fresh x r.mod p = x.files.lookup p := by
    intro p h1 h2; unfold fresh; rw [if_neg h1, if_neg h2]
  obtain ⟨v1, v2, f1, f2, l1, l2, t1, t2, m1, m2⟩ := path_ne
  obtain ⟨c, hc⟩ := h.hlink
  exact ⟨(e _ v1 v2).trans (lookup_mem h.nodup h.hversion), (e _ f1 f2).trans (lookup_mem h.nodup h.hflags),
    ⟨c, (e _ l1 l2).trans (lookup_mem h.nodup hc)⟩, (e _ m1 m2).trans (lookup_mem h.nodup h.htemplate),
    (e _ t1 t2).trans (lookup_mem h.nodup h.htrace), (linkable h).1, flags_release h⟩

theorem copy_at {b x : Xgo} (rb : Release b) (rx : Release x) (f : Opts) (cover : Bool) (p : Str) : copy rb rx f cover p =
    if p = goMod then some rb.mod else if p = goModTxt then none
    else if p = versionPath then some (unlines (rb.version.map (versionLine x)))
    else if p = flagsPath then some (unlines (rb.flags.map (flagsLine f)))
    else if p = linkPath then some rb.link
    else if p = tracePath then some (x.trap cover rx.trace)
    else b.files.lookup p := rfl

theorem linked_fresh {x : Xgo} {r : Release x} (h : r.WF) (o : Opts) :
    linked x o r.version r.flags r.link r.trace (fresh x r.mod) = copy r r (flagsOf o) o.cover := by
  obtain ⟨v1, v2, f1, f2, l1, l2, t1, t2, -, -⟩ := path_ne
  funext p
  rw [copy_at]
  unfold linked fresh
  rw [fresh_flags h]
  by_cases e1 : p = goMod
  · subst e1; simp [v1.symm, f1.symm, l1.symm, t1.symm]
  · by_cases e2 : p = goModTxt
    · subst e2; simp [v2.symm, f2.symm, l2.symm, t2.symm, e1]
    · simp [e1, e2]

/-- A run that extracts: the result does not depend on what was there. -/
theorem run_fresh {x : Xgo} {r : Release x} (h : r.WF) {o : Opts} (ho : DirOk o) {d : Dir}
    (hc : o.force = true ∨ needCopy x d = some true) : run x o d = some (copy r r (flagsOf o) o.cover) := by
  have he : extractOps x o.force d = some (.clear :: x.files.map (fun f => .write f.1 f.2) ++ [.rename goModTxt goMod]) := by
    unfold extractOps
    rcases hc with hc | hc
    · rw [hc]; rfl
    · cases o.force
      · rw [hc]; rfl
      · rfl
  unfold run
  rw [he]
  simp only
  rw [extracted h]
  obtain ⟨ops, h1, h2⟩ := link_run h h ho (fresh_ready h)
  rw [h1]
  simp only
  rw [h2, linked_fresh h]

theorem map_twice {x y : Xgo} (L : List Str) : (L.map (versionLine y)).map (versionLine x) = L.map (versionLine x) := by
  rw [List.map_map]
  exact List.map_congr_left fun l _ => versionLine_twice x y l

theorem flags_twice {o o' : Opts} (L : List Str) : (L.map (flagsLine o')).map (flagsLine o) = L.map (flagsLine o) := by
  rw [List.map_map]
  exact List.map_congr_left fun l _ => flagsLine_twice o o' l

/-- The files of a copy, whether it has been linked or not, except that flags.go is given and runtime_link.go and trace.go are
    whatever they are. -/
structure Near {b : Xgo} (rb : Release b) (f : Opts) (d : Dir) : Prop where
  version : ∃ V, d versionPath = some (unlines V) ∧ Linkable rb.core V ∧ numberOf (unlines V) = some rb.number ∧
    ∀ x, V.map (versionLine x) = rb.version.map (versionLine x)
  flags : d flagsPath = some (unlines (rb.flags.map (flagsLine f)))
  link : ∃ c, d linkPath = some c
  trace : ∃ c, d tracePath = some c
  others : ∀ p, p ≠ versionPath → p ≠ flagsPath → p ≠ linkPath → p ≠ tracePath → d p = fresh b rb.mod p
  fok : DirOk f

theorem near_copy {b y : Xgo} {rb : Release b} {ry : Release y} (hb : rb.WF) (hy : ry.WF) {f : Opts} (hf : DirOk f) (cover : Bool) :
    Near rb f (copy rb ry f cover) := by
  obtain ⟨v1, v2, f1, f2, l1, l2, t1, t2, m1, m2⟩ := path_ne
  have n1 : versionPath ≠ flagsPath := by decide +kernel
  have n2 : versionPath ≠ linkPath := by decide +kernel
  have n3 : versionPath ≠ tracePath := by decide +kernel
  have n4 : flagsPath ≠ linkPath := by decide +kernel
  have n5 : flagsPath ≠ tracePath := by decide +kernel
  have n6 : linkPath ≠ tracePath := by decide +kernel
  refine ⟨⟨rb.version.map (versionLine y), ?_, (linkable hb).1.again hy.plainVersion hy.plainRevision,
    number_linked hb hy.plainVersion hy.plainRevision, fun x => map_twice _⟩, ?_, ⟨rb.link, ?_⟩, ⟨y.trap cover ry.trace, ?_⟩, ?_, hf⟩
  · rw [copy_at, if_neg v1, if_neg v2, if_pos rfl]
  · rw [copy_at, if_neg f1, if_neg f2, if_neg n1.symm, if_pos rfl]
  · rw [copy_at, if_neg l1, if_neg l2, if_neg n2.symm, if_neg n4.symm, if_pos rfl]
  · rw [copy_at, if_neg t1, if_neg t2, if_neg n3.symm, if_neg n5.symm, if_neg n6.symm, if_pos rfl]
  · intro p h1 h2 h3 h4
    rw [copy_at, if_neg h1, if_neg h2, if_neg h3, if_neg h4]
    rfl

theorem near_fresh {b : Xgo} {rb : Release b} (hb : rb.WF) : Near rb off (fresh b rb.mod) := by
  have h := fresh_ready hb
  obtain ⟨c, hc⟩ := h.link
  refine ⟨⟨rb.version, h.version, h.vok, number_release hb, fun _ => rfl⟩, ?_, ⟨c, hc⟩, ⟨_, h.trace⟩, fun _ _ _ _ _ => rfl,
    by unfold DirOk; noinfix⟩
  rw [h.flags, flags_off hb off on_off]

theorem needCopy_near {b x : Xgo} {rb : Release b} {rx : Release x} (hx : rx.WF) {f : Opts} {d : Dir} (h : Near rb f d) :
    needCopy x d = some (decide (rb.number < rx.number)) := by
  obtain ⟨V, hv, -, hn, -⟩ := h.version
  have hne : unlines V ≠ [] := by
    intro e
    rw [e] at hn
    have h0 : numberOf [] = none := by decide +kernel
    rw [h0] at hn
    cases hn
  unfold needCopy
  rw [hv]
  simp only
  rw [if_neg hne]
  have hm : x.embedded versionPath = some (unlines rx.version) := lookup_mem hx.nodup hx.hversion
  rw [hm]
  simp only [hn, number_release hx]

theorem near_trace {b : Xgo} {rb : Release b} {f : Opts} {d : Dir} (h : Near rb f d) (t : Str) : Near rb f (set d tracePath (some t)) := by
  have n3 : versionPath ≠ tracePath := by decide +kernel
  have n5 : flagsPath ≠ tracePath := by decide +kernel
  have n6 : linkPath ≠ tracePath := by decide +kernel
  obtain ⟨V, hv, hv'⟩ := h.version
  obtain ⟨c, hc⟩ := h.link
  refine ⟨⟨V, ?_, hv'⟩, ?_, ⟨c, ?_⟩, ⟨t, ?_⟩, ?_, h.fok⟩
  · unfold set; rw [if_neg n3, hv]
  · unfold set; rw [if_neg n5, h.flags]
  · unfold set; rw [if_neg n6, hc]
  · unfold set; rw [if_pos rfl]
  · intro p h1 h2 h3 h4
    unfold set; rw [if_neg h4]; exact h.others p h1 h2 h3 h4

theorem near_link {b : Xgo} {rb : Release b} {f : Opts} {d : Dir} (h : Near rb f d) (t : Str) : Near rb f (set d linkPath (some t)) := by
  have n3 : versionPath ≠ linkPath := by decide +kernel
  have n5 : flagsPath ≠ linkPath := by decide +kernel
  have n6 : tracePath ≠ linkPath := by decide +kernel
  obtain ⟨V, hv, hv'⟩ := h.version
  obtain ⟨c, hc⟩ := h.trace
  refine ⟨⟨V, ?_, hv'⟩, ?_, ⟨t, ?_⟩, ⟨c, ?_⟩, ?_, h.fok⟩
  · unfold set; rw [if_neg n3, hv]
  · unfold set; rw [if_neg n5, h.flags]
  · unfold set; rw [if_pos rfl]
  · unfold set; rw [if_neg n6, hc]
  · intro p h1 h2 h3 h4
    unfold set; rw [if_neg h3]; exact h.others p h1 h2 h3 h4

theorem near_version {b x : Xgo} {rb : Release b} {rx : Release x} (hb : rb.WF) (hx : rx.WF) {f : Opts} {d : Dir} (h : Near rb f d) :
    Near rb f (set d versionPath (some (unlines (rb.version.map (versionLine x))))) := by
  have n3 : linkPath ≠ versionPath := by decide +kernel
  have n5 : flagsPath ≠ versionPath := by decide +kernel
  have n6 : tracePath ≠ versionPath := by decide +kernel
  obtain ⟨c, hc⟩ := h.trace
  obtain ⟨l, hl⟩ := h.link
  refine ⟨⟨_, ?_, (linkable hb).1.again hx.plainVersion hx.plainRevision, number_linked hb hx.plainVersion hx.plainRevision,
    fun _ => map_twice _⟩, ?_, ⟨l, ?_⟩, ⟨c, ?_⟩, ?_, h.fok⟩
  · unfold set; rw [if_pos rfl]
  · unfold set; rw [if_neg n5, h.flags]
  · unfold set; rw [if_neg n3, hl]
  · unfold set; rw [if_neg n6, hc]
  · intro p h1 h2 h3 h4
    unfold set; rw [if_neg h1]; exact h.others p h1 h2 h3 h4

theorem near_flags {b : Xgo} {rb : Release b} {f o : Opts} (ho : DirOk o) {d : Dir} (h : Near rb f d) :
    Near rb o (set d flagsPath (some (unlines (rb.flags.map (flagsLine o))))) := by
  have n3 : linkPath ≠ flagsPath := by decide +kernel
  have n5 : versionPath ≠ flagsPath := by decide +kernel
  have n6 : tracePath ≠ flagsPath := by decide +kernel
  obtain ⟨V, hv, hv'⟩ := h.version
  obtain ⟨c, hc⟩ := h.trace
  obtain ⟨l, hl⟩ := h.link
  refine ⟨⟨V, ?_, hv'⟩, ?_, ⟨l, ?_⟩, ⟨c, ?_⟩, ?_, ho⟩
  · unfold set; rw [if_neg n5, hv]
  · unfold set; rw [if_pos rfl]
  · unfold set; rw [if_neg n3, hl]
  · unfold set; rw [if_neg n6, hc]
  · intro p h1 h2 h3 h4
    unfold set; rw [if_neg h2]; exact h.others p h1 h2 h3 h4

theorem near_ready {b : Xgo} {rb : Release b} (hb : rb.WF) {f : Opts} {d : Dir} (h : Near rb f d) {t : Str} (ht : d tracePath = some t) :
    ∃ V, Ready rb V (rb.flags.map (flagsLine f)) t d ∧ ∀ x, V.map (versionLine x) = rb.version.map (versionLine x) := by
  obtain ⟨V, hv, hok, -, he⟩ := h.version
  refine ⟨V, ⟨hv, h.flags, h.link, ?_, ht, hok, (flags_release hb).again h.fok⟩, he⟩
  rw [h.others templatePath (by decide +kernel) (by decide +kernel) (by decide +kernel) (by decide +kernel)]
  exact (fresh_ready hb).template

/-- What the linking of a copy leaves. -/
theorem linked_near {b x : Xgo} {rb : Release b} {rx : Release x} {f o : Opts} {d : Dir} (h : Near rb f d) {V : List Str}
    (hV : ∀ x, V.map (versionLine x) = rb.version.map (versionLine x)) :
    linked x o V (rb.flags.map (flagsLine f)) rb.link rx.trace d = copy rb rx (if On o then o else f) o.cover := by
  obtain ⟨v1, v2, f1, f2, l1, l2, t1, t2, m1, m2⟩ := path_ne
  funext p
  rw [copy_at]
  unfold linked
  rw [hV x, flags_twice]
  have hfl : (if On o = true then rb.flags.map (flagsLine o) else rb.flags.map (flagsLine f)) =
      rb.flags.map (flagsLine (if On o then o else f)) := by cases On o <;> rfl
  rw [hfl]
  by_cases e3 : p = versionPath
  · subst e3; simp [v1, v2]
  · by_cases e4 : p = flagsPath
    · subst e4; simp [f1, f2, e3]
    · by_cases e5 : p = linkPath
      · subst e5; simp [l1, l2, e3, e4]
      · by_cases e6 : p = tracePath
        · subst e6; simp [t1, t2, e3, e4, e5]
        · rw [if_neg e3, if_neg e4, if_neg e5, if_neg e6, h.others p e3 e4 e5 e6, if_neg e3, if_neg e4, if_neg e5, if_neg e6]
          rfl

/-- A run that keeps the copy. -/
theorem run_near {b x : Xgo} {rb : Release b} {rx : Release x} (hb : rb.WF) (hx : rx.WF)
    {f o : Opts} (ho : DirOk o) {d : Dir} (h : Near rb f d) (hforce : o.force = false) (hn : ¬ rb.number < rx.number) :
    extractOps x o.force d = some [.write tracePath rx.trace] ∧ run x o d = some (copy rb rx (if On o then o else f) o.cover) := by
  have he : extractOps x o.force d = some [.write tracePath rx.trace] := by
    unfold extractOps
    rw [hforce, needCopy_near hx h]
    have : x.embedded tracePath = some rx.trace := lookup_mem hx.nodup hx.htrace
    simp [hn, this]
  refine ⟨he, ?_⟩
  unfold run
  rw [he]
  simp only
  have h' := near_trace h rx.trace
  change (match linkOps x o (set d tracePath (some rx.trace)) with
    | none => none
    | some ops' => some (applyAll ops' (set d tracePath (some rx.trace)))) = _
  obtain ⟨V, hr, hV⟩ := near_ready hb h' (t := rx.trace) (by unfold set; rw [if_pos rfl])
  obtain ⟨ops, h1, h2⟩ := link_run hb hx ho hr
  rw [h1]
  simp only
  rw [h2, linked_near h' hV]

theorem run_keep {b y x : Xgo} {rb : Release b} {ry : Release y} {rx : Release x} (hb : rb.WF) (hy : ry.WF) (hx : rx.WF)
    {f o : Opts} (hf : DirOk f) (ho : DirOk o) (cover : Bool) (hforce : o.force = false) (hn : ¬ rb.number < rx.number) :
    run x o (copy rb ry f cover) = some (copy rb rx (if On o then o else f) o.cover) :=
  (run_near hb hx ho (near_copy hb hy hf cover) hforce hn).2

/-! ### Histories -/

/-- The runs of a history. -/
def Good (n : Run) : Prop := n.r.WF ∧ DirOk n.o

theorem dirOk_off : DirOk off := by unfold DirOk; noinfix

theorem runs_from (g : Origin) (last : Run) (hg : g.from_.r.WF) (hf : DirOk g.flags) (hl : last.r.WF) :
    ∀ (more : List Run), (∀ n ∈ more, Good n) →
    runs (more.map fun n => (n.x, n.o)) (copy g.from_.r last.r g.flags last.o.cover) =
      some (copy (more.foldl Origin.next g).from_.r ((last :: more).getLast (List.cons_ne_nil _ _)).r (more.foldl Origin.next g).flags
        ((last :: more).getLast (List.cons_ne_nil _ _)).o.cover) := by
  intro more
  induction more generalizing g last with
  | nil => intro _; rfl
  | cons n more ih =>
    intro hm
    have hn := hm n (by simp)
    have hgo : DirOk (g.next n).flags := by
      unfold Origin.next
      split
      · simp only; split
        · exact hn.2
        · exact dirOk_off
      · simp only; split
        · exact hn.2
        · exact hf
    have hgf : (g.next n).from_.r.WF := by
      unfold Origin.next
      by_cases hc : n.o.force = true ∨ g.from_.r.number < n.r.number
      · rw [if_pos hc]; exact hn.1
      · rw [if_neg hc]; exact hg
    have step : run n.x n.o (copy g.from_.r last.r g.flags last.o.cover) =
        some (copy (g.next n).from_.r n.r (g.next n).flags n.o.cover) := by
      unfold Origin.next
      by_cases hc : n.o.force = true ∨ g.from_.r.number < n.r.number
      · rw [if_pos hc]
        refine run_fresh hn.1 hn.2 (hc.imp id fun hc => ?_)
        rw [needCopy_near hn.1 (near_copy hg hl hf _), decide_eq_true hc]
      · rw [if_neg hc]
        have hc1 : n.o.force = false := by
          rw [Bool.eq_false_iff]; exact fun h => hc (Or.inl h)
        exact run_keep hg hl hn.1 hf hn.2 _ hc1 fun h => hc (Or.inr h)
    rw [List.map_cons, runs, step]
    simp only
    rw [ih (g.next n) n hgf hgo hn.1 fun m hm' => hm m (by simp [hm'])]
    rfl

end Verif.Cmd.RuntimeCopy
