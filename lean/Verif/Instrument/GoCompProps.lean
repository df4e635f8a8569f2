/-
C105: the compiler's noder.go and its list of runtime functions are edited at their places, once, and the edits can be taken out.
-/
import Verif.Instrument.GoComp
import Verif.Instrument.GoCompSpec
import Verif.Instrument.GoCmdProps

namespace Verif.Instrument.GoComp
open Verif.Text Verif.Instrument.PatchText Verif.Instrument.PatchText.Spec Verif.Instrument.GoHooks
open Verif.Instrument.GoHooks.Spec (Once ins)
open Verif.Instrument.GoCmd
open Verif.Instrument.GoComp.Spec

/-! ### After the name of the package -/

theorem token_iff (c : Char) : isToken c = true ↔ c = '_' ∨ c.isAlpha = true ∨ c.isDigit = true := by
  unfold isToken
  simp only [Bool.or_eq_true, decide_eq_true_eq]
  rw [or_assoc]

theorem token_space {c : Char} (h : isToken c = true) : (c = ' ' || c = '\t') = false := by
  by_cases h1 : c = ' '
  · subst h1; exact absurd h (by decide)
  · by_cases h2 : c = '\t'
    · subst h2; exact absurd h (by decide)
    · simp [h1, h2]

theorem name_split : ∀ (n r : Str), (∀ c ∈ n, isToken c = true) → (∀ c, r.head? = some c → isToken c = false) →
    (n ++ r).takeWhile isToken = n ∧ (n ++ r).dropWhile isToken = r
  | [], [], _, _ => ⟨rfl, rfl⟩
  | [], c :: r, _, h => by
    have := h c rfl
    simp [this]
  | c :: n, r, hn, h => by
    have hc := hn c (List.mem_cons_self ..)
    obtain ⟨h1, h2⟩ := name_split n r (fun c hc => hn c (List.mem_cons_of_mem _ hc)) h
    simp [hc, h1, h2]

/-- The name of the package is found. -/
theorem package_found {a n r : Str} (ha : NotBefore "package ".toList a) (hn : n ≠ []) (ht : ∀ c ∈ n, isToken c = true)
    (hr : ∀ c, r.head? = some c → isToken c = false) :
    splitPackageName (a ++ "package ".toList ++ n ++ r) = some (a ++ "package ".toList ++ n, r) := by
  unfold splitPackageName
  have e : a ++ "package ".toList ++ n ++ r = a ++ "package ".toList ++ (n ++ r) := by rw [List.append_assoc]
  rw [e, cut_append (by decide) ha]
  cases n with
  | nil => exact absurd rfl hn
  | cons c n =>
    have hc := ht c (List.mem_cons_self ..)
    have hs := token_space hc
    obtain ⟨h1, h2⟩ := name_split n r (fun c hc => ht c (List.mem_cons_of_mem _ hc)) hr
    have d1 : (c :: n ++ r).dropWhile (fun c => c = ' ' || c = '\t') = c :: (n ++ r) := by
      show List.dropWhile _ (c :: (n ++ r)) = _
      rw [List.dropWhile_cons, hs]; rfl
    have d2 : (c :: n ++ r).takeWhile (fun c => c = ' ' || c = '\t') = [] := by
      show List.takeWhile _ (c :: (n ++ r)) = _
      rw [List.takeWhile_cons, hs]; rfl
    dsimp only
    rw [d1, d2]
    dsimp only
    rw [if_pos hc, h1, h2, List.append_nil]

theorem add_after_name {a n r t : Str} {l : String} (ha : NotBefore "package ".toList a) (hn : n ≠ []) (ht : ∀ c ∈ n, isToken c = true)
    (hr : ∀ c, r.head? = some c → isToken c = false) (hf : ¬ tagOf l <:+: a ++ "package ".toList ++ n ++ r) :
    addContentAfterName (a ++ "package ".toList ++ n ++ r) (bm l) (em l) t = some (a ++ "package ".toList ++ n ++ (ins l t).text ++ r) := by
  unfold addContentAfterName
  rw [package_found ha hn ht hr]
  dsimp only
  rw [tryReplace_absent (bm_ne l) (em_ne l) (fun hc => hf ((tag_bm l).trans hc)), ins_text]
  simp only [List.append_assoc]

theorem head_ins (l : String) (t r : Str) : ∀ c, ((ins l t).text ++ r).head? = some c → isToken c = false := by
  intro c h
  rw [ins_text] at h
  unfold bm at h
  rewrite [show "/*<begin ".toList = '/' :: "*<begin ".toList by decide] at h
  simp only [List.cons_append, List.head?_cons, Option.some.injEq] at h
  subst h
  decide

/-! ### noder.go, for any anchors -/

theorem comp_noder {L P T N X a n b c d e f g t1 t2 t3 t4 : Str} {n1 n2 n3 n4 : String} (N2 : Named n2) (N3 : Named n3)
    (N4 : Named n4) (h3 : t3 ≠ []) (h4 : t4 ≠ []) (hL : L ≠ []) (hP : P ≠ []) (hT : T ≠ [])
    (hN : N ≠ []) (hX : X ≠ []) (ha : NotBefore "package ".toList a) (hn : n ≠ []) (ht : ∀ c ∈ n, isToken c = true)
    (hr : ∀ x, (b ++ L ++ c ++ P ++ d ++ T ++ e ++ N ++ f ++ X ++ g).head? = some x → isToken x = false)
    (bL : NotBefore L (a ++ "package ".toList ++ n ++ b)) (rL : ¬ L <:+: c ++ P ++ d ++ T ++ e ++ N ++ f ++ X ++ g) (bP : NotBefore P c)
    (bT : NotBefore T d) (bN : NotBefore N e)
    (bX : NotBefore X (a ++ "package ".toList ++ n ++ b ++ L ++ c ++ P ++ d ++ T ++ e ++ N ++ f)) (rX : ¬ X <:+: g) (sL : '/' ∉ L) (sX : '/' ∉ X)
    (mL1 : ¬ L <:+: (ins n1 t1).text) (mL2 : ¬ L <:+: (ins n2 t2).text) (mX1 : ¬ X <:+: (ins n1 t1).text) (mX2 : ¬ X <:+: (ins n2 t2).text)
    (mX3 : ¬ X <:+: (ins n3 t3).text) (f21 : ¬ tagOf n2 <:+: (ins n1 t1).text) (f31 : ¬ tagOf n3 <:+: (ins n1 t1).text)
    (f32 : ¬ tagOf n3 <:+: (ins n2 t2).text) (f41 : ¬ tagOf n4 <:+: (ins n1 t1).text) (f42 : ¬ tagOf n4 <:+: (ins n2 t2).text)
    (f43 : ¬ tagOf n4 <:+: (ins n3 t3).text)
    (hu : Unmarked (a ++ "package ".toList ++ n ++ (b ++ L ++ c ++ P ++ d ++ T ++ e ++ N ++ f ++ X ++ g))) :
    ((((addContentAfterName (a ++ "package ".toList ++ n ++ (b ++ L ++ c ++ P ++ d ++ T ++ e ++ N ++ f ++ X ++ g)) (bm n1) (em n1) t1).bind
      (fun x => addContentAfterName x (bm n2) (em n2) t2)).bind
      (fun x => updateContent x (bm n3) (em n3) [L, P, T, N] 3 .after t3)).bind
      (fun x => updateContent x (bm n4) (em n4) [X] 0 .before t4)) =
      some (PatchText.Spec.text [(a ++ "package ".toList ++ n, ins n2 t2), ([], ins n1 t1), (b ++ L ++ c ++ P ++ d ++ T ++ e ++ N, ins n3 t3),
        (f, ins n4 t4)] (X ++ g)) := by
  have hf := fun n => tag_free hu n
  rw [add_after_name ha hn ht hr (hf n1), Option.bind_some]
  have e1 : a ++ "package ".toList ++ n ++ (ins n1 t1).text ++ (b ++ L ++ c ++ P ++ d ++ T ++ e ++ N ++ f ++ X ++ g) =
    a ++ "package ".toList ++ n ++ ((ins n1 t1).text ++ (b ++ L ++ c ++ P ++ d ++ T ++ e ++ N ++ f ++ X ++ g)) := List.append_assoc ..
  rw [e1, add_after_name ha hn ht (head_ins _ _ _) (free_of (slash_tag N2) [(a ++ "package ".toList ++ n, ins n1 t1)]
      (b ++ L ++ c ++ P ++ d ++ T ++ e ++ N ++ f ++ X ++ g) (by intro q hq; rw [List.mem_singleton.1 hq]; exact ⟨slashed_ins _ _, f21⟩) (hf n2)
      e1.symm (by simp only [original, old_ins, List.append_nil])), Option.bind_some]
  generalize "package ".toList = pk at *
  have two : ∀ {w : Str}, ¬ w <:+: (ins n1 t1).text → ¬ w <:+: (ins n2 t2).text → ∀ q ∈ [(a ++ pk ++ n, ins n2 t2), ([], ins n1 t1)],
      Slashed q.2.text ∧ ¬ w <:+: q.2.text := by
    intro w h1 h2 q hq
    simp only [List.mem_cons, List.not_mem_nil, or_false] at hq
    rcases hq with rfl | rfl
    · exact ⟨slashed_ins _ _, h2⟩
    · exact ⟨slashed_ins _ _, h1⟩
  have s3 := after_last (ins_ok N3 h3) (l := [(PatchText.Spec.text [(a ++ pk ++ n, ins n2 t2), ([], ins n1 t1)] b, L), (c, P), (d, T)]) (u := e) (a := N)
    (rest := f ++ X ++ g) rfl
    (by
      intro q hq
      simp only [List.mem_cons, List.not_mem_nil, or_false] at hq
      rcases hq with rfl | rfl | rfl
      · exact ⟨hL, notBefore_text hL sL _ _ (two mL1 mL2) (by simp only [original, old_ins, List.append_nil, List.nil_append]; exact bL)⟩
      · exact ⟨hP, bP⟩
      · exact ⟨hT, bT⟩) hN bN
    (not_infix_sub rL ⟨c ++ P ++ d ++ T ++ e ++ N, [], by simp only [List.append_assoc, List.append_nil]⟩)
    (content := a ++ pk ++ n ++ (ins n2 t2).text ++ ((ins n1 t1).text ++ (b ++ L ++ c ++ P ++ d ++ T ++ e ++ N ++ f ++ X ++ g)))
    (by simp only [PatchText.Spec.text, joined, List.append_assoc, List.nil_append])
    (free_of (slash_tag N3) [(a ++ pk ++ n, ins n2 t2), ([], ins n1 t1)] (b ++ L ++ c ++ P ++ d ++ T ++ e ++ N ++ f ++ X ++ g) (two f31 f32) (hf n3)
      (by simp only [PatchText.Spec.text, List.append_assoc, List.nil_append]) (by simp only [original, old_ins, List.append_nil, List.nil_append]))
  have s3' : updateContent (a ++ pk ++ n ++ (ins n2 t2).text ++ ((ins n1 t1).text ++ (b ++ L ++ c ++ P ++ d ++ T ++ e ++ N ++ f ++ X ++ g)))
    (bm n3) (em n3) [L, P, T, N] 3 .after t3 = some _ := s3
  rw [s3', Option.bind_some]
  have three : ∀ {w : Str}, ¬ w <:+: (ins n1 t1).text → ¬ w <:+: (ins n2 t2).text → ¬ w <:+: (ins n3 t3).text →
      ∀ q ∈ [(a ++ pk ++ n, ins n2 t2), ([], ins n1 t1), (b ++ L ++ c ++ P ++ d ++ T ++ e ++ N, ins n3 t3)],
      Slashed q.2.text ∧ ¬ w <:+: q.2.text := by
    intro w h1 h2 h3 q hq
    simp only [List.mem_cons, List.not_mem_nil, or_false] at hq
    rcases hq with rfl | rfl | rfl
    · exact ⟨slashed_ins _ _, h2⟩
    · exact ⟨slashed_ins _ _, h1⟩
    · exact ⟨slashed_ins _ _, h3⟩
  have s4 := before_last (ins_ok N4 h4) (l := []) (u := PatchText.Spec.text [(a ++ pk ++ n, ins n2 t2), ([], ins n1 t1),
      (b ++ L ++ c ++ P ++ d ++ T ++ e ++ N, ins n3 t3)] f) (a := X) (rest := g) rfl (by intro q hq; cases hq) hX
    (notBefore_text hX sX _ _ (three mX1 mX2 mX3) (by
      simp only [original, old_ins, List.append_nil, List.nil_append]; simpa only [List.append_assoc] using bX)) rX
    (content := joined [(PatchText.Spec.text [(a ++ pk ++ n, ins n2 t2), ([], ins n1 t1)] b, L), (c, P), (d, T)] e ++ N ++ (ins n3 t3).text ++ (f ++ X ++ g))
    (by simp only [PatchText.Spec.text, joined, List.append_assoc, List.nil_append])
    (free_of (slash_tag N4) [(a ++ pk ++ n, ins n2 t2), ([], ins n1 t1), (b ++ L ++ c ++ P ++ d ++ T ++ e ++ N, ins n3 t3)] (f ++ X ++ g)
      (three f41 f42 f43) (hf n4) (by simp only [PatchText.Spec.text, joined, List.append_assoc, List.nil_append])
      (by simp only [original, old_ins, List.append_nil, List.nil_append, List.append_assoc]))
  have s4' : updateContent (joined [(PatchText.Spec.text [(a ++ pk ++ n, ins n2 t2), ([], ins n1 t1)] b, L), (c, P), (d, T)] e ++ N ++ (ins n3 t3).text ++
    (f ++ X ++ g)) (bm n4) (em n4) [X] 0 .before t4 = some _ := s4
  rw [s4']
  simp only [PatchText.Spec.text, joined, List.append_assoc, List.nil_append]

/-! ### The texts -/

theorem parsed_text {minor : Nat} {t : List String} (h : Parsed minor t) : noderFiles 1 minor = some t := by
  unfold noderFiles
  rw [if_pos rfl]
  cases h with
  | go17 h1 h2 => rw [if_pos (by omega)]; rfl
  | go20 h1 => rw [if_neg (by omega), if_pos h1]; rfl
  | go21 h1 h2 => rw [if_neg (by omega), if_neg (by omega), if_pos (by omega)]; rfl

/-- What is needed of the text for parsed files. -/
structure Auto (t : List String) : Prop where
  ne : unlines t ≠ []
  abs : ¬ "func absFilename(name string) string {".toList <:+: (ins "file_autogen" (unlines t)).text
  trim : ¬ "func trimFilename(b *syntax.PosBase) string {".toList <:+: (ins "file_autogen" (unlines t)).text
  tagAbs : ¬ tagOf "expose_abs_filename" <:+: (ins "file_autogen" (unlines t)).text
  tagTrim : ¬ tagOf "expose_trim_filename" <:+: (ins "file_autogen" (unlines t)).text
  un : Unmarked (unlines t)
  old : ¬ "/*old:".toList <:+: unlines t

theorem auto17 : Auto noderFiles17 where
  ne := by decide +kernel
  abs := no_infix (by decide +kernel)
  trim := no_infix (by decide +kernel)
  tagAbs := no_infix (by decide +kernel)
  tagTrim := no_infix (by decide +kernel)
  un := unmarked_of (by decide +kernel)
  old := no_infix (by decide +kernel)

theorem auto20 : Auto noderFiles20 where
  ne := by decide +kernel
  abs := no_infix (by decide +kernel)
  trim := no_infix (by decide +kernel)
  tagAbs := no_infix (by decide +kernel)
  tagTrim := no_infix (by decide +kernel)
  un := unmarked_of (by decide +kernel)
  old := no_infix (by decide +kernel)

theorem auto21 : Auto noderFiles21 where
  ne := by decide +kernel
  abs := no_infix (by decide +kernel)
  trim := no_infix (by decide +kernel)
  tagAbs := no_infix (by decide +kernel)
  tagTrim := no_infix (by decide +kernel)
  un := unmarked_of (by decide +kernel)
  old := no_infix (by decide +kernel)

theorem auto {minor : Nat} {t : List String} (h : Parsed minor t) : Auto t := by
  cases h
  · exact auto17
  · exact auto20
  · exact auto21

/-- What is needed of the function that names files. -/
structure Expose (label fn t : String) : Prop where
  named : Named label
  ok : LabelOk label.toList
  neFn : fn.toList ≠ []
  ne : t.toList ≠ []
  slash : '/' ∉ fn.toList
  syn : ¬ fn.toList <:+: (ins "import_xgo_syntax" ";import xgo_syntax \"cmd/compile/internal/xgo_rewrite_internal/patch/syntax\"".toList).text
  io : ¬ fn.toList <:+: (ins "import_io" ";import xgo_io \"io\"".toList).text
  tagSyn : ¬ tagOf label <:+: (ins "import_xgo_syntax" ";import xgo_syntax \"cmd/compile/internal/xgo_rewrite_internal/patch/syntax\"".toList).text
  tagIo : ¬ tagOf label <:+: (ins "import_io" ";import xgo_io \"io\"".toList).text
  un : Unmarked t.toList
  old : ¬ "/*old:".toList <:+: t.toList

theorem expose {minor : Nat} {label fn t : String} (h : Names minor label fn t) : Expose label fn t := by
  cases h <;> exact {
    named := by unfold Named; decide
    ok := label_ok (by decide)
    neFn := by decide
    ne := by decide
    slash := by decide
    syn := no_infix (by decide +kernel)
    io := no_infix (by decide +kernel)
    tagSyn := no_infix (by decide +kernel)
    tagIo := no_infix (by decide +kernel)
    un := unmarked_of (by decide +kernel)
    old := no_infix (by decide +kernel) }

theorem expose_auto {minor : Nat} {a : List String} {label fn t : String} (h : Names minor label fn t) (g : Auto a) :
    ¬ fn.toList <:+: (ins "file_autogen" (unlines a)).text ∧ ¬ tagOf label <:+: (ins "file_autogen" (unlines a)).text := by
  cases h
  · exact ⟨g.abs, g.tagAbs⟩
  · exact ⟨g.trim, g.tagTrim⟩

theorem expose_eq {minor : Nat} {label fn t : String} (h : Names minor label fn t) :
    editExpose 1 minor = fun x => updateContent x (bm label) (em label) [fn.toList] 0 .before t.toList := by
  unfold editExpose
  cases h with
  | go17 h => rw [if_pos (by omega)]; rfl
  | go18 h => rw [if_neg (by omega)]; rfl

theorem syn_text : ";import ".toList ++ "xgo_syntax".toList ++ " \"".toList ++ "cmd/compile/internal/xgo_rewrite_internal/patch/syntax".toList ++
    "\"".toList = ";import xgo_syntax \"cmd/compile/internal/xgo_rewrite_internal/patch/syntax\"".toList := by decide +kernel
theorem io_text : ";import ".toList ++ "xgo_io".toList ++ " \"".toList ++ "io".toList ++ "\"".toList = ";import xgo_io \"io\"".toList := by
  decide +kernel

theorem syn_eq : addImport "import_xgo_syntax" "xgo_syntax" "cmd/compile/internal/xgo_rewrite_internal/patch/syntax" = fun x =>
    addContentAfterName x (bm "import_xgo_syntax") (em "import_xgo_syntax")
      ";import xgo_syntax \"cmd/compile/internal/xgo_rewrite_internal/patch/syntax\"".toList := by
  funext x
  unfold addImport
  rw [syn_text]

theorem io_eq : addImport "import_io" "xgo_io" "io" = fun x =>
    addContentAfterName x (bm "import_io") (em "import_io") ";import xgo_io \"io\"".toList := by
  funext x
  unfold addImport
  rw [io_text]

theorem text_eq : ∀ l, GoComp.text l = unlines l
  | [] => rfl
  | l :: ls => by
    unfold GoComp.text unlines
    rw [List.flatMap_cons, ← text_eq ls, List.append_assoc]
    rfl

theorem auto_eq (t : List String) : upd "file_autogen" ["func LoadPackage", "for _, p := range noders {", "base.Timer.AddEvent(int64(lines), \"lines\")",
    "\n"] 3 .after (GoComp.text t) = fun x => updateContent x (bm "file_autogen") (em "file_autogen") ["func LoadPackage".toList,
    "for _, p := range noders {".toList, "base.Timer.AddEvent(int64(lines), \"lines\")".toList, "\n".toList] 3 .after (unlines t) := by
  rw [text_eq]
  rfl

theorem nl_notBefore {e : Str} (h : '\n' ∉ e) : NotBefore "\n".toList e := by
  rewrite [show "\n".toList = ['\n'] by decide]
  unfold NotBefore
  rw [List.dropLast_concat]
  exact fun hc => h (hc.subset (List.mem_singleton_self _))

theorem undo_ins {label : String} {t : Str} (h1 : LabelOk label.toList) (h2 : Unmarked t) (h3 : ¬ "/*old:".toList <:+: t) :
    LabelOk (ins label t).label ∧ Unmarked (ins label t).new ∧ ∀ r, (ins label t).Undoable r :=
  ⟨h1, h2, fun _ => ⟨no_infix (by decide +kernel), fun _ => h3⟩⟩

/-- The edit of noder.go. -/
theorem done_noder {minor : Nat} {s : Str} {g : Patched} (h : Noder minor s g) (hs : Unmarked s) :
    ∃ files, noderFiles 1 minor = some files ∧ Done (editNoder 1 minor files) s g := by
  cases h with
  | mk au label fn init a name b c d e f g rest hp hn hr ha hname oL bP bT hnl oX =>
    subst hr
    have A := auto hp
    have E := expose hn
    have EA := expose_auto hn A
    refine ⟨au, parsed_text hp, ?_, ?_, ?_, changed_of hs (.inl (begin_ins _ _))⟩
    · show editNoder 1 minor au _ = _
      unfold editNoder
      rw [syn_eq, io_eq, auto_eq, expose_eq hn]
      refine comp_noder (n1 := "import_xgo_syntax") (n2 := "import_io") (n3 := "file_autogen") (n4 := label) (by unfold Named; decide)
        (by unfold Named; decide) E.named A.ne E.ne (by decide) (by decide) (by decide) (by decide) E.neFn ha hname.1
        (fun c hc => (token_iff c).2 (hname.2.1 c hc)) (fun c hc => ?_) oL.1 oL.2 bP bT (nl_notBefore hnl) oX.1 oX.2 (by decide) E.slash
        (no_infix (by decide +kernel)) (no_infix (by decide +kernel)) E.syn E.io EA.1 (no_infix (by decide +kernel)) (no_infix (by decide +kernel))
        (no_infix (by decide +kernel)) E.tagSyn E.tagIo EA.2 hs
      have := hname.2.2 c hc
      cases ht : isToken c
      · rfl
      · exact absurd ((token_iff c).1 ht) this
    · show original _ _ = _
      simp only [original, old_ins, List.append_assoc, List.append_nil, List.nil_append]
    · exact undoable_cons (undo_ins (label_ok (by decide)) (unmarked_of (by decide +kernel)) (no_infix (by decide +kernel)))
        (undoable_cons (undo_ins (label_ok (by decide)) (unmarked_of (by decide +kernel)) (no_infix (by decide +kernel)))
        (undoable_cons (undo_ins (label_ok (by decide)) A.un A.old) (undoable_cons (undo_ins E.ok E.un E.old) trivial)))

/-! ### The list of runtime functions -/

theorem comp_builtin {V1 V2 V3 a b c d t : Str} {n : String} (N : Named n) (ht : t ≠ []) (h1 : V1 ≠ []) (h2 : V2 ≠ []) (h3 : V3 ≠ [])
    (b1 : NotBefore V1 a) (r1 : ¬ V1 <:+: b ++ V2 ++ c ++ V3 ++ d) (b2 : NotBefore V2 b) (b3 : NotBefore V3 c)
    (hu : Unmarked (a ++ V1 ++ b ++ V2 ++ c ++ V3 ++ d)) :
    updateContent (a ++ V1 ++ b ++ V2 ++ c ++ V3 ++ d) (bm n) (em n) [V1, V2, V3] 2 .after t =
      some (PatchText.Spec.text [(a ++ V1 ++ b ++ V2 ++ c ++ V3, ins n t)] d) := by
  have := after_last (ins_ok N ht) (l := [(a, V1), (b, V2)]) (u := c) (a := V3) (rest := d) rfl
    (by
      intro q hq
      simp only [List.mem_cons, List.not_mem_nil, or_false] at hq
      rcases hq with rfl | rfl
      · exact ⟨h1, b1⟩
      · exact ⟨h2, b2⟩) h3 b3 (not_infix_sub r1 infix_right) (content := a ++ V1 ++ b ++ V2 ++ c ++ V3 ++ d)
    (by simp only [joined, List.append_assoc]) (tag_free hu n)
  have this : updateContent (a ++ V1 ++ b ++ V2 ++ c ++ V3 ++ d) (bm n) (em n) [V1, V2, V3] 2 .after t = some _ := this
  rw [this]
  simp only [PatchText.Spec.text, joined, List.append_assoc]

theorem functions_ok : unlines functions ++ "\n".toList ≠ [] ∧ Unmarked (unlines functions ++ "\n".toList) ∧
    ¬ "/*old:".toList <:+: unlines functions ++ "\n".toList :=
  ⟨by decide +kernel, unmarked_of (by decide +kernel), no_infix (by decide +kernel)⟩

theorem builtin_eq : editBuiltin = fun x => updateContent x (bm "extra_runtime_func") (em "extra_runtime_func") ["var x86HasFMA bool".toList,
    "var armHasVFPv4 bool".toList, "var arm64HasATOMICS bool".toList] 2 .after (unlines functions ++ "\n".toList) := by
  rw [← text_eq]
  rfl

/-- The edit of the list. -/
theorem done_builtin {s : Str} {g : Patched} (h : Builtin s g) (hs : Unmarked s) : Done editBuiltin s g := by
  cases h with
  | mk a b c d o1 b2 b3 =>
    refine ⟨?_, ?_, ?_, changed_of hs (.inl (begin_ins _ _))⟩
    · rw [builtin_eq]
      exact comp_builtin (n := "extra_runtime_func") (by unfold Named; decide) functions_ok.1 (by decide) (by decide) (by decide) o1.1 o1.2 b2 b3 hs
    · show original _ _ = _
      simp only [original, old_ins, List.append_assoc, List.append_nil]
    · exact undoable_cons (undo_ins (label_ok (by decide)) functions_ok.2.1 functions_ok.2.2) trivial

end Verif.Instrument.GoComp
