/-
**C87**: as `-toolexec`, xgo's wrappers run the tools that go asks for, and only compile the packages asked for with traps.
-/
import Verif.Cmd.ToolExecSpec
import Verif.Text.EditBufferProps

namespace Verif.Cmd.ToolExec
open Verif.Text Verif.Text.EditSpec Verif.Cmd.ToolExec.Spec

/-! ### Helpers -/

theorem findArg_at (flag v : Str) (pre post : List Str) (h : flag ∉ pre) : findArgAfter flag (pre ++ flag :: v :: post) = v := by
  induction pre with
  | nil => rw [List.nil_append, findArgAfter, if_pos rfl]
  | cons a l ih =>
    have ha : a ≠ flag := fun e => h (by rw [e]; exact List.mem_cons_self)
    have hl : flag ∉ l := fun hm => h (List.mem_cons_of_mem _ hm)
    cases l with
    | nil => rw [List.singleton_append, findArgAfter, if_neg ha]; exact ih hl
    | cons b l => rw [List.cons_append, List.cons_append, findArgAfter, if_neg ha]; exact ih hl

theorem parse_opt (o : Options) (opts : List Opt) (rest : List Str) :
    ∃ o', parseOptions o (opts.flatMap Opt.args ++ "--".toList :: rest) = some o' ∧ o'.remain = rest ∧
      (o'.enable = (o.enable || opts.any fun | .enable => true | _ => false)) ∧
      ((∀ x ∈ opts, ∀ v, x ≠ .debug v ∧ x ≠ .debugEq v) → o'.debug = o.debug) := by
  induction opts generalizing o with
  | nil =>
    refine ⟨{ o with remain := rest }, ?_, rfl, by simp, fun _ => rfl⟩
    rw [List.flatMap_nil, List.nil_append, parseOptions.eq_def]
    simp only
    rw [if_neg (by decide), if_pos trivial]
  | cons x l ih =>
    rw [List.flatMap_cons, List.append_assoc]
    cases x with
    | enable =>
      obtain ⟨o', h1, h2, h3, h4⟩ := ih { o with enable := true }
      refine ⟨o', ?_, h2, by rw [h3]; simp, fun h => h4 fun x hx => h x (List.mem_cons_of_mem _ hx)⟩
      rw [Opt.args, List.singleton_append, parseOptions.eq_def]
      simp only
      rw [if_neg (by decide), if_neg (by decide), if_pos trivial]
      exact h1
    | logCompile =>
      obtain ⟨o', h1, h2, h3, h4⟩ := ih { o with logCompile := true }
      refine ⟨o', ?_, h2, by rw [h3]; simp, fun h => h4 fun x hx => h x (List.mem_cons_of_mem _ hx)⟩
      rw [Opt.args, List.singleton_append, parseOptions.eq_def]
      simp only
      rw [if_neg (by decide), if_neg (by decide), if_neg (by decide), if_pos trivial]
      exact h1
    | testCompile =>
      obtain ⟨o', h1, h2, h3, h4⟩ := ih { o with testCompile := true }
      refine ⟨o', ?_, h2, by rw [h3]; simp, fun h => h4 fun x hx => h x (List.mem_cons_of_mem _ hx)⟩
      rw [Opt.args, List.singleton_append, parseOptions.eq_def]
      simp only
      rw [if_neg (by decide), if_neg (by decide), if_neg (by decide), if_neg (by decide), if_pos trivial]
      exact h1
    | withDlv =>
      obtain ⟨o', h1, h2, h3, h4⟩ := ih { o with withDlv := true }
      refine ⟨o', ?_, h2, by rw [h3]; simp, fun h => h4 fun x hx => h x (List.mem_cons_of_mem _ hx)⟩
      rw [Opt.args, List.singleton_append, parseOptions.eq_def]
      simp only
      rw [if_neg (by decide), if_neg (by decide), if_neg (by decide), if_neg (by decide), if_neg (by decide), if_pos trivial]
      exact h1
    | debug v =>
      obtain ⟨o', h1, h2, h3, h4⟩ := ih { o with debug := v }
      refine ⟨o', ?_, h2, by rw [h3]; simp, fun h => absurd rfl (h _ List.mem_cons_self v).1⟩
      rw [Opt.args, List.cons_append, List.singleton_append, parseOptions.eq_def]
      simp only
      rw [if_neg (by decide), if_neg (by decide), if_neg (by decide), if_neg (by decide), if_neg (by decide), if_neg (by decide),
        if_pos trivial]
      exact h1
    | debugEq v =>
      obtain ⟨o', h1, h2, h3, h4⟩ := ih { o with debug := v }
      refine ⟨o', ?_, h2, by rw [h3]; simp, fun h => absurd rfl (h _ List.mem_cons_self v).2⟩
      have hne : ∀ t : Str, t.length ≤ 7 ∨ t[7]? ≠ some '=' → "--debug=".toList ++ v ≠ t := by
        rintro t h rfl
        rcases h with h | h
        · rw [List.length_append] at h
          have : "--debug=".toList.length = 8 := by decide
          omega
        · exact h rfl
      have hd : ("--debug=".toList ++ v).drop 8 = v := rfl
      rw [Opt.args, List.singleton_append, parseOptions.eq_def]
      simp only
      rw [if_neg (by intro h; exact h rfl), if_neg (hne _ (by decide)), if_neg (hne _ (by decide)), if_neg (hne _ (by decide)),
        if_neg (hne _ (by decide)), if_neg (hne _ (by decide)), if_neg (hne _ (by decide)),
        if_pos (List.isPrefixOf_iff_prefix.mpr ⟨v, rfl⟩), hd]
      exact h1

/-! ### exec_tool -/

/-! ### The compiler, and asking for a version -/

theorem base_compile (dir slashes : Str) (hd : dir = [] ∨ dir.getLast? = some '/') (hs : ∀ c ∈ slashes, c = '/') :
    base (dir ++ "compile".toList ++ slashes) = "compile".toList := by
  have h1 : (dir ++ "compile".toList ++ slashes).reverse = slashes.reverse ++ ("elipmoc".toList ++ dir.reverse) := by
    rw [List.reverse_append, List.reverse_append]; rfl
  have h2 : (slashes.reverse ++ ("elipmoc".toList ++ dir.reverse)).dropWhile (· = '/') = "elipmoc".toList ++ dir.reverse := by
    rw [List.dropWhile_append_of_pos (by intro c hc; simpa using hs c (List.mem_reverse.1 hc))]
    rfl
  have h3 : ("elipmoc".toList ++ dir.reverse).takeWhile (· ≠ '/') = "elipmoc".toList := by
    rw [List.takeWhile_append_of_pos (by decide)]
    have : dir.reverse.takeWhile (· ≠ '/') = [] := by
      rcases hd with rfl | h
      · rfl
      · rw [List.getLast?_eq_head?_reverse] at h
        cases hr : dir.reverse with
        | nil => rfl
        | cons c l => rw [hr] at h; cases h; simp
    rw [this, List.append_nil]
  have hne : dir ++ "compile".toList ++ slashes ≠ [] := by
    intro h
    rw [List.append_eq_nil_iff, List.append_eq_nil_iff] at h
    exact absurd h.1.2 (by decide)
  rw [base, if_neg hne]
  simp only
  rw [h1, h2, h3, if_neg (by
    intro h
    rw [List.append_eq_nil_iff] at h
    exact absurd h.1 (by decide))]
  decide

theorem compile_iff (cmd : Str) : isCompile cmd = true ↔ Compiler cmd := by
  rw [isCompile, decide_eq_true_eq]
  constructor
  · intro h
    have hne : cmd ≠ [] := by rintro rfl; revert h; decide
    rw [base, if_neg hne] at h
    simp only at h
    split at h
    · exact absurd h (by decide)
    · have e : cmd = ((cmd.reverse.dropWhile (· = '/')).dropWhile (· ≠ '/')).reverse ++
          ((cmd.reverse.dropWhile (· = '/')).takeWhile (· ≠ '/')).reverse ++ (cmd.reverse.takeWhile (· = '/')).reverse := by
        rw [← List.reverse_append, List.takeWhile_append_dropWhile, ← List.reverse_append, List.takeWhile_append_dropWhile,
          List.reverse_reverse]
      rw [h] at e
      refine ⟨_, _, e, ?_, ?_⟩
      · generalize cmd.reverse.dropWhile (· = '/') = t
        have : ∀ t : Str, t.dropWhile (· ≠ '/') = [] ∨ (t.dropWhile (· ≠ '/')).head? = some '/' := by
          intro t
          induction t with
          | nil => exact .inl rfl
          | cons c t ih =>
            rw [List.dropWhile_cons]
            split
            · exact ih
            · rename_i hc
              right
              simp at hc
              simp [hc]
        rcases this t with h | h
        · left; rw [h]; rfl
        · right; rw [List.getLast?_reverse]; exact h
      · intro c hc
        rw [List.mem_reverse] at hc
        have := List.all_takeWhile (l := cmd.reverse) (p := (· = '/'))
        simpa using List.all_eq_true.1 this c hc
  · rintro ⟨dir, slashes, rfl, hd, hs⟩
    exact base_compile dir slashes hd hs

theorem compile_false (cmd : Str) : isCompile cmd = false ↔ ¬ Compiler cmd := by
  rw [← compile_iff]; simp

theorem version_iff (args : List Str) : hasFlag args "-V".toList = true ↔ AsksVersion args := by
  rw [hasFlag, List.any_eq_true]
  constructor
  · rintro ⟨a, ha, h⟩
    rw [Bool.or_eq_true, decide_eq_true_eq, List.isPrefixOf_iff_prefix] at h
    rcases h with h | ⟨v, h⟩
    · exact ⟨a, ha, .inl h⟩
    · exact ⟨a, ha, .inr ⟨v, h.symm⟩⟩
  · rintro ⟨a, ha, h⟩
    refine ⟨a, ha, ?_⟩
    rw [Bool.or_eq_true, decide_eq_true_eq, List.isPrefixOf_iff_prefix]
    rcases h with h | ⟨v, h⟩
    · exact .inl h
    · exact .inr ⟨v, h.symm⟩

theorem version_false (args : List Str) : hasFlag args "-V".toList = false ↔ ¬ AsksVersion args := by
  rw [← version_iff]; simp

/-- **C87** (`exec_tool`: tools) Every tool but the compiler is run with exactly its arguments and environment; so is the compiler when go
    asks for its version. -/
theorem C87_exec_tool (env : Str → Option Str) (opts : List Opt) (cmd : Str) (args : List Str) (hc : cmd ≠ [])
    (h : ¬ Compiler cmd ∨ AsksVersion args) : execTool env (execLine opts cmd args) = .runs cmd args [] := by
  rw [← compile_false, ← version_iff] at h
  obtain ⟨o, h1, h2, -, -⟩ := parse_opt .start opts (cmd :: args)
  rw [execTool, execLine, h1]
  simp only
  rw [h2]
  simp only
  rw [if_neg hc]
  by_cases hx : isCompile cmd = true
  · rw [if_pos hx, handleCompile]
    rcases h with h | h
    · rw [h] at hx; cases hx
    · rw [if_pos h]
  · rw [if_neg hx]

/-- **C87** (`exec_tool`: the compiler) The compiler, or the one named by XGO_COMPILER_BIN, is run with exactly the arguments, and told
    whether it is enabled; the environment's XGO_COMPILER_ENABLE goes before the option. -/
theorem C87_exec_compile (env : Str → Option Str) (opts : List Opt) (cmd : Str) (args : List Str) (hc : Compiler cmd)
    (hv : ¬ AsksVersion args) (pkg : Str) (hp : Names args pkg) (hp' : pkg ≠ [])
    (hd : ∀ x ∈ opts, ∀ v, x ≠ .debug v ∧ x ≠ .debugEq v) (he : env "XGO_DEBUG_COMPILE_PKG".toList ≠ some pkg) :
    ∃ bin on, execTool env (execLine opts cmd args) = .runs bin args
        ["XGO_COMPILER_ENABLE=".toList ++ on, "COMPILER_ALLOW_SYNTAX_REWRITE=true".toList, "COMPILER_ALLOW_IR_REWRITE=true".toList] ∧
      (∀ b, env "XGO_COMPILER_BIN".toList = some b → b ≠ [] → bin = b) ∧
      (env "XGO_COMPILER_BIN".toList = none → bin = cmd) ∧
      (∀ b, env "XGO_COMPILER_ENABLE".toList = some b → on = b) ∧
      (env "XGO_COMPILER_ENABLE".toList = none → (Opt.enable ∈ opts → on = "true".toList) ∧ (Opt.enable ∉ opts → on = [])) := by
  rw [← compile_iff] at hc
  rw [← version_false] at hv
  obtain ⟨o, h1, h2, h3, h4⟩ := parse_opt .start opts (cmd :: args)
  have hne : cmd ≠ [] := by rintro rfl; revert hc; decide
  have hpkg : findArgAfter "-p".toList args = pkg := by
    obtain ⟨pre, post, rfl, hpre⟩ := hp
    exact findArg_at _ _ _ _ hpre
  have hdbg : o.debug = [] := h4 hd
  have hon : Opt.enable ∈ opts ↔ o.enable = true := by
    rw [h3]
    simp only [Options.start, Bool.false_or, List.any_eq_true]
    constructor
    · exact fun h => ⟨_, h, rfl⟩
    · rintro ⟨x, hx, h⟩
      cases x <;> first | exact hx | cases h
  rw [execTool, execLine, h1]
  simp only
  rw [h2]
  simp only
  rw [if_neg hne, if_pos hc, handleCompile, if_neg (by rw [hv]; exact Bool.false_ne_true), hpkg]
  simp only
  rw [if_neg hp', if_neg (fun h => h.1.1 hdbg), if_neg (by
    rintro ⟨ha, hb⟩
    cases hx : env "XGO_DEBUG_COMPILE_PKG".toList with
    | none => rw [hx] at ha; exact ha rfl
    | some q => rw [hx] at hb he; exact he (congrArg some hb))]
  refine ⟨_, _, rfl, ?_, ?_, ?_, ?_⟩
  · intro b hb hb'
    rw [hb, Option.getD_some, if_neg hb']
  · intro hb
    rw [hb, Option.getD_none, if_pos rfl]
  · intro b hb
    rw [hb, Option.getD_some]
  · intro hb
    rw [hb, Option.getD_none]
    exact ⟨fun h => by rw [if_pos (hon.mp h)], fun h => by rw [if_neg fun h' => h (hon.mpr h')]⟩

/-- **C87** (`exec_tool` without `--`) A tool that is not separated by `--` is lost, and its first argument is run in its place. -/
theorem C87_exec_lost (env : Str → Option Str) (cmd a : Str) (args : List Str) (hc : cmd.head? ≠ some '-') (ha : a ≠ [])
    (hb : ¬ Compiler a) : execTool env ("--enable".toList :: cmd :: a :: args) = .runs a args [] := by
  rw [← compile_false] at hb
  have : parseOptions .start ("--enable".toList :: cmd :: a :: args) = some { Options.start with enable := true, remain := a :: args } := by
    rw [parseOptions.eq_def]
    simp only
    rw [if_neg (by decide), if_neg (by decide), if_pos trivial, parseOptions.eq_def]
    simp only
    rw [if_pos hc]
  rw [execTool, this]
  simp only
  rw [if_neg ha, if_neg (by rw [hb]; exact Bool.false_ne_true)]

/-- **C87** (the exit code) go sees a tool fail exactly if it failed. -/
theorem C87_exit (cmd : Str) (args env : List Str) (e : End) :
    (exitCode (.runs cmd args env) e = some 0 ↔ ∃ n, e = .exited n ∧ n = 0) ∧
      ∀ n, e = .exited n → exitCode (.runs cmd args env) e = some n := by
  cases e with
  | exited n => simp [exitCode]
  | killed => simp [exitCode]
  | notStarted => simp [exitCode]

/-- **C87** (help) `--help` behind any options prints the help, as do `help`, `-h` and `--help` instead of a command; nothing is run. -/
theorem C87_help (disk : Disk) (parse : Str → Option Parse) (opts : List Ins) (hg : ∀ i ∈ opts, i.Good) (rest : List Str) :
    (∀ h ∈ ["-h".toList, "--help".toList],
      toolExecMain disk parse ("insert-trap".toList :: opts.flatMap Ins.args ++ h :: rest) = ([], .prints)) ∧
    ∀ h ∈ ["help".toList, "-h".toList, "--help".toList], toolExecMain disk parse (h :: rest) = ([], .prints) := by
  have key : ∀ (h : Str), h ∈ ["-h".toList, "--help".toList] → ∀ (opts : List Ins) (pkgs : List Str), (∀ i ∈ opts, i.Good) →
      parseIns pkgs (opts.flatMap Ins.args ++ h :: rest) = .help := by
    intro h hh opts
    induction opts with
    | nil =>
      intro pkgs _
      show parseIns pkgs (h :: rest) = .help
      simp only [List.mem_cons, List.not_mem_nil, or_false] at hh
      rcases hh with rfl | rfl
      · rw [parseIns.eq_def]; simp only
        rw [if_neg (by decide), if_neg (by decide), if_neg (by decide), if_neg (by decide), if_pos (.inl trivial)]
      · rw [parseIns.eq_def]; simp only
        rw [if_neg (by decide), if_neg (by decide), if_neg (by decide), if_neg (by decide), if_pos (.inr trivial)]
    | cons o opts ih =>
      intro pkgs hg
      have ih := fun pkgs => ih pkgs fun i hi => hg i (List.mem_cons_of_mem _ hi)
      rw [List.flatMap_cons, List.append_assoc]
      cases o with
      | pkg v =>
        have hv := (hg _ List.mem_cons_self v rfl).1
        show parseIns pkgs ("--pkg".toList :: v :: (opts.flatMap Ins.args ++ h :: rest)) = .help
        rw [parseIns.eq_def]; simp only
        rw [if_neg (by decide), if_pos trivial, if_neg hv, ih]
      | pkgEq v =>
        have hv := (hg _ List.mem_cons_self v rfl).1
        show parseIns pkgs (("--pkg=".toList ++ v) :: (opts.flatMap Ins.args ++ h :: rest)) = .help
        have n1 : ¬ "--pkg=".toList ++ v = "--".toList := by
          intro e
          have := congrArg List.length e
          rw [List.length_append, show "--pkg=".toList.length = 6 from by decide, show "--".toList.length = 2 from by decide] at this
          omega
        have n2 : ¬ "--pkg=".toList ++ v = "--pkg".toList := by
          intro e
          have := congrArg List.length e
          rw [List.length_append, show "--pkg=".toList.length = 6 from by decide, show "--pkg".toList.length = 5 from by decide] at this
          omega
        rw [parseIns.eq_def]; simp only
        rw [if_neg n1, if_neg n2, if_pos (List.isPrefixOf_iff_prefix.2 ⟨v, rfl⟩),
          show ("--pkg=".toList ++ v).drop 6 = v from List.drop_left (l₁ := "--pkg=".toList), if_neg hv, ih]
      | verbose =>
        show parseIns pkgs ("--verbose".toList :: (opts.flatMap Ins.args ++ h :: rest)) = .help
        rw [parseIns.eq_def]; simp only
        rw [if_neg (by decide), if_neg (by decide), if_neg (by decide), if_pos (.inr trivial), ih]
      | short =>
        show parseIns pkgs ("-v".toList :: (opts.flatMap Ins.args ++ h :: rest)) = .help
        rw [parseIns.eq_def]; simp only
        rw [if_neg (by decide), if_neg (by decide), if_neg (by decide), if_pos (.inl trivial), ih]
  refine ⟨fun h hh => ?_, fun h hh => ?_⟩
  · show toolExecMain disk parse ("insert-trap".toList :: (opts.flatMap Ins.args ++ h :: rest)) = _
    rw [toolExecMain, if_pos rfl, insertTrap, key h hh opts [] hg]
  · simp only [List.mem_cons, List.not_mem_nil, or_false] at hh
    rw [toolExecMain, if_neg (by rcases hh with rfl | rfl | rfl <;> decide), if_pos hh]

/-! ### The command line of insert-trap -/

theorem parse_ins (pkgs : List Str) (opts : List Ins) (hg : ∀ i ∈ opts, i.Good) (rest : List Str) :
    parseIns pkgs (opts.flatMap Ins.args ++ "--".toList :: rest) = .ok (pkgs ++ opts.filterMap Ins.pkg?) rest := by
  induction opts generalizing pkgs with
  | nil =>
    rw [List.flatMap_nil, List.nil_append, parseIns.eq_def]
    simp
  | cons x l ih =>
    have hx := hg x List.mem_cons_self
    have ih := fun p => ih p fun i hi => hg i (List.mem_cons_of_mem _ hi)
    rw [List.flatMap_cons, List.append_assoc]
    cases x with
    | pkg v =>
      rw [Ins.args, List.cons_append, List.singleton_append, parseIns.eq_def]
      simp only
      rw [if_neg (by decide), if_pos trivial, if_neg (hx v rfl).1, ih]
      simp [Ins.pkg?]
    | pkgEq v =>
      have hne : ∀ t : Str, t.length ≤ 5 ∨ t[5]? ≠ some '=' → "--pkg=".toList ++ v ≠ t := by
        rintro t h rfl
        rcases h with h | h
        · rw [List.length_append] at h
          have : "--pkg=".toList.length = 6 := by decide
          omega
        · exact h rfl
      have hd : ("--pkg=".toList ++ v).drop 6 = v := rfl
      rw [Ins.args, List.singleton_append, parseIns.eq_def]
      simp only
      rw [if_neg (hne _ (by decide)), if_neg (hne _ (by decide)), if_pos (List.isPrefixOf_iff_prefix.mpr ⟨v, rfl⟩), hd,
        if_neg (hx v rfl).1, ih]
      simp [Ins.pkg?]
    | verbose =>
      rw [Ins.args, List.singleton_append, parseIns.eq_def]
      simp only
      rw [if_neg (by decide), if_neg (by decide), if_neg (by decide), if_pos (.inr trivial), ih]
      rfl
    | short =>
      rw [Ins.args, List.singleton_append, parseIns.eq_def]
      simp only
      rw [if_neg (by decide), if_neg (by decide), if_neg (by decide), if_pos (.inl trivial), ih]
      rfl

theorem compile_ne {cmd : Str} (h : isCompile cmd = true) : cmd ≠ "-p".toList := by rintro rfl; revert h; decide

theorem ins_names (opts : List Ins) (hg : ∀ i ∈ opts, i.Good) (cmd : Str) (args : List Str) (pkg : Str) (hc : isCompile cmd = true)
    (hp : Names args pkg) : findArgAfter "-p".toList (opts.flatMap Ins.args ++ "--".toList :: cmd :: args) = pkg := by
  obtain ⟨pre, post, rfl, hpre⟩ := hp
  have : opts.flatMap Ins.args ++ "--".toList :: cmd :: (pre ++ "-p".toList :: pkg :: post) =
      (opts.flatMap Ins.args ++ "--".toList :: cmd :: pre) ++ "-p".toList :: pkg :: post := by simp
  rw [this]
  refine findArg_at _ _ _ _ ?_
  intro h
  rcases List.mem_append.mp h with h | h
  · obtain ⟨i, hi, hm⟩ := List.mem_flatMap.mp h
    have hgi := hg i hi
    cases i with
    | pkg v =>
      rcases List.mem_cons.mp hm with h | h
      · exact absurd h (by decide)
      · exact (hgi v rfl).2 (List.mem_singleton.mp h).symm
    | pkgEq v =>
      have := List.mem_singleton.mp hm
      exact absurd (show 'p' = '-' from Option.some.inj (congrArg (fun l : Str => l[1]?) this)) (by decide)
    | verbose => exact absurd (List.mem_singleton.mp hm) (by decide)
    | short => exact absurd (List.mem_singleton.mp hm) (by decide)
  · rcases List.mem_cons.mp h with h | h
    · exact absurd h (by decide)
    · rcases List.mem_cons.mp h with h | h
      · exact compile_ne hc h.symm
      · exact hpre h

theorem insert_eq (disk : Disk) (parse : Str → Option Parse) (opts : List Ins) (hg : ∀ i ∈ opts, i.Good) (cmd : Str) (args : List Str) :
    toolExecMain disk parse (insLine opts cmd args) =
      (if !isCompile cmd || hasFlag args "-V".toList then ([], .runs cmd args [])
      else
        let pkg := findArgAfter "-p".toList (opts.flatMap Ins.args ++ "--".toList :: cmd :: args)
        if pkg = [] then ([], .fails)
        else if isSystemPkg pkg then ([], .runs cmd args [])
        else if opts.filterMap Ins.pkg? ≠ [] ∧ pkg ∉ opts.filterMap Ins.pkg? then ([], .runs cmd args [])
        else
          let s := splitFiles args
          if s.2 = [] then ([], .runs cmd args [])
          else
            match replace disk parse [] s.2 with
            | none => ([], .fails)
            | some r => (r.1, .runs cmd (s.1 ++ r.2) [])) := by
  rw [insLine, List.cons_append, toolExecMain, if_pos rfl, insertTrap, parse_ins [] opts hg]
  rfl

/-- **C87** (`insert-trap`: what is left as it is) Every tool but the compiler, the question for its version, and the compiler for a
    package of the runtime or one that was not asked for, are run with exactly the arguments, and no file is touched. -/
theorem C87_insert_other (disk : Disk) (parse : Str → Option Parse) (opts : List Ins) (hg : ∀ i ∈ opts, i.Good) (cmd : Str)
    (args : List Str) (pkg : Str) (hp : Names args pkg) (hp' : pkg ≠ [])
    (h : ¬ Compiler cmd ∨ AsksVersion args ∨ pkg = "runtime".toList ∨ "runtime/".toList <+: pkg ∨
      (opts.filterMap Ins.pkg? ≠ [] ∧ pkg ∉ opts.filterMap Ins.pkg?)) :
    toolExecMain disk parse (insLine opts cmd args) = ([], .runs cmd args []) := by
  rw [← compile_false, ← version_iff] at h
  rw [insert_eq disk parse opts hg]
  by_cases h1 : (!isCompile cmd || hasFlag args "-V".toList) = true
  · rw [if_pos h1]
  · rw [if_neg h1]
    simp only [Bool.or_eq_true, Bool.not_eq_true', not_or, Bool.not_eq_false] at h1
    simp only
    rw [ins_names opts hg cmd args pkg h1.1 hp, if_neg hp']
    by_cases h2 : isSystemPkg pkg = true
    · rw [if_pos h2]
    · rw [if_neg h2]
      have h3 : opts.filterMap Ins.pkg? ≠ [] ∧ pkg ∉ opts.filterMap Ins.pkg? := by
        rcases h with h | h | h | h | h
        · rw [h1.1] at h; cases h
        · exact absurd h h1.2
        · exact absurd (by rw [isSystemPkg, decide_eq_true h]; rfl) h2
        · exact absurd (by rw [isSystemPkg, List.isPrefixOf_iff_prefix.mpr h]; simp) h2
        · exact h
      rw [if_pos h3]

/-- **C87** (packages that are never instrumented) A package whose path has three slashes or fewer – such as `example.com/user/repo/pkg` –
    is taken for one of the standard library, even when it is named with `--pkg`. -/
theorem C87_shallow (disk : Disk) (parse : Str → Option Parse) (opts : List Ins) (hg : ∀ i ∈ opts, i.Good) (cmd : Str) (args : List Str)
    (pkg : Str) (hp : Names args pkg) (hp' : pkg ≠ []) (h3 : pkg.count '/' ≤ 3) :
    toolExecMain disk parse (insLine opts cmd args) = ([], .runs cmd args []) := by
  rw [insert_eq disk parse opts hg]
  by_cases h1 : (!isCompile cmd || hasFlag args "-V".toList) = true
  · rw [if_pos h1]
  · rw [if_neg h1]
    simp only [Bool.or_eq_true, Bool.not_eq_true', not_or, Bool.not_eq_false] at h1
    simp only
    rw [ins_names opts hg cmd args pkg h1.1 hp, if_neg hp', if_pos (by rw [isSystemPkg, decide_eq_true h3]; simp)]

example : "example.com/user/repo/pkg".toList.count '/' = 3 := by decide +kernel

/-- **C87** (`--func`, and the flags of the help text) `--func` is always refused, and so are `-pkg` and `-func`, which is how the help
    spells them. -/
theorem C87_func (disk : Disk) (parse : Str → Option Parse) (opts : List Ins) (hg : ∀ i ∈ opts, i.Good) (flag : Str) (rest : List Str)
    (hf : flag ∈ ["--func".toList, "-func".toList, "-pkg".toList] ∨ "--func=".toList <+: flag) :
    toolExecMain disk parse ("insert-trap".toList :: opts.flatMap Ins.args ++ flag :: rest) = ([], .fails) := by
  have hflag : ∀ pkgs rest, parseIns pkgs (flag :: rest) = .err := by
    intro pkgs rest
    have hn : flag ≠ "--".toList ∧ flag ≠ "--pkg".toList ∧ ("--pkg=".toList.isPrefixOf flag) = false ∧
        ¬ (flag = "-v".toList ∨ flag = "--verbose".toList) ∧ ¬ (flag = "-h".toList ∨ flag = "--help".toList) := by
      rcases hf with hf | ⟨t, rfl⟩
      · have : ∀ f ∈ ["--func".toList, "-func".toList, "-pkg".toList], f ≠ "--".toList ∧ f ≠ "--pkg".toList ∧
            ("--pkg=".toList.isPrefixOf f) = false ∧
            ¬ (f = "-v".toList ∨ f = "--verbose".toList) ∧ ¬ (f = "-h".toList ∨ f = "--help".toList) := by decide +kernel
        exact this flag hf
      · have hne : ∀ s : Str, s[2]? ≠ some 'f' → "--func=".toList ++ t ≠ s := by
          rintro s h rfl; exact h rfl
        exact ⟨hne _ (by decide), hne _ (by decide), rfl, by
          rintro (h | h)
          · exact hne _ (by decide) h
          · exact hne _ (by decide) h, by
          rintro (h | h)
          · exact hne _ (by decide) h
          · exact hne _ (by decide) h⟩
    rw [parseIns.eq_def]
    simp only
    rw [if_neg hn.1, if_neg hn.2.1, if_neg (by rw [hn.2.2.1]; exact Bool.false_ne_true), if_neg hn.2.2.2.1, if_neg hn.2.2.2.2]
  have hall : ∀ (opts : List Ins) (pkgs : List Str), (∀ i ∈ opts, i.Good) →
      parseIns pkgs (opts.flatMap Ins.args ++ flag :: rest) = .err := by
    intro opts
    induction opts with
    | nil => intro pkgs _; exact hflag pkgs rest
    | cons x l ih =>
      intro pkgs hg
      have hx := hg x List.mem_cons_self
      have ih := fun p => ih p fun i hi => hg i (List.mem_cons_of_mem _ hi)
      rw [List.flatMap_cons, List.append_assoc]
      cases x with
      | pkg v =>
        rw [Ins.args, List.cons_append, List.singleton_append, parseIns.eq_def]
        simp only
        rw [if_neg (by decide), if_pos trivial, if_neg (hx v rfl).1, ih]
      | pkgEq v =>
        have hne : ∀ t : Str, t.length ≤ 5 ∨ t[5]? ≠ some '=' → "--pkg=".toList ++ v ≠ t := by
          rintro t h rfl
          rcases h with h | h
          · rw [List.length_append] at h
            have : "--pkg=".toList.length = 6 := by decide
            omega
          · exact h rfl
        have hd : ("--pkg=".toList ++ v).drop 6 = v := rfl
        rw [Ins.args, List.singleton_append, parseIns.eq_def]
        simp only
        rw [if_neg (hne _ (by decide)), if_neg (hne _ (by decide)), if_pos (List.isPrefixOf_iff_prefix.mpr ⟨v, rfl⟩), hd,
          if_neg (hx v rfl).1, ih]
      | verbose =>
        rw [Ins.args, List.singleton_append, parseIns.eq_def]
        simp only
        rw [if_neg (by decide), if_neg (by decide), if_neg (by decide), if_pos (.inr trivial), ih]
      | short =>
        rw [Ins.args, List.singleton_append, parseIns.eq_def]
        simp only
        rw [if_neg (by decide), if_neg (by decide), if_neg (by decide), if_pos (.inl trivial), ih]
  rw [List.cons_append, toolExecMain, if_pos rfl, insertTrap, hall opts [] hg]

end Verif.Cmd.ToolExec
