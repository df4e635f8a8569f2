import Verif.Cmd.GoXgo
/-
C80: the instrumented go and xgo call each other once, and pass the environment on.
-/
namespace Verif.Cmd.GoXgo

/-! ### Specification -/

/-- The names that xgo sets for the command it runs. -/
def ours : List Str :=
  ["GOROOT".toList, "PATH".toList, "GOCACHE".toList, "GO_BYPASS_XGO".toList, "XGO_COMPILER_SYNTAX_REWRITE_ENABLE".toList,
   "XGO_COMPILER_SYNTAX_REWRITE_PACKAGES_FILE".toList, "XGO_COMPILER_SYNTAX_REWRITE_PACKAGES_SUM_FILE".toList,
   "XGO_MAIN_MODULE".toList, "XGO_HELPER_DEBUG_PKG".toList, "XGO_UNIFIEDTEST".toList]

/-- The commands whose work xgo does. -/
def works : List Str := ["build".toList, "run".toList, "test".toList]

/-- A process of xgo that instruments: not `xgo exec`. -/
def instruments (p : Proc) : Bool :=
  match p.who, p.args with
  | .xgo, cmd :: _ => works.contains cmd
  | _, _ => false

theorem handed_works {cmd : Str} (h : cmd ∈ works) : handed cmd = true := by
  simp only [works, List.mem_cons, List.not_mem_nil, or_false] at h
  rcases h with h | h | h <;> (rw [h]; decide)

/-! ### Environments -/

theorem get_append (a b : EnvL) (k : Str) : get (a ++ b) k = (get b k).or (get a k) := by
  simp [get, List.lookup_append]

theorem get_nil (k : Str) : get [] k = none := rfl

theorem get_cons (k k' v : Str) (e : EnvL) : get ((k', v) :: e) k = (get e k).or (if k = k' then some v else none) := by
  have : (k', v) :: e = [(k', v)] ++ e := rfl
  rw [this, get_append]
  congr 1
  simp only [get, List.reverse_singleton, List.lookup]
  by_cases h : k = k'
  · simp [h]
  · have hb : (k == k') = false := by simpa using h
    simp [hb, h]

theorem get_filter (e : EnvL) (f : Str → Bool) (k : Str) (h : f k = true) : get (e.filter (fun x => f x.1)) k = get e k := by
  induction e with
  | nil => rfl
  | cons x e ih =>
    obtain ⟨k', v⟩ := x
    rw [get_cons, List.filter_cons]
    by_cases hf : f k' = true
    · simp only [hf, if_true]
      rw [get_cons, ih]
    · simp only [hf]
      have hne : k ≠ k' := fun he => hf (he ▸ h)
      simp [ih, hne]

theorem get_filter_none (e : EnvL) (f : Str → Bool) (k : Str) (h : f k = false) : get (e.filter (fun x => f x.1)) k = none := by
  induction e with
  | nil => rfl
  | cons x e ih =>
    obtain ⟨k', v⟩ := x
    rw [List.filter_cons]
    by_cases hf : f k' = true
    · simp only [hf, if_true]
      have hne : k ≠ k' := fun he => by rw [he, hf] at h; cases h
      rw [get_cons, ih]
      simp [hne]
    · simp [hf, ih]

theorem goroot_other (e : EnvL) (r k : Str) (h1 : k ≠ GOROOT) (h2 : k ≠ PATH) : get (makeGorootEnv e r) k = get e k := by
  unfold makeGorootEnv
  simp only
  rw [get_append, get_cons, get_cons, get_nil, if_neg h1, if_neg h2]
  simp only [Option.or_none, Option.none_or]
  exact get_filter e (fun x => x != GOROOT && x != PATH) k (by simp [h1, h2])

theorem goroot_set (e : EnvL) (r : Str) : get (makeGorootEnv e r) GOROOT = some r := by
  unfold makeGorootEnv
  simp only
  rw [get_append, get_cons, get_cons, get_nil, if_pos rfl, if_neg (by decide)]
  rfl

theorem path_set (e : EnvL) (r : Str) : get (makeGorootEnv e r) PATH =
    some (match get e PATH with | some p => r ++ "/bin".toList ++ ":".toList ++ p | none => r ++ "/bin".toList) := by
  unfold makeGorootEnv
  simp only
  rw [get_append, get_cons, get_cons, get_nil, if_pos rfl]
  cases get e PATH <;> rfl

/-- What xgo appends has only its own names. -/
theorem get_ours (l : EnvL) (k : Str) (h : ∀ x ∈ l, x.1 ∈ ours) (hk : k ∉ ours) : get l k = none := by
  induction l with
  | nil => rfl
  | cons x l ih =>
    obtain ⟨k', v⟩ := x
    have hne : k ≠ k' := fun he => hk (he ▸ h (k', v) (by simp))
    rw [get_cons, ih (fun y hy => h y (by simp [hy])), if_neg hne]
    rfl

/-- The entries after those of `MakeGorootEnv`. -/
def added (o : Opts) (isExec : Bool) : EnvL :=
  (if isExec then [] else
      (match o.extra with
       | none => []
       | some (f, s) =>
         [("XGO_COMPILER_SYNTAX_REWRITE_ENABLE".toList, yes), ("XGO_COMPILER_SYNTAX_REWRITE_PACKAGES_FILE".toList, f),
          ("XGO_COMPILER_SYNTAX_REWRITE_PACKAGES_SUM_FILE".toList, s)])
      ++ [("XGO_MAIN_MODULE".toList, o.mainModule)]
      ++ (if o.debugPkg = [] then [] else [("XGO_HELPER_DEBUG_PKG".toList, o.debugPkg)])
      ++ (if o.unified then [("XGO_UNIFIEDTEST".toList, yes)] else []))
  ++ (if o.noInstrument then [] else
      [(GOCACHE, o.cacheDir)] ++ (if isExec then [] else [(BYPASS, yes)]))

theorem xgoEnv_eq (o : Opts) (isExec : Bool) (e : EnvL) : xgoEnv o isExec e = makeGorootEnv e o.goroot ++ added o isExec := by
  unfold xgoEnv added
  rw [List.append_assoc]
  cases o.extra <;> rfl

theorem name_ok (k v : Str) (h : k ∈ ours ∧ k ≠ GOROOT ∧ k ≠ PATH) :
    ((k, v) : Str × Str).1 ∈ ours ∧ ((k, v) : Str × Str).1 ≠ GOROOT ∧ ((k, v) : Str × Str).1 ≠ PATH := h

theorem added_names (o : Opts) (isExec : Bool) : ∀ x ∈ added o isExec, x.1 ∈ ours ∧ x.1 ≠ GOROOT ∧ x.1 ≠ PATH := by
  intro x hx
  unfold added at hx
  rcases List.mem_append.mp hx with hx | hx
  · cases isExec with
    | true => simp at hx
    | false =>
      simp only [Bool.false_eq_true, if_false] at hx
      rcases List.mem_append.mp hx with hx | hx
      · rcases List.mem_append.mp hx with hx | hx
        · rcases List.mem_append.mp hx with hx | hx
          · cases he : o.extra with
            | none => rw [he] at hx; cases hx
            | some p =>
              rw [he] at hx
              simp only [List.mem_cons, List.not_mem_nil, or_false] at hx
              rcases hx with h | h | h <;> (rw [h]; exact name_ok _ _ (by decide))
          · simp only [List.mem_singleton] at hx
            rw [hx]; exact name_ok _ _ (by decide)
        · split at hx
          · cases hx
          · simp only [List.mem_singleton] at hx
            rw [hx]; exact name_ok _ _ (by decide)
      · split at hx
        · simp only [List.mem_singleton] at hx
          rw [hx]; exact name_ok _ _ (by decide)
        · cases hx
  · split at hx
    · cases hx
    · rcases List.mem_append.mp hx with hx | hx
      · simp only [List.mem_singleton] at hx
        rw [hx]; exact name_ok _ _ (by decide)
      · split at hx
        · cases hx
        · simp only [List.mem_singleton] at hx
          rw [hx]; exact name_ok _ _ (by decide)

theorem get_absent (l : EnvL) (k : Str) (h : ∀ x ∈ l, x.1 ≠ k) : get l k = none := by
  induction l with
  | nil => rfl
  | cons x l ih =>
    obtain ⟨k', v⟩ := x
    rw [get_cons, ih (fun y hy => h y (by simp [hy])), if_neg (fun he => h (k', v) (by simp) he.symm)]
    rfl

/-- **C80.** Whatever the options: a variable that is not one of the ten that xgo sets has for the command xgo runs, and so
    for the program or the test, the value it has for xgo. -/
theorem C80_env (o : Opts) (isExec : Bool) (e : EnvL) (k : Str) (hk : k ∉ ours) : get (xgoEnv o isExec e) k = get e k := by
  rw [xgoEnv_eq, get_append, get_ours _ k (fun x hx => (added_names o isExec x hx).1) hk, Option.none_or]
  refine goroot_other e o.goroot k ?_ ?_
  · intro he; exact hk (by rw [he]; decide)
  · intro he; exact hk (by rw [he]; decide)

/-- **C80.** GOROOT is the instrumented one, and its commands come first on PATH, before the PATH of xgo. -/
theorem C80_goroot (o : Opts) (isExec : Bool) (e : EnvL) :
    get (xgoEnv o isExec e) "GOROOT".toList = some o.goroot ∧
    (∀ p, get e "PATH".toList = some p → get (xgoEnv o isExec e) "PATH".toList = some (o.goroot ++ "/bin:".toList ++ p)) ∧
    (get e "PATH".toList = none → get (xgoEnv o isExec e) "PATH".toList = some (o.goroot ++ "/bin".toList)) := by
  show get (xgoEnv o isExec e) GOROOT = some o.goroot ∧
    (∀ p, get e PATH = some p → get (xgoEnv o isExec e) PATH = some (o.goroot ++ "/bin:".toList ++ p)) ∧
    (get e PATH = none → get (xgoEnv o isExec e) PATH = some (o.goroot ++ "/bin".toList))
  have h1 : get (added o isExec) GOROOT = none := get_absent _ _ (fun x hx => (added_names o isExec x hx).2.1)
  have h2 : get (added o isExec) PATH = none := get_absent _ _ (fun x hx => (added_names o isExec x hx).2.2)
  rw [xgoEnv_eq, get_append, get_append, h1, h2, Option.none_or, Option.none_or, goroot_set, path_set]
  refine ⟨rfl, ?_, ?_⟩
  · intro p hp
    rw [hp]
    have : ("/bin:".toList : Str) = "/bin".toList ++ ":".toList := by decide
    simp only [this, List.append_assoc]
  · intro hp
    rw [hp]

theorem bypass_set (o : Opts) (e : EnvL) (hn : o.noInstrument = false) : get (xgoEnv o false e) BYPASS = some yes := by
  rw [xgoEnv_eq, get_append]
  unfold added
  rw [hn, get_append]
  rfl

/-- The bypass of the caller reaches `xgo exec`. -/
theorem bypass_exec (o : Opts) (e : EnvL) : get (xgoEnv o true e) BYPASS = get e BYPASS := by
  rw [xgoEnv_eq, get_append, goroot_other e o.goroot BYPASS (by decide) (by decide)]
  have : get (added o true) BYPASS = none := by
    apply get_absent
    intro x hx
    unfold added at hx
    simp only [if_true, List.nil_append] at hx
    split at hx
    · cases hx
    · simp only [List.append_nil, List.mem_singleton] at hx
      rw [hx]; show GOCACHE ≠ BYPASS; decide
  rw [this, Option.none_or]

/-! ### Processes -/

theorem follow_none {w : World} {p : Proc} (h : next w p = none) (n : Nat) : follow w n p = [] := by
  cases n with
  | zero => rfl
  | succ n => rw [follow, h]

theorem go_ends {w : World} {p : Proc} (hw : p.who = .go) (hb : get p.env BYPASS = some yes) : next w p = none := by
  unfold next
  rw [hw]
  simp only
  unfold precheck
  split
  · rfl
  · split
    · rfl
    · rfl

/-- **C80.** `go build`, `go run` and `go test` of the instrumented GOROOT, in an environment that does not say otherwise and
    with xgo on PATH, call xgo with the same arguments, which calls go, which does the work: xgo runs exactly once, for any
    environment, arguments and options, and no chain of the two goes on forever. -/
theorem C80_once (w : World) (cmd : Str) (args : List Str) (env : EnvL) (stdin : Bool) (hw : cmd ∈ works)
    (hb : get env "GO_BYPASS_XGO".toList ≠ some "true".toList) (hx : w.xgoFound = true) (hn : ∀ a, (w.opts a).noInstrument = false) (n : Nat)
    (hn2 : 2 ≤ n) :
    ∃ e1 e2, follow w n ⟨.go, cmd :: args, env, stdin⟩ =
      [⟨.xgo, cmd :: "--go".toList :: args, e1, false⟩,
       ⟨.go, cmd :: w.goArgs (cmd :: "--go".toList :: args), e2, false⟩] ∧
      (∀ k, k ≠ "GO_BYPASS_XGO".toList → get e1 k = get env k) ∧ ∀ k, k ∉ ours → get e2 k = get env k := by
  have hb : get env BYPASS ≠ some yes := hb
  have hc := handed_works hw
  obtain ⟨m, rfl⟩ : ∃ m, n = m + 2 := ⟨n - 2, by omega⟩
  have h1 : next w ⟨.go, cmd :: args, env, stdin⟩ =
      some ⟨.xgo, cmd :: "--go".toList :: args, env ++ [(BYPASS, yes)], false⟩ := by
    unfold next
    simp only
    unfold precheck
    simp only [hc, Bool.not_true, Bool.false_eq_true, if_false, if_neg hb, hx]
  have hne : cmd ≠ "exec".toList := by intro he; rw [he] at hc; revert hc; decide
  have h2 : next w ⟨.xgo, cmd :: "--go".toList :: args, env ++ [(BYPASS, yes)], false⟩ =
      some ⟨.go, cmd :: w.goArgs (cmd :: "--go".toList :: args),
        xgoEnv (w.opts (cmd :: "--go".toList :: args)) false (env ++ [(BYPASS, yes)]), false⟩ := by
    unfold next
    simp only
    unfold runXgo
    simp only [if_neg hne, hc, if_true]
  refine ⟨env ++ [(BYPASS, yes)], xgoEnv (w.opts (cmd :: "--go".toList :: args)) false (env ++ [(BYPASS, yes)]), ?_, ?_, ?_⟩
  · rw [follow, h1]
    simp only
    rw [follow, h2]
    simp only
    rw [follow_none]
    exact go_ends rfl (bypass_set _ _ (hn _))
  · intro k hk
    have hk : k ≠ BYPASS := hk
    rw [get_append, get_cons, get_nil, if_neg hk]
    rfl
  · intro k hk
    rw [C80_env _ _ _ k hk, get_append, get_cons, get_nil, if_neg (fun he => hk (by rw [he]; decide))]
    rfl

/-- **C80.** Every other command of the instrumented go, and every command where GO_BYPASS_XGO is `true` or xgo is not on PATH,
    is done by go itself. -/
theorem C80_plain (w : World) (args : List Str) (env : EnvL) (stdin : Bool) (n : Nat)
    (h : (∀ cmd rest, args = cmd :: rest → cmd ∉ works) ∨
      get env "GO_BYPASS_XGO".toList = some "true".toList ∨ w.xgoFound = false) :
    follow w n ⟨.go, args, env, stdin⟩ = [] := by
  apply follow_none
  unfold next
  simp only
  unfold precheck
  cases args with
  | nil => rfl
  | cons cmd rest =>
    simp only
    have h : (∀ c r, cmd :: rest = c :: r → c ∉ works) ∨ get env BYPASS = some yes ∨ w.xgoFound = false := h
    rcases h with h | h | h
    · have hm := h cmd rest rfl
      simp only [works, List.mem_cons, List.not_mem_nil, or_false, not_or] at hm
      obtain ⟨a, b, c⟩ := hm
      have : handed cmd = false := by
        unfold handed
        rw [beq_eq_false_iff_ne.mpr a, beq_eq_false_iff_ne.mpr b, beq_eq_false_iff_ne.mpr c]
        rfl
      simp [this]
    · split
      · rfl
      · rfl
    · split
      · rfl
      · split
        · rfl
        · rw [h]; rfl

/-- **C80.** xgo itself, called by the user: it runs once, whatever the environment. -/
theorem C80_xgo (w : World) (cmd : Str) (args : List Str) (env : EnvL) (stdin : Bool) (hw : cmd ∈ works)
    (hn : ∀ a, (w.opts a).noInstrument = false) (n : Nat) (hn1 : 1 ≤ n) :
    ∃ e, follow w n ⟨.xgo, cmd :: args, env, stdin⟩ = [⟨.go, cmd :: w.goArgs (cmd :: args), e, false⟩] := by
  have hc := handed_works hw
  obtain ⟨m, rfl⟩ : ∃ m, n = m + 1 := ⟨n - 1, by omega⟩
  have hne : cmd ≠ "exec".toList := by intro he; rw [he] at hc; revert hc; decide
  have h2 : next w ⟨.xgo, cmd :: args, env, stdin⟩ =
      some ⟨.go, cmd :: w.goArgs (cmd :: args), xgoEnv (w.opts (cmd :: args)) false env, false⟩ := by
    unfold next
    simp only
    unfold runXgo
    simp only [if_neg hne, hc, if_true]
  refine ⟨xgoEnv (w.opts (cmd :: args)) false env, ?_⟩
  rw [follow, h2]
  simp only
  rw [follow_none]
  exact go_ends rfl (bypass_set _ _ (hn _))

/-- **C80.** `xgo exec go test …`, in an environment without GO_BYPASS_XGO, instruments exactly once. -/
theorem C80_exec_partial (w : World) (cmd : Str) (args : List Str) (env : EnvL) (stdin : Bool) (hw : cmd ∈ works)
    (hb : get env "GO_BYPASS_XGO".toList ≠ some "true".toList) (hx : w.xgoFound = true) (hn : ∀ a, (w.opts a).noInstrument = false) (n : Nat)
    (hn3 : 3 ≤ n) :
    ((follow w n ⟨.xgo, "exec".toList :: "go".toList :: cmd :: args, env, stdin⟩).filter instruments).length = 1 := by
  obtain ⟨m, rfl⟩ : ∃ m, n = m + 1 := ⟨n - 1, by omega⟩
  have h1 : next w ⟨.xgo, "exec".toList :: "go".toList :: cmd :: args, env, stdin⟩ =
      some ⟨.go, cmd :: args, xgoEnv (w.opts ("exec".toList :: "go".toList :: cmd :: args)) true env, false⟩ := by
    unfold next
    simp only
    unfold runXgo
    simp only [if_true]
    rfl
  rw [follow, h1]
  simp only
  obtain ⟨e1, e2, h, _⟩ := C80_once w cmd args (xgoEnv (w.opts ("exec".toList :: "go".toList :: cmd :: args)) true env) false hw
    (by show get _ BYPASS ≠ some yes; rw [bypass_exec]; exact hb) hx hn m (by omega)
  rw [h]
  have i1 : instruments ⟨.go, cmd :: args, xgoEnv (w.opts ("exec".toList :: "go".toList :: cmd :: args)) true env, false⟩ = false := rfl
  have i2 : instruments ⟨.xgo, cmd :: "--go".toList :: args, e1, false⟩ = true := List.contains_iff_mem.mpr hw
  have i3 : ∀ l e, instruments ⟨.go, l, e, false⟩ = false := fun l e => by cases l <;> rfl
  rw [List.filter_cons_of_neg (by rw [i1]; decide), List.filter_cons_of_pos i2, List.filter_cons_of_neg (by rw [i3]; decide)]
  rfl

/-- **C80.** The tools that xgo builds are built for this machine and without experiments, whatever GOOS, GOARCH and
    GOEXPERIMENT are, and by go itself; other variables are kept. -/
theorem C80_native (w : World) (goroot : Str) (e : EnvL) (args : List Str) (n : Nat) :
    get (nativeEnv e goroot) "GOOS".toList = some [] ∧ get (nativeEnv e goroot) "GOARCH".toList = some [] ∧
    get (nativeEnv e goroot) "GOEXPERIMENT".toList = some [] ∧ get (nativeEnv e goroot) "GOROOT".toList = some goroot ∧
    (∀ k, k ∉ ["GOROOT".toList, "PATH".toList, "GO_BYPASS_XGO".toList, "GOOS".toList, "GOARCH".toList, "GOEXPERIMENT".toList] →
      get (nativeEnv e goroot) k = get e k) ∧
    follow w n ⟨.go, args, nativeEnv e goroot, false⟩ = [] := by
  have hget : ∀ k, get (nativeEnv e goroot) k =
      (get [("GOOS".toList, []), ("GOARCH".toList, []), ("GOEXPERIMENT".toList, []), (BYPASS, yes)] k).or
        (get (makeGorootEnv e goroot) k) := by
    intro k
    have : nativeEnv e goroot = makeGorootEnv e goroot ++
        [("GOOS".toList, []), ("GOARCH".toList, []), ("GOEXPERIMENT".toList, []), (BYPASS, yes)] := by
      simp [nativeEnv, envForNative]
    rw [this, get_append]
  refine ⟨?_, ?_, ?_, ?_, ?_, ?_⟩
  · rw [hget]; rfl
  · rw [hget]; rfl
  · rw [hget]; rfl
  · rw [hget]
    have : get [("GOOS".toList, []), ("GOARCH".toList, []), ("GOEXPERIMENT".toList, []), (BYPASS, yes)] "GOROOT".toList = none := by decide
    rw [this, Option.none_or]
    exact goroot_set e goroot
  · intro k hk
    simp only [List.mem_cons, List.not_mem_nil, or_false, not_or] at hk
    obtain ⟨a, b, c, d, f, g⟩ := hk
    have c : k ≠ BYPASS := c
    rw [hget, get_cons, get_cons, get_cons, get_cons, get_nil, if_neg c, if_neg g, if_neg f, if_neg d]
    exact goroot_other e goroot k a b
  · apply C80_plain
    right; left
    rw [hget]; rfl

/-- **C80.** The exit code of the command that does the work is that of the go command the user called; a command that cannot
    be run is a failure. -/
theorem C80_exit (c : Nat) : exitCode (runErr (exitCode (runErr c))) = c ∧ exitCode (some none) ≠ 0 := by
  refine ⟨?_, by decide⟩
  unfold runErr
  by_cases h : c = 0
  · subst h; rfl
  · simp [h, exitCode]

/-! ### What is missing -/

/-- In whatever a command of xgo runs, as in a test, GO_BYPASS_XGO is set, and `xgo exec` does not take it back: there,
    `xgo exec go test` does not instrument. -/
theorem C80_exec_inside_lost (w : World) (o : Opts) (hn : o.noInstrument = false) (cmd : Str) (args : List Str) (env : EnvL)
    (stdin : Bool) (n : Nat) :
    (follow w n ⟨.xgo, "exec".toList :: "go".toList :: cmd :: args, xgoEnv o false env, stdin⟩).filter instruments = [] := by
  cases n with
  | zero => rfl
  | succ n =>
    have h1 : next w ⟨.xgo, "exec".toList :: "go".toList :: cmd :: args, xgoEnv o false env, stdin⟩ =
        some ⟨.go, cmd :: args, xgoEnv (w.opts ("exec".toList :: "go".toList :: cmd :: args)) true (xgoEnv o false env), false⟩ := by
      unfold next
      simp only
      unfold runXgo
      simp only [if_true]
      rfl
    rw [follow, h1]
    simp only
    rw [follow_none (go_ends rfl (by rw [bypass_exec]; exact bypass_set o env hn))]
    rfl

/-- The standard input is not passed on by any of the two: the program of `xgo run` and the tests of `xgo test` find it empty,
    and so does everything that the instrumented go hands to xgo. -/
theorem C80_no_stdin (w : World) (n : Nat) : ∀ p, ∀ q ∈ follow w n p, q.stdin = false := by
  induction n with
  | zero => intro p q hq; cases hq
  | succ n ih =>
    intro p q hq
    rw [follow] at hq
    cases hp : next w p with
    | none => rw [hp] at hq; cases hq
    | some r =>
      rw [hp] at hq
      simp only [List.mem_cons] at hq
      rcases hq with hq | hq
      · rw [hq]
        unfold next at hp
        split at hp
        · unfold precheck at hp
          split at hp
          · cases hp
          · split at hp
            · cases hp
            · split at hp
              · cases hp
              · split at hp
                · cases hp
                · rw [← Option.some.inj hp]
        · unfold runXgo at hp
          split at hp
          · cases hp
          · split at hp
            · split at hp
              · cases hp
              · rw [← Option.some.inj hp]
            · split at hp
              · rw [← Option.some.inj hp]
              · cases hp
        · cases hp
      · exact ih r q hq

/-- An empty PATH becomes one that ends in an empty entry, which stands for the current directory. -/
theorem C80_empty_path (o : Opts) (isExec : Bool) (e : EnvL) (h : get e "PATH".toList = some []) :
    get (xgoEnv o isExec e) "PATH".toList = some (o.goroot ++ "/bin:".toList) := by
  rw [(C80_goroot o isExec e).2.1 [] h, List.append_nil]

/-! ### A concrete world -/

def demoOpts : Opts where
  goroot := "/x/go1.24".toList
  extra := none
  mainModule := "m".toList
  debugPkg := []
  unified := false
  noInstrument := false
  cacheDir := "/c".toList

def demoWorld : World where
  xgoFound := true
  opts := fun _ => demoOpts
  goArgs := fun a => a.drop 2

def demoEnv : EnvL := [(PATH, "/usr/bin".toList), ("A".toList, "1".toList), (GOROOT, "/usr/go".toList)]

example : (follow demoWorld 9 ⟨.go, ["test".toList, "./...".toList], demoEnv, true⟩).map (fun p => (p.who, p.args)) =
    [(.xgo, ["test".toList, "--go".toList, "./...".toList]), (.go, ["test".toList, "./...".toList])] ∧
    get demoEnv BYPASS ≠ some yes ∧ "A".toList ∉ ours ∧
    get (xgoEnv demoOpts false demoEnv) "A".toList = some "1".toList ∧
    get (xgoEnv demoOpts false demoEnv) PATH = some "/x/go1.24/bin:/usr/bin".toList := by decide +kernel

end Verif.Cmd.GoXgo
