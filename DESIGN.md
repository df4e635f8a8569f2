# Formal model of xhd2015/xgo in Lean 4 — design

This file is generated by `tools/mkdesign.py` from `tools/design_head.md`, `tools/design_props.txt`, `tools/claims.txt`
and the axiom list printed by Lean; edit those.

## Approach

* The Go functions are modelled one by one as small, total, computable Lean functions over `Nat`, `Int`, `List`,
  `Option`, `Char`. Each definition cites the file and lines it models and says where it simplifies.
* A Go panic is a `none`/`Except` result or an explicit event; an error return is `none` (messages are modelled only
  where a property speaks about them). Mutable state is an explicit record and a step function; a history is a list of
  operations or an inductive reachability relation; pointers are indices into a heap where aliasing matters
  (registries, stacks, slices, coverage lines), otherwise values.
* Loops with data-dependent termination are fuel-free wherever Lean accepts a termination measure (overlay chains,
  version parsing, marker search); the interpreter of programs has fuel, and a relational presentation proved equivalent
  to it (`ExecRel`, `ExecComplete`), so that no theorem depends on a fuel bound.
* Specifications are in `*Spec.lean` files (or a section `Specification` of a small module). They do not mention the
  helpers of the model; data types that *are* the API (operations, syntax trees, rules) are shared.
* Property theorems are named `Cnn_…`. Each has an `example` beside it that meets its hypotheses with a concrete,
  non-trivial value. A property that is false of the code keeps its full statement in `properties.jsonl`; it has a theorem
  `Cnn_counterexample…` with a concrete witness, and the strongest true part found is `Cnn_…_partial`.
* `seeded/LOG.jsonl` records the mutation tests: edits of the model such as a realistic bug would make, and which
  theorems refused to build. `tools/mutate.py` runs them; `seeded/mutants/*.json` are the edits.

## Trusted base

* Lean's kernel (4.33.0) and the axioms below; no axiom of ours, no `native_decide`/`bv_decide`, no compiled code.
* The reading of the Go source: the code was not run. Where a property rests on Go itself (slices share arrays, loop
  variables are shared under `go 1.14` of runtime/go.mod, map iteration order is arbitrary, `reflect.MakeFunc` passes
  arguments through), that behaviour is stated in the model and trusted.
* The English statements in `properties.jsonl` and their reading as the theorems listed here.

Assumptions about external code appear as parameters or hypotheses and hold for *every* value of them unless said
otherwise: the Go parser (C24, C57; gives declarations with offsets or fails; well-formed trees only where stated),
`encoding/json` (C35: decodes what it encoded), the type resolver's answers (C39, C59), symlink resolution (C33, C44:
idempotent where stated), the file system (reads and writes succeed), `sort.Stable` (stable), `sort.Slice` in the line
editor (any sorted order).

## What is modelled

| module(s) under lean/Verif | code in /repo |
|---|---|
| Runtime/Registry, TraceStart | runtime/internal/trap/{mock,record,interceptor,stack_data,init}.go, stack/g.go, trap.go:72-133, 260-308, 421-447: all seven registries, cancel functions, goroutine creation, end of init, attach/detach of stacks |
| Runtime/Slice | the same registries as slices with backing arrays, during the handler loops of trap.go:139-175 |
| Runtime/Exec*, | trap.go:33-457 and the code injected into functions (func_template.go), as an interpreter of programs with nested calls, panics, recover |
| Runtime/CallValue, Build | build.go, object.go, the checks of record.go and mock.go: argument and result plumbing, type checks, errors |
| Runtime/VarTrap | trap/var.go, instrument_var/var_template.go |
| Runtime/Stack* | internal/stack/stack.go, export.go |
| Runtime/Functab | runtime/functab, core/func.go, xgo_trap_template.go:183-208, inspect.go, mock.go:329-362 |
| Runtime/Tls | runtime/tls, xgo_trap_template.go:237-279, internal/runtime/g.go |
| Text/EditBuffer, Text/Cut | support/edit/edit.go; strings.Index |
| Support/Pattern | support/pattern, patch/legacy/match/pattern.go |
| Support/Semver, GoVersion, Decimal | support/goinfo/{semver,version,goinfo}.go |
| Support/Coverage | support/coverage |
| Support/LineEdit | support/transform/edit/line, patch/format, patch/unpatch, transform/patch/patch.go:253-308 |
| Instrument/Overlay | instrument/overlay, cmd/xgo/main.go:690-845 |
| Instrument/Rules | patch/legacy/{match,ctxt,info}, cmd/xgo/rule.go, instrument.go:432-532, support/goinfo/pkg.go |
| Instrument/FuncTrap | instrument_func/trap.go, ast/recv.go, config, constants, compiler_extra, instrument_reg, cmd/xgo/instrument.go:168-377, patch/syntax, patch/info |
| Instrument/PatchText, PatchParse, PatchApply | instrument/patch: marked edits, cleaning, parser of .xgo.patch, engine |
| Instrument/Resolve* | instrument/resolve: statement and expression traversal, scopes, collect_var_ref.go; instrument_var/trap_var.go:124-143 |
| Instrument/UnifiedTest | instrument_go/instrument_unifiedtest, its patches of cmd/go/internal/test, test2json and testing |
| Support/FileCopy* | support/filecopy/copy.go (not LinkFiles) |
| Support/Session* | support/session/session.go: events and sessions under every schedule; the clock is left open: a poll may time out at any time |
| Cmd/TestExplorer* | cmd/xgo/test-explorer/{main,parse,run}.go: tree of tests, the `go test` command. Trusted: the meaning of `-run` (package testing, match.go) and of the regexp syntax used, modelled from knowledge of Go |
| Cmd/TestStatus* | cmd/xgo/test-explorer/{run_session,run_event,run}.go: from the output of `go test -json` to the events for the page |
| Cmd/Setup* | cmd/xgo/main.go:350-600, cmd/xgo/patch.go:41-263: the setup of the instrumented GOROOT with its record and revision files |
| Instrument/Target* | instrument/resolve/{resolve,scope,stmt,expr,block,decl,record,traverse}.go, instrument/resolve/types/type.go: which functions, methods and variables are recorded as targets |
| Instrument/Load* | instrument/load/load.go: parallel loading of package files |
| Cmd/BlankImport* | cmd/xgo/trace.go: the blank import of runtime/trace |
| Cmd/Vendor* | support/goinfo/vendor_parse.go, cmd/xgo/trace.go: vendored dependencies |
| Cmd/RuntimeCopy* | cmd/xgo/trace.go: extraction of the runtime; instrument/instrument_xgo_runtime: link.go, parse.go, bypass_version_check.go |
| Instrument/CoverNotes* | instrument/instrument_go/go_tool_cover.go, xgo_cover_template.go; cmd/xgo/instrument.go: applyInstrumentWithEditNotes |
| Instrument/VarType* | instrument/resolve/resolve.go, collect_var_ref.go: tryResolveDeclType; instrument/instrument_var/trap_var.go: rewriteVarDefAndRefs, useTypeInFile, importRecorder |
| Cmd/GoMod* | support/goinfo mod.go, find.go; the project root (main.go, trace.go) and the scanned directory of the test explorer | C74 |
| Runtime/TraceJson* | runtime/internal/trap/object.go, runtime/internal/runtime/marshal.go, the recording in trap.go | C75 |
| Runtime/TraceGo* | runtime/internal/stack/{stack,export,g}.go, runtime/internal/trap/init.go: traces over several goroutines |
| Cmd/TraceView* | cmd/xgo/trace/{main,convert}.go, cmd/xgo/trace/render/*: the trace viewer | C77 |
| Runtime/Hooks* | hooks in the Go runtime: traps, registration, init, goroutine callbacks, state per g | C78 |
| Cmd/Shadow* | the shadow go command | C79 |
| Cmd/GoXgo* | the instrumented go and xgo calling each other; environments | C80 |
| Support/ServePort* | support/netutil/netutil.go: the servers' ports | C81 |
| Cmd/GorootDir* | cmd/xgo/main.go, pathsum: GOROOT, its copy and cache | C82 |
| Cmd/TestConfig* | support/testconfig/config.go, cmd/xgo/test-explorer/config.go, main.go handle, run_session.go runTest | C83 |
| Cmd/RunOutput* | cmd/xgo/test-explorer/run_session.go Start, consumeTestEvent; poll.go startRun | C84 |
| Support/CmdLine* | support/cmd | C85 |
| Cmd/CovMerge* | cmd/xgo/coverage/{main,serve}.go | C86 |
| Cmd/ToolExec* | cmd/xgo/exec_tool, cmd/go-tool-exec | C87 |
| Instrument/RegCode, Instrument/SourceLines* | texts of the registration code; all edits of a source file and the lines of the user's code | C88 |
| Instrument/RegRead* | the registration code read back and run at the start of the program | C89 |
| Runtime/Defer* | functions with defer, panic, recover, Goexit and the trap | C90 |
| Instrument/InitOrder* | package initialisation with what instrumentation adds | C91 |
| Cmd/CovView* | coverage view: covered and changed lines, summary | C92 |
| Instrument/GenFile* | names, first line and writing of generated files | C93 |
| Support/GetGo* | downloading and unpacking Go | C94 |
| Runtime/TestTrace* | traces of tests and of trace.Trace | C95 |
| Cmd/Handoff* | selection for the compiler, build cache | C96 |
| Runtime/PatchTarget* | what a function value leads to | C97 |
| Runtime/InitPhase* | calls, mocks and traces during initialisation | C98 |
| Runtime/LooseJson* | marshalling values for a trace | C99 |
| Runtime/Mutex* | concurrent recording and export of stacks | C100 |
| Support/HttpJson* | answers of the HTTP endpoints | C101 |
| Instrument/GoHooks* | the edits of Go's sources | C102 |
| Cmd/Tool* | `xgo tool` | C103 |
| Instrument/GoCmd* | edits of the go command, the cover tool and the compiler | C104 |
| Instrument/GoComp* | edits of the compiler's noder and list of runtime functions | C105 |
| Instrument/GoDebug* | edits of the go command for the debugger, after those of C104 | C106 |
| Cmd/Upgrade* | xgo upgrade | C107 |
| Cmd/CovProfile* | the coverage profile of a project in the test explorer | C108 |
| Cmd/ExplorerDebug* | debugging an item of the test explorer | C109 |
| Cmd/CaseTrace* | the trace that the test explorer shows for a case | C110 |
| Cmd/Options | support/flag, cmd/xgo/{option,main}.go: command line |
| Cmd/GitIgnore | cmd/xgo/instrument.go:603-658 |

## What is not modelled

* What the go command, the compiler and the linker themselves do; the network; the debugger integration. Processes,
  environment, disk and crash points appear where a property is about them (C61, C66, C71, C79-C82, C84, C93-C95 among
  others), always as far as the comments of those modules say.
* The machine-level part of the patched Go runtime and compiler (assembly stubs, `runtime.Callers`, IR rewriting in
  patch/; only the decisions listed above are modelled), memory models and true parallelism: each API operation is one
  atomic step, which is what the mutex or goroutine-locality in the code gives.
* The type checker of Go, go/parser, go/format, reflect: their answers are parameters.
* The JavaScript of the web user interfaces (what the servers send is modelled in C64, C65, C77, C84, C92), scripts, the
  test infrastructure (support/gitgoroot and others), and the legacy runtime packages (runtime/trap/legacy,
  runtime/trace/legacy).
* Values: arguments and results are opaque in the runtime model; `reflect` type errors beyond the modelled checks do not
  arise in it.

## Disagreements between code and property

Every `partial` entry below whose remark begins with "false of the code" is such a disagreement; the counterexample
theorem is its witness. The model follows the code, not the documentation.

## Per property

### C01 The most recent uncancelled mock is the one in effect

* Modelled: registry machine: heap of per-goroutine stack data, global holder, push, cancel, create goroutine, end of init.
* Proof: refinement: the machine's view equals a function of the history (`RegistrySpec`), by induction over histories.
* Status: proved. All histories.
* Theorems: `Runtime.C01_latest_uncancelled_mock`

### C02 Cancelling removes exactly the cancelled registration

* Modelled: same machine.
* Proof: corollary of the refinement plus list lemmas on removal by identity.
* Status: proved. All seven registries share one model of push/cancel.
* Theorems: `Runtime.C02_cancel_removes_exactly_own`, `Runtime.C02_cancel_panics_iff`

### C03 Cancelling twice always panics and changes nothing

* Modelled: same machine.
* Proof: corollary; the state after a refused cancel is equal to the state before.
* Status: proved.
* Theorems: `Runtime.C03_double_cancel_panics`

### C04 Goroutine isolation of mocks and recorders

* Modelled: same machine.
* Proof: the view of a goroutine depends on its own operations only, by induction.
* Status: proved.
* Theorems: `Runtime.C04_goroutine_isolation`

### C05 A new goroutine inherits a snapshot

* Modelled: same machine with goroutine creation.
* Proof: view of the new goroutine is the creator's at creation; independence by C04's invariant.
* Status: proved.
* Theorems: `Runtime.C05_inherits_snapshot`, `Runtime.C05_later_independent`

### C06 Init-time registrations become permanent

* Modelled: same machine with end of init.
* Proof: invariant: the global holder is frozen.
* Status: proved.
* Theorems: `Runtime.C06_global_permanent`

### C07 An instance-bound mock or recorder never fires for another instance

* Modelled: interpreter of programs; handler filter on receivers.
* Proof: induction on runs over the event log; witness for post hooks.
* Status: partial. Mocks and pre hooks proved; false for post hooks of recorders (shared loop variable), proved when only the last handler of a list has a post hook.
* Theorems: `Runtime.Exec.C07_mock_only_for_its_instance`, `Runtime.Exec.C07_recorder_pre_only_for_its_instance`, `Runtime.Exec.C07_recorder_post_counterexample`, `Runtime.Exec.C07_recorder_post_partial`

### C08 Mocks bound to different instances coexist

* Modelled: interpreter.
* Proof: witness; theorem for the mock installed last.
* Status: partial. False of the code; only the mock installed last is ever consulted.
* Theorems: `Runtime.Exec.C08_counterexample`, `Runtime.Exec.C08_last_bound_mock_partial`

### C09 A new goroutine inherits instance-bound recorders as instance-bound

* Modelled: registry clone on goroutine creation.
* Proof: witness; theorem for unbound recorders.
* Status: partial. False of the code: cloneFuncRecordMapping drops wantRecvPtr; proved for unbound recorders.
* Theorems: `Runtime.C09_counterexample`, `Runtime.C09_unbound_recorders_partial`

### C10 A call runs exactly one implementation

* Modelled: interpreter.
* Proof: every call's own events, induction on the run relation.
* Status: proved. Every run of every program with re-entrant hooks, panics, recovery.
* Theorems: `Runtime.Exec.C10_one_implementation`, `Runtime.Exec.C10_which_implementation`

### C100 Recording and exporting at the same time

* Modelled: Runtime/Mutex (every method of Stack as single reads and writes under its mutex, goroutines as programs of calls, the interleaving semantics).
* Proof: an invariant of all interleavings relates the memory of each stack to the serial history and, while the mutex is held, to the rest of the section; the methods alone equal the operations of Runtime/Stack; deadlock by preservation of the stuck state.
* Status: proved. Goroutines pass to Finish only entries that PushNew has returned to them on the same stack (Sane), which is how trap.go and var.go use it. Reads and writes are single steps (sequential consistency); the fairness of sync.Mutex is not modelled: C100_returns says that every call can return from every state..
* Theorems: `Runtime.Mutex.C100_linearizable`, `Runtime.Mutex.C100_exclusive`, `Runtime.Mutex.C100_whole`, `Runtime.Mutex.C100_complete`, `Runtime.Mutex.C100_returns`, `Runtime.Mutex.C100_atomic`, `Runtime.Mutex.C100_moment`, `Runtime.Mutex.C100_copy`, `Runtime.Mutex.C100_reenter`, `Runtime.Mutex.C100_counterexample_reenter`, `Runtime.Mutex.C100_counterexample_no_mutex`, `Runtime.Mutex.C100_counterexample_var`, `Runtime.Mutex.C100_counterexample_torn`

### C101 Every HTTP request is answered with its result or its failure

* Modelled: Support/HttpJson (ResponseWriter, HandleJSON with its deferred recover, parseBody, session endpoints as a transition system, /detail).
* Proof: case analysis on how a handler ends; induction over the request history relates the manager's map to starts without later destroys.
* Status: partial. False of the code for panics whose value is an error (http.go:44 assigns e instead of err): C101_panic, C101_no_body, C101_detail_race. encoding/json, go/parser, strconv.Atoi and http.DetectContentType are parameters..
* Theorems: `Support.HttpJson.C101_answer_partial`, `Support.HttpJson.C101_success_partial`, `Support.HttpJson.C101_options`, `Support.HttpJson.C101_panic`, `Support.HttpJson.C101_error_type`, `Support.HttpJson.C101_poll`, `Support.HttpJson.C101_destroy`, `Support.HttpJson.C101_bad_body`, `Support.HttpJson.C101_no_body`, `Support.HttpJson.C101_detail`, `Support.HttpJson.C101_detail_bad`, `Support.HttpJson.C101_detail_race`

### C102 The hooks are put into the Go sources at their places, once, and can be taken out

* Modelled: Instrument/GoHooks (the text edits of the seven files on Instrument/PatchText, and InstrumentRuntime over the tree).
* Proof: each edit is computed on abstract anchors (an insertion cannot create or hide an anchor, since every mark begins and ends with '/'); C25/C56 for earlier edits and a second run; induction over the list of files.
* Status: proved. Go's sources are any texts that have the anchors as Spec.Hooked says (time.go ends with a line break, as gofmt leaves it); reading and writing files succeed; the mark file and xgo_trap.go are left out..
* Theorems: `Instrument.GoHooks.C102_hooks`, `Instrument.GoHooks.C102_again`, `Instrument.GoHooks.C102_undo`, `Instrument.GoHooks.C102_lines`, `Instrument.GoHooks.C102_missing`, `Instrument.GoHooks.C102_unsupported`

### C103 `xgo tool NAME` runs the tool of that name, and no other program

* Modelled: Cmd/Tool (handleTool, tryHandleTool, filepath.Base/Dir/Join, exec.LookPath on an arbitrary disk).
* Proof: cleaned paths: a cleaned relative path is some .. and then names, so that joining a name keeps the directory; induction over PATH.
* Status: partial. The full claim is false: the directory is that of os.Args[0]. Started by its name or as ./xgo, xgo does not look beside itself; with a file of the tool's name in the working directory it runs the first program of that name on PATH (C103_by_name, C103_other_program). Unix; the name / and the names . and .. are not covered by C103_only..
* Theorems: `Cmd.Tool.C103_builtin`, `Cmd.Tool.C103_runs_partial`, `Cmd.Tool.C103_only`, `Cmd.Tool.C103_slash`, `Cmd.Tool.C103_itself`, `Cmd.Tool.C103_by_name`, `Cmd.Tool.C103_other_program`

### C104 The go command, the cover tool and the compiler are edited at their places, once, and can be restored

* Modelled: Instrument/GoCmd (instrumentExec, instrumentGoMain, instrumentCmdCover, patchGcMain on Instrument/PatchText).
* Proof: each sequence of edits is computed on abstract anchors and marks (a mark begins and ends with '/', so it cannot create or hide an anchor); C25/C56 for earlier edits and a second run.
* Status: proved. The sources are any texts that have the anchors as Spec.Edited says, with buildActionID before build (as it is in Go) and runCover on either side; reading and writing files succeed; the files that are written as a whole are left out. The compiler's file has no check of the version..
* Theorems: `Instrument.GoCmd.C104_edits`, `Instrument.GoCmd.C104_again`, `Instrument.GoCmd.C104_undo`, `Instrument.GoCmd.C104_lines`, `Instrument.GoCmd.C104_missing`, `Instrument.GoCmd.C104_unsupported`

### C105 The compiler gets xgo's part and xgo's runtime functions at their places, once

* Modelled: Instrument/GoComp (PatchNoder, PrepareRuntimeDefs, PatchSyntaxNode on Instrument/PatchText).
* Proof: the four edits of noder.go are computed on abstract anchors and marks (the end of the name of a package is found also with marks behind it); C25/C56 for earlier edits and a second run.
* Status: proved. The sources are any texts that have the anchors as Spec.Noder and Spec.Builtin say; reading and writing files succeed; the run of mkbuiltin.go and the copying of xgo's compiler package are left out..
* Theorems: `Instrument.GoComp.C105_noder`, `Instrument.GoComp.C105_builtin`, `Instrument.GoComp.C105_missing`, `Instrument.GoComp.C105_unsupported`, `Instrument.GoComp.C105_nodes`

### C106 The debugger's edits of the go command do not harm the other edits

* Modelled: Instrument/GoDebug (InstrumentGc, BuildInstrument up to it, on Instrument/GoCmd and Instrument/PatchText).
* Proof: the two insertions are computed on abstract anchors; the second edit of exec.go by C25_clean, whose result is the original.
* Status: partial. False up to Go 1.21: C106_exec_partial and C106_lost show that exec.go has the debugger's edits only. C106_second: the second of two edits of a file always undoes the first. Only development builds of xgo set up for debugging. Texts are any that have the anchors as Spec.Debug and C104's Spec.Edited say; the edits of go test and the building are left out..
* Theorems: `Instrument.GoDebug.C106_second`, `Instrument.GoDebug.C106_plain`, `Instrument.GoDebug.C106_shell`, `Instrument.GoDebug.C106_exec_partial`, `Instrument.GoDebug.C106_lost`, `Instrument.GoDebug.C106_missing`, `Instrument.GoDebug.C106_unsupported`

### C107 After xgo upgrade the user runs the newest version, and is told so

* Modelled: Cmd/Upgrade (handleUpgrade, the reached part of Upgrade, exec.LookPath).
* Proof: the result computed from the versions before and after; lookup characterised by the first directory.
* Status: partial. False of the code: C107_ignored, C107_crash, C107_shadowed, C107_broken, C107_first. C107_latest_partial holds if the directory of go install comes before any other xgo. go install is one step that fails or puts one program into one directory; code after the `if true` of Upgrade is not reached and left out..
* Theorems: `Cmd.Upgrade.C107_install`, `Cmd.Upgrade.C107_message`, `Cmd.Upgrade.C107_latest_partial`, `Cmd.Upgrade.C107_shadowed`, `Cmd.Upgrade.C107_first`, `Cmd.Upgrade.C107_broken`, `Cmd.Upgrade.C107_ignored`, `Cmd.Upgrade.C107_crash`

### C108 Each project has its own coverage in the test explorer

* Modelled: Cmd/CovProfile (mapCovDir with filepath.Join, New, Clear, the profile that go test writes, on a disk of files and directories).
* Proof: invariant: directories of xgo never have the name of the profile as an element, files always do; induction over the history.
* Status: partial. False of the code: C108_shared/C108_clash, C108_escape, C108_nested. Proved for all histories of projects with ordinary names (letters, digits, . _ - and what is not ASCII). No profile is configured; sessions do not overlap; paths are absolute and clean..
* Theorems: `Cmd.CovProfile.C108_own_partial`, `Cmd.CovProfile.C108_shared`, `Cmd.CovProfile.C108_clash`, `Cmd.CovProfile.C108_below_partial`, `Cmd.CovProfile.C108_escape`, `Cmd.CovProfile.C108_nested`

### C109 Debugging a test in the explorer runs what running it runs

* Modelled: Cmd/ExplorerDebug (runTest, debugTest, FormatDlvArgs, the flags of a session), with testPaths of Cmd/TestExplorer and ServePort of Support/ServePort.
* Proof: the command lines are read by a specification of go test, dlv exec and the flags of a test's binary; induction over flags, packages and settings; invariant of ServePort.
* Status: partial. False of the code: C109_flags_lost, C109_env (build). Proved: the same build flags, package, settings and arguments when the configuration has no flags for the binary. Flags of the configuration are single words (-name=value); what go test, dlv and the test's binary make of their arguments is a specification, not a model of their code; settings that go test adds of itself (-test.timeout) are left out..
* Theorems: `Cmd.ExplorerDebug.C109_only_cases`, `Cmd.ExplorerDebug.C109_debugged`, `Cmd.ExplorerDebug.C109_same_partial`, `Cmd.ExplorerDebug.C109_flags_lost`, `Cmd.ExplorerDebug.C109_env`, `Cmd.ExplorerDebug.C109_where`, `Cmd.ExplorerDebug.C109_binary`, `Cmd.ExplorerDebug.C109_command`, `Cmd.ExplorerDebug.C109_effects`, `Cmd.ExplorerDebug.C109_once`

### C11 Interceptors nest like an onion

* Modelled: interpreter.
* Proof: own events of a call are the pre order then the post order; witnesses.
* Status: partial. Pre hook order proved; post hooks wrong in the code for several post hooks (shared loop variable under go 1.14), proved when only the last handler has one.
* Theorems: `Runtime.Exec.C11_pre_order`, `Runtime.Exec.C11_onion_partial`, `Runtime.Exec.C11_counterexample`, `Runtime.Exec.C11_counterexample_nil`, `Runtime.C11_handler_order`

### C110 The trace shown for a case is the trace of its run

* Modelled: Cmd/CaseTrace (FindGoModDirSubPath, getConsistentTraceDir, the file of a trace, what is read after the run) and Cmd/CaseTraceRecords (traceConverter), what a run writes as in C95.
* Proof: induction over the reversed path for the module; the name of the file determines package and test; induction over the history.
* Status: partial. False of the code: C110_stale, C110_clash, C110_reversed. Proved: a trace that this run wrote is the one shown, always; and for all histories of projects that are modules themselves, without directories named like tests, the trace shown is the latest of the same case of the same package. Sessions do not overlap, sums of the modules' paths differ, names of directories and tests are ordinary; reading the JSON is left out, showing what was read is not (C110_records)..
* Theorems: `Cmd.CaseTrace.C110_place`, `Cmd.CaseTrace.C110_own`, `Cmd.CaseTrace.C110_latest_partial`, `Cmd.CaseTrace.C110_stale`, `Cmd.CaseTrace.C110_clash`, `Cmd.CaseTrace.C110_reversed`, `Cmd.CaseTrace.Records.C110_records`, `Cmd.CaseTrace.Records.C110_no_trace`

### C12 Interceptors never re-enter themselves

* Modelled: interpreter with trapping depth.
* Proof: nesting invariant over runs; termination of interception by a measure.
* Status: partial. Interceptor part proved in full; trace part false for aborted calls inside hooks.
* Theorems: `Runtime.Exec.C12_general_interceptors_never_nested`, `Runtime.Exec.C12_interception_terminates`, `Runtime.Exec.C12_no_trace_in_hooks_partial`, `Runtime.Exec.C12_trace_counterexample`

### C13 The trapping depth is balanced

* Modelled: interpreter.
* Proof: induction on runs.
* Status: proved.
* Theorems: `Runtime.Exec.C13_depth_balanced`, `Runtime.Exec.C13_interceptors_stay_enabled`

### C14 The trace is the call tree

* Modelled: interpreter + stack machine.
* Proof: log of a run parses as a forest; exported tree equals the forest.
* Status: partial. False when a mock panics (entry never finished); proved when no hook panics.
* Theorems: `Runtime.Exec.C14_trace_is_call_tree_partial`, `Runtime.Exec.C14_traced_iff`, `Runtime.Exec.C14_counterexample`, `Runtime.Stack.C14_exported_trace_partial`

### C15 Trace entry ids are unique and parent ids point to the enclosing entry

* Modelled: stack machine over an index heap.
* Proof: invariant over all operation sequences.
* Status: proved. Any sequence of stack operations, including abandoned entries and go statements.
* Theorems: `Runtime.Stack.C15_ids`, `Runtime.Stack.C15_each_entry_once`

### C16 Trace entry times nest

* Modelled: stack machine with a clock.
* Proof: invariant over all operation sequences, nesting via the forest grammar.
* Status: partial. False when a hook panics; proved for all runs without hook panics.
* Theorems: `Runtime.Stack.C16_times_nest_partial`, `Runtime.Stack.C16_counterexample`, `Runtime.Stack.C16_no_entry_ends_before_it_begins`

### C17 Tracing does not disturb mocks

* Modelled: trace start/finish on the registry machine.
* Proof: witness and partial theorem.
* Status: partial. False of the code: finishing a trace detaches the stack holding the registrations.
* Theorems: `Runtime.C17_counterexample`, `Runtime.C17_view_kept_partial`, `Runtime.C17_recording_drops_all`

### C18 Trace with an empty config records nothing and leaves no residue

* Modelled: trace start on the registry machine.
* Proof: witness and partial theorem.
* Status: partial. False on goroutines with registrations.
* Theorems: `Runtime.C18_counterexample`, `Runtime.C18_no_residue_partial`

### C19 Variable mocks

* Modelled: variable getters, traps, registries.
* Proof: for all histories, via C01's specification; witness.
* Status: partial. False when recorders with and without post hook are mixed (the read panics); proved otherwise, for all histories.
* Theorems: `Runtime.Var.C19_read_partial`, `Runtime.Var.C19_variable_untouched`, `Runtime.Var.C19_address_unaffected_by_value_mocks`, `Runtime.Var.C19_counterexample`

### C20 trace.Record on a variable accepts a pre and a post hook

* Modelled: type checks of trace.Record.
* Proof: decision logic; witness.
* Status: partial. False of the code: record.go:59 has the comparison inverted, so pre+post always panics; proved for a single hook.
* Theorems: `Runtime.Build.C20_counterexample`, `Runtime.Build.C20_single_hook_partial`, `Runtime.Build.C20_pre_argument_type_partial`, `Runtime.Build.C20_post_pointer_counterexample`

### C21 A replacer receives the call's arguments and its results reach the caller

* Modelled: adapters of build.go.
* Proof: algebraic law for every argument list.
* Status: proved. Values are untyped in the model.
* Theorems: `Runtime.Build.C21_replacer_plumbing`

### C22 By-name method patching accepts every replacer of the right type

* Modelled: type checks by name.
* Proof: decision logic with `List` induction; witness.
* Status: partial. False of the code: no replacer is ever accepted by PatchMethodByName (object.go:171 loop bound); proved for PatchByName.
* Theorems: `Runtime.Build.C22_counterexample`, `Runtime.Build.C22_right_type_crashes`, `Runtime.Build.C22_patch_by_name_partial`

### C23 Interceptor error propagation

* Modelled: one call with user interceptors.
* Proof: decision logic over all interceptor lists.
* Status: proved.
* Theorems: `Runtime.CallValue.C23_post_error`, `Runtime.CallValue.C23_mock_error`, `Runtime.CallValue.C23_errmocked_aborts`, `Runtime.CallValue.C23_errmocked_never_visible`, `Runtime.CallValue.C23_pre_error_lost`, `Runtime.Build.C23_interceptor_fields`, `Runtime.Build.C23_get_field`

### C24 Applying a patch twice equals applying it once

* Modelled: patch text engine, block by block.
* Proof: `apply ∘ apply = apply` through C25's cleaning theorem; witnesses.
* Status: partial. False of the code for blocks without a name (they are added again each time) and for blocks that work on what an earlier block added; proved for one block whose edits are undoable in the sense of C25, and for any number of named blocks that do not depend on each other; the Go parser is a parameter.
* Theorems: `Instrument.PatchApply.C24_block_partial`, `Instrument.PatchApply.C24_edits_partial`, `Instrument.PatchApply.C24_blocks_partial`, `Instrument.PatchApply.C24_counterexample_blocks`, `Instrument.PatchApply.C24_counterexample_unnamed`

### C25 Cleaning a patched file restores the original

* Modelled: CleanPatch / clearPatch on lists of bytes.
* Proof: substring-search lemmas, induction on the edits.
* Status: partial. Proved for any number of side-by-side edits whose text has no marker of its own; false of the code for an edit made on an edit, replaced text with a comment, and a line replaced by text that spans or is followed by more on the line.
* Theorems: `Instrument.PatchText.C25_clean`, `Instrument.PatchText.C25_clear`, `Instrument.PatchText.C25_untouched`, `Instrument.PatchText.C25_counterexample_nested`, `Instrument.PatchText.C25_counterexample_comment`, `Instrument.PatchText.C25_counterexample_line`

### C26 Marked edits only touch their anchor

* Modelled: UpdateContent and the other marked edits.
* Proof: case analysis on searches; witnesses.
* Status: partial. First insertion, ambiguity and repetition proved; repetition of a replacement is false of the code (the replaced text comes back); a `package ` in a comment is taken for the package clause.
* Theorems: `Instrument.PatchText.C26_insert`, `Instrument.PatchText.C26_ambiguous`, `Instrument.PatchText.C26_again`, `Instrument.PatchText.C26_counterexample_replace`, `Instrument.PatchText.C26_replaceAfter`, `Instrument.PatchText.C26_afterName`, `Instrument.PatchText.C26_remove`, `Instrument.PatchText.C26_counterexample_comment`

### C27 Edit buffer semantics

* Modelled: edit buffer.
* Proof: refinement to a position-wise specification.
* Status: proved.
* Theorems: `Text.C27_bytes`, `Text.C27_call_order_irrelevant`, `Text.C27_bytes_no_effect`, `Text.C27_untouched_ends`, `Text.C27_one_insert`, `Text.C27_one_replace`

### C28 Glob patterns

* Modelled: pattern matcher.
* Proof: soundness and completeness against the declarative `*`/`**` relation; witnesses.
* Status: partial. False of the code for a star after a literal and for star-only segments at the end of the path; proved for `**`, literals, and stars followed by a literal; prefix matching proved complete for all patterns.
* Theorems: `Support.Pattern.C28_match_partial`, `Support.Pattern.C28_match_any_partial`, `Support.Pattern.C28_prefix_complete_partial`, `Support.Pattern.C28_counterexample`, `Support.Pattern.C28_prefix_counterexample`, `Support.Pattern.C28_any_prefix_partial`

### C29 Semver comparison is a total preorder

* Modelled: semver.go.
* Proof: parser equals a grammar; comparison equals the precedence order; order lemmas.
* Status: proved.
* Theorems: `Support.Semver.C29_valid_iff`, `Support.Semver.C29_compare`, `Support.Semver.C29_invalid`, `Support.Semver.C29_total_preorder`

### C30 Go version comparison

* Modelled: version.go, goinfo.go.
* Proof: as C29; round trip of String.
* Status: proved.
* Theorems: `Support.GoVersion.C30_valid_iff`, `Support.GoVersion.C30_compare`, `Support.GoVersion.C30_invalid`, `Support.GoVersion.C30_total_preorder`, `Support.GoVersion.C30_parse_go_version`, `Support.GoVersion.C30_string_round_trip`

### C31 Coverage merging adds counts

* Modelled: coverage merge on line objects.
* Proof: sums over multisets, induction.
* Status: proved. The lines of the profiles must be distinct objects (they always are after Parse); counts are int64 and wrap.
* Theorems: `Support.Coverage.C31_merge`, `Support.Coverage.C31_blocks`, `Support.Coverage.C31_order_irrelevant`, `Support.Coverage.C31_arguments_change`

### C32 Coverage parse/format round trip

* Modelled: coverage parse/format.
* Proof: round trip for every text.
* Status: proved. For every text; the last theorem records that counts of CRLF profiles are silently read as 0.
* Theorems: `Support.Coverage.C32_parse_format`, `Support.Coverage.C32_round_trip`, `Support.Coverage.C32_crlf_counts_lost`

### C33 Overlay composition resolves every file to its final content

* Modelled: overlay composition.
* Proof: well-founded recursion; relation to the end of a chain.
* Status: proved. Termination is the acceptance of the recursive definition; the last theorem shows that with several non-canonical spellings the result depends on map order.
* Theorems: `Instrument.Overlay.C33_compose`, `Instrument.Overlay.C33_fails_iff`, `Instrument.Overlay.C33_error_names_cycle`, `Instrument.Overlay.C33_project`, `Instrument.Overlay.C33_canonical_spelling_wins`, `Instrument.Overlay.C33_canonical_mappings`, `Instrument.Overlay.C33_aliases_counterexample`

### C34 Mock rule selection

* Modelled: rule matching.
* Proof: first-match specification, induction on rules; relative to C28.
* Status: partial. Selection proved for every rule list relative to what the pattern package makes of patterns; with the documented meaning of patterns proved for simple patterns, false for a star after a literal (C28).
* Theorems: `Instrument.Rules.C34_match`, `Instrument.Rules.C34_first_rule`, `Instrument.Rules.C34_comma_list`, `Instrument.Rules.C34_usual_patterns_partial`, `Instrument.Rules.C34_counterexample`

### C35 Command-line rules take precedence over rules files

* Modelled: rule merging.
* Proof: list equations.
* Status: proved. JSON encoding/decoding is a parameter required to round-trip.
* Theorems: `Instrument.Rules.C35_merge`, `Instrument.Rules.C35_command_line_first`, `Instrument.Rules.C35_fails_iff`

### C36 Flag values

* Modelled: flag parser.
* Proof: equations for both forms.
* Status: proved. For release builds (isDevelopment false).
* Theorems: `Cmd.C36_recognised`, `Cmd.C36_two_forms`, `Cmd.C36_value_arrives`

### C37 Function full-name parsing

* Modelled: ParseFuncName.
* Proof: string splitting lemmas, against the runtime's grammar of names; witnesses.
* Status: partial. Proved for names as the Go runtime writes them whose type arguments contain no [ and no (; false of the code for type arguments that are generic instances, and for package paths whose last element has a dot (escaped by the runtime).
* Theorems: `Runtime.Functab.C37_parse_partial`, `Runtime.Functab.C37_counterexample_nested`, `Runtime.Functab.C37_counterexample_dot`, `Runtime.Functab.C37_counterexample_panic`

### C38 Function table lookup by name

* Modelled: function table.
* Proof: refinement to "last registered" specification.
* Status: partial. All lookups; the lookup of generic instances is proved for the names C37 is proved for.
* Theorems: `Runtime.Functab.C38_registered`, `Runtime.Functab.C38_succeeds`, `Runtime.Functab.C38_by_package`, `Runtime.Functab.C38_full_name`, `Runtime.Functab.C38_generic_partial`, `Runtime.Functab.C38_interface`, `Runtime.Functab.C38_pointer_method`, `Runtime.Functab.C38_inspect`, `Runtime.Functab.C38_staging`

### C39 Local shadowing: a local name is never rewritten as a package variable

* Modelled: traversal of bodies with scopes.
* Proof: mutual induction on syntax; every recorded reference satisfies Go's scoping rules; witnesses.
* Status: partial. Proved for every body and every answer of the type resolver; false of the code for a name declared by a select clause and for a type parameter that has the name of a package variable.
* Theorems: `Instrument.Resolve.C39_sound_partial`, `Instrument.Resolve.C39_counterexample_select`, `Instrument.Resolve.C39_counterexample_typeParam`, `Instrument.Resolve.C39_rewritten_partial`

### C40 Generated parameter names are fresh

* Modelled: naming of parameters, in place and in compiler.
* Proof: freshness by tags and numerals.
* Status: proved. In place and in the compiler; names beginning with __xgo_ are assumed reserved.
* Theorems: `Instrument.FuncTrap.C40_names_kept`, `Instrument.FuncTrap.C40_distinct`, `Instrument.FuncTrap.C40_compiler`

### C41 Thread-local values are inherited at goroutine creation only

* Modelled: goroutine-local storage on reused g structs.
* Proof: refinement to per-goroutine maps.
* Status: proved. Every history of goroutine creation, writes and reads.
* Theorems: `Runtime.Tls.C41_values`, `Runtime.Tls.C41_isolated`, `Runtime.Tls.C41_own`, `Runtime.Tls.C41_inherit`, `Runtime.Tls.C41_stable`

### C42 Line edits

* Modelled: line editor, unpatch, statement matching.
* Proof: position-wise specification; witnesses.
* Status: partial. Applying is proved for every sorted order of edits of existing lines; undoing gives the lines back only up to empty lines (counterexample), and only for edits with a name.
* Theorems: `Support.LineEdit.C42_apply`, `Support.LineEdit.C42_error`, `Support.LineEdit.C42_order`, `Support.LineEdit.C42_unpatch`, `Support.LineEdit.C42_untouched`, `Support.LineEdit.C42_match`, `Support.LineEdit.C42_counterexample_zero`, `Support.LineEdit.C42_counterexample_blank`, `Support.LineEdit.C42_counterexample_unnamed`, `Support.LineEdit.C42_counterexample_match`, `Support.LineEdit.C42_one`

### C43 Hooks may register and cancel while a call is processed

* Modelled: handler loops over slices with shared arrays.
* Proof: invariant; witnesses.
* Status: partial. False of the code: cancelling shifts the array being iterated; proved for push-only hooks, LIFO cancels, and when init-time handlers exist.
* Theorems: `Runtime.Slice.C43_counterexample`, `Runtime.Slice.C43_counterexample_push`, `Runtime.Slice.C43_copied_partial`, `Runtime.Slice.C43_push_only_partial`, `Runtime.Slice.C43_lifo_partial`

### C44 A user overlay keeps its meaning under xgo

* Modelled: overlay + in-memory file system + final overlay.
* Proof: what a build reads, for every path; witnesses.
* Status: partial. False of the code for chained, exchanged and multiply spelled replacements; proved otherwise.
* Theorems: `Instrument.Overlay.C44_rewritten`, `Instrument.Overlay.C44_untouched`, `Instrument.Overlay.C44_user_replacement_partial`, `Instrument.Overlay.C44_reads`, `Instrument.Overlay.C44_builds`, `Instrument.Overlay.C44_counterexample_chain`, `Instrument.Overlay.C44_counterexample_swap`, `Instrument.Overlay.C44_counterexample_spelling`

### C45 Module membership

* Modelled: membership tests.
* Proof: equivalence with path prefix by components.
* Status: proved. The module path must not be empty.
* Theorems: `Instrument.Rules.C45_within`, `Instrument.Rules.C45_agree`, `Instrument.Rules.C45_main`, `Instrument.Rules.C45_module_list`

### C46 Packages loaded for mock rules

* Modelled: package patterns of rules.
* Proof: characterisation; witness.
* Status: partial. Which packages are loaded is characterised for every rule list; that the first matching rule decides is false of the code.
* Theorems: `Instrument.Rules.C46_pattern`, `Instrument.Rules.C46_packages`, `Instrument.Rules.C46_main_partial`, `Instrument.Rules.C46_counterexample`

### C47 Which functions are intercepted

* Modelled: selection of functions.
* Proof: decision logic as iff statements; witnesses.
* Status: partial. False of the code for dependencies beyond 16 functions per file or 96 per package (a mocked function is left out), for parenthesised receivers (panic) and for methods called init; proved otherwise.
* Theorems: `Instrument.FuncTrap.C47_untouchable`, `Instrument.FuncTrap.C47_under_test`, `Instrument.FuncTrap.C47_named_packages`, `Instrument.FuncTrap.C47_dependency_only`, `Instrument.FuncTrap.C47_dependency_partial`, `Instrument.FuncTrap.C47_counterexample`, `Instrument.FuncTrap.C47_counterexample_panic`, `Instrument.FuncTrap.C47_compiler_partial`, `Instrument.FuncTrap.C47_counterexample_init`, `Instrument.FuncTrap.C47_batches`, `Instrument.FuncTrap.C47_interfaces`, `Instrument.FuncTrap.C47_stdlib`

### C48 Arguments for go and for the program

* Modelled: option loop of cmd/xgo.
* Proof: induction on the argument list against a grammar of arguments; witnesses.
* Status: partial. False of the code after a go flag without value (`xgo run -race main.go -v`), for values starting with a dash (`-ldflags -v`) and for `test -o`; proved otherwise.
* Theorems: `Cmd.C48_subsequence`, `Cmd.C48_untouched`, `Cmd.C48_test_args`, `Cmd.C48_program_args_partial`, `Cmd.C48_flags_anywhere_partial`, `Cmd.C48_go_command`, `Cmd.C48_debug`, `Cmd.C48_debug_run`, `Cmd.C48_xgo_flags`, `Cmd.C48_counterexample`

### C49 Packages named on the command line

* Modelled: package extraction.
* Proof: as C48.
* Status: partial. False of the code for value-less go flags missing from its list (`-short ./p`) and for flags after packages.
* Theorems: `Cmd.C49_packages_partial`, `Cmd.C49_counterexample`

### C50 Interceptors that only watch are invisible

* Modelled: one call with watching interceptors.
* Proof: results equal those without them; witness.
* Status: partial. False of the code when some interceptor has a post hook and the last registered has none (nil call); proved otherwise.
* Theorems: `Runtime.CallValue.C50_watchers_invisible_partial`, `Runtime.CallValue.C50_counterexample`

### C51 Cached packages match what is intercepted

* Modelled: cache key text.
* Proof: injectivity where true; witness.
* Status: partial. False of the code: names are hashed without separators ([Get, All] and [GetAll] share a key); proved for added functions and variables.
* Theorems: `Instrument.FuncTrap.C51_more_functions_partial`, `Instrument.FuncTrap.C51_variable_partial`, `Instrument.FuncTrap.C51_counterexample`

### C52 The .gitignore entry

* Modelled: gitignoreAdd.
* Proof: line-wise specification; witness.
* Status: partial. False of the code for a .gitignore in which the pattern is part of another line.
* Theorems: `Cmd.GitIgnore.C52_added`, `Cmd.GitIgnore.C52_idempotent`, `Cmd.GitIgnore.C52_ignored_partial`, `Cmd.GitIgnore.C52_counterexample`

### C53 Generated package-level identifiers

* Modelled: generated identifiers.
* Proof: distinctness by tags; use/declaration; witnesses.
* Status: partial. False of the code when a dependency has mocked functions and its mocked variables are not in its first file; proved otherwise.
* Theorems: `Instrument.FuncTrap.C53_distinct`, `Instrument.FuncTrap.C53_declared`, `Instrument.FuncTrap.C53_compiler_distinct`, `Instrument.FuncTrap.C53_compiler_declared_partial`, `Instrument.FuncTrap.C53_counterexample`, `Instrument.FuncTrap.C53_counterexample_type`, `Instrument.FuncTrap.C53_getter_pair`, `Instrument.FuncTrap.C53_getters_partial`, `Instrument.FuncTrap.C53_counterexample_getter`

### C54 Reported receiver and parameter names

* Modelled: reported names.
* Proof: equation; witness.
* Status: partial. False of the code for methods handled by the compiler (the type's name is registered as receiver name); parameter names are covered by C40.
* Theorems: `Instrument.FuncTrap.C54_receiver_partial`, `Instrument.FuncTrap.C54_counterexample`

### C55 Mocking by name

* Modelled: lookup by name.
* Proof: via C38; witnesses.
* Status: partial. False of the code for methods registered after the first PatchMethodByName and for `*v` with an unknown v (nil dereference); proved otherwise.
* Theorems: `Runtime.Functab.C55_method_partial`, `Runtime.Functab.C55_counterexample_late`, `Runtime.Functab.C55_by_name_partial`, `Runtime.Functab.C55_counterexample`

### C56 Patching a file that is patched already

* Modelled: EditFile.
* Proof: via C25; witness.
* Status: partial. False of the code when the callback changes nothing: the edits of the earlier version remain; otherwise proved for edits that C25 is proved for.
* Theorems: `Instrument.PatchText.C56_edit_partial`, `Instrument.PatchText.C56_error`, `Instrument.PatchText.C56_idempotent`, `Instrument.PatchText.C56_counterexample`

### C57 Patch edits land where the commands point

* Modelled: patch commands and places.
* Proof: positions against the syntax tree; edits against markers; witnesses.
* Status: partial. Places proved for all commands and well-formed syntax trees; edits proved for places in text order with one kind of edit each; false of the code for edits out of order, several insert_before at one place, insert_after not at the last place, and others (counterexamples); the Go parser is a parameter.
* Theorems: `Instrument.PatchApply.C57_places`, `Instrument.PatchApply.C57_edits_partial`, `Instrument.PatchApply.C57_space`, `Instrument.PatchApply.C57_copy`, `Instrument.PatchApply.C57_directive`, `Instrument.PatchApply.C57_counterexample_order`, `Instrument.PatchApply.C57_counterexample_after`, `Instrument.PatchApply.C57_counterexample_stacked`, `Instrument.PatchApply.C57_counterexample_mixed`, `Instrument.PatchApply.C57_counterexample_nowhere`, `Instrument.PatchApply.C57_counterexample_twice`, `Instrument.PatchApply.C57_counterexample_receiver`, `Instrument.PatchApply.C57_counterexample_copy`, `Instrument.PatchApply.C57_counterexample_braces`

### C58 Patch files are read as written

* Modelled: parser of patch files.
* Proof: parse of every printed file; refusal; witnesses.
* Status: partial. Proved for every file of well-formed blocks; an indented comment is an error, </patch> in a comment ends the block, and blanks at the end of a text are lost.
* Theorems: `Instrument.PatchParse.C58_read`, `Instrument.PatchParse.C58_print`, `Instrument.PatchParse.C58_refused`, `Instrument.PatchParse.C58_unclosed`, `Instrument.PatchParse.C58_counterexample_comment`, `Instrument.PatchParse.C58_counterexample_close`, `Instrument.PatchParse.C58_counterexample_trail`, `Instrument.PatchParse.C58_apply`

### C59 Every use of an instrumented variable is found, once

* Modelled: traversal of bodies.
* Proof: `Nodup` of rewritten positions; completeness by mutual induction; witnesses.
* Status: partial. At most once proved for every body; every use found if the name is declared nowhere in the function and the position is one xgo looks at; false otherwise.
* Theorems: `Instrument.Resolve.C59_once`, `Instrument.Resolve.C59_complete_partial`, `Instrument.Resolve.C59_counterexample_shadow`, `Instrument.Resolve.C59_counterexample_range`, `Instrument.Resolve.C59_counterexample_position`, `Instrument.Resolve.C59_rewritten_partial`

### C60 Taking an address still takes the variable's address

* Modelled: rewriting of references.
* Proof: equations on rendered expressions; witness.
* Status: partial. Proved for V, &V, &q.V, &V.f and V.m; false of the code for &V.f.g, &(V) and (&V).m.
* Theorems: `Instrument.Resolve.C60_value`, `Instrument.Resolve.C60_amp`, `Instrument.Resolve.C60_amp_qualified`, `Instrument.Resolve.C60_amp_field_ptr`, `Instrument.Resolve.C60_amp_field_value`, `Instrument.Resolve.C60_method`, `Instrument.Resolve.C60_counterexample`

### C61 Copying directories

* Modelled: walk over a tree, file system as map, workers as a transition system.
* Proof: induction on the tree; invariants and a measure on the transition system; witnesses.
* Status: partial. Sequential copy proved for every tree, options and target; concurrent copy: no schedule deadlocks or runs for ever, and if no copy fails all wanted files are copied; false of the code: the concurrent copy may return no error though a copy failed, and a second copy fails on a symbolic link.
* Theorems: `Support.FileCopy.C61_copy`, `Support.FileCopy.C61_replace`, `Support.FileCopy.C61_again_partial`, `Support.FileCopy.C61_counterexample_link`, `Support.FileCopy.C61_concurrent_partial`, `Support.FileCopy.C61_concurrent_files_partial`, `Support.FileCopy.C61_concurrent_error`, `Support.FileCopy.C61_concurrent_quiet`, `Support.FileCopy.C61_concurrent_progress`, `Support.FileCopy.C61_concurrent_terminates`, `Support.FileCopy.C61_counterexample`, `Support.FileCopy.C61_counterexample_never_tried`

### C62 Unified tests run what go test runs

* Modelled: putting packages together, renaming, reports, working directories.
* Proof: induction on lists; numbering lemma; witnesses.
* Status: partial. Every test is run once, proved without side condition; names, reports and directories proved if no test has a name that another one gets (C62_names: exactly then); false of the code otherwise, for -run with repeated names, for benchmarks and for parallel tests.
* Theorems: `Instrument.Unified.C62_names`, `Instrument.Unified.C62_alias`, `Instrument.Unified.C62_all_run`, `Instrument.Unified.C62_keys_partial`, `Instrument.Unified.C62_report_partial`, `Instrument.Unified.C62_select_partial`, `Instrument.Unified.C62_dir_partial`, `Instrument.Unified.C62_counterexample_clash`, `Instrument.Unified.C62_counterexample_select`, `Instrument.Unified.C62_counterexample_bench`, `Instrument.Unified.C62_counterexample_parallel`

### C63 Session events arrive once and in order

* Modelled: session as a channel of capacity 100 with any number of senders and polls; manager with atomic counter and map.
* Proof: invariants on transition systems.
* Status: proved. Every schedule of any number of senders, polls and callers of the manager; C63_two_polls shows why the order needs one poll at a time.
* Theorems: `Support.Session.C63_once`, `Support.Session.C63_order`, `Support.Session.C63_stream`, `Support.Session.C63_empty`, `Support.Session.C63_progress`, `Support.Session.C63_bound`, `Support.Session.C63_two_polls`, `Support.Session.C63_ids`, `Support.Session.C63_get`

### C64 The test explorer shows and runs the tests that are there

* Modelled: scanning, filtering, the go test command, selection by -run (regular expressions without groups).
* Proof: mutual induction on trees; matching lemmas; witnesses.
* Status: partial. What is shown is characterised for every tree; directories and single tests run exactly theirs; false of the code: files with several tests and subtests also run tests with similar names, excluded files are run with their directory, names with regexp characters are not found, TestMain and methods are shown.
* Theorems: `Cmd.Explorer.C64_shown`, `Cmd.Explorer.C64_listed`, `Cmd.Explorer.C64_which`, `Cmd.Explorer.C64_counterexample_listed`, `Cmd.Explorer.C64_select_one`, `Cmd.Explorer.C64_select_none`, `Cmd.Explorer.C64_select_many`, `Cmd.Explorer.C64_select_wanted`, `Cmd.Explorer.C64_select_sub`, `Cmd.Explorer.C64_select_sub_wanted`, `Cmd.Explorer.C64_counterexample_prefix`, `Cmd.Explorer.C64_counterexample_sub`, `Cmd.Explorer.C64_counterexample_escape`, `Cmd.Explorer.C64_dir_partial`, `Cmd.Explorer.C64_file_partial`, `Cmd.Explorer.C64_case`, `Cmd.Explorer.C64_subtest_partial`, `Cmd.Explorer.C64_counterexample_file`, `Cmd.Explorer.C64_counterexample_excluded`

### C65 The test explorer shows the results of go test

* Modelled: record of statuses as a trie, events per line of go test -json, the end of a run with every order of map iteration; stderr, traces and coverage are left out.
* Proof: invariant relating record and events; induction on the lines; witnesses.
* Status: partial. Reported results, output, subtests and the end proved for every output whose lines are events; false of the code: tests that were not run (build failure, panic) and files with failed tests are shown as successful, a method with the name of a test takes its result, an unparsable file hides all results of its package, a line that is no event crashes the explorer.
* Theorems: `Cmd.Status.C65_final`, `Cmd.Status.C65_end`, `Cmd.Status.C65_sound`, `Cmd.Status.C65_output`, `Cmd.Status.C65_path`, `Cmd.Status.C65_path_pkg`, `Cmd.Status.C65_chain`, `Cmd.Status.C65_found`, `Cmd.Status.C65_single`, `Cmd.Status.C65_counterexample_file`, `Cmd.Status.C65_counterexample_build`, `Cmd.Status.C65_counterexample_panic`, `Cmd.Status.C65_counterexample_method`, `Cmd.Status.C65_counterexample_unparsed`, `Cmd.Status.C65_counterexample_crash`, `Cmd.Status.C65_counterexample_json`

### C66 The setup of the instrumented GOROOT survives interruption

* Modelled: processes as lists of operations on the directory of the instrumented GOROOT; an operation may be half done and leave anything; runs are started, interleaved and killed at any point; what patching and building do is a parameter.
* Proof: invariant over reachable states (what the record of the full copy and the recorded revision imply); witnesses.
* Status: partial. One process at a time: a run that sets up itself uses a good GOROOT whatever was interrupted before (unless the directory was being removed), and so does every run without setup options as long as versions do not return; recovery is always possible; false of the code: interrupted --reset-instrument, interrupted upgrade followed by the old version, interrupted --build-compiler, --skip-rebuild-compiler-and-go, a changed --use-file-patches, concurrent processes.
* Theorems: `Cmd.Setup.C66_setup_partial`, `Cmd.Setup.C66_resume_partial`, `Cmd.Setup.C66_recover`, `Cmd.Setup.C66_delete`, `Cmd.Setup.C66_counterexample_reset`, `Cmd.Setup.C66_counterexample_resetUpgrade`, `Cmd.Setup.C66_counterexample_downgrade`, `Cmd.Setup.C66_counterexample_buildCompiler`, `Cmd.Setup.C66_counterexample_skip`, `Cmd.Setup.C66_counterexample_filePatches`, `Cmd.Setup.C66_counterexample_concurrent`

### C67 What is named as the target of mock.Patch and the like is what gets instrumented

* Modelled: the syntax of Go as far as the resolver looks at it (mutual inductive types), the scopes of the resolver, the resolver itself with fuel, the traversal; separately the scoping rules of Go and the rules for what an expression denotes.
* Proof: soundness of the resolver by induction on fuel against the rules (what a result claims, by induction on types), the traversal by induction on statements with an invariant between the code's scope and Go's; completeness for plain targets by induction on the derivation; witnesses.
* Status: partial. Sound for every program and every function in which variables declared by := neither shadow nor are shadowed and no local name is a package-level one; complete for targets named in a plain way (F, pkg.F, T.M, (*T).M, pkg.T.M, v.M with v declared by := or at package level, &V, &pkg.V) with types the code understands; false of the code: methods of parameters, shadowed names, variables of if statements that are over, definitions resolved where they are used, types resolved with the imports of another file, type A B, fields X, Y T, variables of type error, trap.MarkInterceptAll(); type parameters and dot imports not modelled.
* Theorems: `Instrument.Target.C67_sound_partial`, `Instrument.Target.C67_direct_partial`, `Instrument.Target.C67_plain_names`, `Instrument.Target.C67_trap_all_partial`, `Instrument.Target.Wrong.C67_param_not_recorded`, `Instrument.Target.Wrong.C67_shadowed_wrong`, `Instrument.Target.Wrong.C67_if_init_wrong`, `Instrument.Target.Wrong.C67_late_wrong`, `Instrument.Target.Wrong.C67_other_file_wrong`, `Instrument.Target.Wrong.C67_defined_type_wrong`, `Instrument.Target.Wrong.C67_first_field_not_recorded`, `Instrument.Target.Wrong.C67_error_var_not_recorded`, `Instrument.Target.Wrong.C67_mark_all_not_seen`

### C68 Loading packages in parallel loads every file

* Modelled: the readers, parsers, bounded channels, wait group and done channel, every access to the fields of a file as a step; go list, the overlay and the parser are parameters; memory is sequentially consistent.
* Proof: invariant over all interleavings (files on their way, counter, what the fields hold), a measure that every step decreases, case analysis for progress; a schedule as counterexample.
* Status: partial. End, no deadlock, no leak, order and content proved for every schedule; exact result if all files can be read; false of the code: the reader reports a file as done before it sets its error, so a file that cannot be read (or is too large) may be returned without error and syntax tree.
* Theorems: `Instrument.Load.C68_ends`, `Instrument.Load.C68_no_deadlock`, `Instrument.Load.C68_no_crash`, `Instrument.Load.C68_files_partial`, `Instrument.Load.C68_packages_partial`, `Instrument.Load.C68_which_files`, `Instrument.Load.C68_at_rest`, `Instrument.Load.C68_lines`, `Instrument.Load.Wrong.C68_unreadable_kept`

### C69 The blank import of runtime/trace keeps the program

* Modelled: the text edit, the choice of files, the replacement through the overlay; go list and the file system are parameters; the specification is a scanner for Go tokens with comments, strings, automatic semicolons and line numbers.
* Proof: the scanner run is split at the place of the edit and shown to be in the same state after it; keys of the replaced map for the choice of files; counterexamples by computation.
* Status: partial. Proved for files whose package clause stands alone on its line (LF without later CR, CRLF, or end of file) with no earlier 'package '; false of the code, with counterexamples: a comment after the clause, a comment before it with the word package, mixed line ends, 'package a; ', a tab, text that mentions the import path, a user overlay that go list does not see.
* Theorems: `Cmd.BlankImport.C69_import_partial`, `Cmd.BlankImport.C69_only_imports`, `Cmd.BlankImport.C69_linked_partial`, `Cmd.BlankImport.C69_any_order`, `Cmd.BlankImport.Wrong.C69_comment_after`, `Cmd.BlankImport.Wrong.C69_comment_before`, `Cmd.BlankImport.Wrong.C69_mixed_line_ends`, `Cmd.BlankImport.Wrong.C69_two_semicolons`, `Cmd.BlankImport.Wrong.C69_tab`, `Cmd.BlankImport.Wrong.C69_mentioned`, `Cmd.BlankImport.Wrong.C69_overlay_of_user`

### C70 Vendored packages are compiled from the vendor directory

* Modelled: the parser of modules.txt, the flags of go mod edit, their batches, the placeholder go.mod files; specification: what go mod vendor writes, what go mod edit does, how go searches a package in the modules of the build.
* Proof: induction over the lines and modules; membership in go.mod after the edits; the longest vendored module path that is a prefix of the package is the only provider; counterexamples by computation.
* Status: partial. Proved if no vendored module is replaced by another module or an absolute directory and for modules with a recorded language version; false of the code, with counterexamples: a module replaced by a fork (its own path is not replaced, a directory that does not exist is), an absolute replacement, a module without language version (compiled with that of the toolchain, not 1.16), xgo run below the root of the project, a vendor directory without packages.
* Theorems: `Cmd.Vendor.C70_parse`, `Cmd.Vendor.C70_space`, `Cmd.Vendor.C70_batches`, `Cmd.Vendor.C70_taken_from_vendor_partial`, `Cmd.Vendor.C70_others_untouched`, `Cmd.Vendor.C70_language_partial`, `Cmd.Vendor.C70_mod_flag`, `Cmd.Vendor.Wrong.C70_fork`, `Cmd.Vendor.Wrong.C70_absolute`, `Cmd.Vendor.Wrong.C70_language`, `Cmd.Vendor.Wrong.C70_subdirectory`, `Cmd.Vendor.Wrong.C70_no_packages`

### C71 The runtime compiled into the program is that of this xgo and this command

* Modelled: the extraction of the embedded runtime, the comparison of its number with that of the copy, and the edits of core/version.go, runtime_link.go, flags.go and trace.go by the linking; specification: the lines of the linked files, and where each file comes from in a history.
* Proof: text lemmas: each constant is on one line, the edits are idempotent and commute with lines; invariant on the copy kept by every run and by every write of the linking; induction over the runs; counterexamples by computation.
* Status: partial. Proved for all histories, with the exact origin of every file; false of the code, with counterexamples: the flags of an earlier --strace run stay in a run without flags, an older xgo after a newer one mixes its trace.go with the other's files, a crash in the extraction after core/version.go leaves an incomplete copy that is kept, a trace directory with the text of a declaration in its name. Not covered: two runs at once (there is no lock), files left half written by the linking other than trace.go, releases whose runtime changed without a new number (a hypothesis of C71_own_partial).
* Theorems: `Cmd.RuntimeCopy.C71_history_partial`, `Cmd.RuntimeCopy.C71_first`, `Cmd.RuntimeCopy.C71_forced`, `Cmd.RuntimeCopy.C71_dir`, `Cmd.RuntimeCopy.C71_own_partial`, `Cmd.RuntimeCopy.C71_crash_partial`, `Cmd.RuntimeCopy.C71_flags_counterexample`, `Cmd.RuntimeCopy.C71_downgrade_counterexample`, `Cmd.RuntimeCopy.C71_crash_counterexample`, `Cmd.RuntimeCopy.C71_dir_counterexample`

### C72 Coverage of an instrumented file is coverage of the source

* Modelled: the notes after the file (file name, edits, original) with strconv.Quote, strconv.Unquote and the JSON of the edits, their recovery from the last three lines, and the replay on the buffer of the cover tool; specification: the program as characters tagged source, removed, xgo, counter, and the plain cover tool.
* Proof: round trips of both quotings by induction over the text; the lines found from the end; the bytes of the buffer with the insertions of both by C27; the tagged text projected to each of the four programs; counterexample by computation.
* Status: partial. Proved for a flag that begins with -cover; false of the code for --cover, --coverprofile (counterexample) and GOFLAGS=-cover, for which no notes are written and the coverage is that of the edited text under the name of the temporary file. Characters instead of bytes, so files that are not valid UTF-8 are outside; of JSON what json.Marshal writes; the placement of the counters is a parameter.
* Theorems: `Instrument.CoverNotes.C72_covered`, `Instrument.CoverNotes.C72_plain`, `Instrument.CoverNotes.C72_two_dashes_counterexample`

### C73 The getter of an instrumented variable has the type of the variable

* Modelled: the resolver (names, selectors, operators, calls, literals, types), with the scope of the first reference as a parameter, the text of the type with the recorder of imports, for all variables of a file; specification: the typing rules of Go for these expressions as an inductive relation, with the meaning of a written type in a file.
* Proof: soundness of the resolver against the typing rules by induction on the fuel, with what a found type stands for; the recorder by the number in each name, distinct by the decimal numeral; the text as a printed type expression that means the type in the file with the imports; counterexamples by computation and inversion of the rules.
* Status: partial. The imports and copied types are proved in general; the types that follow from values for programs that avoid what the code gets wrong, each with a counterexample: character literals (byte instead of rune), constants of different kinds in one operation, a named untyped constant before a typed operand, several variables set by one call, a value resolved in the function or file of its first use where a local name or an import has another meaning, types of a package in its external test package, internal packages. Left out of the model: fields and methods of values, indices, generic types, dot imports; a function type is identified by the place where it is written.
* Theorems: `Instrument.VarType.C73_imports`, `Instrument.VarType.C73_declared`, `Instrument.VarType.C73_type_partial`, `Instrument.VarType.C73_char_wrong`, `Instrument.VarType.C73_float_wrong`, `Instrument.VarType.C73_const_wrong`, `Instrument.VarType.C73_pair_wrong`, `Instrument.VarType.C73_files_wrong`, `Instrument.VarType.C73_local_wrong`, `Instrument.VarType.C73_xtest_wrong`, `Instrument.VarType.C73_internal_import`

### C74 The module of a directory

* Modelled: filepath.Clean/Dir/Abs on lists of parts, the loops of findGoMod and FindGoModDirSubPath over a file system given by the state of each go.mod, parseModPath by lines, ResolveModulePkgPath, getProjectRoot, the directory scanTests walks.
* Proof: induction over the path upwards; cleaning a path and joining it to the working directory commute, so that Dir takes off one part of the absolute path whenever the last part is a proper name; the text of the statement line is cut at the first // by induction.
* Status: partial. Proved: the nearest go.mod is found, with the path below it, from every directory, relative or absolute, unless a go.mod cannot be examined or / itself is the module; the module path of every go.mod whose statement is written as the go command writes it; the import path; the project root for every path with enough proper names at its end, so for every clean absolute path. False in general, with theorems: a module in / is never found by ResolveMainModule; `module` followed by a tab, a quoted path and a block are misread; run in a subdirectory without --project-dir (or with a trailing slash) the project root is not the root of the module; the test explorer walks root/ with the path of the directory backwards, which is the directory only when the path reads the same both ways..
* Theorems: `Cmd.GoMod.C74_nearest_partial`, `Cmd.GoMod.C74_root_module`, `Cmd.GoMod.C74_module_partial`, `Cmd.GoMod.C74_module_tab`, `Cmd.GoMod.C74_module_quoted`, `Cmd.GoMod.C74_module_block`, `Cmd.GoMod.C74_package_partial`, `Cmd.GoMod.C74_project_root_partial`, `Cmd.GoMod.C74_project_root_none`, `Cmd.GoMod.C74_project_root_absolute`, `Cmd.GoMod.C74_project_root_relative`, `Cmd.GoMod.C74_project_root_slash`, `Cmd.GoMod.C74_find_dir`, `Cmd.GoMod.C74_scanned_partial`

### C75 What a trace records of arguments and results

* Modelled: Go strings as runes and stray bytes, strconv.Quote, a JSON reader with the escapes of encoding/json, MarshalNoError, the limit with its cut by bytes, structValue.MarshalJSON, which arguments and results are taken; json.Marshal of a user value is an arbitrary outcome (text, error, panic); numbers are read more widely than JSON; the flag for loose marshalling is not modelled.
* Proof: the reader is monotone in its fuel and reads a text within a context as alone; what %q writes is read back character by character or refused; induction over the fields.
* Status: partial. Proved: the record is always JSON; it has every value under its name in order, whatever errors, panics and long values there are, if the texts that are quoted with %q are ones that Go and JSON quote alike. False otherwise: one error text with a control character, stray byte or unprintable character beyond the basic plane, or one long value cut within a character, and all values of the call are replaced by one error (C75_lost, for all such records). The method Error of a returned error is called without recover: a traced call that returns a nil pointer as error panics (C75_error_text). Two fields of one name (the reported names are distinct by C40) are not excluded..
* Theorems: `Runtime.TraceJson.C75_json`, `Runtime.TraceJson.C75_values_partial`, `Runtime.TraceJson.C75_lost`, `Runtime.TraceJson.C75_which`, `Runtime.TraceJson.C75_error_text`, `Runtime.TraceJson.C75_limit_bytes`

### C76 A trace includes the goroutines it starts, whatever the schedule

* Modelled: per-goroutine stacks with their methods as atomic steps of one history; the goroutine creation and exit hooks; the export as a walk observing the world at moments given by an arbitrary schedule.
* Proof: invariant between the entry heap and a zipper of acts, equivalence of the zipper with a bracket grammar, induction over the nesting of goroutines; uniqueness from the tree of go statements being acyclic with unique parents.
* Status: partial. Proved for every history and schedule: a finished export is a picture of the acts of every goroutine reached through go statements executed during traced calls, each snapshot at a moment during the export; completeness, uniqueness, one clock, no entry ending before it begins; the export ends if goroutines stop being started. False as stated for two reasons, each with a machine-checked counterexample: a goroutine started by a traced goroutine outside of every traced call (go func(){ go f() }()) is dropped (AppendGoChild returns when Top is nil), and while goroutines start goroutines as fast as the export visits them the export does not end. Assumed: calls return in LIFO order per goroutine, goroutine ids are fresh, and (for the times theorem) a monotone clock. The contents of entries (arguments, results) are C75's..
* Theorems: `Runtime.TraceGo.C76_export_is_a_picture_partial`, `Runtime.TraceGo.C76_every_call_is_shown_partial`, `Runtime.TraceGo.C76_only_calls_of_the_trace_partial`, `Runtime.TraceGo.C76_each_call_once_partial`, `Runtime.TraceGo.C76_export_ends_partial`, `Runtime.TraceGo.C76_times_partial`, `Runtime.TraceGo.C76_race_safe_partial`, `Runtime.TraceGo.C76_counterexample_dropped`, `Runtime.TraceGo.C76_counterexample_never_ends`

### C77 The trace viewer shows every call of the file, once and in its place

* Modelled: ReadStacks over text (a JSON scanner with sticky errors), the two passes of RenderStacks with the pointer-to-id map, renderItem, json.Marshal with HTML escapes, html.EscapeString, formatCost, the older format and the HTTP handler; the page as lines.
* Proof: structural induction over first-child/next-sibling forests for numbering, outline reader as left inverse of the item lines, mutual induction for the JSON round trip, locality of the scanner for cut objects.
* Status: partial. Proved for all forests without null entries whose entries are distinct objects (as decoding yields): the page as a browser reads it is the numbered tree, clicks show the right data, data lines are JSON of the entry and inert, names survive HTML quoting, costs are exact. False as stated: a file cut within its second or a later stack is never answered - the decoder's syntax error is sticky and the loop only ends at io.EOF, adding an error stack each round (C77_cut_partial, for every such file); a null among the calls stops the page before its list, and its error is dropped (C77_null_partial); the file name goes unescaped into the title (C77_title_raw_partial). An entry given twice by a program that calls RenderStacks is shown with one of its numbers (example). Costs are computed exactly in the model, the code divides in float64; encoding/json's decoding into structs is a parameter..
* Theorems: `Cmd.TraceView.C77_page`, `Cmd.TraceView.C77_cost`, `Cmd.TraceView.C77_data`, `Cmd.TraceView.C77_name`, `Cmd.TraceView.C77_read`, `Cmd.TraceView.C77_first`, `Cmd.TraceView.C77_serve`, `Cmd.TraceView.C77_old`, `Cmd.TraceView.C77_old_null`, `Cmd.TraceView.C77_cut_partial`, `Cmd.TraceView.C77_null_partial`, `Cmd.TraceView.C77_title_raw_partial`

### C78 The hooks in the Go runtime lose nothing and start clean

* Modelled: the package variables of xgo_trap.go, the patched newproc, goexit1 and main as steps of a history, __xgo_g per g struct with reuse.
* Proof: induction over histories; simulation invariant between g structs and one state per goroutine.
* Status: partial. Registration, traps, callbacks and the start of goroutines made by go are proved for all histories. False as stated: OnInitFinished after the end of initialisation, or from such a callback, drops its function silently (C78_init_late_lost); goroutines that neither start in newproc nor end in goexit1, which the patch does not hook (the coroutines of iter.Pull in Go 1.23 and later), find the state that the previous such goroutine left in the structure (C78_state_left_behind); C78_state_partial is the refinement to one state per goroutine for all histories in which such goroutines get structures left through goexit1. That newcoro and coroexit are such paths is knowledge of Go's runtime, whose source is not in /repo; memory ordering and the race detector's annotations are not modelled..
* Theorems: `Runtime.Hooks.C78_registered`, `Runtime.Hooks.C78_init_pending`, `Runtime.Hooks.C78_init_partial`, `Runtime.Hooks.C78_init_late_lost`, `Runtime.Hooks.C78_trap`, `Runtime.Hooks.C78_trap_twice`, `Runtime.Hooks.C78_callbacks`, `Runtime.Hooks.C78_go_starts_empty`, `Runtime.Hooks.C78_state_partial`, `Runtime.Hooks.C78_state_left_behind`

### C79 The shadow go runs what go would run

* Modelled: the shadow's main, the search of PATH with its exclusion, exec.LookPath with ErrDot, the chain of processes, getNakedGo.
* Proof: PATH split at the first real go; cleaned paths from the model of C74; induction over the chain for the loop.
* Status: partial. Proved for all PATHs of absolute, normally written directories on which the shadow is reachable under one name only. False as stated: if the shadow's directory is written otherwise (a trailing slash), every go command fails (C79_other_spelling); if PATH reaches the shadow under two names, the two start each other without end (C79_alias_loops, for every such PATH); standard input is never passed on (C79_no_stdin). The command `xgo shadow` that installed it is refused at this commit (cmd/xgo/main.go:100-103); what it installed, and `getNakedGo` in xgo, are the code modelled. Windows' variant, signals and commands other than the three are not distinguished further..
* Theorems: `Cmd.Shadow.C79_instruments_partial`, `Cmd.Shadow.C79_passes_partial`, `Cmd.Shadow.C79_exit`, `Cmd.Shadow.C79_other_spelling`, `Cmd.Shadow.C79_alias_loops`, `Cmd.Shadow.C79_no_stdin`

### C80 The instrumented go and xgo call each other once

* Modelled: xgoPrecheck in the instrumented go, the environment of every command xgo starts, the chain of processes, exit codes.
* Proof: the last entry of a name in an environment; case analysis of at most three processes and induction over the chain.
* Status: partial. Proved for all environments, arguments and options that instrument. False as stated: inside whatever xgo runs (a test that calls `xgo exec go test`) GO_BYPASS_XGO is inherited and nothing is instrumented (C80_exec_inside_lost); standard input is never passed on (C80_no_stdin); an empty PATH gets the current directory as an entry (C80_empty_path). What xgo makes of its arguments is C48's subject and a parameter here, as is whether xgo is found on PATH..
* Theorems: `Cmd.GoXgo.C80_env`, `Cmd.GoXgo.C80_goroot`, `Cmd.GoXgo.C80_once`, `Cmd.GoXgo.C80_plain`, `Cmd.GoXgo.C80_xgo`, `Cmd.GoXgo.C80_exec_partial`, `Cmd.GoXgo.C80_native`, `Cmd.GoXgo.C80_exit`, `Cmd.GoXgo.C80_exec_inside_lost`, `Cmd.GoXgo.C80_no_stdin`, `Cmd.GoXgo.C80_empty_path`

### C81 The servers of xgo find a free port and say which

* Modelled: ServePort with its shared loop variable, its watchers with their channels, GetHostAndIP, the variable behind the page's links.
* Proof: invariants over all interleavings; a counting invariant for the end of the search.
* Status: partial. The search is proved for every behaviour of other programs and every schedule; that it ends rests on there being no port above 65535. False as stated: the announcement is right only where listening on a taken port fails before the half second is over and the watcher sees it in time (C81_announced_partial, C81_announces); otherwise the address of the other program is announced (C81_announced_stale), or, as the closure sees the loop's variable, that of a port not yet tried (C81_announced_untried); in the first half second the page has links to port 0 (C81_page_early); for an IPv6 host the probe asks at another address than is listened on (C81_v6_probe), so that only listening itself tells. An address to bind that this machine does not have is silently replaced by localhost (part of C81_host). --debug's dlv reports a taken port as an exit code, which ends the search (outcome `other`)..
* Theorems: `Support.ServePort.C81_port`, `Support.ServePort.C81_gives_up`, `Support.ServePort.C81_ends`, `Support.ServePort.C81_announced_partial`, `Support.ServePort.C81_announces`, `Support.ServePort.C81_host`, `Support.ServePort.C81_announced_stale`, `Support.ServePort.C81_announced_untried`, `Support.ServePort.C81_page_early`, `Support.ServePort.C81_v6_probe`

### C82 Each Go installation has its own instrumented copy

* Modelled: checkGoroot, PathSum with the shortened path, the detection of an instrumented GOROOT, instrument, cache and copy directories, --delete.
* Proof: names are injective in version, shortened path and digits; siblings' trees are disjoint; pigeonhole.
* Status: partial. False as stated: the name of the copy has eight hexadecimal digits of the checksum and at most eight shortened elements of the path, so that for every checksum function there are two installations of one version that share a copy (C82_shared, by the pigeonhole principle); nothing records whose copy it is. Proved otherwise: copies and caches are disjoint unless all three parts of the name agree (C82_apart_partial, C82_caches_partial). A directory with a file xgo-revision.txt is taken for a copy whoever made it (C82_mistaken): a GOROOT in it is changed in place and --delete removes all beside it. Reading: Unix, paths clean and absolute as filepath.Abs makes them. What setup does in the directories is C66..
* Theorems: `Cmd.GorootDir.C82_name`, `Cmd.GorootDir.C82_length`, `Cmd.GorootDir.C82_fresh`, `Cmd.GorootDir.C82_again`, `Cmd.GorootDir.C82_apart_partial`, `Cmd.GorootDir.C82_versions`, `Cmd.GorootDir.C82_caches_partial`, `Cmd.GorootDir.C82_delete`, `Cmd.GorootDir.C82_delete_other`, `Cmd.GorootDir.C82_goroot`, `Cmd.GorootDir.C82_shared`, `Cmd.GorootDir.C82_mistaken`

### C83 The test explorer does what test.config.json and its command line say

* Modelled: Parse and its helpers on JSON values, decoding into structures, EnvPairs, version bounds, merging with the command line, the go test command.
* Proof: key by key characterisation of reading; induction on members and map orders; counterexamples for what does not hold.
* Status: partial. The full claim is false of the code, and shown to be: whole numbers from a million on arrive in the environment in scientific notation (proved to be exactly those), the text "false" switches bypass_go_flags on, a bound that is not a version is ignored, --coverage cannot switch on what the file switches off, and with a name that contains an equals sign the map order decides. An xgo that cannot print its version is taken for a new one, because support/cmd.Output loses errors. Printing of fractions and the text of mock rules are parameters..
* Theorems: `Cmd.TestConfig.C83_accepts`, `Cmd.TestConfig.C83_unknown_keys`, `Cmd.TestConfig.C83_settings`, `Cmd.TestConfig.C83_go_setting`, `Cmd.TestConfig.C83_coverage_setting`, `Cmd.TestConfig.C83_env_partial`, `Cmd.TestConfig.C83_env_values`, `Cmd.TestConfig.C83_env_large`, `Cmd.TestConfig.C83_env_nested`, `Cmd.TestConfig.C83_env_ambiguous`, `Cmd.TestConfig.C83_go_range`, `Cmd.TestConfig.C83_merge`, `Cmd.TestConfig.C83_mock_rules`, `Cmd.TestConfig.C83_supports`, `Cmd.TestConfig.C83_coverage`, `Cmd.TestConfig.C83_file`, `Cmd.TestConfig.C83_command`, `Cmd.TestConfig.C83_env_order`, `Cmd.TestConfig.C83_text_false_is_true`, `Cmd.TestConfig.C83_bad_bound`, `Cmd.TestConfig.C83_coverage_true`

### C84 What a run prints in the test explorer gets to the page

* Modelled: the pipes of a run, the scanners with their buffer, the end of the run, as a transition system.
* Proof: invariant: text = lines given out, buffer, rest; measure for termination; counterexample runs.
* Status: partial. The full claim is false of the code, and shown to be: a line of 64 KiB or more makes the run hang for ever without an end (proved for every schedule), as does a line that is no event when enough follows it; the unterminated last line of the error output is never shown, its lines may come after the end, and a long one fails a run that succeeded; under /run and /debug the end may come before the output and the unterminated last line is never shown. C84_ends proves the claim for lines below 64 KiB. Events about statuses are C65's..
* Theorems: `Cmd.RunOutput.C84_lines`, `Cmd.RunOutput.C84_line`, `Cmd.RunOutput.C84_rests`, `Cmd.RunOutput.C84_ends`, `Cmd.RunOutput.C84_last`, `Cmd.RunOutput.C84_hang`, `Cmd.RunOutput.C84_hang_witness`, `Cmd.RunOutput.C84_rejected`, `Cmd.RunOutput.C84_open`, `Cmd.RunOutput.C84_err_after_end`, `Cmd.RunOutput.C84_err_long`, `Cmd.RunOutput.C84_end_first`, `Cmd.RunOutput.C84_session`, `Cmd.RunOutput.C84_polled`

### C85 A command that xgo shows can be pasted into a shell; programs it runs get the environment and arguments given, callers the output and the error

* Modelled: Quote, the debug text, the environment, Output and Run with and without a builder.
* Proof: lemmas on the reading of quoted and plain words; counting characters for the converse.
* Status: partial. The full claim is false of the code, and shown to be: C85_quote_iff is the exact set of arguments shown right (quotes, backquotes,.
* Theorems: `Support.CmdLine.C85_pasted_partial`, `Support.CmdLine.C85_quote_iff`, `Support.CmdLine.C85_not_quoted`, `Support.CmdLine.C85_env_newline`, `Support.CmdLine.C85_program_blank`, `Support.CmdLine.C85_env`, `Support.CmdLine.C85_run`, `Support.CmdLine.C85_output`, `Support.CmdLine.C85_output_error`, `Support.CmdLine.C85_run_ignore`, `Support.CmdLine.C85_crlf`

### C86 `xgo tool coverage merge` writes the sum of the profiles, once per block, or fails and changes nothing

* Modelled: Main, mergeCover, hasAnyPrefix, handleServe's flags, over the model of support/coverage (C31, C32).
* Proof: C31/C32 for the merge and the text; induction over command lines; distinct and total over appended lists.
* Status: partial. The claims on sums, blocks, order, failure and compact are proved in full. False of the code, and shown to be: a prefix excludes other packages that begin with the same letters; a profile appended to another has its mode line become a block `mode: 0`; an unknown command exits with 0; a flag of serve or load without value at the end is an index out of range. Of serve and load only the command line is modelled..
* Theorems: `Cmd.CovMerge.C86_merge`, `Cmd.CovMerge.C86_missing`, `Cmd.CovMerge.C86_covered`, `Cmd.CovMerge.C86_step_by_step`, `Cmd.CovMerge.C86_compact`, `Cmd.CovMerge.C86_compact_again`, `Cmd.CovMerge.C86_exclude_other`, `Cmd.CovMerge.C86_mode_line`, `Cmd.CovMerge.C86_unknown`, `Cmd.CovMerge.C86_serve`, `Cmd.CovMerge.C86_serve_panic`

### C87 As -toolexec, xgo's wrappers run the tools go asks for, and give the compiler sources with traps for exactly the packages asked for

* Modelled: Main, parseOptions, handleCompile, ToolExecMain, handleInsertTrap, replaceWithTmpFiles, InjectRuntimeTrap; debugging as one outcome; the go parser as a parameter.
* Proof: induction over command lines and files; C27 for the edit; only operations that touch a file matter, so other compilations can be filtered out of any interleaving.
* Status: partial. Full for exec_tool, for the text of the files with traps and for what is left as it is. The claim for packages is false of the code, and shown to be: a package path with three slashes or fewer is never instrumented, even if named (C87_shallow), so C87_insert_partial needs a deeper one; --func and the flags as the help spells them are refused; and the claim for compilations at the same time fails when one package's directory is another's or above it, since the whole directory of copies is removed (C87_race), so C87_parallel_partial needs directories apart. Without `--` exec_tool runs the tool's first argument..
* Theorems: `Cmd.ToolExec.C87_exec_tool`, `Cmd.ToolExec.C87_exec_compile`, `Cmd.ToolExec.C87_exec_lost`, `Cmd.ToolExec.C87_exit`, `Cmd.ToolExec.C87_insert_other`, `Cmd.ToolExec.C87_insert_partial`, `Cmd.ToolExec.C87_insert_fails`, `Cmd.ToolExec.C87_shallow`, `Cmd.ToolExec.C87_func`, `Cmd.ToolExec.C87_trapped`, `Cmd.ToolExec.C87_lines`, `Cmd.ToolExec.C87_parallel_partial`, `Cmd.ToolExec.C87_race`, `Cmd.ToolExec.C87_help`

### C88 Instrumentation leaves the user's code on its lines

* Modelled: Instrument/RegCode (the text of the registration code), Instrument/SourceLines (all edits of a file as operations of the edit buffer of C27), SourceLinesSpec.
* Proof: the result of the buffer is described by C27; the line breaks before a character are those before it in the source, less those taken out, plus those in texts inserted before it; each inserted text has no line break by cases over the templates.
* Status: partial. C88_lines_partial: whenever the edits can be applied, the user's code up to the last declaration is in the new text in order, each character exactly `2 * line breaks in types of variables declared above` lines further down, and on its own line when those types are on one line; needs that `&` and its operand are on one line. C88_types and C88_ampersand are files where the property fails..
* Theorems: `Instrument.SourceLines.C88_lines_partial`, `Instrument.SourceLines.C88_types`, `Instrument.SourceLines.C88_ampersand`

### C89 The registration code registers each intercepted function, variable and interface once, as itself

* Modelled: Instrument/RegCode and Instrument/SourceLines (texts written), RegReadSpec (a reader for declarations, literals and statements, and what init functions do).
* Proof: each text written is balanced outside of strings, so the reader splits it where it was joined (`Good`, `Reads`); literals are read field by field; quoted texts by unquote_quote; names distinct by the identifiers of C51.
* Status: proved. C89_registered: the events of the code are the hook and one registration for each declaration, with the entries of the specification; C89_trapped and C89_variable: the trap of function j and the getters of variable j are given the variable with which function j or variable j is registered; C89_init: the hook. Needs that names are Go names and methods are written T.M or (*T).M..
* Theorems: `Instrument.RegRead.C89_registered`, `Instrument.RegRead.C89_trapped`, `Instrument.RegRead.C89_variable`, `Instrument.RegRead.C89_init`

### C90 Trapped functions behave as written, also with defer, panic, recover and Goexit

* Modelled: Runtime/Defer (a language with defer, panic, recover, Goexit; the statements put into functions; what the trap does), Runtime/DeferSpec.
* Proof: what is deferred before a block does not matter to the block (code_under), so the post function runs last (frame_post); induction on the depth of calls; logs by the nesting of frames.
* Status: partial. C90_behaviour, C90_transparent, C90_replaced, C90_log: complete for hooks that do not panic; a replacement may panic if the function has no other hooks. C90_panicked_partial: the mark is right for calls that are not made while a panic is on; C90_panicked_counterexample: a cleanup function called while a panic is on is marked although it returns..
* Theorems: `Runtime.Defer.C90_behaviour`, `Runtime.Defer.C90_transparent`, `Runtime.Defer.C90_replaced`, `Runtime.Defer.C90_log`, `Runtime.Defer.C90_panicked_partial`, `Runtime.Defer.C90_panicked_counterexample`, `Runtime.Defer.C90_language`

### C91 Start of an instrumented package: order of variables and of init functions, links

* Modelled: Instrument/InitOrder (declared variables and init functions, what refers to what), Instrument/InitOrderSpec (the initialisation order of the Go specification).
* Proof: dependencies between the user's variables are the same (depends_iff); simulation of the initialisation of the source by that of the instrumented package (simulate); blocks of files for init functions.
* Status: partial. C91_no_loop, C91_inits, C91_links are complete. C91_order_partial: the order is kept under a condition on where things are declared; C91_order_counterexample: without it, it can change..
* Theorems: `Instrument.InitOrder.C91_order_partial`, `Instrument.InitOrder.C91_order_counterexample`, `Instrument.InitOrder.C91_no_loop`, `Instrument.InitOrder.C91_inits`, `Instrument.InitOrder.C91_links`, `Instrument.InitOrder.C91_links_only`

### C92 Coverage view: which lines are shown as covered and as changed, and the summary

* Modelled: Cmd/CovView (parseBlock, block ids, BlockID_ForLine, execution labels, Uncoverable, ForeachLineMapping, DiffCommitFiles for one file, file filter, ComputeCoverageSummary), Cmd/CovViewSpec (first block, comparison of two texts, counts).
* Proof: the loop over blocks keeps the minimum of a strict order (fold_first); induction over the pieces of a comparison (spans_same, spans_new); counted lines are a list without repetition.
* Status: partial. C92_git_partial and C92_changed_partial need the module at the top of the repository and files that are not renamed (counterexamples otherwise). The blocks of a file (go/ast) and the comparison of two texts (a JavaScript program) are parameters..
* Theorems: `Cmd.CovView.C92_parse`, `Cmd.CovView.C92_ids`, `Cmd.CovView.C92_first`, `Cmd.CovView.C92_stable`, `Cmd.CovView.C92_line`, `Cmd.CovView.C92_covered`, `Cmd.CovView.C92_changes`, `Cmd.CovView.C92_old_text`, `Cmd.CovView.C92_git_partial`, `Cmd.CovView.C92_changed_partial`, `Cmd.CovView.C92_summary`, `Cmd.CovView.C92_count_unique`, `Cmd.CovView.C92_absent`, `Cmd.CovView.C92_else_counterexample`, `Cmd.CovView.C92_total_counterexample`, `Cmd.CovView.C92_renamed_counterexample`, `Cmd.CovView.C92_subdir_counterexample`, `Cmd.CovView.C92_prefix_counterexample`, `Cmd.CovView.C92_convert`, `Cmd.CovView.C92_overflow`

### C93 Generated files: one for each source, positions, what is left of earlier runs

* Modelled: Instrument/GenFile (getPathMappings, getPathMapping, RebaseAbsPath, FmtLineDirective, MakeGoOverlay as acts on a disk, Go's //line).
* Proof: a mapped path is a name without slash and a rest, cut uniquely; the last number behind a colon is read back; acts of other runs commute with those of the run; C44 for the overlay.
* Status: partial. C93_reads_partial needs that other runs do not write the same files (counterexample otherwise). What Go makes of //line comments and byte order marks is modelled from its scanner..
* Theorems: `Instrument.GenFile.C93_names`, `Instrument.GenFile.C93_names_counterexample`, `Instrument.GenFile.C93_position`, `Instrument.GenFile.C93_bom_counterexample`, `Instrument.GenFile.C93_reads_partial`, `Instrument.GenFile.C93_parallel_counterexample`, `Instrument.GenFile.C93_compiled`

### C94 Fetching Go: unpacking stays in its directory, an installation is there as a whole or not at all

* Modelled: Support/GetGo (filepath.Clean/Join/Rel as lists of parts, MkdirAll, unzip, page lines, Download as a transition system of any number of runs).
* Proof: a cleaned path has `..` only at its front (canon_fold), so what passes the check is the directory and ordinary parts; invariants over entries and over steps of runs.
* Status: partial. C94_install_partial does not say for which platform the installation is (counterexample). Symbolic links and permissions are not modelled; curl, tar and the server are left open..
* Theorems: `Support.GetGo.C94_names`, `Support.GetGo.C94_inside`, `Support.GetGo.C94_unzip`, `Support.GetGo.C94_list`, `Support.GetGo.C94_spelling`, `Support.GetGo.C94_install_partial`, `Support.GetGo.C94_kept`, `Support.GetGo.C94_unlisted`, `Support.GetGo.C94_platform_counterexample`, `Support.GetGo.C94_page`

### C95 xgo test --strace leaves the trace of each test in its file

* Modelled: Runtime/TestTrace (when a trace begins, what is recorded, MkdirAll and WriteFile, inheritance by goroutines; a history is a list of events of any goroutines).
* Proof: a new stack belongs to one goroutine (Own), so the events of others do not touch it; window lemma by induction on the history; provenance of frames for `only` and `kept`.
* Status: partial. C95_file_partial needs that nothing was registered on the goroutine or its ancestors and that the parts of the name are proper (counterexamples otherwise); the file is in the working directory that the test ends in. Arguments and results in the trace are C75, the goroutines in it C76..
* Theorems: `Runtime.TestTrace.C95_file_partial`, `Runtime.TestTrace.C95_place`, `Runtime.TestTrace.C95_distinct`, `Runtime.TestTrace.C95_failed`, `Runtime.TestTrace.C95_only`, `Runtime.TestTrace.C95_kept`, `Runtime.TestTrace.C95_sub`, `Runtime.TestTrace.C95_trace`, `Runtime.TestTrace.C95_inner_lost`, `Runtime.TestTrace.C95_testmain_counterexample`, `Runtime.TestTrace.C95_packages_counterexample`, `Runtime.TestTrace.C95_chdir_counterexample`, `Runtime.TestTrace.C95_outside_counterexample`

### C96 Packages outside the main module get the traps that the run selected, whatever was built before

* Modelled: Cmd/Handoff (maps, sums, the two files with their half-written states, environment, cache keys, the compiler's lookup; a history is a list of events of any runs).
* Proof: invariant over the history: live runs have different projects, files of a run that builds hold its selection, every cache entry was made for a selection with the sum in its key.
* Status: partial. False of the code for runs at the same time in one project, nested runs, commands and //line files (counterexamples); needs sums that tell selections apart (C51). JSON is taken to round-trip; which declarations can be trapped is C47..
* Theorems: `Cmd.Handoff.C96_runs_partial`, `Cmd.Handoff.C96_told_partial`, `Cmd.Handoff.C96_compiles`, `Cmd.Handoff.C96_unreadable`, `Cmd.Handoff.C96_counterexample_overlap`, `Cmd.Handoff.C96_counterexample_half_written`, `Cmd.Handoff.C96_counterexample_nested`, `Cmd.Handoff.C96_counterexample_names`

### C97 A mock set with a function value catches exactly the calls of the function the value names

* Modelled: Runtime/PatchTarget (Inspect with its probing call, trap while inspecting and otherwise, push of the mock; programs are arbitrary call graphs).
* Proof: invariant of runs inside and outside of Inspect over the call depth and the statements; the hook pushed is computed for each kind of value.
* Status: partial. Proved for instrumented code whose machine code is not shared with another instance and receivers that can be compared; false otherwise (theorems name the faults). Go 1.20 and later; the lookup by name is C38..
* Theorems: `Runtime.PatchTarget.C97_state`, `Runtime.PatchTarget.C97_refused`, `Runtime.PatchTarget.C97_quiet`, `Runtime.PatchTarget.C97_catches_partial`, `Runtime.PatchTarget.C97_only_partial`, `Runtime.PatchTarget.C97_others`, `Runtime.PatchTarget.C97_interface_runs`, `Runtime.PatchTarget.C97_interface_expr`, `Runtime.PatchTarget.C97_uncomparable`, `Runtime.PatchTarget.C97_instances_wrong`, `Runtime.PatchTarget.C97_interface_wrong`, `Runtime.PatchTarget.C97_by_name_partial`, `Runtime.PatchTarget.C97_by_name_generic`

### C98 Mocks, traces and calls while packages are being initialised

* Modelled: Runtime/InitPhase (which stack data a goroutine sees before and after the end of initialisation, inspecting, start and end of traces).
* Proof: invariant over the history: who asks, where its handler is, whose handler each stack data holds.
* Status: partial. False of the code during initialisation (counterexamples; C98_trace_in_init for all histories). Events are atomic: data races on the shared maps are not modelled..
* Theorems: `Runtime.InitPhase.C98_calls_partial`, `Runtime.InitPhase.C98_after`, `Runtime.InitPhase.C98_trace_after_partial`, `Runtime.InitPhase.C98_trace_in_init`, `Runtime.InitPhase.C98_trace_once`, `Runtime.InitPhase.C98_counterexample_shared`, `Runtime.InitPhase.C98_counterexample_end`

### C99 Marshalling values for a trace

* Modelled: Runtime/LooseJson (MarshalNoError, the patched unsupportedTypeEncoder, structValue, MarshalJSON methods as programs, with the goroutine's flags).
* Proof: mutual structural induction over values and methods; Go without xgo is a separate semantics (std) in the specification.
* Status: partial. C99_own_partial and C99_args need the traced values to be gentle: nothing in them ends the goroutine and all errors have a message; without that the claim is false of the code (counterexamples). The text of JSON is C75's, kinds and tags of Go types are encoding/json's..
* Theorems: `Runtime.LooseJson.C99_mode`, `Runtime.LooseJson.C99_shown`, `Runtime.LooseJson.C99_args`, `Runtime.LooseJson.C99_load`, `Runtime.LooseJson.C99_own_partial`, `Runtime.LooseJson.C99_method_counterexample`, `Runtime.LooseJson.C99_goroutine_counterexample`, `Runtime.LooseJson.C99_exit_counterexample`, `Runtime.LooseJson.C99_error_counterexample`, `Runtime.LooseJson.C99_value_counterexample`

## Axioms of the claimed theorems

All are among `propext`, `Quot.sound`, `Classical.choice` (from Lean core tactics).

* none: 5 theorems — Support.LineEdit.C42_counterexample_match, Support.FileCopy.C61_counterexample, Support.FileCopy.C61_counterexample_never_tried, Support.Session.C63_two_polls, Cmd.Shadow.C79_exit
* propext: 65 theorems
* propext Classical.choice Quot.sound: 578 theorems
* propext Quot.sound: 128 theorems

The full list, one theorem per line, is `tools/axioms.txt`.
