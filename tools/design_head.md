# Formal model of xhd2015/xgo in Lean 4 — design

This file is generated by `tools/mkdesign.py` from `tools/design_head.md`, `tools/design_props.txt`, `tools/claims.txt`
and the axiom list printed by Lean; edit those.

## Approach

* The Go functions are modelled one by one as small, total, computable Lean functions over `Nat`, `Int`, `List`,
  `Option`, `Char`. Each definition cites the file and lines it models and says where it simplifies.
* A Go panic is a `none`/`Except` result or an explicit event; an error return is `none` (messages are modelled only
  where a property speaks about them). Mutable state is an explicit record and a step function; a history is a list of
  operations or an inductive reachability relation; pointers are indices into a heap where aliasing matters
  (registries, stacks, slices, coverage lines), otherwise values.
* Loops with data-dependent termination are fuel-free wherever Lean accepts a termination measure (overlay chains,
  version parsing, marker search); the interpreter of programs has fuel, and a relational presentation proved equivalent
  to it (`ExecRel`, `ExecComplete`), so that no theorem depends on a fuel bound.
* Specifications are in `*Spec.lean` files (or a section `Specification` of a small module). They do not mention the
  helpers of the model; data types that *are* the API (operations, syntax trees, rules) are shared.
* Property theorems are named `Cnn_…`. Each has an `example` beside it that meets its hypotheses with a concrete,
  non-trivial value. A property that is false of the code keeps its full statement in `properties.jsonl`; it has a theorem
  `Cnn_counterexample…` with a concrete witness, and the strongest true part found is `Cnn_…_partial`.
* `seeded/LOG.jsonl` records the mutation tests: edits of the model such as a realistic bug would make, and which
  theorems refused to build. `tools/mutate.py` runs them; `seeded/mutants/*.json` are the edits.

## Trusted base

* Lean's kernel (4.33.0) and the axioms below; no axiom of ours, no `native_decide`/`bv_decide`, no compiled code.
* The reading of the Go source: the code was not run. Where a property rests on Go itself (slices share arrays, loop
  variables are shared under `go 1.14` of runtime/go.mod, map iteration order is arbitrary, `reflect.MakeFunc` passes
  arguments through), that behaviour is stated in the model and trusted.
* The English statements in `properties.jsonl` and their reading as the theorems listed here.

Assumptions about external code appear as parameters or hypotheses and hold for *every* value of them unless said
otherwise: the Go parser (C24, C57; gives declarations with offsets or fails; well-formed trees only where stated),
`encoding/json` (C35: decodes what it encoded), the type resolver's answers (C39, C59), symlink resolution (C33, C44:
idempotent where stated), the file system (reads and writes succeed), `sort.Stable` (stable), `sort.Slice` in the line
editor (any sorted order).

## What is modelled

| module(s) under lean/Verif | code in /repo |
|---|---|
| Runtime/Registry, TraceStart | runtime/internal/trap/{mock,record,interceptor,stack_data,init}.go, stack/g.go, trap.go:72-133, 260-308, 421-447: all seven registries, cancel functions, goroutine creation, end of init, attach/detach of stacks |
| Runtime/Slice | the same registries as slices with backing arrays, during the handler loops of trap.go:139-175 |
| Runtime/Exec*, | trap.go:33-457 and the code injected into functions (func_template.go), as an interpreter of programs with nested calls, panics, recover |
| Runtime/CallValue, Build | build.go, object.go, the checks of record.go and mock.go: argument and result plumbing, type checks, errors |
| Runtime/VarTrap | trap/var.go, instrument_var/var_template.go |
| Runtime/Stack* | internal/stack/stack.go, export.go |
| Runtime/Functab | runtime/functab, core/func.go, xgo_trap_template.go:183-208, inspect.go, mock.go:329-362 |
| Runtime/Tls | runtime/tls, xgo_trap_template.go:237-279, internal/runtime/g.go |
| Text/EditBuffer, Text/Cut | support/edit/edit.go; strings.Index |
| Support/Pattern | support/pattern, patch/legacy/match/pattern.go |
| Support/Semver, GoVersion, Decimal | support/goinfo/{semver,version,goinfo}.go |
| Support/Coverage | support/coverage |
| Support/LineEdit | support/transform/edit/line, patch/format, patch/unpatch, transform/patch/patch.go:253-308 |
| Instrument/Overlay | instrument/overlay, cmd/xgo/main.go:690-845 |
| Instrument/Rules | patch/legacy/{match,ctxt,info}, cmd/xgo/rule.go, instrument.go:432-532, support/goinfo/pkg.go |
| Instrument/FuncTrap | instrument_func/trap.go, ast/recv.go, config, constants, compiler_extra, instrument_reg, cmd/xgo/instrument.go:168-377, patch/syntax, patch/info |
| Instrument/PatchText, PatchParse, PatchApply | instrument/patch: marked edits, cleaning, parser of .xgo.patch, engine |
| Instrument/Resolve* | instrument/resolve: statement and expression traversal, scopes, collect_var_ref.go; instrument_var/trap_var.go:124-143 |
| Instrument/UnifiedTest | instrument_go/instrument_unifiedtest, its patches of cmd/go/internal/test, test2json and testing |
| Support/FileCopy* | support/filecopy/copy.go (not LinkFiles) |
| Support/Session* | support/session/session.go: events and sessions under every schedule; the clock is left open: a poll may time out at any time |
| Cmd/TestExplorer* | cmd/xgo/test-explorer/{main,parse,run}.go: tree of tests, the `go test` command. Trusted: the meaning of `-run` (package testing, match.go) and of the regexp syntax used, modelled from knowledge of Go |
| Cmd/TestStatus* | cmd/xgo/test-explorer/{run_session,run_event,run}.go: from the output of `go test -json` to the events for the page |
| Cmd/Setup* | cmd/xgo/main.go:350-600, cmd/xgo/patch.go:41-263: the setup of the instrumented GOROOT with its record and revision files |
| Instrument/Target* | instrument/resolve/{resolve,scope,stmt,expr,block,decl,record,traverse}.go, instrument/resolve/types/type.go: which functions, methods and variables are recorded as targets |
| Instrument/Load* | instrument/load/load.go: parallel loading of package files |
| Cmd/BlankImport* | cmd/xgo/trace.go: the blank import of runtime/trace |
| Cmd/Vendor* | support/goinfo/vendor_parse.go, cmd/xgo/trace.go: vendored dependencies |
| Cmd/RuntimeCopy* | cmd/xgo/trace.go: extraction of the runtime; instrument/instrument_xgo_runtime: link.go, parse.go, bypass_version_check.go |
| Instrument/CoverNotes* | instrument/instrument_go/go_tool_cover.go, xgo_cover_template.go; cmd/xgo/instrument.go: applyInstrumentWithEditNotes |
| Instrument/VarType* | instrument/resolve/resolve.go, collect_var_ref.go: tryResolveDeclType; instrument/instrument_var/trap_var.go: rewriteVarDefAndRefs, useTypeInFile, importRecorder |
| Cmd/GoMod* | support/goinfo mod.go, find.go; the project root (main.go, trace.go) and the scanned directory of the test explorer | C74 |
| Runtime/TraceJson* | runtime/internal/trap/object.go, runtime/internal/runtime/marshal.go, the recording in trap.go | C75 |
| Runtime/TraceGo* | runtime/internal/stack/{stack,export,g}.go, runtime/internal/trap/init.go: traces over several goroutines |
| Cmd/TraceView* | cmd/xgo/trace/{main,convert}.go, cmd/xgo/trace/render/*: the trace viewer | C77 |
| Runtime/Hooks* | hooks in the Go runtime: traps, registration, init, goroutine callbacks, state per g | C78 |
| Cmd/Shadow* | the shadow go command | C79 |
| Cmd/GoXgo* | the instrumented go and xgo calling each other; environments | C80 |
| Support/ServePort* | support/netutil/netutil.go: the servers' ports | C81 |
| Cmd/GorootDir* | cmd/xgo/main.go, pathsum: GOROOT, its copy and cache | C82 |
| Cmd/TestConfig* | support/testconfig/config.go, cmd/xgo/test-explorer/config.go, main.go handle, run_session.go runTest | C83 |
| Cmd/RunOutput* | cmd/xgo/test-explorer/run_session.go Start, consumeTestEvent; poll.go startRun | C84 |
| Support/CmdLine* | support/cmd | C85 |
| Cmd/CovMerge* | cmd/xgo/coverage/{main,serve}.go | C86 |
| Cmd/ToolExec* | cmd/xgo/exec_tool, cmd/go-tool-exec | C87 |
| Instrument/RegCode, Instrument/SourceLines* | texts of the registration code; all edits of a source file and the lines of the user's code | C88 |
| Instrument/RegRead* | the registration code read back and run at the start of the program | C89 |
| Runtime/Defer* | functions with defer, panic, recover, Goexit and the trap | C90 |
| Instrument/InitOrder* | package initialisation with what instrumentation adds | C91 |
| Cmd/CovView* | coverage view: covered and changed lines, summary | C92 |
| Instrument/GenFile* | names, first line and writing of generated files | C93 |
| Support/GetGo* | downloading and unpacking Go | C94 |
| Runtime/TestTrace* | traces of tests and of trace.Trace | C95 |
| Cmd/Handoff* | selection for the compiler, build cache | C96 |
| Runtime/PatchTarget* | what a function value leads to | C97 |
| Runtime/InitPhase* | calls, mocks and traces during initialisation | C98 |
| Runtime/LooseJson* | marshalling values for a trace | C99 |
| Runtime/Mutex* | concurrent recording and export of stacks | C100 |
| Support/HttpJson* | answers of the HTTP endpoints | C101 |
| Instrument/GoHooks* | the edits of Go's sources | C102 |
| Cmd/Tool* | `xgo tool` | C103 |
| Instrument/GoCmd* | edits of the go command, the cover tool and the compiler | C104 |
| Instrument/GoComp* | edits of the compiler's noder and list of runtime functions | C105 |
| Instrument/GoDebug* | edits of the go command for the debugger, after those of C104 | C106 |
| Cmd/Upgrade* | xgo upgrade | C107 |
| Cmd/CovProfile* | the coverage profile of a project in the test explorer | C108 |
| Cmd/ExplorerDebug* | debugging an item of the test explorer | C109 |
| Cmd/CaseTrace* | the trace that the test explorer shows for a case | C110 |
| Cmd/Options | support/flag, cmd/xgo/{option,main}.go: command line |
| Cmd/GitIgnore | cmd/xgo/instrument.go:603-658 |
@@MODULES@@

## What is not modelled

* What the go command, the compiler and the linker themselves do; the network; the debugger integration. Processes,
  environment, disk and crash points appear where a property is about them (C61, C66, C71, C79-C82, C84, C93-C95 among
  others), always as far as the comments of those modules say.
* The machine-level part of the patched Go runtime and compiler (assembly stubs, `runtime.Callers`, IR rewriting in
  patch/; only the decisions listed above are modelled), memory models and true parallelism: each API operation is one
  atomic step, which is what the mutex or goroutine-locality in the code gives.
* The type checker of Go, go/parser, go/format, reflect: their answers are parameters.
* The JavaScript of the web user interfaces (what the servers send is modelled in C64, C65, C77, C84, C92), scripts, the
  test infrastructure (support/gitgoroot and others), and the legacy runtime packages (runtime/trap/legacy,
  runtime/trace/legacy).
* Values: arguments and results are opaque in the runtime model; `reflect` type errors beyond the modelled checks do not
  arise in it.

## Disagreements between code and property

Every `partial` entry below whose remark begins with "false of the code" is such a disagreement; the counterexample
theorem is its witness. The model follows the code, not the documentation.

