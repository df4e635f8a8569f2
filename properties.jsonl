{"id": "C01", "title": "The most recent uncancelled mock is the one in effect", "statement": "After package initialisation, when a goroutine calls an instrumented function F, the mock consulted is the one most recently installed on that goroutine for F (mock.Patch/mock.Mock) and not yet cancelled; if there is none, the one most recently installed during init and not cancelled during init; if there is none, no mock.", "quantifier": "every finite history of install / cancel / goroutine-create / end-of-init / detach events over any functions and goroutines", "why_tests_cant": "the set of install/cancel interleavings is unbounded; a test fixes one", "anchors": ["runtime/internal/trap/mock.go:pushMockHandler", "runtime/internal/trap/stack_data.go:getLastMock"]}
{"id": "C02", "title": "Cancelling removes exactly the cancelled registration", "statement": "Calling the cancel function returned by Patch/Mock/Record/AddInterceptor removes that registration and no other one, whatever the order in which registrations were made and cancelled; the remaining ones keep their relative order.", "quantifier": "every history and every position of the cancelled registration in the list", "why_tests_cant": "needs all interleavings and list positions", "anchors": ["runtime/internal/trap/mock.go:pushMockHandler", "runtime/internal/trap/record.go:PushRecordHandler", "runtime/internal/trap/interceptor.go:pushInterceptor"]}
{"id": "C03", "title": "Cancelling twice always panics and changes nothing", "statement": "The second call of the same cancel function panics, and leaves every registration of every goroutine as it was.", "quantifier": "every history between the two calls", "why_tests_cant": "needs every history between the two calls", "anchors": ["runtime/internal/trap/mock.go:181-199"]}
{"id": "C04", "title": "Goroutine isolation of mocks and recorders", "statement": "Installing or cancelling a mock, recorder or interceptor on one goroutine after init never changes which mocks, recorders or interceptors another, already running goroutine uses.", "quantifier": "every reachable state, every pair of goroutines, every operation", "why_tests_cant": "schedules of many goroutines cannot be enumerated", "anchors": ["runtime/internal/trap/stack_data.go:getOrAttachStackData", "runtime/internal/stack/g.go:GetOrAttachStack"]}
{"id": "C05", "title": "A new goroutine inherits a snapshot", "statement": "A goroutine started after init sees, at its start, exactly the function mocks and variable mocks its creator had at that moment (same order, same bound instance), and later installs or cancels by either goroutine are invisible to the other.", "quantifier": "every reachable state and every later history", "why_tests_cant": "all later histories of both goroutines", "anchors": ["runtime/internal/trap/init.go:inerhitStack"]}
{"id": "C06", "title": "Init-time registrations become permanent", "statement": "Once init has finished, the registrations made during init never change any more: cancelling one panics and changes nothing, and no other operation adds or removes one.", "quantifier": "every history after init", "why_tests_cant": "every history after init", "anchors": ["runtime/internal/trap/mock.go:182-184", "runtime/internal/trap/record.go", "runtime/internal/trap/interceptor.go:52-54"]}
{"id": "C07", "title": "An instance-bound mock or recorder never fires for another instance", "statement": "mock.Patch(obj.Method, ...) / mock.Mock(obj.Method, ...): a call of the method on a receiver with a different value never runs that mock, and a recorder bound to an instance never runs for another one on the goroutine that registered it.", "quantifier": "every list of mocks/recorders, every receiver", "why_tests_cant": "receivers and registrations are unbounded", "anchors": ["runtime/internal/trap/trap.go:151-160", "runtime/internal/trap/mock.go:sameReceiver"]}
{"id": "C08", "title": "Mocks bound to different instances coexist", "statement": "If a method is mocked on instance A and later on instance B of the same type, calls on A still run A's mock.", "quantifier": "every pair of instance-bound mocks of one method", "why_tests_cant": "the failure depends on order of registration of unrelated objects", "anchors": ["runtime/internal/trap/stack_data.go:getLastMock", "runtime/internal/trap/trap.go:151"]}
{"id": "C09", "title": "A new goroutine inherits instance-bound recorders as instance-bound", "statement": "A recorder registered for obj.Method, inherited by a new goroutine, still fires only for obj there.", "quantifier": "every recorder and receiver", "why_tests_cant": "depends on the goroutine structure of the program", "anchors": ["runtime/internal/trap/init.go:cloneFuncRecordMapping"]}
{"id": "C10", "title": "A call runs exactly one implementation", "statement": "For every call of an instrumented function, exactly one of these happens: a pre handler aborts the call with ErrMocked and neither the mock nor the original body runs; or the applicable mock runs once and the original does not; or the original body runs once.", "quantifier": "every registry contents, handler behaviour and nesting depth", "why_tests_cant": "combination of handlers, receivers and depth is unbounded", "anchors": ["runtime/internal/trap/trap.go:trap", "runtime/internal/runtime/xgo_trap_template.go"]}
{"id": "C11", "title": "Interceptors nest like an onion", "statement": "When several recorders/interceptors apply to a call, pre hooks run in registration order (goroutine-local before init-time, function-specific before general) and the post hooks of those whose pre hook ran run in exactly the reverse order, each receiving the data returned by its own pre hook.", "quantifier": "every list of handlers", "why_tests_cant": "number of handlers is unbounded", "anchors": ["runtime/internal/trap/trap.go:155-209"]}
{"id": "C12", "title": "Interceptors never re-enter themselves", "statement": "While any mock, recorder or interceptor body is running on a goroutine, calls made by it never trigger a general interceptor nor a trace entry on that goroutine; hence an interceptor that calls instrumented functions cannot loop through itself.", "quantifier": "every program of nested calls and every handler body", "why_tests_cant": "all program shapes and handler bodies", "anchors": ["runtime/internal/trap/trap.go:62-63,141-150,227-237", "runtime/internal/runtime/g.go"]}
{"id": "C13", "title": "The trapping depth is balanced", "statement": "After any call of an instrumented function has returned (normally), the goroutine's trapping depth is what it was before, so interceptors stay enabled.", "quantifier": "every program", "why_tests_cant": "all program shapes", "anchors": ["runtime/internal/trap/trap.go:62-63,217-224,333-335", "runtime/internal/runtime/g.go"]}
{"id": "C14", "title": "The trace is the call tree", "statement": "The tree of entries recorded by trace.Trace around a program is exactly the tree of instrumented calls made by the program on that goroutine, in call order, with the calls rejected by FilterTrace spliced out, and every entry is marked finished once its call has returned.", "quantifier": "every finite call tree and every filter", "why_tests_cant": "all call trees", "anchors": ["runtime/internal/trap/trap.go:310-457", "runtime/internal/stack/stack.go"]}
{"id": "C15", "title": "Trace entry ids are unique and parent ids point to the enclosing entry", "statement": "Within one recorded stack the ids of the entries of calls are distinct, the parent id of each contained call entry is the id of the entry that contains it, and every entry is contained exactly once.", "quantifier": "every finite call tree", "why_tests_cant": "all call trees", "anchors": ["runtime/internal/stack/stack.go:PushNew"]}
{"id": "C16", "title": "Trace entry times nest", "statement": "If the clock never goes backwards, each finished entry ends no earlier than it begins, and children lie inside the interval of their parent.", "quantifier": "every call tree and every monotone clock", "why_tests_cant": "all call trees and clock readings", "anchors": ["runtime/internal/stack/stack.go", "runtime/internal/trap/trap.go:406"]}
{"id": "C17", "title": "Tracing does not disturb mocks", "statement": "Mocks, recorders and interceptors installed on a goroutine before trace.Trace is called are still in effect after Trace returns.", "quantifier": "every state before Trace", "why_tests_cant": "every prior state", "anchors": ["runtime/internal/trap/trap.go:446"]}
{"id": "C18", "title": "Trace with an empty config records nothing and leaves no residue", "statement": "Calling trace.Trace with neither OutputFile nor OnFinish leaves the goroutine as if Trace were not instrumented: a later Trace with a config records normally.", "quantifier": "every state before", "why_tests_cant": "every prior state", "anchors": ["runtime/internal/trap/trap.go:299-305"]}
{"id": "C19", "title": "Variable mocks", "statement": "Reading an instrumented variable yields the value of the most recently installed uncancelled value-mock (goroutine, then init-time), otherwise the variable's own value; taking its address is affected by pointer-mocks only; the underlying variable is never overwritten by a value-mock.", "quantifier": "every registry and every variable state", "why_tests_cant": "all histories", "anchors": ["runtime/internal/trap/var.go"]}
{"id": "C20", "title": "trace.Record on a variable accepts a pre and a post hook", "statement": "trace.Record(&v, pre, post) with pre and post of the same, acceptable function type registers both hooks.", "quantifier": "every variable type and acceptable hook type", "why_tests_cant": "type space is unbounded", "anchors": ["runtime/internal/trap/record.go:pushRecorder"]}
{"id": "C21", "title": "A replacer receives the call's arguments and its results reach the caller", "statement": "With mock.Patch(F, R): a call F(a1..an) invokes R with exactly a1..an (receiver first for a method expression, without receiver for a bound method), and each result of R becomes the corresponding result of the call.", "quantifier": "every arity, argument tuple and receiver", "why_tests_cant": "arity and values are unbounded", "anchors": ["runtime/internal/trap/build.go:buildMockHandler"]}
{"id": "C22", "title": "By-name method patching accepts every replacer of the right type", "statement": "mock.PatchMethodByName(instance, name, R) accepts R iff the parameter types of R equal those of the method without receiver and the result types are equal.", "quantifier": "every function type", "why_tests_cant": "type space is unbounded", "anchors": ["runtime/internal/trap/object.go:checkFuncTypeMatch", "runtime/internal/trap/mock.go:pushMockReplacerMethodByName"]}
{"id": "C23", "title": "Interceptor error propagation", "statement": "An error returned by a mock interceptor of a function whose last result is error becomes that result; for other functions it panics; ErrMocked from a pre interceptor aborts the call and is never visible to the caller.", "quantifier": "every interceptor behaviour and signature", "why_tests_cant": "all signatures", "anchors": ["runtime/internal/trap/build.go:buildMockFromInterceptor", "runtime/internal/trap/build.go:buildRecorderFromInterceptor"]}
{"id": "C24", "title": "Applying a patch twice equals applying it once", "statement": "ApplyXgoPatchContent(ApplyXgoPatchContent(s, patch), patch) = ApplyXgoPatchContent(s, patch) whenever the first application succeeds.", "quantifier": "every source text and every patch", "why_tests_cant": "texts and patches are unbounded", "anchors": ["instrument/patch/apply.go:ApplyXgoPatchContent", "PATCH_DSL.md"]}
{"id": "C25", "title": "Cleaning a patched file restores the original", "statement": "Removing the marked regions inserted by a patch gives back the source text as it was before patching.", "quantifier": "every source text and every marked edit", "why_tests_cant": "texts unbounded", "anchors": ["instrument/patch/clean_patch.go:CleanPatch", "instrument/patch/apply.go:clearPatch"]}
{"id": "C26", "title": "Marked edits only touch their anchor", "statement": "UpdateContent leaves the text before and after the anchor unchanged, inserts the content exactly once between its begin and end marker, and a second UpdateContent with the same label replaces rather than duplicates it.", "quantifier": "every text, anchor sequence and content", "why_tests_cant": "texts unbounded", "anchors": ["instrument/patch/patch.go:UpdateContent"]}
{"id": "C27", "title": "Edit buffer semantics", "statement": "Buffer.Bytes applies every non-overlapping Insert/Delete/Replace at its position in the original text, independent of the order of calls for edits at distinct positions; insertions at one position keep call order; text outside edited ranges is unchanged; overlapping edits are rejected.", "quantifier": "every text and every list of edits", "why_tests_cant": "edit lists unbounded", "anchors": ["support/edit/edit.go"]}
{"id": "C28", "title": "Glob patterns", "statement": "A --mock-rule / filter glob pattern matches a slash separated path iff there is an assignment of its ** segments to segment runs and of its * to character runs that spells the path.", "quantifier": "every pattern and path", "why_tests_cant": "patterns and paths unbounded", "anchors": ["support/pattern/pattern.go", "patch/legacy/match/pattern.go"]}
{"id": "C29", "title": "Semver comparison is a total preorder", "statement": "CompareSemVer is reflexive, antisymmetric in sign, and transitive over all strings; on semantic versions it is the semver.org precedence (numbers numerically, pre-releases before the release, build metadata ignored, vM and vM.m short for vM.m.0); IsValidSemVer accepts exactly those texts.", "quantifier": "every pair and triple of strings", "why_tests_cant": "all strings", "anchors": ["support/goinfo/semver.go"]}
{"id": "C30", "title": "Go version comparison", "statement": "CompareVersion is a total preorder on all strings; on Go versions it is the toolchain order, number by number (1.21 < 1.21rc1 < 1.21.0 < 1.21.1, invalid strings first); ParseGoVersion reads the numbers, OS and architecture of every `go version go1.x.y os/arch` output and undoes GoVersion.String.", "quantifier": "every string, every version", "why_tests_cant": "all versions", "anchors": ["support/goinfo/version.go:CompareVersion", "support/goinfo/goinfo.go:ParseGoVersion"]}
{"id": "C31", "title": "Coverage merging adds counts", "statement": "Merging coverage profiles yields each distinct block exactly once with the sum of its counts over all profiles, independent of profile order (as a set).", "quantifier": "every list of profiles", "why_tests_cant": "profiles unbounded", "anchors": ["support/coverage/merge.go:Merge", "support/coverage/parse.go:Compact"]}
{"id": "C32", "title": "Coverage parse/format round trip", "statement": "Formatting parsed coverage lines and parsing them again yields the same lines.", "quantifier": "every coverage profile", "why_tests_cant": "profiles unbounded", "anchors": ["support/coverage"]}
{"id": "C33", "title": "Overlay composition resolves every file to its final content", "statement": "Composing Go overlays maps each source to the end of its replacement chain, rejects cycles, and never loops.", "quantifier": "every overlay map", "why_tests_cant": "maps unbounded", "anchors": ["instrument/overlay"]}
{"id": "C34", "title": "Mock rule selection", "statement": "The action for a package/function is that of the first rule in the list all of whose non-empty conditions hold; a rule without conditions never matches unless marked any.", "quantifier": "every rule list and function", "why_tests_cant": "rule lists unbounded", "anchors": ["patch/legacy/match/match.go"]}
{"id": "C35", "title": "Command-line rules take precedence over rules files", "statement": "Rules given with --mock-rule come before those of the options file, each group keeping its order.", "quantifier": "every option set", "why_tests_cant": "option sets unbounded", "anchors": ["cmd/xgo/rule.go:mergeOptionFiles"]}
{"id": "C36", "title": "Flag values", "statement": "Parsing `--flag value` and `--flag=value` yields the same value, consumes exactly the arguments it reports, and never misattributes a longer flag with the same prefix.", "quantifier": "every argument vector", "why_tests_cant": "argument vectors unbounded", "anchors": ["support/flag/flag.go"]}
{"id": "C37", "title": "Function full-name parsing", "statement": "core.ParseFuncName splits pkg path, receiver type, pointer flag and function name such that re-assembling them gives back the full name.", "quantifier": "every package path, type and function name", "why_tests_cant": "names unbounded", "anchors": ["runtime/core/func.go:ParseFuncName"]}
{"id": "C38", "title": "Function table lookup by name", "statement": "After registration, GetFuncByPkg(pkg, name) returns the last registered function of that identity; `T.f` falls back to `(*T).f` only if there is no `T.f`.", "quantifier": "every registration sequence", "why_tests_cant": "sequences unbounded", "anchors": ["runtime/functab/functab.go"]}
{"id": "C39", "title": "Local shadowing: a local name is never rewritten as a package variable", "statement": "Variable instrumentation rewrites an identifier only if it refers to the package-level variable under Go's scoping rules.", "quantifier": "every function body", "why_tests_cant": "program syntax trees unbounded", "anchors": ["instrument/resolve"]}
{"id": "C40", "title": "Generated parameter names are fresh", "statement": "The names xgo gives to unnamed or blank parameters, receivers and results of an instrumented function are pairwise distinct, differ from the other names of the function and from xgo's own identifiers, and named ones keep their names (names beginning with `__xgo_` are reserved).", "quantifier": "every parameter list", "why_tests_cant": "parameter lists unbounded", "anchors": ["instrument/instrument_func/trap.go:processFieldNames"]}
{"id": "C41", "title": "Thread-local values are inherited at goroutine creation only", "statement": "A tls value marked inheritable is visible in a new goroutine with the value the parent had at creation; other values are not; later writes are isolated.", "quantifier": "every history", "why_tests_cant": "histories unbounded", "anchors": ["runtime/tls"]}
{"id": "C42", "title": "Line edits", "statement": "Applying a list of line insertions/replacements yields the original lines with exactly those changes, in the order asked for; undoing them gives the original lines back; the statements of a syntax-aware patch are found in the source in order.", "quantifier": "every text and edit list", "why_tests_cant": "unbounded", "anchors": ["support/transform/edit/line/line.go", "support/transform/patch/unpatch/unpatch.go", "support/transform/patch/patch.go:patchNodes"]}
{"id": "C43", "title": "Hooks may register and cancel while a call is processed", "statement": "For a call of an instrumented function, each recorder/interceptor in force when the call starts gets its turn exactly once, in order, even if hooks running for this call register new handlers or cancel existing ones.", "quantifier": "every set of handlers, every behaviour of the hooks", "why_tests_cant": "re-entrant behaviours are unbounded, the effect depends on slice capacities", "anchors": ["runtime/internal/trap/trap.go:trap", "runtime/internal/trap/record.go:PushRecordHandler", "runtime/internal/trap/stack_data.go:getRecordHandlers"]}
{"id": "C44", "title": "A user overlay keeps its meaning under xgo", "statement": "With `-overlay` given by the user, every file that xgo does not rewrite is compiled with exactly the text plain go would use, and every file xgo rewrites with the text xgo wrote last; no overlay that go accepts is rejected.", "quantifier": "every overlay, every sequence of rewrites, every aliasing of paths by symlinks", "why_tests_cant": "overlays and path aliases are unbounded and map iteration order is random", "anchors": ["instrument/overlay/overlay.go:MakeGoOverlay", "instrument/overlay/io.go:ComposeGoOverlays", "cmd/xgo/main.go"]}
{"id": "C45", "title": "Module membership", "statement": "A package counts as belonging to a module exactly if its path is the module path or lies below it (`a/bc` is not in `a/b`); the xgo command and the patched compiler agree, also for modules listed with --mock-rule-include-as-main-module, whose list may contain spaces, empty entries and duplicates.", "quantifier": "every package path, main module and module list", "why_tests_cant": "paths and lists are unbounded", "anchors": ["support/goinfo/pkg.go:PkgWithinModule", "patch/legacy/ctxt/ctx.go:IsSameModule", "cmd/xgo/instrument.go:pkgWithinAnyModule", "cmd/xgo/rule.go:parseModuleList"]}
{"id": "C46", "title": "Packages loaded for mock rules", "statement": "The packages loaded for instrumentation are the main module, unless the rules exclude it, plus every package named by an include rule (`q/**` standing for everything below q); other uses of `*` are reported as errors; the rule that decides for a declaration also decides whether its package is loaded.", "quantifier": "every rule list", "why_tests_cant": "rule lists unbounded", "anchors": ["cmd/xgo/instrument.go:getLoadPackages"]}
{"id": "C48", "title": "Arguments for go and for the program", "statement": "`xgo build/test/run/exec ARGS` calls go (or the program) with ARGS minus xgo's own flags: nothing is invented, lost, duplicated or reordered; everything after the program of `run`/`exec` and after `-args` of `test` reaches the program unchanged, whatever it looks like; go flags that xgo reads itself arrive with their (last) value; XGO_FLAGS comes first.", "quantifier": "every argument vector", "why_tests_cant": "argument vectors unbounded", "anchors": ["cmd/xgo/option.go:parseOptions", "cmd/xgo/main.go:handleBuild", "cmd/xgo/main.go:parseXgoFlags"]}
{"id": "C49", "title": "Packages named on the command line", "statement": "The packages xgo lists to inject its imports are exactly the packages go would build for the same arguments.", "quantifier": "every argument vector", "why_tests_cant": "argument vectors unbounded", "anchors": ["cmd/xgo/option.go:getPkgArgs", "cmd/xgo/trace.go:addBlankImports"]}
{"id": "C50", "title": "Interceptors that only watch are invisible", "statement": "If every recorder and interceptor registered for a call returns no error and changes no argument or result, the caller sees exactly what it would see without them.", "quantifier": "every set of watchers, every call", "why_tests_cant": "handler sets are unbounded", "anchors": ["runtime/internal/trap/trap.go:trap", "runtime/trap/interceptor.go"]}
{"id": "C47", "title": "Which functions are intercepted", "statement": "All functions with a body of a package under test are intercepted, except `init`, blank and nosplit ones; of the packages named on the command line all outside test files; of other packages exactly those the tests refer to in mock.Patch and the like, the configured standard library functions and, with --trap-all, the exported ones; nothing in the go runtime and in xgo itself. The compiler intercepts exactly the functions it is told to.", "quantifier": "every package, every set of mocked functions", "why_tests_cant": "packages and references are unbounded", "anchors": ["instrument/instrument_func/trap.go:TrapFuncs", "instrument/config/config.go", "cmd/xgo/instrument.go", "patch/syntax/decl.go", "patch/syntax/func_trap.go"]}
{"id": "C51", "title": "Cached packages match what is intercepted", "statement": "Two builds that intercept different functions, variables or interfaces of a package never share its compiled form in the go build cache.", "quantifier": "every pair of builds", "why_tests_cant": "sets of functions are unbounded", "anchors": ["cmd/xgo/instrument.go:md5sumTraps"]}
{"id": "C52", "title": "The .gitignore entry", "statement": "Setting up xgo's directory leaves a .gitignore of the repository in which xgo's generated files are ignored; what was in it remains, and running it again changes nothing.", "quantifier": "every .gitignore", "why_tests_cant": "texts unbounded", "anchors": ["cmd/xgo/instrument.go:gitignoreAdd"]}
{"id": "C53", "title": "Generated package-level identifiers", "statement": "Instrumented packages compile: no generated package-level identifier is declared twice and every generated identifier that is used is declared.", "quantifier": "every package, every set of intercepted functions, variables and interfaces", "why_tests_cant": "numbers of files and declarations are unbounded", "anchors": ["instrument/instrument_reg/instrument_reg.go", "instrument/compiler_extra/register.go", "patch/syntax/syntax.go", "instrument/instrument_var/trap_var.go"]}
{"id": "C54", "title": "Reported receiver and parameter names", "statement": "The receiver, argument and result names seen by interceptors are those written in the source, in order; unnamed ones get a generated name.", "quantifier": "every function signature", "why_tests_cant": "signatures unbounded", "anchors": ["instrument/instrument_reg/instrument_reg.go:buildCompilerExtra", "patch/syntax/syntax.go:convertFuncDecl"]}
{"id": "C55", "title": "Mocking by name", "statement": "mock.PatchByName(pkg, name, f) affects the function or variable of package pkg that is registered under name (`T.f` standing for `(*T).f` if there is no `T.f`, `*v` for the pointer to variable v) and mock.PatchMethodByName(x, m, f) the method m of x's type; if there is none, they panic with a message naming it.", "quantifier": "every program, every name, every order of package initialisation", "why_tests_cant": "names and registration orders are unbounded", "anchors": ["runtime/internal/trap/mock.go:getFuncByName", "runtime/internal/trap/mock.go:getMethodByName", "runtime/functab/functab.go"]}
{"id": "C56", "title": "Patching a file that is patched already", "statement": "EditFile hands the unpatched text of the file to the callback whatever earlier version of the patch is in the file, and afterwards the file is the callback's result: patching twice is patching once and nothing of an earlier version remains. If the callback fails the file is as before.", "quantifier": "every file, every earlier patch, every callback", "why_tests_cant": "texts and edits are unbounded", "anchors": ["instrument/patch/patch.go:EditFile", "instrument/patch/clean_patch.go:CleanPatch"]}
{"id": "C57", "title": "Patch edits land where the commands point", "statement": "The commands of a patch block move to the named function, method, struct, interface, field, brace or text; the text of each editing command is inserted before or after that place, or replaces it, in the block's markers; all other text is unchanged; if a place does not exist the patch fails.", "quantifier": "every source text, every block", "why_tests_cant": "texts and command sequences are unbounded", "anchors": ["instrument/patch/apply_engine.go", "instrument/patch/apply.go:ApplyXgoPatchContent", "PATCH_DSL.md"]}
{"id": "C58", "title": "Patch files are read as written", "statement": "A patch file is read as the sequence of its blocks with the commands written in them, in order; comments, blank lines, indentation and text between blocks have no effect; a line that is no command or a block that is not closed makes the whole file an error.", "quantifier": "every patch file", "why_tests_cant": "files are unbounded", "anchors": ["instrument/patch/apply_parse.go:ParseXgoPatch", "instrument/patch/apply_types.go"]}
{"id": "C59", "title": "Every use of an instrumented variable is found, once", "statement": "In the code xgo instruments, every use of an instrumented package variable, by its own name or qualified by an import, is redirected to the variable's getter, and no occurrence is redirected twice.", "quantifier": "every function body, whatever the types of the expressions in it", "why_tests_cant": "syntax trees are unbounded", "anchors": ["instrument/resolve/expr.go:traverseExpr", "instrument/resolve/stmt.go:traverseStmt", "instrument/resolve/collect_var_ref.go"]}
{"id": "C60", "title": "Taking an address still takes the variable's address", "statement": "After instrumentation an expression that takes the address of a package variable, explicitly or by calling a method with pointer receiver, still refers to the variable itself and not to a copy, and a plain read becomes a call of the getter.", "quantifier": "every expression", "why_tests_cant": "expressions are unbounded", "anchors": ["instrument/resolve/collect_var_ref.go:collectVarRef", "instrument/instrument_var/trap_var.go:applyRewrite"]}
{"id": "C61", "title": "Copying directories", "statement": "Copying a directory makes every wanted entry of the source (not ignored, not under an ignored directory, with a right suffix) appear at the same relative path of the target with the same content, changes nothing else, and fails exactly if an entry in the way has another kind; copying with several workers copies the same files under every schedule, and it returns no error only if all were copied.", "quantifier": "every source tree, every set of options, every schedule of the workers", "why_tests_cant": "trees and schedules are unbounded", "anchors": ["support/filecopy/copy.go:copyReplaceDir", "support/filecopy/copy.go:copyDirHandle"]}
{"id": "C62", "title": "Unified tests run what go test runs", "statement": "When xgo puts the tests of several packages together in one binary, every test of every package is run exactly once, in the directory of its package, the reported events carry its own package and name, and -run selects what it would select with plain go test.", "quantifier": "every list of packages and tests, every selection", "why_tests_cant": "packages and names are unbounded", "anchors": ["instrument/instrument_go/instrument_unifiedtest/xgo_testunified.go:xgoUnifyTestPackages", "instrument/instrument_go/instrument_unifiedtest/xgo_testinfo.go:xgoGetTestName"]}
{"id": "C63", "title": "Session events arrive once and in order", "statement": "Every event sent to a session is returned by exactly one poll, none is lost or made up; with one poll at a time the polls return the events in the order they were sent; a poll that has waited long enough or has an event and finds no more returns; sessions get different ids and looking up an id gives the session that was started with it and not destroyed since.", "quantifier": "every number of senders and pollers, every schedule", "why_tests_cant": "schedules and numbers of events are unbounded", "anchors": ["support/session/session.go:sessionImpl.PollEvents", "support/session/session.go:sessionImpl.SendEvents", "support/session/session.go:sessionManager"]}
{"id": "C64", "title": "The test explorer shows and runs the tests that are there", "statement": "The tree of the test explorer shows every test of the project once, where it is; running an item runs exactly the tests at and below it.", "quantifier": "every project tree, every item of it", "why_tests_cant": "trees and names are unbounded", "anchors": ["cmd/xgo/test-explorer/main.go:scanTests", "cmd/xgo/test-explorer/parse.go", "cmd/xgo/test-explorer/run.go:getTestPaths", "cmd/xgo/test-explorer/run.go:formatRunNames"]}
{"id": "C65", "title": "The test explorer shows the results of go test", "statement": "After a run in the test explorer every item shows the result that go test reported for its test or package, and its output, complete and in order; an item is shown as successful only if all of its tests have passed; every subtest that go test reports appears in the tree before there is a status for it; the end of every run is shown.", "quantifier": "every output of go test, every order of map iteration", "why_tests_cant": "outputs and names are unbounded", "anchors": ["cmd/xgo/test-explorer/run_session.go:runSession.Start", "cmd/xgo/test-explorer/run_session.go:pathMapping", "cmd/xgo/test-explorer/run_event.go:buildEvent", "cmd/xgo/test-explorer/run.go:makeMergeTree"]}
{"id": "C66", "title": "The setup of the instrumented GOROOT survives interruption", "statement": "Whatever runs of xgo there were before and wherever they were interrupted, a run that goes on to build uses an instrumented GOROOT that is a complete copy of the original one, patched by this version of xgo with the given options, with its compiler and go command built from the patched sources; and it is always possible to get there again.", "quantifier": "every history of runs (versions, options), every point of interruption, every interleaving of processes", "why_tests_cant": "histories and interruption points are unbounded", "anchors": ["cmd/xgo/main.go:handleBuild", "cmd/xgo/patch.go:patchRuntime", "cmd/xgo/patch.go:checkRevisionChanged", "cmd/xgo/patch.go:syncGoroot", "instrument/build/build.go"]}
{"id": "C67", "title": "What is named as the target of mock.Patch and the like is what gets instrumented", "statement": "The function, method or variable that the first argument of a call of mock.Patch, mock.Mock, trace.Record, trap.AddFuncInterceptor, functab.InfoFunc, ... names under Go's scoping and typing rules is the one xgo records for instrumentation: nothing else is recorded, and nothing that is named is missed; a call of trap.AddInterceptor or trap.MarkInterceptAll makes xgo instrument everything.", "quantifier": "every program (all packages, files with their imports, declarations), every function body with its nested scopes, every target expression", "why_tests_cant": "programs and scopes nest without bound", "anchors": ["instrument/resolve/resolve.go:doResolveInfo", "instrument/resolve/scope.go:Scope", "instrument/resolve/stmt.go:traverseStmt", "instrument/resolve/expr.go:traverseCallExpr", "instrument/resolve/record.go:recordMockRef", "instrument/resolve/traverse.go:Traverse"]}
{"id": "C68", "title": "Loading packages in parallel loads every file", "statement": "Whatever the scheduling of the goroutines that read and parse them, loading packages ends, leaves no goroutine behind, and returns for every listed package, in order, the files that can be read and parsed (all files if errors are not filtered), each with the content and syntax tree that loading it alone gives; files that cannot be read or parsed are left out if errors are filtered. Line numbers are those of the files.", "quantifier": "every schedule of the readers, parsers and the caller, any number of packages, files and processors, any outcome of reading and parsing each file", "why_tests_cant": "the result must not depend on the schedule, and there are unboundedly many", "anchors": ["instrument/load/load.go:LoadPackages", "instrument/load/load.go:readFile", "instrument/load/load.go:parseFile"]}
{"id": "C69", "title": "The blank import of runtime/trace keeps the program", "statement": "When tracing is on, every listed package outside the standard library that does not import the tracing package is compiled with a blank import of it in its first Go file (or, if it has no Go files, in each of its test files). The file compiled has exactly the tokens of the file go would see, the user's overlay included, each on its own line, with the import declaration inserted after the package clause on the same line; no other file changes, in any order of applying the replacements.", "quantifier": "every list of packages, every file text with the package clause on a line of its own, every disk and overlay content, every iteration order", "why_tests_cant": "must hold for every source text, comment, string and line ending", "anchors": ["cmd/xgo/trace.go:addBlankImports", "cmd/xgo/trace.go:addBlankImportForPackage", "cmd/xgo/trace.go:addBlankImport", "cmd/xgo/trace.go:applyBlankImportThroughOverlay"]}
{"id": "C70", "title": "Vendored packages are compiled from the vendor directory", "statement": "When xgo builds a project with a vendor directory, every vendored package is compiled from its directory below vendor: vendor/modules.txt is read back as go mod vendor wrote it, go.mod requires each vendored module at its version and replaces it by its directory below vendor, go finds each package in exactly one module, each module keeps the language version recorded for it, all other requirements and replacements of go.mod stay, and no flag is lost however many modules there are.", "quantifier": "every list of vendored modules, versions, replacements, annotations and packages, nested module paths included, every go.mod and disk", "why_tests_cant": "module lists, nesting of module paths and numbers of modules are unbounded; go's search for a package depends on all of them at once", "anchors": ["support/goinfo/vendor_parse.go:ParseVendorContent", "cmd/xgo/trace.go:loadDependency", "cmd/xgo/trace.go:splitArgsBatch", "cmd/xgo/trace.go:isLocalReplace", "cmd/xgo/trace.go:createGoModPlaceholder", "cmd/xgo/trace.go:getVendorDir"]}
{"id": "C71", "title": "The runtime compiled into the program is that of this xgo and this command", "statement": "The copy of the xgo runtime in the project's .xgo directory is kept from one run to the next and across upgrades of xgo. After any history of runs, whatever was in the directory at first, the copy compiled by a run has the files of the newest xgo that was used, the version constants of the xgo that runs, and the trace flags of the command that runs; a run that is told to reset makes it its own whatever is there; and a run that is interrupted while it links the copy does no harm to the next one.", "quantifier": "every sequence of runs, of any releases of xgo with any runtime files, versions and options, every initial content of the directory, every point of interruption of the linking", "why_tests_cant": "the directory carries state from run to run; the property is about all histories of runs, releases and crash points, not about one run from an empty directory", "anchors": ["cmd/xgo/trace.go:loadDependency", "cmd/xgo/trace.go:needCopyRuntimeFromXgo", "instrument/embed/embed.go:CopyDir", "instrument/instrument_xgo_runtime/link.go:LinkXgoRuntime", "instrument/instrument_xgo_runtime/parse.go:ReplaceActualXgoVersion", "instrument/instrument_xgo_runtime/parse.go:InjectFlags", "instrument/instrument_xgo_runtime/bypass_version_check.go:bypassVersionCheck"]}
{"id": "C72", "title": "Coverage of an instrumented file is coverage of the source", "statement": "With -cover, a file that xgo has edited is covered as if xgo had not touched it: the cover tool places its counters by the original text, under the original file name, whatever characters the file, its name and the edits have. The program that is compiled is the source with xgo's edits and the counters: leaving out the counters gives the program compiled without -cover, leaving out xgo's edits gives what the cover tool makes of the original file. A file that xgo has not edited is covered as by the cover tool of the Go distribution.", "quantifier": "every file text and name, every set of edits that do not overlap, every placement of the counters that is not inside text replaced by xgo, every set of characters that strconv.Quote prints as they are", "why_tests_cant": "the edits and the original go through a comment with two levels of quoting and are replayed on another buffer; tests try a few files, the claim is about all texts and edits", "anchors": ["instrument/instrument_go/go_tool_cover.go:AddEditsNotes", "instrument/instrument_go/xgo_cover_template.go:xgoParseApply", "instrument/instrument_go/xgo_cover_template.go:xgoParseEdit", "instrument/instrument_go/xgo_cover_template.go:xgoFindLinesFromEnd", "instrument/instrument_go/xgo_cover_template.go:xgoCutPrefixAndSpace", "cmd/xgo/instrument.go:applyInstrumentWithEditNotes", "cmd/xgo/main.go:mayHaveCover"]}
{"id": "C73", "title": "The getter of an instrumented variable has the type of the variable", "statement": "The type xgo writes in the getters of a package-level variable is the type of the variable: read in the file of the variable, with the imports xgo adds, it means the type Go gives the variable, whether that is declared or follows from the value. Every package the text refers to is imported, under a name that is not used otherwise, once per file; no import is added that is not used, and none of the package itself; a variable for which no type can be written is left alone and adds no import.", "quantifier": "every program, every list of variables of a file, every order in which the functions of the program are visited", "why_tests_cant": "the type is found by an own resolver over all packages and results are kept by syntax node, so that it depends on other files and on the order of visits; tests try single declarations", "anchors": ["instrument/resolve/resolve.go:doResolveInfo", "instrument/resolve/resolve.go:resolveInfo", "instrument/resolve/collect_var_ref.go:tryResolveDeclType", "instrument/instrument_var/trap_var.go:useTypeInFile", "instrument/instrument_var/trap_var.go:doUseTypeInFile", "instrument/instrument_var/trap_var.go:RecordImport", "instrument/instrument_var/trap_var.go:rewriteVarDefAndRefs", "instrument/resolve/traverse.go:CollectDecls"]}
{"id": "C74", "title": "The module of a directory", "statement": "The module xgo takes a directory to be in is the one the go command takes: that of the nearest go.mod upwards of it, named by its module statement; the import path of the directory is the module path with the path from the root to the directory behind it; and every part of xgo that works with the root of the project (the generated files, vendor, the path mappings of overlays, the test explorer) uses that root and that path.", "quantifier": "every file system, working directory, --project-dir and go.mod", "why_tests_cant": "paths, nestings of directories and texts of go.mod are unbounded, tests run in a few directories", "anchors": ["support/goinfo/mod.go:findGoMod", "support/goinfo/mod.go:parseModPath", "support/goinfo/mod.go:ResolveMainModule", "support/goinfo/mod.go:ResolveModulePkgPath", "support/goinfo/find.go:FindGoModDirSubPath", "cmd/xgo/trace.go:getProjectRoot", "cmd/xgo/main.go:handleBuild", "cmd/xgo/test-explorer/main.go:scanTests", "cmd/xgo/test-explorer/run_session.go:resolveDirPkgPath"]}
{"id": "C75", "title": "What a trace records of arguments and results", "statement": "While a call is traced, its receiver, arguments and results, but for a leading context and a final error, are recorded as JSON, each under its name and in order; the record is valid JSON whatever the values are. A value that cannot be marshalled, whose methods panic, or that is longer than the limit affects only its own field: the error, or the beginning of the text, stands in its place. Recording never makes the call panic.", "quantifier": "every list of names and values, every outcome of marshalling each of them, every text of errors, panics and values, every limit", "why_tests_cant": "the record is assembled from texts of arbitrary user values with a quoting that is not that of JSON; tests try a few values", "anchors": ["runtime/internal/trap/object.go:structValue.MarshalJSON", "runtime/internal/trap/object.go:tryRemoveFirstCtx", "runtime/internal/trap/object.go:trySplitLastError", "runtime/internal/runtime/marshal.go:MarshalNoError", "runtime/internal/trap/trap.go:trap"]}
{"id": "C76", "title": "A trace includes the goroutines it starts, whatever the schedule", "statement": "When trace.Trace writes its trace, the trace shows, under each call, the traced calls it made and the goroutines it started, in order, and under each goroutine everything that goroutine had done at one moment during the writing, although the goroutines go on meanwhile: every traced call begun before the writing is in it, none twice, none that did not happen; all times are on one clock, counted from the beginning of the trace, and nothing ends before it begins; what is not finished is marked as running. In race-safe mode only the goroutine that called Trace is shown. The writing ends.", "quantifier": "all programs (any number of goroutines starting each other at any depth), all interleavings of their steps, all schedulings of the export among them, all clocks", "why_tests_cant": "Tests run a handful of goroutines under one scheduling and usually wait for them; that no interleaving loses, duplicates or misplaces a call needs an argument over all histories and all moments at which the export may look.", "anchors": ["runtime/internal/stack/export.go: Export, ExportStackEntries, ExportStackEntry", "runtime/internal/stack/stack.go: PushNew, Finish, AppendGoChild, SetEndIfZero, Snapshot, cloneEntries", "runtime/internal/trap/init.go: inerhitStack", "runtime/internal/stack/g.go: GetOrAttachStack"]}
{"id": "C77", "title": "The trace viewer shows every call of the file, once and in its place", "statement": "`xgo tool trace FILE` answers with a page that shows the stacks of the file one after another: every call exactly once, under its caller and in order, with the name of its function (or <unknown>), the marks of a panic or an error, the time it took in the largest whole unit, and a fold button exactly when it has calls under it; a click on a call shows the recorded data of that call and no other. No text in the trace, whatever characters it has, can end the script or open a tag of the page. A value in the file that is no stack is shown as an error in its place, a cut or malformed file is reported. Files of the older format show the same calls.", "quantifier": "all files (any number of stacks, any depth of calls, any names, arguments, results, times), all points at which the file may be cut", "why_tests_cant": "Tests render one or two small files and test two values of the cost; that the numbering, the nesting and the data agree for every tree, that every string survives two kinds of quoting, and what happens at every cut of the file are claims over unbounded inputs.", "anchors": ["cmd/xgo/trace/render/render.go: ReadStacks, readStacksFromReader, RenderStacks", "cmd/xgo/trace/render/render_item.go: renderItem", "cmd/xgo/trace/render/format.go: marshalStackWithoutChildren, formatCost", "cmd/xgo/trace/convert.go: convert, convertStackEntries", "cmd/xgo/trace/main.go: serveFile", "cmd/xgo/trace/render/script.js: onClickHead"]}
{"id": "C78", "title": "The hooks in the Go runtime lose nothing and start clean", "statement": "In a program built with xgo: every instrumented function is made known to xgo's function table exactly once, in the order of registration, whether its package is initialised before or after the table; functions given to hook.OnInitFinished run once, in order, after all packages are initialised, and see InitFinished() true; calls made before xgo's runtime is ready run untouched and later ones go to it; each new and each ended goroutine is announced once to every listener; and a new goroutine starts with nothing left behind by an earlier one, whatever goroutine structures the scheduler reuses.", "quantifier": "all orders of package initialisation, all histories of goroutine creation, writing and exit, all choices of reused structures, all callbacks", "why_tests_cant": "Which package is initialised first and which structure the scheduler reuses are not under the control of a test; the claim is over all of them.", "anchors": ["patches/go1.24/src/runtime/xgo_trap.go: XgoRegister, XgoSetupRegisterHandler, XgoOnInitFinished, __xgo_callback_on_init_finished, __xgo_callback_on_create_g, __xgo_callback_on_exit_g, XgoSetTrap, XgoTrap", "patches/go1.24/src/runtime/proc.go.xgo.patch", "runtime/internal/runtime/xgo_trap_template.go", "runtime/hook/hook.go: OnInitFinished"]}
{"id": "C79", "title": "The shadow go runs what go would run", "statement": "With the shadow go of cmd/xgo/shadow in a directory on PATH, as `xgo shadow` installed it (the command is now deprecated), a go command behaves as before except that build, run and test go through xgo: the shadow hands the same arguments and environment to xgo, or to the go that would have been run without it, and xgo uses that same go and never comes back to the shadow; with XGO_SHADOW_BYPASS=true everything goes to the real go. Exit codes and standard input are those of the command.", "quantifier": "all PATHs, all arguments and environments, called by name or by path", "why_tests_cant": "The set of PATHs and of command lines is unbounded; that no PATH leads to a chain of shadows calling each other is a claim about all of them.", "anchors": ["cmd/xgo/shadow/shadow.go: main, runCmd, GetRealGoPath, GetRealGoPathExcludeDir", "cmd/xgo/shadow/exclude_path.go: excludeInList", "cmd/xgo/shadow/prepare_unix.go: exclude", "cmd/xgo/main.go: getNakedGo, nakedGoReplacement"]}
{"id": "C80", "title": "The instrumented go and xgo call each other once", "statement": "`go build`, `go run` and `go test` of the GOROOT that `xgo setup` made are handed, with their arguments, to xgo, which runs exactly once and calls that go again, which does the work itself: no chain of the two goes on, for any environment. Other commands, GO_BYPASS_XGO=true or a missing xgo leave everything to go. The command that xgo runs finds the instrumented GOROOT, its bin first on PATH, and every variable that xgo does not own unchanged; tools are built for this machine whatever GOOS, GOARCH and GOEXPERIMENT say; `xgo exec go test` instruments once; exit code and standard input are those of the command.", "quantifier": "all environments (with repeated names), all arguments, all options, chains of processes of any length", "why_tests_cant": "Whether two programs that call each other ever stop, and whether a variable among all possible ones survives, are claims about all environments and chains.", "anchors": ["instrument/instrument_go/xgo_main_template.go: xgoPrecheck", "instrument/instrument_go/go_cmd.go", "instrument/build/env.go: MakeGorootEnv, EnvForNative, AppendNativeBuildEnv", "instrument/build/build.go: BuildNativeBinary", "cmd/xgo/main.go: handleBuild"]}
{"id": "C81", "title": "The servers of xgo find a free port and say which", "statement": "`xgo tool trace`, `xgo tool coverage serve`, `xgo test-explorer` and `--debug` serve on the first port, from the one asked for, that is not taken when it is tried, trying each port once and in order, and give up only when there is another error or no port left, whatever other programs do with ports meanwhile. The address they print and open is the one they serve on, it is printed once, and the links of their page lead to it. They listen where they were asked to, or on localhost.", "quantifier": "all ports, all interleavings of the search with the watcher goroutines, all behaviours of other programs on the ports and of the timer", "why_tests_cant": "Other programs take and free ports at any time and the timer races with the failure; a test sees one interleaving.", "anchors": ["support/netutil/netutil.go: ServePort, watchSignalWithinTimeout, GetHostAndIP", "cmd/xgo/coverage/serve.go: handleServe", "cmd/xgo/test-explorer/main.go", "cmd/xgo/coverage/serve/serve.go: RouteServer"]}
{"id": "C82", "title": "Each Go installation has its own instrumented copy", "statement": "xgo uses the GOROOT given with --with-goroot or that of the go command in the project's directory. Each Go installation, by version and place, has an instrumented copy and a build cache of its own, in xgo's directories, whatever its path is; xgo used with the GOROOT that `xgo setup` printed, as by that GOROOT's own go, uses that copy again instead of copying the copy; `xgo setup --delete` removes the copy and its cache and nothing else.", "quantifier": "all paths of GOROOT, all versions, all contents of the file system, any checksum function", "why_tests_cant": "That no two paths clash and that no path escapes the directory are claims about all paths.", "anchors": ["cmd/xgo/main.go: handleBuild, checkGoroot", "cmd/xgo/pathsum/path.go: PathSum, shortPath, getIdentSum", "support/fileutil/path.go: CleanSpecial"]}
{"id": "C83", "title": "The test explorer does what test.config.json and its command line say", "statement": "A test.config.json is accepted exactly if it is well-typed (an object or null in which whatever stands behind a known key fits that key); members with other keys change nothing, and of repeated keys the last counts. The command, flags, arguments, excluded directories, mock rules and switches used are those the file says; the command line's command goes before the file's and that before the default, and its flags, arguments and excluded directories follow the file's. Every configured environment variable arrives at the tests with the configured value and all others are inherited, in whatever order Go walks the map. The tests run only if the installed Go lies within the configured bounds. Mock rules are passed exactly to an xgo that knows them, one flag per rule and in order. A missing file counts as empty unless it was named.", "quantifier": "all JSON values as files, all command lines, all installed versions of Go and xgo, all map orders, all inherited environments", "why_tests_cant": "The file is free-form JSON with nested and repeated keys, and Go's map order is random: no finite set of files shows that every well-typed one is honoured and every other refused", "anchors": ["support/testconfig/config.go:Parse", "support/testconfig/config.go:toStringList", "support/testconfig/config.go:toBoolean", "support/testconfig/config.go:toMarshaledStrings", "support/testconfig/config.go:EnvPairs", "support/testconfig/config.go:ValidateGoConstraint", "support/testconfig/config.go:CompareGoVersion", "cmd/xgo/test-explorer/config.go:parseConfigAndMergeOptions", "cmd/xgo/test-explorer/config.go:getXgoSupportsMockRule", "cmd/xgo/test-explorer/run_session.go:runTest"]}
{"id": "C84", "title": "What a run prints in the test explorer gets to the page", "statement": "Whatever the program that is run prints, and however it and the readers of its output are scheduled, the page gets the lines of its output in order, none lost in between, none doubled, none joined or cut; when nothing more can happen, a session has sent all lines (the last one too where no newline ends it), then once the end of the run, and no line of the output after it; and no run goes on for ever.", "quantifier": "all texts printed on both outputs, all interleavings of program and readers, all sizes of the portions read, all sets of lines that the session reads", "why_tests_cant": "Pipes, scanners and goroutines interleave freely, and what is lost depends on where a read ends; tests see one schedule and short lines", "anchors": ["cmd/xgo/test-explorer/run_session.go:Start", "cmd/xgo/test-explorer/run_session.go:consumeTestEvent", "cmd/xgo/test-explorer/poll.go:startRun"]}
{"id": "C85", "title": "A command that xgo shows can be pasted into a shell; programs it runs get the environment and arguments given, callers the output and the error", "statement": "When a command is run with Debug, the text shown, pasted into a POSIX shell, runs exactly this program with exactly these arguments and nothing else. The program itself gets the arguments unchanged; it sees each variable given to it, and of the others what xgo sees (nothing with NoInheritEnv). Output returns what the program printed without the newline at the end, and an error if the program fails, unless errors are ignored.", "quantifier": "all programs, arguments, environments and directories, all outputs and exit codes", "why_tests_cant": "Arguments come from users' flags, paths and test names and may have any character; a shell's reading of them is a state machine over all texts", "anchors": ["support/cmd/quote.go:Quote", "support/cmd/cmd.go:cmdExecEnv", "support/cmd/cmd.go:Output", "support/cmd/cmd.go:Run", "support/cmd/cmd.go:CmdBuilder"]}
{"id": "C86", "title": "`xgo tool coverage merge` writes the sum of the profiles, once per block, or fails and changes nothing", "statement": "merge with any files, -o and --exclude-prefix in any order writes one profile of mode count that has each block of each file that is not excluded, once, with the sum of its counts (so a block is covered there exactly if it is in one of the files); merging step by step gives what merging at once gives; compact merges one file and doing it again changes nothing; if a file cannot be read or the output cannot be made the command fails and no file is changed. --exclude-prefix excludes a package and its sub packages, and nothing else; mode lines never become blocks; a wrong command or a flag without value is an error.", "quantifier": "all command lines, all files and their texts, all profiles", "why_tests_cant": "Profiles of large projects come from any number of runs, with blocks in any order and repeated; step-by-step merging is a claim about all splits of a list", "anchors": ["cmd/xgo/coverage/main.go:Main", "cmd/xgo/coverage/main.go:mergeCover", "cmd/xgo/coverage/main.go:hasAnyPrefix", "cmd/xgo/coverage/serve.go:handleServe"]}
{"id": "C87", "title": "As -toolexec, xgo's wrappers run the tools go asks for, and give the compiler sources with traps for exactly the packages asked for", "statement": "`xgo exec_tool \u2026 -- tool args` runs each tool with exactly its arguments, tells the compiler whether it is enabled, and exits as the tool does. `go-tool-exec insert-trap [--pkg p]\u2026 -- tool args` does the same, but for the compilation of a package that was asked for (without --pkg: any outside the standard library) every source with functions is replaced by a file that has the source's text, on the same lines, with the trap at the beginning of each function; test files are left; a source that cannot be parsed is an error. This holds however many packages are compiled at the same time.", "quantifier": "all options, tools, arguments, packages, sources, and all interleavings of compilations", "why_tests_cant": "go calls the wrapper for every package of every build and several at a time; which package paths, directories and interleavings occur depends on the user's project", "anchors": ["cmd/xgo/exec_tool/main.go:Main", "cmd/xgo/exec_tool/main.go:handleCompile", "cmd/xgo/exec_tool/option.go:parseOptions", "cmd/xgo/exec_tool/tool_exec_main.go:handleInsertTrap", "cmd/xgo/exec_tool/tool_exec_main.go:replaceWithTmpFiles", "cmd/xgo/exec_tool/inject/inject.go:InjectRuntimeTrap"]}
{"id": "C88", "title": "Instrumentation leaves the user's code on its lines", "statement": "When xgo instruments a source file of the packages under test (it names blank and unnamed parameters, puts a call to the trap behind the opening brace of functions, replaces uses of package variables by calls of getters, declares the getters behind the variables, adds imports and registration code), every character of the user's code that is not taken out is still there, in the same order, and on the line it was on, so that positions in compile errors, panics, stack traces, breakpoints and coverage are those of the source. The only lines added above the user's code come from the types of intercepted variables that are written over several lines: what stands below such a variable moves down by two times the line breaks in its type (a fault). A line break between `&` and its operand is removed with the `&` (a fault).", "quantifier": "all source texts, all sets of functions, methods, variables, uses, imports and interfaces to edit with their offsets, names, packages and files, and all positions in the user's code", "why_tests_cant": "A test fixes a few source files and looks at a few lines; the claim is about every file and every combination of edits.", "anchors": ["instrument/instrument_func/trap.go: TrapFuncs, processFieldNames", "instrument/instrument_func/func_template.go: trapTemplate", "instrument/instrument_var/trap_var.go: rewriteVarDefAndRefs, applyRewrite", "instrument/instrument_var/var_template.go: genCode", "instrument/instrument_reg/instrument_reg.go: RegisterFuncTab", "instrument/compiler_extra/register.go: GenerateRegCode, JoinStmts, DeclarePkgStubs", "instrument/patch/init.go: AddImport", "support/edit/edit.go: Buffer"]}
{"id": "C89", "title": "The registration code registers each intercepted function, variable and interface once, as itself", "statement": "The code that xgo writes into a source file, read as Go reads it and run as Go starts a program, calls the hook of the runtime first and then registers each intercepted variable, function and interface of the file, each exactly once and in that order, with its own package, name, identity, file, line, receiver, names of parameters and results (as they are called after the edits), and with its own value or address (a generic function has none); nothing else is registered. Names, package paths and file names are read back as they are whatever characters they have. The trap put into a function, and the getters of a variable, are called with the very variable that is registered for this function or variable. A file without anything to intercept gets no registration code. The function replaced by the runtime is declared, is not inlined and refers to all four functions that are replaced.", "quantifier": "all file indexes, package paths, file paths, lists of functions, methods, variables and interfaces with their names, lines, receivers, parameters and results", "why_tests_cant": "A test compares generated texts with expected texts, or runs a few functions; the claim is that what is generated for any declarations reads back as those declarations, including names with quotes or separators in paths.", "anchors": ["instrument/compiler_extra/register.go: GetFileRegStmts, GenerateRegCode, DefineFuncLiteral, DefineVarLiteral, DefineIntfTypeLiteral, makeLiteral, DeclarePkgStubs, DeclareInitFunc, JoinStmts", "instrument/instrument_reg/instrument_reg.go: RegisterFuncTab", "instrument/constants/info.go: FUNC_INFO_FIELDS", "instrument/instrument_func/trap.go: trapFunc", "instrument/instrument_var/var_template.go: genCode"]}
{"id": "C90", "title": "Trapped functions behave as written, also with defer, panic, recover and Goexit", "statement": "Putting xgo's trap at the beginning of functions does not change what a program does: with hooks that only watch, each call (of any function, from any place, also from deferred functions and while a panic is on) does to memory, results, panics and recovers exactly what it does without xgo, and calls that do not end without xgo do not end with it; a replaced function behaves as if its body were that of the replacement. Hooks see each call once when it begins and, unless the replacement panics, once when it ends, after everything the function deferred has run, also when it is left by a panic or by runtime.Goexit; calls nest, and what is seen at the end is the frame with the results that the caller gets. A call is marked as panicked when it is left by a panic; it is also marked when it returns but is called by a deferred function while a panic is on (a fault).", "quantifier": "all programs (bodies with computations, branches, loops, calls, deferred literals and calls, panic, recover, return, Goexit), all choices of trapped functions, hooks, replacements, call contexts, memories and frames", "why_tests_cant": "A test runs a few functions with defers and recovers; the claim is about every program.", "anchors": ["instrument/instrument_func/func_template.go: trapTemplate", "runtime/internal/trap/trap.go: trap", "runtime/internal/runtime/xgo_trap_template.go: XgoPeekPanic, XgoTrap"]}
{"id": "C91", "title": "Start of an instrumented package: order of variables and of init functions, links", "statement": "Instrumentation declares variables and init functions in a package's files and makes functions and getters refer to them. It makes no variable depend on itself, so that what could be initialised still can. The package's own variables are initialised in the same order as without xgo if no variable is declared between one whose initial value uses something intercepted in a file and the code added to that file; otherwise the order can change (a fault: x = f(), declared before y, waits for the variables that belong to f's interception, which are declared behind y). The package's init functions run in the same order, each once. The traps of a file are put in place before an init function of file j exactly when their file comes before j, or is j and the init function is not the first declaration there. The four function variables of each file are linked each to its own function of the runtime.", "quantifier": "all packages (files, declarations, references between variables and functions, choices of what is intercepted), all orders of declaration, all file indices", "why_tests_cant": "Tests start a few packages; the order of initialisation is a property of every dependency graph.", "anchors": ["instrument/compiler_extra/register.go: GetFileRegStmts, GenerateRegCode, DeclarePkgStubs", "instrument/instrument_reg/instrument_reg.go: RegisterFuncTab", "instrument/patch/init.go: GetFuncInsertPosition", "patch/link/link_ir.go: LinkXgoInit, findLink", "instrument/instrument_func/func_template.go: trapTemplate", "instrument/instrument_var/var_template.go: genCode"]}
{"id": "C92", "title": "Coverage view: which lines are shown as covered and as changed, and the summary", "statement": "In the coverage view (xgo tool coverage serve/load) a line of a file is counted exactly if it has code and is no line without code, and it is shown as covered exactly if the first block of code on it ran; this does not depend on the order in which blocks are visited. Hence a covered line has code that ran, and a line all of whose code ran is covered (a line such as `} else {` belongs to the block that begins first, so it may be shown uncovered although code on it ran: counterexample). Lines that go test writes are read back as what they say. Given any comparison of the old and the new text, exactly the lines put into the new one are marked as changed, and each other line is shown beside the old line that it is, with the same text. A line is marked as changed exactly if it is new since the commit compared with, provided the module is at the top of its repository and the file is no renamed one (faults otherwise: renamed files are shown as unchanged; in a subdirectory no line of a committed file is marked, and untracked files are not new). The four numbers of the summary count each such line once (fault: by default the total covers changed files only; lines of test files count as uncovered).", "quantifier": "all profiles, files, blocks, iteration orders of maps, comparisons of texts, repositories, filters", "why_tests_cant": "Tests look at a few files; the view is a function of all blocks, all orders of map iteration and all edits of a text.", "anchors": ["cmd/xgo/coverage/serve.go: handleServe", "cmd/xgo/coverage/serve/serve.go: Serve", "cmd/xgo/internal/vendir/github.com/xhd2015/lines-annotation/load/loadcov/load_all.go: LoadAll", "cmd/xgo/internal/vendir/github.com/xhd2015/lines-annotation/load/loadcov/load_profile.go: parseBlock, ConvertToBinaryProfile", "cmd/xgo/internal/vendir/github.com/xhd2015/lines-annotation/compute/block_id_for_line.go: BlockID_ForLine", "cmd/xgo/internal/vendir/github.com/xhd2015/go-coverage/diff/vscode/mapping.go: ForeachLineMapping", "cmd/xgo/internal/vendir/github.com/xhd2015/lines-annotation/compute/coverage/coverage.go: ComputeCoverageSummary", "cmd/xgo/internal/vendir/github.com/xhd2015/gitops/git/diff_commit.go: DiffCommitFiles"]}
{"id": "C93", "title": "Generated files: one for each source, positions, what is left of earlier runs", "statement": "Without an overlay of the user's own, and with one, Go compiles for each source that xgo changes exactly the text that xgo made of it last, from a file of the source's own: no two sources share one, whatever GOROOT, the project and the directories of GOPATH are, and however these lie within each other; what earlier runs left in the directory of generated files, the order in which files are written, and what other programs do with other files make no difference. Go reports each line of the generated file with the name of the source and the line it has in the new text, as if the source itself had that text, and `//line` comments of the source keep their meaning. Faults: sources in a directory at the top of the file system that is called as xgo calls one (/PROJECT, /GOROOT, /GOPATH, /GOPATH_1\u2026) can share the file of another source; a source that begins with a byte order mark is Go, the file generated for it is not; two runs at once in one project write the same files, and the go command of one can read an empty one.", "quantifier": "all sources and texts, values of GOROOT, GOPATH and the project directory, contents of the disk, overlays, interleavings with other runs", "why_tests_cant": "Tests instrument a few files in one layout of directories, one run at a time.", "anchors": ["instrument/overlay/overlay.go: getPathMapping, MakeGoOverlay", "cmd/xgo/main.go: getPathMappings", "support/fileutil/path.go: RebaseAbsPath", "instrument/patch/line.go: FmtLineDirective"]}
{"id": "C94", "title": "Fetching Go: unpacking stays in its directory, an installation is there as a whole or not at all", "statement": "Unpacking a zip archive of Go changes nothing outside the directory it is unpacked into, whatever names its entries have (absolute ones, with `..`, leading out and back in), and whether it succeeds or fails; an entry whose name does not lead out goes where its name says; when unpacking into an empty directory succeeds, the directory has exactly the files and directories of the archive, each file with the content of its last entry. With any number of runs of the download at once, each killed at any point, the directory of a version is either not there or a whole unpacked archive, or what it was before; once it is there it stays as it is; a run that succeeds has it there; a version that the list of go.dev does not have is not installed. `go1.22` and `1.22` mean the same directory, other versions others. The versions are exactly those named by lines of the page, in their order. Fault: a run that asks for another platform is given the installation that is there, for whatever platform it is.", "quantifier": "all archives and entry names, target directories (absolute and relative), disks, numbers and interleavings of runs, crash points, pages", "why_tests_cant": "Tests try a handful of hostile names and one run at a time.", "anchors": ["support/downloadgo/archive.go: unzip, unzipFile", "support/downloadgo/download.go: Download", "support/downloadgo/list.go: parseDownloadVersions", "support/downloadgo/downloadgo.go: DirName, Target"]}
{"id": "C95", "title": "xgo test --strace leaves the trace of each test in its file", "statement": "With `xgo test --strace` every test that the testing package runs on a goroutine that nothing was registered on leaves, when it ends (also by panic or Goexit), its trace in `<strace-dir>/<test name>.json`, which has exactly the instrumented calls that its goroutine made during the test, each with its end, properly nested, whatever other goroutines (parallel tests, other traces) do meanwhile; missing directories are made, no other file or directory is touched, tests with different names have different files, and the file stays as it is if no other test or trace writes the same one. Subtests and goroutines started by the test, directly or not, write no files of their own. If the file cannot be written there is a message and all files are as before. Without --strace nothing is written but the files given to trace.Trace; a trace.Trace on a goroutine without registrations calls OnFinish once and writes its OutputFile with the calls that its filter lets through. Faults: a mock registered in TestMain, and no test has a trace; tests of the same name in two packages overwrite each other in a common --strace-dir; a relative directory is taken in the working directory that the test ends in; under --xgo-race-safe a subtest's name may lead out of the directory; a trace.Trace inside a traced test writes nothing.", "quantifier": "all histories and interleavings of calls, goroutine starts, registrations, changes of the working directory and of the disk; all test names, directories, configs and filters", "why_tests_cant": "Depends on the interleaving of goroutines and on what was registered before; tests run one test in one directory.", "anchors": ["runtime/internal/trap/trap.go: trap", "runtime/internal/trap/init.go: inerhitStack", "runtime/internal/flags/flags.go: COLLECT_TEST_TRACE, COLLECT_TEST_TRACE_DIR", "runtime/trace/trace.go: Config, Trace"]}
{"id": "C96", "title": "Packages outside the main module get the traps that the run selected, whatever was built before", "statement": "Outside the main module the patched compiler inserts the traps, from a selection that xgo leaves in .xgo/gen, and objects are shared between runs through a build cache. After any history of `xgo test`, `build` and `run` in any projects, with -a, killed at any moment, overlapping when they are in different projects, every package object that a run links, whether compiled by it or taken from the cache, has traps in exactly the functions and interface types that this run selected, and compiling does not fail for want of the selection; a selection that cannot be read makes the compilation fail and is never taken as an empty one. Faults: of two runs at the same time in one project one may compile with the other's selection or without a readable sum, and the wrong object stays in the cache for later runs, also in other projects and also when both runs selected the same; a run that selects nothing, started from a program that xgo built, compiles with the outer run's selection; commands outside the main module (compiled as `main`) and files with a //line directive above the package clause (goyacc) get no traps though selected.", "quantifier": "all histories and interleavings of runs, selections, packages, sources and kill points", "why_tests_cant": "Depends on the cache that earlier runs left and on the interleaving; tests start with a fresh cache and run one command.", "anchors": ["instrument/compiler_extra/compiler_extra.go: BuildMapping, BuildMD5SumMapping, ParseMapping", "cmd/xgo/instrument.go: writeCompilerExtra, md5sumTraps", "cmd/xgo/main.go: XGO_COMPILER_SYNTAX_REWRITE_PACKAGES_FILE", "instrument/instrument_go/xgo_work_sum_template.go: getXgoTrapSum", "instrument/instrument_go/exec.go: execAddXgoTrapSum", "patch/syntax/syntax.go: AfterFilesParsed", "patch/syntax/decl.go: getFuncDecls, initFiles"]}
{"id": "C97", "title": "A mock set with a function value catches exactly the calls of the function the value names", "statement": "mock.Patch, mock.Mock and the recorders take a function value: F, T.M, x.M, F[T], or v.M for v of an interface type. For every program, after any earlier mocks, asking for a mock runs none of the program's code and leaves nothing behind but the mock; afterwards, in every run, however deep the call, exactly the calls of that function (with these type arguments, for a method value on this receiver) are replaced, and others are treated as before; what is not instrumented is refused with a panic and nothing has run. Faults: v.M where the method of the value in v is not instrumented runs the real method with zero arguments, and may set the mock on some other method that it calls; I.M for an interface type I, and a generic function given by name, are accepted and the mock never fires; an instance for one pointer type catches those for all pointer types; a method value whose receiver cannot be compared with == makes every call of the method panic.", "quantifier": "all programs (call graphs, bodies, generic instances), function values, earlier mocks, and runs of any depth", "why_tests_cant": "Whether the probing call runs user code, and what is then caught, depends on the program's call graph and on which code is instrumented; tests probe a few instrumented methods.", "anchors": ["runtime/internal/trap/inspect.go: Inspect", "runtime/internal/trap/trap.go: trap", "runtime/internal/trap/mock.go: pushMockReplacer, pushMockInterceptor, pushMockHandler, PushMockByName, sameReceiver", "runtime/internal/trap/stack_data.go: getLastMock", "runtime/functab/functab.go: registerIndex"]}
{"id": "C98", "title": "Mocks, traces and calls while packages are being initialised", "statement": "For every interleaving of goroutines before, across and after the end of package initialisation: a call of an instrumented function is skipped (returns zero results at once) only if it is the probing call of its own goroutine's mock.Patch(x.M, \u2026); asking for a mock on one goroutine never affects calls on another; trace.Trace records unless a trace is already running on the goroutine. Holds after initialisation for all schedules, and during it when no goroutine does anything while another asks. Faults: during initialisation all goroutines share one state: while one asks for a mock of a method value, calls of others are skipped and the mock is set on the function they called; if initialisation ends meanwhile, the real method runs; trace.Trace during initialisation panics, or, once a method value was mocked, records the first time only.", "quantifier": "all histories of asks, calls and traces on any number of goroutines, with initialisation ending at any point", "why_tests_cant": "Depends on the schedule relative to the end of initialisation; tests run after it.", "anchors": ["runtime/internal/stack/g.go: GetStack, GetOrAttachStack, DetachStack", "runtime/internal/trap/trap.go: trap", "runtime/internal/trap/inspect.go: Inspect", "runtime/internal/trap/stack_data.go: getOrAttachStackData"]}
{"id": "C99", "title": "Marshalling values for a trace", "statement": "For every value, with MarshalJSON methods that do anything: marshalling it for a trace shows it as encoding/json would, with funcs, chans and other types that have no JSON form shown by the name of their type and everything beside them kept; each argument of a call is shown under its name, in order, as it would be alone, and what one of them does (an error, a panic) costs only itself; the traced call goes on. However marshalling ends (text, error, panic, end of the goroutine), the goroutine is then in the mode it was in before, and the program's own json.Marshal, on every goroutine, behaves as in Go without xgo. Faults: a MarshalJSON method that the tracer calls sees its own json.Marshal of a func succeed; one that ends its goroutine, or whose error panics when asked for its message, ends or panics the traced call; a NaN costs its whole argument.", "quantifier": "all values (trees of any depth), all programs of MarshalJSON methods, with traced calls, traced variables and goroutines in them, all states of the goroutine", "why_tests_cant": "Ranges over all values and all methods of the user's types; the mode is hidden state of the goroutine that must go back on every way out.", "anchors": ["runtime/internal/runtime/marshal.go: MarshalNoError", "cmd/xgo/asset/patches/go1.25/src/encoding/json/encode.go.xgo.patch", "cmd/xgo/asset/patches/go1.25/src/runtime/xgo_trap.go.txt: XgoIsLooseJsonMarshaling", "runtime/internal/trap/object.go: structValue.MarshalJSON", "runtime/internal/trap/trap.go: trap", "runtime/internal/trap/var.go"]}
{"id": "C100", "title": "Recording and exporting at the same time", "statement": "However many goroutines record calls, start goroutines, end, and export traces at the same time, and however their steps are interleaved: what the operations on recorded stacks return, and what they leave behind, is what they would have if made one after another in the order in which they returned. So no export shows an entry half built or half finished, every export shows all calls recorded before it, with those that had finished as finished, and no operation waits for ever. Limits: an access of a variable can be shown as running although it is over, because it is recorded in two steps; the stacks of different goroutines are copied at different moments, so a trace can show a later call without an earlier one; and one call of an instrumented function while a stack is locked would block all operations on that stack for ever.", "quantifier": "all programs of any number of goroutines over any number of stacks, all schedules of single reads and writes, all times and entries", "why_tests_cant": "Races show only under particular schedules; the number of interleavings grows without bound.", "anchors": ["runtime/internal/stack/stack.go: PushNew, Finish, AppendGoChild, SetEndIfZero, Snapshot, GetData, SetData, cloneEntries", "runtime/internal/stack/export.go: Export, ExportStackEntry", "runtime/internal/trap/trap.go: trap", "runtime/internal/trap/var.go", "runtime/internal/trap/init.go"]}
{"id": "C101", "title": "Every HTTP request is answered with its result or its failure", "statement": "Every endpoint of the test explorer answers a request with what happened: the result as JSON with status 200, or the text of the error with its own status (400 for bad parameters, 500 otherwise, also if the handler panics), and every answer may be read by a page from any origin; a preflight request does nothing. Whatever requests came before, polling a session answers with its events if it was started under the same prefix and not destroyed since, and with 400 naming it otherwise; destroying a session removes that session and no other; /detail answers with exactly the text of the first test function of the name in the file. Limits: a panic with an error value - all panics of the Go runtime - is answered with 200 and null, so polling or destroying without a body looks like a success although nothing was done; the content type of an error is guessed from its text.", "quantifier": "all handlers and values, all methods, all request histories over the three session prefixes, all files and parsers", "why_tests_cant": "Needs every way a handler can end and every history of requests.", "anchors": ["support/netutil/http.go: HandleJSON, ParamErrorf, SetCORSHeaders", "cmd/xgo/test-explorer/main.go: parseBody, getDetail", "cmd/xgo/test-explorer/run_session.go: setupSessionHandler", "cmd/xgo/test-explorer/poll.go: setupPollHandler", "support/session/session.go: Start, Get, Destroy"]}
{"id": "C102", "title": "The hooks are put into the Go sources at their places, once, and can be taken out", "statement": "Instrumenting a Go distribution of version 1.17 to 1.26 gives each of the seven files that are edited (runtime/runtime2.go, runtime/proc.go, runtime/time.go, time/time.go, time/sleep.go, encoding/json/encode.go, testing/testing.go) exactly its original text with the hooks at their places, whatever edits an earlier version of xgo has left in it: a field at the end of g; the callback that packages are initialised before main_init_done is closed; the callback of an exiting goroutine first in goexit1; the callback of a new goroutine after newproc1 returns and before its race detection is set up, which newproc1 then no longer does; a copy of time.Now; a time.Sleep with a body; loose JSON before the error; the directory of a test before it is run. Doing it again changes nothing; removing the edits gives the original files; the text of the files stays on its lines (but for runtime/time.go, one line lower after the linkname). If a file has not got the place of its first hook, this is an error, the files before it have their hooks and the others are as they were; sources of other versions are left alone.", "quantifier": "all texts of the seven files that have the anchors once and in order, all earlier edits that can be undone, all versions of Go", "why_tests_cant": "Go's sources differ between versions and may have been edited by any earlier version of xgo; a test sees a few of them.", "anchors": ["instrument/instrument_runtime/instrument.go: InstrumentRuntime", "instrument/instrument_runtime/runtim2.go: instrumentRuntime2", "instrument/instrument_runtime/proc.go: instrumentProc, getProcAnchor, instrumentNewGroutineV2, instrumentGoexit, instrumentInitFinished", "instrument/instrument_runtime/time.go: instrumentTimeNow, instrumentTimeSleep, instrumentRuntimeTimeSleep", "instrument/instrument_runtime/json_encoding.go: instrumentJsonEncoding", "instrument/instrument_runtime/instrument_testing/testing.go: Instrument", "instrument/patch/patch.go: EditFile, UpdateContent"]}
{"id": "C103", "title": "`xgo tool NAME` runs the tool of that name, and no other program", "statement": "`xgo tool` with help, list, trace, coverage or test-explorer never depends on what is on the disk. With another name, the program run is the file of that name in the directory of xgo or, if there is none there, in ~/.xgo/bin; it is run with the arguments after the name, unchanged; if there is neither, the tool is reported as unknown and nothing is run. A name with a slash, and xgo's own name, are unknown. No other program of that name, in the working directory or on PATH, is ever run.", "quantifier": "all disks, working directories, values of os.Args[0], HOME and PATH, all names and arguments", "why_tests_cant": "A test runs with one disk, one PATH and one way of starting xgo; the fault needs xgo started by its name and a file of the tool's name in the working directory.", "anchors": ["cmd/xgo/tool.go: handleTool, tryHandleTool", "support/cmd/cmd.go: Run"]}
{"id": "C104", "title": "The go command, the cover tool and the compiler are edited at their places, once, and can be restored", "statement": "For Go 1.17 to 1.26, setting up the instrumented GOROOT edits cmd/go/internal/work/exec.go, cmd/go/main.go, cmd/cover/cover.go and cmd/compile/internal/gc/main.go: the sum of what xgo traps in a package becomes part of what the go command hashes for it, coverage reads the file that replaces a source file, xgo's check runs before the first command of go, the cover tool takes out and remakes xgo's edits, and the compiler calls xgo's part. Each text is put at its place and nowhere else, whatever edits an earlier version of xgo has left; nothing else changes, the text stays on its lines, doing it again changes nothing and the edits can be taken out. Without the place of the first edit, and with another version of Go, this is an error and the file is as it was.", "quantifier": "all texts of the four files that have the places once, all edits an earlier version left, Go 1.17 to 1.26", "why_tests_cant": "A test edits one Go distribution of one version, from a clean copy; the property ranges over all texts, versions and earlier edits.", "anchors": ["instrument/instrument_go/exec.go: instrumentExec, execAddXgoTrapSum", "instrument/instrument_go/go_cmd.go: instrumentGoMain", "instrument/instrument_go/go_tool_cover.go: instrumentCmdCover", "instrument/instrument_compiler/patch_compiler.go: patchGcMain", "instrument/patch/patch.go: UpdateContent, EditFile"]}
{"id": "C105", "title": "The compiler gets xgo's part and xgo's runtime functions at their places, once", "statement": "For Go 1.17 to 1.26, setting up the instrumented GOROOT edits the compiler's noder.go and its list of runtime functions: xgo's packages are imported after the name of the package, the parsed files are given to xgo after the line that counts their lines, xgo gets the function that names files, and the functions of xgo that compiled code can call follow the last of Go's. Each text is put at its place and nowhere else, whatever edits an earlier version of xgo has left; nothing else changes, doing it again changes nothing and the edits can be taken out. A file without the place of the first edit, and noder.go of another version, are left as they were with an error. The methods that syntax nodes have since Go 1.22 are added exactly before 1.22.", "quantifier": "all texts of the two files that have the places once, all edits an earlier version left, Go 1.17 to 1.26", "why_tests_cant": "A test edits one Go distribution of one version, from a clean copy; the property ranges over all texts, versions and earlier edits.", "anchors": ["instrument/instrument_compiler/patch_noders.go: PatchNoder", "instrument/instrument_compiler/patch_noders_def.go", "instrument/instrument_compiler/mkbuiltin.go: PrepareRuntimeDefs", "instrument/instrument_compiler/patch_syntax_node.go: PatchSyntaxNode", "instrument/patch/import.go: AddImportAfterName"]}
{"id": "C106", "title": "The debugger's edits of the go command do not harm the other edits", "statement": "A GOROOT set up for debugging the compiler has, in the function of the go command that runs commands, the debugger's text after the line with the command and after the line with the time, in addition to all other edits of the go command. Without debugging the function is left alone. Setting up again changes nothing; a go command without the function, or of another version, is an error. (False up to Go 1.21: the function is in exec.go there, which is edited a second time for this, and every edit of a file first takes out all marked text: the sum of the traps in the build ID and the covering of rewritten files are lost, so that a change of what is trapped does not recompile a package. From 1.22 on it is shell.go and the claim holds. A later setup without debugging leaves the debugger's text in shell.go.)", "quantifier": "all texts of exec.go, main.go and shell.go that have the places once, all edits an earlier version left, Go 1.17 to 1.26, with and without debugging; for the general fact all two edits of one file", "why_tests_cant": "No test sets up a GOROOT of an old version for debugging and then looks for the other edits; the property ranges over texts, versions and earlier edits.", "anchors": ["instrument/instrument_go/instrument_gc/gc.go: InstrumentGc", "instrument/instrument_go/go_cmd.go: BuildInstrument", "instrument/patch/patch.go: EditFile"]}
{"id": "C107", "title": "After xgo upgrade the user runs the newest version, and is told so", "statement": "`xgo upgrade` that ends well has installed the newest version, in the directory asked for with --install-dir if there is one, and nothing else has changed; the user's xgo is the newest version afterwards, and the report names the versions before and after. If there is no xgo on PATH afterwards the user is told how to get it. If something fails the error is reported. (False of the code: --install-dir makes no difference, and without a directory it crashes; with an older xgo in an earlier directory of PATH the older one stays, and is reported as upgraded; a broken xgo cannot be repaired; the first installation is reported as 'v -> v1.1'.)", "quantifier": "all arguments, all lists of directories in PATH with any programs xgo in them, all newest versions, and failures of go install", "why_tests_cant": "Depends on PATH, what is installed where and the network; no test runs the command.", "anchors": ["cmd/xgo/upgrade.go: handleUpgrade", "cmd/xgo/upgrade/upgrade.go: Upgrade, cmdXgoVersion, cmdInstallXgo"]}
{"id": "C108", "title": "Each project has its own coverage in the test explorer", "statement": "The coverage that the test explorer shows for a project is that of the last run of this project's tests, whatever other projects have been run in between, or none after the start of a run of the whole project; its file is below the directory for temporary files, and no session fails because of another one. (False of the code for names with special characters, which are left out of the name of the file: \"c++\" and \"c\", \"my app\" and \"my_app\" share their coverage, \"(..)\" leads to a file elsewhere; and a project in a directory named coverage.out breaks the sessions of the project above.)", "quantifier": "all histories of runs and clearings of all projects, all directories, all directories for temporary files, all coverage", "why_tests_cant": "Depends on the history of sessions of several projects and on the names of directories; tests use one project with an ordinary name.", "anchors": ["cmd/xgo/coverage/cov_control/cov_control.go: New, Clear, mapCovDir", "cmd/xgo/test-explorer/main.go", "support/fileutil/path.go: CleanSpecial"]}
{"id": "C109", "title": "Debugging a test in the explorer runs what running it runs", "statement": "Debugging a case in the test explorer (nothing else can be debugged) builds and debugs the tests that running the case runs: the same package with the same build flags and environment, in the package's directory, with the same settings of the test's binary and the same program arguments, of which the debugger takes none; the debugger listens at the first port from 2345 on that is free, is started only if the build succeeded and at most once, and the temporary directory is removed however it ends. (False of the code: flags of the configuration for the test's binary, like -count=3, are lost when debugging; the configuration's environment is missing from the build.)", "quantifier": "all items, all flags, program arguments and environments of the configuration, all temporary directories, all schedules and states of the ports", "why_tests_cant": "Depends on how three programs (go, dlv, the test's binary) divide arbitrary command lines, and on what other programs do with the ports; there are no tests of debugging.", "anchors": ["cmd/xgo/test-explorer/debug.go: debugTest", "cmd/xgo/test-explorer/run_session.go: Start, runTest", "cmd/xgo/test-explorer/run.go: formatPathArgs, formatRunNames, joinTestArgs", "support/debug/debug.go: FormatDlvArgs", "support/netutil/netutil.go: ServePort"]}
{"id": "C110", "title": "The trace shown for a case is the trace of its run", "statement": "After a case has been run with tracing in the test explorer, the trace shown is the one that this run wrote for this case, and none if it wrote none; it is never the trace of another case, package or project; and what is shown are the calls of the trace, all of them, in order and at their depth. (False of the code: the directory of traces is kept and never emptied, so that a run that does not compile shows the trace of an earlier run; a package in a directory named like a test shares its traces with the subtests of the package above it; and with a project two directories below its module the names come in reverse order, so that it shows the traces of another package.)", "quantifier": "all histories of traced runs of all cases, packages, projects and modules, all traces, all starting contents of the directory for temporary files", "why_tests_cant": "Depends on the history of runs and on the layout of modules and packages; tests look at one run in a fresh directory.", "anchors": ["cmd/xgo/test-explorer/run_session.go: Start, readTrace, getConsistentTraceDir", "support/goinfo/find.go: FindGoModDirSubPath", "cmd/xgo/test-explorer/trace_record.go: convertStacks"]}
