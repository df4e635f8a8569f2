C01 | registry machine: heap of per-goroutine stack data, global holder, push, cancel, create goroutine, end of init | refinement: the machine's view equals a function of the history (`RegistrySpec`), by induction over histories
C02 | same machine | corollary of the refinement plus list lemmas on removal by identity
C03 | same machine | corollary; the state after a refused cancel is equal to the state before
C04 | same machine | the view of a goroutine depends on its own operations only, by induction
C05 | same machine with goroutine creation | view of the new goroutine is the creator's at creation; independence by C04's invariant
C06 | same machine with end of init | invariant: the global holder is frozen
C07 | interpreter of programs; handler filter on receivers | induction on runs over the event log; witness for post hooks
C08 | interpreter | witness; theorem for the mock installed last
C09 | registry clone on goroutine creation | witness; theorem for unbound recorders
C10 | interpreter | every call's own events, induction on the run relation
C11 | interpreter | own events of a call are the pre order then the post order; witnesses
C12 | interpreter with trapping depth | nesting invariant over runs; termination of interception by a measure
C13 | interpreter | induction on runs
C14 | interpreter + stack machine | log of a run parses as a forest; exported tree equals the forest
C15 | stack machine over an index heap | invariant over all operation sequences
C16 | stack machine with a clock | invariant over all operation sequences, nesting via the forest grammar
C17 | trace start/finish on the registry machine | witness and partial theorem
C18 | trace start on the registry machine | witness and partial theorem
C19 | variable getters, traps, registries | for all histories, via C01's specification; witness
C20 | type checks of trace.Record | decision logic; witness
C21 | adapters of build.go | algebraic law for every argument list
C22 | type checks by name | decision logic with `List` induction; witness
C23 | one call with user interceptors | decision logic over all interceptor lists
C24 | patch text engine, block by block | `apply ∘ apply = apply` through C25's cleaning theorem; witnesses
C25 | CleanPatch / clearPatch on lists of bytes | substring-search lemmas, induction on the edits
C26 | UpdateContent and the other marked edits | case analysis on searches; witnesses
C27 | edit buffer | refinement to a position-wise specification
C28 | pattern matcher | soundness and completeness against the declarative `*`/`**` relation; witnesses
C29 | semver.go | parser equals a grammar; comparison equals the precedence order; order lemmas
C30 | version.go, goinfo.go | as C29; round trip of String
C31 | coverage merge on line objects | sums over multisets, induction
C32 | coverage parse/format | round trip for every text
C33 | overlay composition | well-founded recursion; relation to the end of a chain
C34 | rule matching | first-match specification, induction on rules; relative to C28
C35 | rule merging | list equations
C36 | flag parser | equations for both forms
C37 | ParseFuncName | string splitting lemmas, against the runtime's grammar of names; witnesses
C38 | function table | refinement to "last registered" specification
C39 | traversal of bodies with scopes | mutual induction on syntax; every recorded reference satisfies Go's scoping rules; witnesses
C40 | naming of parameters, in place and in compiler | freshness by tags and numerals
C41 | goroutine-local storage on reused g structs | refinement to per-goroutine maps
C42 | line editor, unpatch, statement matching | position-wise specification; witnesses
C43 | handler loops over slices with shared arrays | invariant; witnesses
C44 | overlay + in-memory file system + final overlay | what a build reads, for every path; witnesses
C45 | membership tests | equivalence with path prefix by components
C46 | package patterns of rules | characterisation; witness
C47 | selection of functions | decision logic as iff statements; witnesses
C48 | option loop of cmd/xgo | induction on the argument list against a grammar of arguments; witnesses
C49 | package extraction | as C48
C50 | one call with watching interceptors | results equal those without them; witness
C51 | cache key text | injectivity where true; witness
C52 | gitignoreAdd | line-wise specification; witness
C53 | generated identifiers | distinctness by tags; use/declaration; witnesses
C54 | reported names | equation; witness
C55 | lookup by name | via C38; witnesses
C56 | EditFile | via C25; witness
C57 | patch commands and places | positions against the syntax tree; edits against markers; witnesses
C58 | parser of patch files | parse of every printed file; refusal; witnesses
C59 | traversal of bodies | `Nodup` of rewritten positions; completeness by mutual induction; witnesses
C60 | rewriting of references | equations on rendered expressions; witness
C61 | walk over a tree, file system as map, workers as a transition system | induction on the tree; invariants and a measure on the transition system; witnesses
C62 | putting packages together, renaming, reports, working directories | induction on lists; numbering lemma; witnesses
C63 | session as a channel of capacity 100 with any number of senders and polls; manager with atomic counter and map | invariants on transition systems
C64 | scanning, filtering, the go test command, selection by -run (regular expressions without groups) | mutual induction on trees; matching lemmas; witnesses
C65 | record of statuses as a trie, events per line of go test -json, the end of a run with every order of map iteration; stderr, traces and coverage are left out | invariant relating record and events; induction on the lines; witnesses
C66 | processes as lists of operations on the directory of the instrumented GOROOT; an operation may be half done and leave anything; runs are started, interleaved and killed at any point; what patching and building do is a parameter | invariant over reachable states (what the record of the full copy and the recorded revision imply); witnesses
C67 | the syntax of Go as far as the resolver looks at it (mutual inductive types), the scopes of the resolver, the resolver itself with fuel, the traversal; separately the scoping rules of Go and the rules for what an expression denotes | soundness of the resolver by induction on fuel against the rules (what a result claims, by induction on types), the traversal by induction on statements with an invariant between the code's scope and Go's; completeness for plain targets by induction on the derivation; witnesses
C68 | the readers, parsers, bounded channels, wait group and done channel, every access to the fields of a file as a step; go list, the overlay and the parser are parameters; memory is sequentially consistent | invariant over all interleavings (files on their way, counter, what the fields hold), a measure that every step decreases, case analysis for progress; a schedule as counterexample
C69 | the text edit, the choice of files, the replacement through the overlay; go list and the file system are parameters; the specification is a scanner for Go tokens with comments, strings, automatic semicolons and line numbers | the scanner run is split at the place of the edit and shown to be in the same state after it; keys of the replaced map for the choice of files; counterexamples by computation
C70 | the parser of modules.txt, the flags of go mod edit, their batches, the placeholder go.mod files; specification: what go mod vendor writes, what go mod edit does, how go searches a package in the modules of the build | induction over the lines and modules; membership in go.mod after the edits; the longest vendored module path that is a prefix of the package is the only provider; counterexamples by computation
C71 | the extraction of the embedded runtime, the comparison of its number with that of the copy, and the edits of core/version.go, runtime_link.go, flags.go and trace.go by the linking; specification: the lines of the linked files, and where each file comes from in a history | text lemmas: each constant is on one line, the edits are idempotent and commute with lines; invariant on the copy kept by every run and by every write of the linking; induction over the runs; counterexamples by computation
C72 | the notes after the file (file name, edits, original) with strconv.Quote, strconv.Unquote and the JSON of the edits, their recovery from the last three lines, and the replay on the buffer of the cover tool; specification: the program as characters tagged source, removed, xgo, counter, and the plain cover tool | round trips of both quotings by induction over the text; the lines found from the end; the bytes of the buffer with the insertions of both by C27; the tagged text projected to each of the four programs; counterexample by computation
C73 | the resolver (names, selectors, operators, calls, literals, types), with the scope of the first reference as a parameter, the text of the type with the recorder of imports, for all variables of a file; specification: the typing rules of Go for these expressions as an inductive relation, with the meaning of a written type in a file | soundness of the resolver against the typing rules by induction on the fuel, with what a found type stands for; the recorder by the number in each name, distinct by the decimal numeral; the text as a printed type expression that means the type in the file with the imports; counterexamples by computation and inversion of the rules
C74 | filepath.Clean/Dir/Abs on lists of parts, the loops of findGoMod and FindGoModDirSubPath over a file system given by the state of each go.mod, parseModPath by lines, ResolveModulePkgPath, getProjectRoot, the directory scanTests walks | induction over the path upwards; cleaning a path and joining it to the working directory commute, so that Dir takes off one part of the absolute path whenever the last part is a proper name; the text of the statement line is cut at the first // by induction
C75 | Go strings as runes and stray bytes, strconv.Quote, a JSON reader with the escapes of encoding/json, MarshalNoError, the limit with its cut by bytes, structValue.MarshalJSON, which arguments and results are taken; json.Marshal of a user value is an arbitrary outcome (text, error, panic); numbers are read more widely than JSON; the flag for loose marshalling is not modelled | the reader is monotone in its fuel and reads a text within a context as alone; what %q writes is read back character by character or refused; induction over the fields
C76 | per-goroutine stacks with their methods as atomic steps of one history; the goroutine creation and exit hooks; the export as a walk observing the world at moments given by an arbitrary schedule | invariant between the entry heap and a zipper of acts, equivalence of the zipper with a bracket grammar, induction over the nesting of goroutines; uniqueness from the tree of go statements being acyclic with unique parents
C77 | ReadStacks over text (a JSON scanner with sticky errors), the two passes of RenderStacks with the pointer-to-id map, renderItem, json.Marshal with HTML escapes, html.EscapeString, formatCost, the older format and the HTTP handler; the page as lines | structural induction over first-child/next-sibling forests for numbering, outline reader as left inverse of the item lines, mutual induction for the JSON round trip, locality of the scanner for cut objects
C78 | the package variables of xgo_trap.go, the patched newproc, goexit1 and main as steps of a history, __xgo_g per g struct with reuse | induction over histories; simulation invariant between g structs and one state per goroutine
C79 | the shadow's main, the search of PATH with its exclusion, exec.LookPath with ErrDot, the chain of processes, getNakedGo | PATH split at the first real go; cleaned paths from the model of C74; induction over the chain for the loop
C80 | xgoPrecheck in the instrumented go, the environment of every command xgo starts, the chain of processes, exit codes | the last entry of a name in an environment; case analysis of at most three processes and induction over the chain
C81 | ServePort with its shared loop variable, its watchers with their channels, GetHostAndIP, the variable behind the page's links | invariants over all interleavings; a counting invariant for the end of the search
C82 | checkGoroot, PathSum with the shortened path, the detection of an instrumented GOROOT, instrument, cache and copy directories, --delete | names are injective in version, shortened path and digits; siblings' trees are disjoint; pigeonhole
C83 | Parse and its helpers on JSON values, decoding into structures, EnvPairs, version bounds, merging with the command line, the go test command | key by key characterisation of reading; induction on members and map orders; counterexamples for what does not hold
C84 | the pipes of a run, the scanners with their buffer, the end of the run, as a transition system | invariant: text = lines given out, buffer, rest; measure for termination; counterexample runs
C85 | Quote, the debug text, the environment, Output and Run with and without a builder | lemmas on the reading of quoted and plain words; counting characters for the converse
C86 | Main, mergeCover, hasAnyPrefix, handleServe's flags, over the model of support/coverage (C31, C32) | C31/C32 for the merge and the text; induction over command lines; distinct and total over appended lists
C87 | Main, parseOptions, handleCompile, ToolExecMain, handleInsertTrap, replaceWithTmpFiles, InjectRuntimeTrap; debugging as one outcome; the go parser as a parameter | induction over command lines and files; C27 for the edit; only operations that touch a file matter, so other compilations can be filtered out of any interleaving
C88 | Instrument/RegCode (the text of the registration code), Instrument/SourceLines (all edits of a file as operations of the edit buffer of C27), SourceLinesSpec | the result of the buffer is described by C27; the line breaks before a character are those before it in the source, less those taken out, plus those in texts inserted before it; each inserted text has no line break by cases over the templates
C89 | Instrument/RegCode and Instrument/SourceLines (texts written), RegReadSpec (a reader for declarations, literals and statements, and what init functions do) | each text written is balanced outside of strings, so the reader splits it where it was joined (`Good`, `Reads`); literals are read field by field; quoted texts by unquote_quote; names distinct by the identifiers of C51
C90 | Runtime/Defer (a language with defer, panic, recover, Goexit; the statements put into functions; what the trap does), Runtime/DeferSpec | what is deferred before a block does not matter to the block (code_under), so the post function runs last (frame_post); induction on the depth of calls; logs by the nesting of frames
C91 | Instrument/InitOrder (declared variables and init functions, what refers to what), Instrument/InitOrderSpec (the initialisation order of the Go specification) | dependencies between the user's variables are the same (depends_iff); simulation of the initialisation of the source by that of the instrumented package (simulate); blocks of files for init functions
C92 | Cmd/CovView (parseBlock, block ids, BlockID_ForLine, execution labels, Uncoverable, ForeachLineMapping, DiffCommitFiles for one file, file filter, ComputeCoverageSummary), Cmd/CovViewSpec (first block, comparison of two texts, counts) | the loop over blocks keeps the minimum of a strict order (fold_first); induction over the pieces of a comparison (spans_same, spans_new); counted lines are a list without repetition
C93 | Instrument/GenFile (getPathMappings, getPathMapping, RebaseAbsPath, FmtLineDirective, MakeGoOverlay as acts on a disk, Go's //line) | a mapped path is a name without slash and a rest, cut uniquely; the last number behind a colon is read back; acts of other runs commute with those of the run; C44 for the overlay
C94 | Support/GetGo (filepath.Clean/Join/Rel as lists of parts, MkdirAll, unzip, page lines, Download as a transition system of any number of runs) | a cleaned path has `..` only at its front (canon_fold), so what passes the check is the directory and ordinary parts; invariants over entries and over steps of runs
C95 | Runtime/TestTrace (when a trace begins, what is recorded, MkdirAll and WriteFile, inheritance by goroutines; a history is a list of events of any goroutines) | a new stack belongs to one goroutine (Own), so the events of others do not touch it; window lemma by induction on the history; provenance of frames for `only` and `kept`
C96 | Cmd/Handoff (maps, sums, the two files with their half-written states, environment, cache keys, the compiler's lookup; a history is a list of events of any runs) | invariant over the history: live runs have different projects, files of a run that builds hold its selection, every cache entry was made for a selection with the sum in its key
C97 | Runtime/PatchTarget (Inspect with its probing call, trap while inspecting and otherwise, push of the mock; programs are arbitrary call graphs) | invariant of runs inside and outside of Inspect over the call depth and the statements; the hook pushed is computed for each kind of value
C98 | Runtime/InitPhase (which stack data a goroutine sees before and after the end of initialisation, inspecting, start and end of traces) | invariant over the history: who asks, where its handler is, whose handler each stack data holds
C99 | Runtime/LooseJson (MarshalNoError, the patched unsupportedTypeEncoder, structValue, MarshalJSON methods as programs, with the goroutine's flags) | mutual structural induction over values and methods; Go without xgo is a separate semantics (std) in the specification
C100 | Runtime/Mutex (every method of Stack as single reads and writes under its mutex, goroutines as programs of calls, the interleaving semantics) | an invariant of all interleavings relates the memory of each stack to the serial history and, while the mutex is held, to the rest of the section; the methods alone equal the operations of Runtime/Stack; deadlock by preservation of the stuck state
C101 | Support/HttpJson (ResponseWriter, HandleJSON with its deferred recover, parseBody, session endpoints as a transition system, /detail) | case analysis on how a handler ends; induction over the request history relates the manager's map to starts without later destroys
C102 | Instrument/GoHooks (the text edits of the seven files on Instrument/PatchText, and InstrumentRuntime over the tree) | each edit is computed on abstract anchors (an insertion cannot create or hide an anchor, since every mark begins and ends with '/'); C25/C56 for earlier edits and a second run; induction over the list of files
C103 | Cmd/Tool (handleTool, tryHandleTool, filepath.Base/Dir/Join, exec.LookPath on an arbitrary disk) | cleaned paths: a cleaned relative path is some .. and then names, so that joining a name keeps the directory; induction over PATH
C104 | Instrument/GoCmd (instrumentExec, instrumentGoMain, instrumentCmdCover, patchGcMain on Instrument/PatchText) | each sequence of edits is computed on abstract anchors and marks (a mark begins and ends with '/', so it cannot create or hide an anchor); C25/C56 for earlier edits and a second run
C105 | Instrument/GoComp (PatchNoder, PrepareRuntimeDefs, PatchSyntaxNode on Instrument/PatchText) | the four edits of noder.go are computed on abstract anchors and marks (the end of the name of a package is found also with marks behind it); C25/C56 for earlier edits and a second run
C106 | Instrument/GoDebug (InstrumentGc, BuildInstrument up to it, on Instrument/GoCmd and Instrument/PatchText) | the two insertions are computed on abstract anchors; the second edit of exec.go by C25_clean, whose result is the original
C107 | Cmd/Upgrade (handleUpgrade, the reached part of Upgrade, exec.LookPath) | the result computed from the versions before and after; lookup characterised by the first directory
C108 | Cmd/CovProfile (mapCovDir with filepath.Join, New, Clear, the profile that go test writes, on a disk of files and directories) | invariant: directories of xgo never have the name of the profile as an element, files always do; induction over the history
C109 | Cmd/ExplorerDebug (runTest, debugTest, FormatDlvArgs, the flags of a session), with testPaths of Cmd/TestExplorer and ServePort of Support/ServePort | the command lines are read by a specification of go test, dlv exec and the flags of a test's binary; induction over flags, packages and settings; invariant of ServePort
C110 | Cmd/CaseTrace (FindGoModDirSubPath, getConsistentTraceDir, the file of a trace, what is read after the run) and Cmd/CaseTraceRecords (traceConverter), what a run writes as in C95 | induction over the reversed path for the module; the name of the file determines package and test; induction over the history
