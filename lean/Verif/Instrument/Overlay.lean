/-
Model of Go overlays: the in-memory file system of xgo, and how it is combined with the `-overlay` of the user.

Source: instrument/overlay/overlay.go, instrument/overlay/io.go

Paths are elements of any type `α`. `res` stands for `ResolveAbsFile` (io.go:133-139), `can` for `evalSymlinksAbs`
(io.go:148-154) and for `absFileKey` (overlay.go:33-40), which does the same on systems with forward slashes.
File operations that fail are not modelled.
-/

namespace Verif.Instrument.Overlay

/-- A Go map, as a list of pairs in the order in which `range` would go through them. -/
abbrev Map (α β : Type) := List (α × β)

variable {α β : Type} [DecidableEq α]

/-- `m[k]`. -/
def Map.get (m : Map α β) (k : α) : Option β := m.lookup k

/-- `m[k] = v`. -/
def Map.set (m : Map α β) (k : α) (v : β) : Map α β := (k, v) :: List.filter (fun e => decide (e.1 ≠ k)) m

/-- `OverlayEntry` (io.go:27-35). -/
structure Entry (α : Type) where
  sourceInput : α
  sourceResolved : α
  sourceCanonical : α
  targetResolved : α
  targetCanonical : α

/-- `ParseGoOverlay` (io.go:66-83). -/
def parseGoOverlay (res can : α → α) (input : Map α α) : List (Entry α) :=
  List.map (fun e => ⟨e.1, res e.1, can (res e.1), res e.2, can (res e.2)⟩) input

/-- One round of the loop of `CanonicalReplace` (io.go:108-113). -/
def canonicalStep (result : Map α α) (e : Entry α) : Map α α :=
  if result.get e.sourceCanonical = none ∨ e.sourceInput = e.sourceCanonical then
    result.set e.sourceCanonical e.targetCanonical
  else result

/-- `CanonicalReplace` (io.go:103-115). -/
def canonicalReplace (p : List (Entry α)) : Map α α := p.foldl canonicalStep []

/-- `ProjectOntoCallerSources` (io.go:119-131). -/
def project (p : List (Entry α)) (composed : Map α α) : Map α α :=
  p.foldl (fun m e =>
    match m.get e.sourceCanonical with
    | some target => m.set e.sourceResolved target
    | none => m) composed

/-- Copying one map over another (io.go:169-171, 176-180). -/
def copyOver (dst src : Map α α) : Map α α := List.foldl (fun m e => m.set e.1 e.2) dst src

/-- The combined mappings (io.go:167-181). -/
def combined (res can : α → α) (caller : Option (List (Entry α))) (generated : Option (Map α α)) : Map α α :=
  let c := match caller with
    | some p => copyOver [] (canonicalReplace p)
    | none => []
  match generated with
  | some g => copyOver c (canonicalReplace (parseGoOverlay res can g))
  | none => c

/-- The keys of a map. -/
def Map.keys (m : Map α β) : List α := List.map (·.1) m

omit [DecidableEq α] in
theorem lookup_mem [BEq α] [LawfulBEq α] {m : List (α × β)} {k : α} {v : β} (h : m.lookup k = some v) :
    k ∈ m.map (·.1) := by
  induction m with
  | nil => simp at h
  | cons e m ih =>
    rw [List.lookup_cons] at h
    split at h
    · rename_i he; simp at he; simp [he]
    · simp [ih h]

theorem filter_lt {l : List α} {path : List α} {s : α} (hs : s ∈ l) (hp : s ∉ path) :
    (l.filter (fun k => decide (k ∉ path ++ [s]))).length < (l.filter (fun k => decide (k ∉ path))).length := by
  have : l.filter (fun k => decide (k ∉ path ++ [s])) =
      (l.filter (fun k => decide (k ∉ path))).filter (fun k => decide (k ≠ s)) := by
    rw [List.filter_filter]
    apply List.filter_congr
    intro k _
    by_cases h1 : k ∈ path <;> by_cases h2 : k = s <;> simp [h1, h2]
  rw [this]
  apply List.length_filter_lt_length_iff_exists.2
  exact ⟨s, List.mem_filter.2 ⟨hs, by simpa using hp⟩, by simp⟩

/-- The local function `resolve` of `ComposeGoOverlays` (io.go:186-210): the result (an error carries the cycle that
    the message prints), and the map `resolved` afterwards. The keys of the map `visiting` are always the members of
    `path`: an element enters both at the same time (line 202, 203) and leaves `visiting` when the call for which it
    entered `path` is over (line 204). That Lean accepts the definition means that the recursion ends. -/
def resolve (comb : Map α α) (resolved : Map α α) (path : List α) (source : α) : Except (List α) α × Map α α :=
  match resolved.get source with
  | some target => (.ok target, resolved)
  | none =>
    if hv : source ∈ path then (.error (path ++ [source]), resolved)
    else
      match hm : comb.get source with
      | none => (.ok source, resolved)
      | some target =>
        match resolve comb resolved (path ++ [source]) target with
        | (.error c, r) => (.error c, r)
        | (.ok terminal, r) => (.ok terminal, r.set source terminal)
termination_by ((Map.keys comb).filter (fun k => decide (k ∉ path))).length
decreasing_by exact filter_lt (lookup_mem hm) hv

/-- The loop over the keys (io.go:217-221). -/
def resolveAll (comb : Map α α) (resolved : Map α α) : List α → Except (List α) (Map α α)
  | [] => .ok resolved
  | k :: ks =>
    match resolve comb resolved [] k with
    | (.error c, _) => .error c
    | (.ok _, r) => resolveAll comb r ks

/-- `ComposeGoOverlays` (io.go:166-223). The code sorts the keys; `order` stands for any way to order them. -/
def compose (order : List α → List α) (res can : α → α) (caller : Option (List (Entry α)))
    (generated : Option (Map α α)) : Except (List α) (Map α α) :=
  let comb := combined res can caller generated
  resolveAll comb [] (order comb.keys)

/-! The in-memory file system. -/

/-- `FileOverlay` (overlay.go:17-22). -/
inductive FileOverlay (α χ : Type) where
  | content (c : χ)
  | file (target : α)

/-- `Overlay` (overlay.go:15). -/
abbrev Fs (α χ : Type) := Map α (FileOverlay α χ)

/-- `OverrideFile` (overlay.go:42-46). -/
def overrideFile {χ : Type} (can : α → α) (o : Fs α χ) (f target : α) : Fs α χ := o.set (can f) (.file (can target))

/-- `OverrideContent` (overlay.go:48-55). -/
def overrideContent {χ : Type} (can : α → α) (o : Fs α χ) (f : α) (c : χ) : Fs α χ := o.set (can f) (.content c)

/-- `Read` and `ReadBytes` (overlay.go:80-116) with `Get` (overlay.go:57-59); `disk` is the content of the files. -/
def read {χ : Type} (can : α → α) (disk : α → χ) (o : Fs α χ) (f : α) : χ :=
  match o.get (can f) with
  | some (.content c) => c
  | some (.file t) => disk t
  | none => disk f

/-- `ApplyFileRedirects` (io.go:89-97). -/
def applyFileRedirects {χ : Type} (can : α → α) (p : List (Entry α)) (fs : Fs α χ) : Fs α χ :=
  p.foldl (fun fs e => overrideFile can fs e.sourceCanonical e.targetCanonical) fs

/-- `MakeGoOverlay` (overlay.go:150-184): the mappings, and what is written to disk. `gen` gives the path of the
    generated file of a source (overlay.go:161-162), `line` adds the line directive (overlay.go:168-170). -/
def makeGoOverlay {χ : Type} (gen : α → α) (line : α → χ → χ) (o : Fs α χ) : Map α α × Map α χ :=
  List.foldl (fun acc e =>
    match e.2 with
    | .content c => (Map.set acc.1 e.1 (gen e.1), Map.set acc.2 (gen e.1) (line e.1 c))
    | .file t => (Map.set acc.1 e.1 t, acc.2)) ([], []) o

/-- The disk after the generated files have been written. -/
def written {χ : Type} (disk : α → χ) (w : Map α χ) : α → χ := fun f => (w.get f).getD (disk f)

/-- What the Go tool reads for a path, given an overlay: one replacement, not followed further. -/
def goReads {χ : Type} (disk : α → χ) (o : Map α α) (f : α) : χ := disk ((o.get f).getD f)

/-- A later change of the in-memory file system: `OverrideContent` or `OverrideFile`. -/
def applyEdit {χ : Type} (can : α → α) (fs : Fs α χ) (e : α × FileOverlay α χ) : Fs α χ :=
  match e.2 with
  | .content c => overrideContent can fs e.1 c
  | .file t => overrideFile can fs e.1 t

/-- The in-memory file system of a build: the redirects of the user, then the changes of xgo
    (cmd/xgo/main.go:690-824; `edits` are the calls made there, in order). -/
def buildFs {χ : Type} (res can : α → α) (input : Map α α) (edits : List (α × FileOverlay α χ)) : Fs α χ :=
  edits.foldl (applyEdit can) (applyFileRedirects can (parseGoOverlay res can input) [])

/-- What is handed to the Go tool (cmd/xgo/main.go:825-845): the overlay, and the disk it is read with. -/
def build {χ : Type} (order : List α → List α) (res can gen : α → α) (line : α → χ → χ) (disk : α → χ)
    (input : Map α α) (edits : List (α × FileOverlay α χ)) : Except (List α) (Map α α × (α → χ)) :=
  let g := makeGoOverlay gen line (buildFs res can input edits)
  match compose order res can (some (parseGoOverlay res can input)) (some g.1) with
  | .error c => .error c
  | .ok m => .ok (project (parseGoOverlay res can input) m, written disk g.2)

/-- What the Go tool compiles for a file; `none` if xgo rejects the overlay. -/
def compiled {χ : Type} (order : List α → List α) (res can gen : α → α) (line : α → χ → χ) (disk : α → χ)
    (input : Map α α) (edits : List (α × FileOverlay α χ)) (f : α) : Option χ :=
  match build order res can gen line disk input edits with
  | .error _ => none
  | .ok (o, d) => some (goReads d o f)

end Verif.Instrument.Overlay
