import Verif.Support.Semver
import Verif.Support.GoVersion
/-
Model of how xgo compiles a project that has a vendor directory.

Models /repo/support/goinfo/vendor_parse.go (ParseVendorContent) and the vendor part of loadDependency and the functions it
calls in /repo/cmd/xgo/trace.go (getVendorDir, isLocalReplace, splitArgsBatch, createGoModPlaceholder).  Go maps are functions
with a default.  `go mod edit` is outside; see VendorSpec.lean.
-/
namespace Verif.Cmd.Vendor

abbrev Str := List Char

/-! ### Package strings -/

/-- `unicode.IsSpace` (used by `strings.Fields` and `strings.TrimSpace`). -/
def isSpace (c : Char) : Bool :=
  ['\t', '\n', Char.ofNat 11, Char.ofNat 12, '\r', ' ', Char.ofNat 0x85, Char.ofNat 0xA0, Char.ofNat 0x1680, Char.ofNat 0x2028,
    Char.ofNat 0x2029, Char.ofNat 0x202f, Char.ofNat 0x205f, Char.ofNat 0x3000].contains c || (0x2000 ≤ c.toNat && c.toNat ≤ 0x200a)

/-- `strings.Fields` continued: `w` is the word read so far. -/
def fieldsFrom (w : Str) : Str → List Str
  | [] => if w = [] then [] else [w]
  | c :: r => if isSpace c then (if w = [] then fieldsFrom [] r else w :: fieldsFrom [] r) else fieldsFrom (w ++ [c]) r

/-- `strings.Fields`. -/
def fields (s : Str) : List Str := fieldsFrom [] s

/-- `strings.Split` by one character, continued. -/
def splitFrom (sep : Char) (w : Str) : Str → List Str
  | [] => [w]
  | c :: r => if c = sep then w :: splitFrom sep [] r else splitFrom sep (w ++ [c]) r

/-- `strings.Split` by one character. -/
def split (sep : Char) (s : Str) : List Str := splitFrom sep [] s

/-- `strings.TrimSpace`. -/
def trimSpace (s : Str) : Str := ((s.dropWhile isSpace).reverse.dropWhile isSpace).reverse

/-- `cutPrefix` (/repo/support/goinfo/str.go:5-10); `none` if the prefix is not there. -/
def cutPrefix (s pre : Str) : Option Str := if pre.isPrefixOf s then some (s.drop pre.length) else none

/-! ### vendor/modules.txt -/

/-- `ModVersion` (vendor_parse.go:19-22). -/
structure ModVersion where
  path : Str := []
  version : Str := []
deriving DecidableEq

/-- `vendorMetadata` (vendor_parse.go:14-18). -/
structure Meta where
  explicit : Bool := false
  replacement : ModVersion := {}
  goVersion : Str := []
deriving DecidableEq

/-- `VendorInfo` (vendor_parse.go:52-61). -/
structure Info where
  list : List ModVersion := []
  replaced : List ModVersion := []
  version : Str → Option Str := fun _ => none
  pkgModule : Str → Option ModVersion := fun _ => none
  vmeta : ModVersion → Meta := fun _ => {}
  mod : ModVersion := {}

/-- Assignment to a map. -/
def upd {α β : Type} [DecidableEq α] (f : α → β) (k : α) (v : β) : α → β := fun x => if x = k then v else f x

/-- `FromToolchain` (/repo/support/goinfo/mod.go:158-180). -/
def fromToolchain (name : Str) : Str :=
  if name.any (fun c => c = '\\' || c = '/') then []
  else match cutPrefix name "go".toList with
    | none => []
    | some v =>
      let v := v.takeWhile (fun c => c != ' ' && c != '\t' && c != '-')
      if Support.GoVersion.isValidVersion v then v else []

/-- `maybeToolchainVersion` (mod.go:151-156). -/
def maybeToolchainVersion (name : Str) : Str := if Support.GoVersion.isValidVersion name then name else fromToolchain name

/-- `ModCompare` (mod.go:141-149). -/
def modCompare (path x y : Str) : Int :=
  if path = "go".toList then Support.GoVersion.compareVersion x y
  else if path = "toolchain".toList then Support.GoVersion.compareVersion (maybeToolchainVersion x) (maybeToolchainVersion y)
  else Support.Semver.compareSemVer x y

/-- The replacement at the end of a module line (vendor_parse.go:93-108). -/
def parseReplacement (c : Info) (f : List Str) : Info :=
  if f.length ≥ 2 ∧ f[0]? = some "=>".toList then
    match f with
    | [_, p] => { c with vmeta := upd c.vmeta c.mod { c.vmeta c.mod with replacement := { path := p } }, replaced := c.replaced ++ [c.mod] }
    | [_, p, v] =>
      if Support.Semver.isValidSemVer v then
        { c with vmeta := upd c.vmeta c.mod { c.vmeta c.mod with replacement := { path := p, version := v } },
                 replaced := c.replaced ++ [c.mod] }
      else c
    | _ => c
  else c

/-- A line that begins with `# ` (vendor_parse.go:72-110). -/
def parseModuleLine (c : Info) (f : List Str) : Info :=
  match f with
  | _ :: p :: v :: r =>
    if Support.Semver.isValidSemVer v then parseReplacement { c with mod := { path := p, version := v } } r
    else if v = "=>".toList then parseReplacement { c with mod := { path := p } } (v :: r)
    else { c with mod := {} }
  | _ => c

/-- The annotations of a line that begins with `## ` (vendor_parse.go:119-133). -/
def annotate (m : Meta) : List Str → Meta
  | [] => m
  | e :: r =>
    let e := trimSpace e
    let m := if e = "explicit".toList then { m with explicit := true } else m
    annotate (match cutPrefix e "go ".toList with | some v => { m with goVersion := v } | none => m) r

/-- A line that names a package (vendor_parse.go:137-149). -/
def parsePackageLine (c : Info) (f : List Str) : Info :=
  match f with
  | [p] =>
    let c := { c with pkgModule := upd c.pkgModule p (some c.mod) }
    if (match c.version c.mod.path with | none => true | some v => decide (modCompare c.mod.path v c.mod.version < 0)) then
      { c with list := c.list ++ [c.mod], version := upd c.version c.mod.path (some c.mod.version) }
    else c
  | _ => c

/-- `parseLine` (vendor_parse.go:69-148). -/
def parseLine (c : Info) (line : Str) : Info :=
  if "# ".toList.isPrefixOf line then parseModuleLine c (fields line)
  else if c.mod.path = [] then c
  else match cutPrefix line "## ".toList with
    | some a => { c with vmeta := upd c.vmeta c.mod (annotate (c.vmeta c.mod) (split ';' a)) }
    | none => parsePackageLine c (fields line)

/-- `ParseVendorContent` (vendor_parse.go:42-50, 63-67). -/
def parseVendor (content : Str) : Info := (split '\n' content).foldl parseLine {}

/-! ### The go.mod that is built with -/

/-- `isLocalReplace` (trace.go:518-530). -/
def isLocalReplace (p : Str) : Bool :=
  p = ".".toList || p = "..".toList || "./".toList.isPrefixOf p || "../".toList.isPrefixOf p

/-- The module path used for a vendored module (trace.go:309-315). -/
def usedPath (i : Info) (m : ModVersion) : Str :=
  let r := (i.vmeta m).replacement.path
  if r ≠ [] ∧ isLocalReplace r = false then r else m.path

/-- `filepath.Join` of a clean directory and a clean relative path. -/
def join (dir p : Str) : Str := dir ++ '/' :: p

/-- The version required (trace.go:326-329). -/
def usedVersion (m : ModVersion) : Str := if m.version = [] then "v0.0.0-00010101000000-000000000000".toList else m.version

/-- The two flags for a vendored module (trace.go:330-336). -/
def flagsOf (vendorDir : Str) (i : Info) (m : ModVersion) : List Str :=
  [ "-require=".toList ++ usedPath i m ++ '@' :: usedVersion m,
    "-replace=".toList ++ usedPath i m ++ '=' :: join vendorDir (usedPath i m) ]

/-- The placeholder go.mod of a vendored module and its text (trace.go:339-347, 746-758): the path it takes in the overlay. -/
def placeholder (vendorDir : Str) (toolchain : Str) (i : Info) (m : ModVersion) : Str × Str :=
  (join (join vendorDir (usedPath i m)) "go.mod".toList,
    "module ".toList ++ usedPath i m ++ "\ngo ".toList ++
      (if (i.vmeta m).goVersion = [] then toolchain else (i.vmeta m).goVersion) ++ "\n".toList)

/-- `splitArgsBatch` (trace.go:487-516), `limit > 0`: the loop that fills whole groups (`n` of them), then what remains. -/
def groupsOf (limit : Nat) : Nat → List Str → List (List Str)
  | 0, rest => if rest = [] then [] else [rest]
  | n + 1, args => args.take limit :: groupsOf limit n (args.drop limit)

/-- `splitArgsBatch` (trace.go:487-516). -/
def splitArgsBatch (args : List Str) (limit : Nat) : List (List Str) :=
  if args.length ≤ limit then [args] else groupsOf limit (args.length / limit) args

/-- `constants.RUNTIME_MODULE`. -/
def runtimeModule : Str := "github.com/xhd2015/xgo/runtime".toList

/-- What loadDependency works with. -/
structure Env where
  vendorDir : Str
  /-- `fmt.Sprintf("%d.%d", goVersion.Major, goVersion.Minor)` -/
  toolchain : Str
  /-- `goVersion.Minor >= 26` -/
  setGo : Bool
  mainModule : Str
  /-- `"v" + VERSION` -/
  xgoVersion : Str
  tmpRuntime : Str

/-- The flags of the calls of `go mod edit` on the copy of go.mod, in order (trace.go:371-386, 393-413). -/
def edits (E : Env) (i : Info) : List (List Str) :=
  (if i.list = [] then [] else splitArgsBatch (i.list.flatMap (flagsOf E.vendorDir i)) 100) ++
  (if E.mainModule = runtimeModule then []
   else [[ "-require=".toList ++ runtimeModule ++ '@' :: E.xgoVersion, "-replace=".toList ++ runtimeModule ++ '=' :: E.tmpRuntime ] ++
     (if E.setGo then ["-go=".toList ++ E.toolchain] else [])])

/-- The entries added to the overlay (trace.go:347). -/
def placeholders (E : Env) (i : Info) : List (Str × Str) := i.list.map (placeholder E.vendorDir E.toolchain i)

/-- The `-mod` flag that go is run with (trace.go:296, 368); empty for none. -/
def modFlag (i : Info) : Str := if i.list = [] then [] else "mod".toList

/-- `getVendorDir(projectDir)` as importRuntimeDepGenOverlay calls it (trace.go:46-57, 77-83). -/
def getVendorDir (isThere : Str → Bool) (projectDir : Str) : Option Str :=
  if isThere (join projectDir "vendor".toList) then some (join projectDir "vendor".toList) else none

end Verif.Cmd.Vendor
