import Verif.Support.Decimal
/-
Model of the choice of directories for a Go installation: the GOROOT that is used, the directory of its instrumented copy, the
copy itself and its build cache; what `xgo setup --delete` removes.

Source: cmd/xgo/main.go:250-262 (GOROOT), 353, 364-425 (directories, deletion), 436-439 (the copy), 468 (the cache),
1265-1320 (`checkGoroot`), cmd/xgo/pathsum/path.go, support/fileutil/path.go:9-29.

Simplifications: Unix; a path is absolute and clean, as `filepath.Abs` makes it, and given by its elements; a text is given by its
bytes, each written as the character of that number, and is valid UTF-8; the first eight digits of MD5 are an arbitrary function.
-/
namespace Verif.Cmd.GorootDir

abbrev Str := List Char
abbrev Path := List Str

/-- The text of a path. -/
def text : Path → Str
  | [] => "/".toList
  | p => p.flatMap (fun s => '/' :: s)

def keeps (c : Char) : Bool :=
  c == '.' || c == '_' || c == '-' || (decide ('0' ≤ c) && decide (c ≤ '9')) || (decide ('a' ≤ c) && decide (c ≤ 'z')) ||
    (decide ('A' ≤ c) && decide (c ≤ 'Z'))

/-- `CleanSpecial` (fileutil/path.go:9-27). -/
def cleanSpecial : Str → Str
  | [] => []
  | c :: s => if c = ' ' then '_' :: cleanSpecial s
    else if decide (c.toNat < 128) && !keeps c then cleanSpecial s
    else c :: cleanSpecial s

/-- The loop of `shortPath` (pathsum/path.go:33-64); `have_` elements are there already. -/
def shortSegs (maxSeg : Nat) : Nat → Path → List Str
  | _, [] => []
  | n, seg :: rest =>
    let s := (cleanSpecial seg).take 2
    if s = [] then shortSegs maxSeg n rest
    else if maxSeg > 0 && decide (n + 1 ≥ maxSeg) then [s]
    else s :: shortSegs maxSeg (n + 1) rest

def joinWith (sep : Char) : List Str → Str
  | [] => []
  | [s] => s
  | s :: rest => s ++ sep :: joinWith sep rest

def shortPath (p : Path) (maxSeg : Nat) : Str := joinWith '_' (shortSegs maxSeg 0 p)

def hexDigit (d : Fin 16) : Char := "0123456789abcdef".toList[d.val]'(by have := d.isLt; exact this)

/-- The first eight hexadecimal digits of MD5 of a text. -/
abbrev Md5 := Str → Fin 8 → Fin 16

/-- `getIdentSum` (pathsum/path.go:23-31). -/
def identSum (md5 : Md5) (p : Path) : Str := (List.ofFn (md5 (text p))).map hexDigit

/-- `PathSum` (pathsum/path.go:13-21). -/
def pathSum (md5 : Md5) (pre : Str) (p : Path) : Str := pre ++ shortPath p 8 ++ "_".toList ++ identSum md5 p

structure Version where
  major : Nat
  minor : Nat
  patch : Nat
  deriving DecidableEq

def dec (n : Nat) : Str := Nat.toDigits 10 n

/-- `goVersionName` (main.go:353). -/
def versionName (v : Version) : Str := "go".toList ++ dec v.major ++ ".".toList ++ dec v.minor ++ ".".toList ++ dec v.patch

def revisionName : Str := "xgo-revision.txt".toList
def goInstrument (dev : Bool) : Str := "go-instrument".toList ++ if dev then "-dev".toList else []

/-- The world: what is a regular file, the home of xgo, the temporary directory, whether this is a development build. -/
structure World where
  isFile : Path → Bool
  home : Path
  tmp : Path
  dev : Bool
  md5 : Md5

/-- Whether the GOROOT is an instrumented one (main.go:376-389). -/
def instrumented (w : World) (v : Version) (goroot : Path) : Bool :=
  match goroot.getLast? with
  | none => false
  | some base => !(goroot.dropLast).isEmpty && base == versionName v && w.isFile (goroot.dropLast ++ [revisionName])

/-- `instrumentDir` (main.go:384, 391-399). -/
def instrumentDir (w : World) (v : Version) (goroot : Path) : Path :=
  if instrumented w v goroot then goroot.dropLast
  else w.home ++ [goInstrument w.dev, pathSum w.md5 (versionName v ++ "_".toList) goroot]

/-- `instrumentCacheDir` (main.go:403-414). -/
def cacheDir (w : World) (v : Version) (goroot : Path) : Path :=
  w.tmp ++ ["xgo".toList, goInstrument w.dev, pathSum w.md5 (versionName v ++ "_".toList) (instrumentDir w v goroot)]

/-- `instrumentGoroot` (main.go:436-439), the GOROOT of the commands that xgo runs. -/
def instrumentGoroot (w : World) (v : Version) (inPlace : Bool) (goroot : Path) : Path :=
  if inPlace then goroot else instrumentDir w v goroot ++ [versionName v]

/-- The trees that `xgo setup --delete` removes (main.go:417-431). -/
def deletes (w : World) (v : Version) (goroot : Path) : List Path := [instrumentDir w v goroot, cacheDir w v goroot]

/-- What is left of the files after `os.RemoveAll` of some trees. -/
def removeAll (trees : List Path) (files : Path → Bool) : Path → Bool :=
  fun p => files p && !trees.any (fun t => t.isPrefixOf p)

/-- What `os.Stat` says of a path. -/
inductive Stat | dir | file | missing | error
  deriving DecidableEq

/-- `checkGoroot` (main.go:1262-1313). `given` is `--with-goroot` (empty if absent) as it is written, `env` the answer of
    `go env GOROOT` in the project directory without line ends, `own` runtime.GOROOT() of xgo; `plain` whether a text is a single
    path element; `none` is an error. -/
def checkGoroot (stat : Str → Stat) (plain : Str → Bool) (given : Str) (env : Option Str) (own : Str) : Option Str :=
  if given = [] then
    if env ≠ none ∧ env ≠ some [] then env
    else if own ≠ [] then some own
    else none
  else match stat given with
    | .dir | .file => some given
    | .error => none
    | .missing =>
      if plain given then
        if stat ("go-release/".toList ++ given) = .dir then some ("go-release/".toList ++ given) else none
      else none

end Verif.Cmd.GorootDir
