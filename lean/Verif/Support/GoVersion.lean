/-
Model of Go toolchain versions: `1.21`, `1.21rc1`, `1.21.0`, and of the output of `go version`.

Source: support/goinfo/version.go, support/goinfo/goinfo.go
-/
import Verif.Support.Decimal

namespace Verif.Support.GoVersion

/-- `Version` (version.go:15-21). -/
structure Version where
  major : Str
  minor : Str
  patch : Str
  kind : Str
  pre : Str
  deriving DecidableEq, Repr

/-- `Version{}`. -/
def Version.zero : Version := ⟨[], [], [], [], []⟩

/-- `cutInt` (version.go:147-156). -/
def cutInt (x : Str) : Option (Str × Str) :=
  let n := x.takeWhile isDig
  if n = [] ∨ (x.head? = some '0' ∧ n.length ≠ 1) then none else some (n, x.dropWhile isDig)

/-- `'a' <= c && c <= 'z'` (version.go:75). -/
def isLow (c : Char) : Bool := decide (97 ≤ c.toNat) && decide (c.toNat ≤ 122)

/-- The prerelease part of `ParseVersion` (version.go:72-92), `x` not empty and not starting with a dot. The loop
    stops at the first digit and fails at the first other character that is not a lower case letter. -/
def parsePre (major minor x : Str) : Version :=
  let kind := x.takeWhile (fun c => !isDig c)
  let rest := x.dropWhile (fun c => !isDig c)
  if kind.any (fun c => !isLow c) then .zero
  else if kind = [] then .zero
  else if rest = [] then ⟨major, minor, [], kind, []⟩
  else
    match cutInt rest with
    | none => .zero
    | some (pre, r) => if r ≠ [] then .zero else ⟨major, minor, [], kind, pre⟩

/-- `ParseVersion` (version.go:23-94). -/
def parseVersion (x : Str) : Version :=
  match cutInt x with
  | none => .zero
  | some (major, x) =>
    match x with
    | [] => ⟨major, ['0'], ['0'], [], []⟩
    | c :: x =>
      if c ≠ '.' then .zero
      else
        match cutInt x with
        | none => .zero
        | some (minor, x) =>
          match x with
          | [] => if cmpInt minor ['2', '1'] < 0 then ⟨major, minor, ['0'], [], []⟩ else ⟨major, minor, [], [], []⟩
          | c :: r =>
            if c = '.' then
              match cutInt r with
              | none => .zero
              | some (patch, r) => if r ≠ [] then .zero else ⟨major, minor, patch, [], []⟩
            else parsePre major minor (c :: r)

/-- `compareString` (version.go:120-128). -/
def compareString (x y : Str) : Int := if strLt x y then -1 else if strLt y x then 1 else 0

/-- `CompareVersion` (version.go:95-115). -/
def compareVersion (x y : Str) : Int :=
  let vx := parseVersion x
  let vy := parseVersion y
  if cmpInt vx.major vy.major ≠ 0 then cmpInt vx.major vy.major
  else if cmpInt vx.minor vy.minor ≠ 0 then cmpInt vx.minor vy.minor
  else if cmpInt vx.patch vy.patch ≠ 0 then cmpInt vx.patch vy.patch
  else if compareString vx.kind vy.kind ≠ 0 then compareString vx.kind vy.kind
  else if cmpInt vx.pre vy.pre ≠ 0 then cmpInt vx.pre vy.pre
  else 0

/-- `IsValidVersion` (version.go:116-118). -/
def isValidVersion (x : Str) : Bool := parseVersion x != .zero

/-! `go version` output (goinfo.go). -/

/-- `GoVersion` (goinfo.go:11-18). Simplification: Go's `int` is 64 bit. -/
structure GoInfo where
  major : Int
  minor : Int
  patch : Int
  os : Str
  arch : Str
  deriving DecidableEq, Repr

/-- `strconv.ParseInt(s, 10, 64)`: optional sign, then digits; `none` on a syntax or range error. -/
def parseInt64 (s : Str) : Option Int :=
  let neg := s.head? == some '-'
  let digits := if s.head? = some '-' ∨ s.head? = some '+' then s.tail else s
  if digits = [] ∨ digits.any (fun c => !isDig c) then none
  else
    let n : Int := if neg then -(val digits : Int) else val digits
    if n < -(2 ^ 63 : Int) ∨ n > (2 ^ 63 - 1 : Int) then none else some n

/-- `strings.Split(s, sep)` for a one-character separator; `w` is the piece read so far. -/
def splitOn (sep : Char) (w : Str) : Str → List Str
  | [] => [w]
  | c :: s => if c = sep then w :: splitOn sep [] s else splitOn sep (w ++ [c]) s

/-- Cutting the minor number at the first non-digit unless it is at the start (goinfo.go:83-91). -/
def cutMinor (num : Str) : Str :=
  let t := num.takeWhile isDig
  if t.length < num.length ∧ t.length > 0 then t else num

/-- `ParseGoVersionNumber` (goinfo.go:76-106). -/
def parseGoVersionNumber (version : Str) : Option GoInfo :=
  let l := splitOn '.' [] version
  let num (i : Nat) (f : Str → Str) : Option Int :=
    match l[i]? with
    | none => some 0
    | some s => parseInt64 (f s)
  match num 0 id, num 1 cutMinor, num 2 id with
  | some a, some b, some c => some ⟨a, b, c, [], []⟩
  | _, _, _ => none

/-- `ParseGoVersion` (goinfo.go:43-72). -/
def parseGoVersion (s : Str) : Option GoInfo :=
  if !("go version ".toList).isPrefixOf s then none
  else
    let s := s.drop "go version ".length
    if !("go".toList).isPrefixOf s then none
    else
      let s := s.drop "go".length
      if ' ' ∉ s then none
      else
        let version := s.takeWhile (· != ' ')
        let osArch := (s.dropWhile (· != ' ')).tail
        match parseGoVersionNumber version with
        | none => none
        | some res =>
          if '/' ∉ osArch then none
          else some { res with os := osArch.takeWhile (· != '/'), arch := (osArch.dropWhile (· != '/')).tail }

/-- `%d`. -/
def itoa (n : Int) : Str := if n < 0 then '-' :: Nat.toDigits 10 n.natAbs else Nat.toDigits 10 n.natAbs

/-- `GoVersion.String` (goinfo.go:20-22). -/
def GoInfo.string (g : GoInfo) : Str :=
  "go version ".toList ++ "go".toList ++ itoa g.major ++ '.' :: itoa g.minor ++ '.' :: itoa g.patch ++ ' ' :: g.os ++ '/' :: g.arch

end Verif.Support.GoVersion
