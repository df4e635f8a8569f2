/-
Model of semantic version parsing and comparison, used to decide which xgo/runtime versions fit together.

Source: support/goinfo/semver.go
-/
import Verif.Support.Decimal

namespace Verif.Support.Semver

/-- `parseInt` (semver.go:124-139): numeral and rest. -/
def parseInt (v : Str) : Option (Str × Str) :=
  match v with
  | [] => none
  | c :: _ =>
    if !isDig c then none
    else if c = '0' ∧ (v.takeWhile isDig).length ≠ 1 then none
    else some (v.takeWhile isDig, v.dropWhile isDig)

/-- `isIdentChar` (semver.go:169-171). -/
def isIdentChar (c : Char) : Bool :=
  (decide (65 ≤ c.toNat) && decide (c.toNat ≤ 90)) || (decide (97 ≤ c.toNat) && decide (c.toNat ≤ 122)) ||
    (decide (48 ≤ c.toNat) && decide (c.toNat ≤ 57)) || c == '-'

/-- `isNum` (semver.go:181-187). -/
def isNum (v : Str) : Bool := v.all isDig

/-- `isBadNum` (semver.go:173-179). -/
def isBadNum (v : Str) : Bool := v.all isDig && decide (v.length > 1) && v.head? == some '0'

/-- The loop of `parsePrerelease` (semver.go:149-166): `cur` is `v[start:i]`, `taken` is `v[:i]`. -/
def preLoop (cur taken : Str) : Str → Option (Str × Str)
  | [] => if cur = [] ∨ isBadNum cur then none else some (taken, [])
  | c :: r =>
    if c = '+' then (if cur = [] ∨ isBadNum cur then none else some (taken, c :: r))
    else if !isIdentChar c && c != '.' then none
    else if c = '.' then (if cur = [] ∨ isBadNum cur then none else preLoop [] (taken ++ [c]) r)
    else preLoop (cur ++ [c]) (taken ++ [c]) r

/-- `parsePrerelease` (semver.go:141-167). -/
def parsePrerelease : Str → Option (Str × Str)
  | '-' :: r => preLoop [] ['-'] r
  | _ => none

/-- The loop of `parseBuild` (semver.go:104-121): `empty` says `start == i`. It runs to the end of the text. -/
def buildLoop (empty : Bool) : Str → Bool
  | [] => !empty
  | c :: r =>
    if !isIdentChar c && c != '.' then false
    else if c = '.' then (if empty then false else buildLoop true r)
    else buildLoop false r

/-- `parseBuild` (semver.go:100-122). -/
def parseBuild : Str → Option (Str × Str)
  | '+' :: r => if buildLoop true r then some ('+' :: r, []) else none
  | _ => none

/-- `parsedSemver` (semver.go:36-43) without the field `short`, which nothing reads. -/
structure Parsed where
  major : Str
  minor : Str
  patch : Str
  prerelease : Str
  build : Str
  deriving DecidableEq, Repr

/-- The last part of `parseSemver` (semver.go:86-97), after the prerelease: build, then nothing. -/
def parseEnd (major minor patch pre : Str) (v : Str) : Option Parsed :=
  match v with
  | [] => some ⟨major, minor, patch, pre, []⟩
  | '+' :: _ =>
    match parseBuild v with
    | none => none
    | some (b, rest) => if rest = [] then some ⟨major, minor, patch, pre, b⟩ else none
  | _ => none

/-- The end of `parseSemver` (semver.go:80-97), after the patch number. -/
def parseTail (major minor patch v : Str) : Option Parsed :=
  match v with
  | '-' :: _ =>
    match parsePrerelease v with
    | none => none
    | some (pre, v) => parseEnd major minor patch pre v
  | _ => parseEnd major minor patch [] v

/-- `parseSemver` (semver.go:45-98). -/
def parseSemver (v : Str) : Option Parsed :=
  match v with
  | 'v' :: v =>
    match parseInt v with
    | none => none
    | some (major, v) =>
      match v with
      | [] => some ⟨major, ['0'], ['0'], [], []⟩
      | '.' :: v =>
        match parseInt v with
        | none => none
        | some (minor, v) =>
          match v with
          | [] => some ⟨major, minor, ['0'], [], []⟩
          | '.' :: v =>
            match parseInt v with
            | none => none
            | some (patch, v) => parseTail major minor patch v
          | _ => none
      | _ => none
  | _ => none

/-- `nextIdent` (semver.go:268-274). -/
def nextIdent (x : Str) : Str × Str := (x.takeWhile (· != '.'), x.dropWhile (· != '.'))

/-- Comparison of two different identifiers (semver.go:236-259). -/
def cmpIdent (dx dy : Str) : Int :=
  if isNum dx ≠ isNum dy then (if isNum dx then -1 else 1)
  else if isNum dx ∧ dx.length < dy.length then -1
  else if isNum dx ∧ dx.length > dy.length then 1
  else if strLt dx dy then -1
  else 1

/-- The loop of `comparePrerelease` (semver.go:229-265). Each round shortens `x`; the fuel, initially the length
    of `x`, never runs out. -/
def cmpPreLoop : Nat → Str → Str → Int
  | 0, x, _ => if x = [] then -1 else 1
  | fuel + 1, x, y =>
    if x ≠ [] ∧ y ≠ [] then
      let dx := nextIdent x.tail
      let dy := nextIdent y.tail
      if dx.1 ≠ dy.1 then cmpIdent dx.1 dy.1 else cmpPreLoop fuel dx.2 dy.2
    else if x = [] then -1 else 1

/-- `comparePrerelease` (semver.go:206-266). -/
def comparePrerelease (x y : Str) : Int :=
  if x = y then 0
  else if x = [] then 1
  else if y = [] then -1
  else cmpPreLoop x.length x y

/-- The comparison of two parsed versions (semver.go:19-28). -/
def cmpParsed (p q : Parsed) : Int :=
  if cmpInt p.major q.major ≠ 0 then cmpInt p.major q.major
  else if cmpInt p.minor q.minor ≠ 0 then cmpInt p.minor q.minor
  else if cmpInt p.patch q.patch ≠ 0 then cmpInt p.patch q.patch
  else comparePrerelease p.prerelease q.prerelease

/-- `CompareSemVer` (semver.go:7-29). -/
def compareSemVer (v w : Str) : Int :=
  match parseSemver v, parseSemver w with
  | none, none => 0
  | none, some _ => -1
  | some _, none => 1
  | some p, some q => cmpParsed p q

/-- `IsValidSemVer` (semver.go:31-34). -/
def isValidSemVer (v : Str) : Bool := (parseSemver v).isSome

end Verif.Support.Semver
