/-
Specification of Go toolchain versions and their order.
-/
namespace Verif.Support.GoVersion.Spec

/-- A Go version: `1.21.3` has a patch number, `1.21rc2` a kind and a number, `1.21` neither. -/
structure Ver where
  major : Nat
  minor : Nat
  patch : Option Nat
  kind : List Char
  pre : Option Nat
  deriving DecidableEq, Repr

/-- Decimal text. -/
abbrev dec (n : Nat) : List Char := Nat.toDigits 10 n

/-- Decimal text, or nothing. -/
def optText : Option Nat → List Char
  | none => []
  | some n => dec n

/-- `s` is a text of the Go version `v`. Before 1.21, `1.x` is the release `1.x.0`; since then it is a language
    version. -/
inductive Text : List Char → Ver → Prop
  | major (M : Nat) : Text (dec M) ⟨M, 0, some 0, [], none⟩
  | oldMinor (M m : Nat) : m < 21 → Text (dec M ++ '.' :: dec m) ⟨M, m, some 0, [], none⟩
  | minor (M m : Nat) : 21 ≤ m → Text (dec M ++ '.' :: dec m) ⟨M, m, none, [], none⟩
  | patch (M m p : Nat) : Text (dec M ++ '.' :: dec m ++ '.' :: dec p) ⟨M, m, some p, [], none⟩
  | pre (M m : Nat) (kind : List Char) (n : Option Nat) : kind ≠ [] → (∀ c ∈ kind, c.isLower = true) →
      Text (dec M ++ '.' :: dec m ++ kind ++ optText n) ⟨M, m, none, kind, n⟩

/-- Order: number by number, a missing number before all numbers; kinds alphabetically. So
    `1.21 < 1.21rc1 < 1.21rc2 < 1.21.0 < 1.21.1`. -/
def prec (v w : Ver) : Ordering :=
  (compare v.major w.major).then <| (compare v.minor w.minor).then <| (compare v.patch w.patch).then <|
    (compare v.kind w.kind).then <| compare v.pre w.pre

end Verif.Support.GoVersion.Spec
