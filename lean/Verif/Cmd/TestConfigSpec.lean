/-
Specification for the test explorer's configuration: which files are well-typed, what their settings say, what a child process sees of
its environment, which versions a range admits.
-/
import Verif.Cmd.TestConfig

namespace Verif.Cmd.TestConfig.Spec
open Verif.Cmd.TestConfig

/-- Key `k` of the object has value `v`: of several members the last counts. -/
def Has (l : List (Str × Json)) (k : Str) (v : Json) : Prop := ∃ a b, l = a ++ (k, v) :: b ∧ ∀ p ∈ b, p.1 ≠ k

/-- The key is not there, or `null`. -/
def Unset (l : List (Str × Json)) (k : String) : Prop := (∀ p ∈ l, p.1 ≠ k.toList) ∨ Has l k.toList .null

/-- A key that is `name`, whatever the case of its letters. -/
def Named (k : Str) (name : String) : Prop := k.map Char.toLower = name.toList

def IsStr (j : Json) : Prop := ∃ s, j = .str s
def IsBool (j : Json) : Prop := ∃ b, j = .bool b
/-- A list of texts (or nulls). -/
def IsTexts (j : Json) : Prop := ∃ l, j = .arr l ∧ ∀ x ∈ l, x = .null ∨ IsStr x

/-- Every member called `name` is `null` or what is asked for. -/
def Members (l : List (Str × Json)) (name : String) (P : Json → Prop) : Prop :=
  ∀ k v, Has l k v → Named k name → v = .null ∨ P v

/-- The keys that mean something. -/
inductive Key
  | env | go | goCmd | exclude | flags | args | bypass | rules | xgo | coverage
deriving DecidableEq

def Key.name : Key → String
  | .env => "env"
  | .go => "go"
  | .goCmd => "go_cmd"
  | .exclude => "exclude"
  | .flags => "flags"
  | .args => "args"
  | .bypass => "bypass_go_flags"
  | .rules => "mock_rules"
  | .xgo => "xgo"
  | .coverage => "coverage"

/-- What may stand behind a key of the file. -/
inductive Fits : Key → Json → Prop
  | env (l : List (Str × Json)) : Fits .env (.obj l)
  | goText (s : Str) : Fits .go (.str s)
  | goRange (l : List (Str × Json)) : Members l "min" IsStr → Members l "max" IsStr → Fits .go (.obj l)
  | goCmd (s : Str) : Fits .goCmd (.str s)
  | excludeOne (s : Str) : Fits .exclude (.str s)
  | exclude (l : List Json) : (∀ x ∈ l, IsStr x) → Fits .exclude (.arr l)
  | flagsOne (s : Str) : Fits .flags (.str s)
  | flags (l : List Json) : (∀ x ∈ l, IsStr x) → Fits .flags (.arr l)
  | argsOne (s : Str) : Fits .args (.str s)
  | args (l : List Json) : (∀ x ∈ l, IsStr x) → Fits .args (.arr l)
  | bypass (b : Bool) : Fits .bypass (.bool b)
  | bypassTrue : Fits .bypass (.str "true".toList)
  | bypassFalse : Fits .bypass (.str "false".toList)
  | rules (l : List Json) : (∀ x ∈ l, ¬ IsStr x) → Fits .rules (.arr l)
  | xgo (l : List (Str × Json)) : Members l "auto_update" IsBool → Fits .xgo (.obj l)
  | coverageSwitch (b : Bool) : Fits .coverage (.bool b)
  | coverage (l : List (Str × Json)) : Members l "disabled" IsBool → Members l "diff_with" IsStr → Members l "profile" IsStr →
      Members l "include" IsTexts → Members l "exclude" IsTexts → Fits .coverage (.obj l)

/-- A file is well-typed if what stands behind these keys fits. -/
def WellTyped (j : Json) : Prop :=
  j = .null ∨ ∃ l, j = .obj l ∧ ∀ k : Key, ∀ v, Has l k.name.toList v → v = .null ∨ Fits k v

/-- The list of texts a setting says: a list, one text that is not empty, or nothing. -/
def Texts (l : List (Str × Json)) (k : String) (ts : List Str) : Prop :=
  Has l k.toList (.arr (ts.map .str)) ∨ (∃ s, Has l k.toList (.str s) ∧ ts = if s = [] then [] else [s]) ∨ (Unset l k ∧ ts = [])

/-- A process with this environment sees the value `v` of the name `k`: the last entry counts. -/
def Sees (env : List Str) (k v : Str) : Prop :=
  ∃ a b, env = a ++ (k ++ '=' :: v) :: b ∧ ∀ e ∈ b, ¬ (k ++ ['=']) <+: e

/-- The decimal text of an integer. -/
def decimal (n : Int) : Str := if n < 0 then '-' :: Nat.toDigits 10 n.natAbs else Nat.toDigits 10 n.natAbs

/-- `1.20`, with whatever patch number. -/
inductive Number : Str → Nat → Nat → Prop
  | plain (M m : Nat) : Number (Nat.toDigits 10 M ++ '.' :: Nat.toDigits 10 m) M m
  | patch (M m p : Nat) : p < 2 ^ 63 → Number (Nat.toDigits 10 M ++ '.' :: Nat.toDigits 10 m ++ '.' :: Nat.toDigits 10 p) M m

/-- A bound: `1.20` or `go1.20`. -/
def Bound (s : Str) (M m : Nat) : Prop := Number s M m ∨ ∃ t, s = "go".toList ++ t ∧ Number t M m

/-- Release `M.m` is not older than `M'.m'`. -/
def AtLeast (M m M' m' : Nat) : Prop := M' < M ∨ (M' = M ∧ m' ≤ m)

end Verif.Cmd.TestConfig.Spec
