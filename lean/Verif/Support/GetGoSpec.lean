/-
What is to be shown of C94, in its own words.
-/
import Verif.Support.GetGo

namespace Verif.Support.GetGo.Spec
open Verif.Support.GetGo
open Verif.Cmd.GoMod (Path isAbs abs)

/-- `d` and the directories above it are there. -/
def Dirs (d : List Str) (fs : FS) : Prop := ∀ q, q <+: d → fs q = some .dir

/-- A name that does not lead out of the directory it is in, at depth `n` below it: each `..` takes back a part before it. -/
def Stays : Nat → Path → Prop
  | _, [] => True
  | n, x :: p =>
    if x = [] ∨ x = ".".toList then Stays n p
    else if x = "..".toList then 0 < n ∧ Stays (n - 1) p
    else Stays (n + 1) p

instance : ∀ n p, Decidable (Stays n p)
  | _, [] => inferInstanceAs (Decidable True)
  | n, x :: p => by
    have := instDecidableStays n p
    have := instDecidableStays (n - 1) p
    have := instDecidableStays (n + 1) p
    unfold Stays
    infer_instance

/-- The last file for the path `p` has the content `c`; `place` says where an entry belongs. -/
def LastFile (place : Entry → List Str) (es : List Entry) (p : List Str) (c : Str) : Prop :=
  ∃ pre e post, es = pre ++ e :: post ∧ e.isDir = false ∧ place e = p ∧ e.content = c ∧ ∀ e' ∈ post, e'.isDir = false → place e' ≠ p

/-- The archive has the directory `p`, or something in it. -/
def HasDir (place : Entry → List Str) (es : List Entry) (p : List Str) : Prop :=
  ∃ e ∈ es, p <+: place e ∧ (e.isDir = true ∨ p ≠ place e)

/-- A line of the page that names a version. -/
def Names (line v : Str) : Prop :=
  v ≠ [] ∧ '"' ∉ v ∧ ∃ a rest, "<div ".toList <+: a ∧ line = a ++ "id=\"go".toList ++ v ++ '"' :: rest ∧
    ∀ b b', line = b ++ "id=\"go".toList ++ b' → a.length ≤ b.length

/-- `v` and `v'` are the same version, with or without `go`. -/
def Same (v v' : Str) : Prop :=
  v = v' ∨ (v = "go".toList ++ v' ∧ ¬ "go".toList <+: v') ∨ (v' = "go".toList ++ v ∧ ¬ "go".toList <+: v)

/-- All runs are still to begin. -/
def Begins {τ : Type} (s : St τ) : Prop := ∀ i, s.at_ i = .start

/-- The version is in the list, or there is none. -/
def Listed {τ π : Type} (w : World τ π) : Prop := ∀ l, w.list = some l → naked w.version ∈ l

end Verif.Support.GetGo.Spec
