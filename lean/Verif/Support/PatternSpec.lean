/-
Specification of path patterns: the usual meaning of `*` and `**`.
-/
namespace Verif.Support.Pattern.Spec

/-- `Segs s l`: `l` are the non-empty pieces of `s` between slashes. -/
inductive Segs : List Char → List (List Char) → Prop
  | nil : Segs [] []
  | slash {s l} : Segs s l → Segs ('/' :: s) l
  | seg {w rest l} : w ≠ [] → '/' ∉ w → (rest = [] ∨ ∃ r, rest = '/' :: r) → Segs rest l →
      Segs (w ++ rest) (w :: l)

/-- A segment pattern spells a segment: `*` stands for any run of characters, another character for itself. -/
inductive Seg : List Char → List Char → Prop
  | nil : Seg [] []
  | lit {c p s} : c ≠ '*' → Seg p s → Seg (c :: p) (c :: s)
  | star {p} (run : List Char) {s} : Seg p s → Seg ('*' :: p) (run ++ s)

/-- A list of segment patterns spells a list of segments: `**` stands for any run of segments. -/
inductive Path : List (List Char) → List (List Char) → Prop
  | nil : Path [] []
  | dbl {ps} (run : List (List Char)) {xs} : Path ps xs → Path (['*', '*'] :: ps) (run ++ xs)
  | seg {p ps x xs} : p ≠ ['*', '*'] → Seg p x → Path ps xs → Path (p :: ps) (x :: xs)

/-- `pattern` matches `path`. -/
def Matches (pattern path : List Char) : Prop :=
  ∃ ps xs, Segs pattern ps ∧ Segs path xs ∧ Path ps xs

/-- `pattern` matches a leading run of the segments of `path`. -/
def MatchesPrefix (pattern path : List Char) : Prop :=
  ∃ ps xs ys, Segs pattern ps ∧ Segs path (xs ++ ys) ∧ Path ps xs

end Verif.Support.Pattern.Spec
