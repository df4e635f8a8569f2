/-
Model of the path patterns used by exclude/include filters and by legacy mock rules.

Source: support/pattern/pattern.go; patch/legacy/match/pattern.go is a generated copy of it.
-/
namespace Verif.Support.Pattern

/-- Simplification: a Go string is a list of characters (valid UTF-8), so that `[]rune(s)` is the identity. -/
abbrev Str := List Char

/-- The character loop of `strings.Split(path, "/")` followed by the filter (pattern.go:122-132): `w` is the
    segment read so far. -/
def splitLoop (w : Str) : Str → List Str
  | [] => if w = [] then [] else [w]
  | c :: s => if c = '/' then (if w = [] then splitLoop [] s else w :: splitLoop [] s) else splitLoop (w ++ [c]) s

/-- `splitPath` (pattern.go:122-132). -/
def splitPath (path : Str) : List Str := splitLoop [] path

/-- `element` (pattern.go:39-42). -/
inductive Elem
  | plain (runes : Str)
  | star
  deriving DecidableEq, Repr

/-- `expr` (pattern.go:86-89). -/
structure Expr where
  doubleStar : Bool
  elements : List Elem
  deriving DecidableEq, Repr

/-- The loop of `compileExpr` (pattern.go:102-119): `acc` is `runes[lastIdx:i]`, `prevStar` says that
    `runes[i-1]` is `*`. -/
def compileLoop (acc : Str) (prevStar : Bool) : Str → List Elem
  | [] => if acc = [] then [] else [.plain acc]
  | c :: rest =>
    if c ≠ '*' then compileLoop (acc ++ [c]) false rest
    else
      (if acc = [] then [] else [.plain acc]) ++
        (if prevStar then compileLoop [] true rest else .star :: compileLoop [] true rest)

/-- `compileExpr` (pattern.go:91-120). -/
def compileExpr (s : Str) : Expr :=
  if s = [] then ⟨false, []⟩ else if s = ['*', '*'] then ⟨true, []⟩ else ⟨false, compileLoop [] false s⟩

/-- `CompilePattern` (pattern.go:22-30). -/
def compilePattern (s : Str) : List Expr := (splitPath s).map compileExpr

/-- The star case of `matchRunesFrom` (pattern.go:179-186): `f` is the match of the elements after the star. -/
def starLoop (f : Str → Bool) : Str → Bool
  | [] => f []
  | c :: runes => f (c :: runes) || starLoop f runes

/-- `matchRunesFrom` (pattern.go:173-207). -/
def matchRunes (prefix_ : Bool) : List Elem → Str → Bool
  | [], runes => runes.isEmpty
  | .star :: es, runes => starLoop (matchRunes prefix_ es) runes
  | .plain lit :: _, runes =>
    if (!prefix_ && lit.length != runes.length) || (prefix_ && decide (lit.length > runes.length)) then false
    else runes.take lit.length == lit

/-- `matchEmpty` (pattern.go:209-217). -/
def Expr.matchEmpty (e : Expr) : Bool := e.elements.all (· == .star)

/-- The double-star case of `doMatch` (pattern.go:152-157): `f` is the match of the expressions after it. -/
def dblLoop (f : List Str → Bool) : List Str → Bool
  | [] => f []
  | s :: segs => dblLoop f segs || f (s :: segs)

/-- `doMatch` (pattern.go:144-166). -/
def doMatch (prefix_ : Bool) : List Expr → List Str → Bool
  | [], segs => if prefix_ then true else segs.isEmpty
  | e :: es, segs =>
    if e.doubleStar then dblLoop (doMatch prefix_ es) segs
    else
      match segs with
      | [] => e.matchEmpty
      | s :: rest => if !matchRunes prefix_ e.elements s then false else doMatch prefix_ es rest

/-- `Pattern.Match` (pattern.go:50-53) of the compiled pattern. -/
def match_ (pattern path : Str) : Bool := doMatch false (compilePattern pattern) (splitPath path)

/-- `Pattern.MatchPrefix` (pattern.go:46-48). -/
def matchPrefix (pattern path : Str) : Bool := doMatch true (compilePattern pattern) (splitPath path)

/-- `Patterns.MatchAny` (pattern.go:64-72). -/
def matchAny (patterns : List Str) (path : Str) : Bool :=
  patterns.any fun p => doMatch false (compilePattern p) (splitPath path)

/-- `Patterns.MatchAnyPrefix` (pattern.go:59-62, 77-84). -/
def matchAnyPrefix (patterns : List Str) (path : Str) : Bool :=
  patterns.any fun p => doMatch true (compilePattern p) (splitPath path)

end Verif.Support.Pattern
