import Verif.Text.Cut
/-
Specification of C69: the tokens of a Go source text, with their lines.

A scanner after the Go specification (https://go.dev/ref/spec, "Comments", "Tokens", "Semicolons"): white space, line and
general comments, words (identifiers, keywords, numbers), string and rune literals, operators (one token per character), and
the automatic semicolons.  Written as an automaton that reads one character at a time.
-/
namespace Verif.Cmd.BlankImport.Spec

open Verif.Text

inductive Tok where
  | word (w : Str)
  | lit (q : Char) (w : Str)
  | op (c : Char)
deriving DecidableEq

inductive Mode where
  | top
  | word (w : Str)
  | slash
  | line
  | block (nl : Bool)
  | blockStar (nl : Bool)
  | quote (q : Char) (w : Str)
  | quoteEsc (q : Char) (w : Str)
deriving DecidableEq

structure St where
  /-- the current line -/
  ln : Nat := 1
  /-- a line end here ends a statement -/
  semi : Bool := false
  /-- the operator sign that a second one would complete to `++` or `--` -/
  pm : Option Char := none
  mode : Mode := .top
deriving DecidableEq

/-- Letters, digits, underscore; everything that is not ASCII counts as a letter.  The period belongs to numbers as well as to
selectors; it is an operator here. -/
def wordChar (c : Char) : Bool := c.isAlphanum || c == '_' || decide (128 ≤ c.toNat)

def keywords : List Str := ["break", "case", "chan", "const", "continue", "default", "defer", "else", "fallthrough", "for", "func",
  "go", "goto", "if", "import", "interface", "map", "package", "range", "return", "select", "struct", "switch", "type",
  "var"].map String.toList

/-- The words after which a line end ends a statement. -/
def endsStmt (w : Str) : Bool :=
  !keywords.contains w || ["break", "continue", "fallthrough", "return"].any (fun k => k.toList == w)

def emitSemi (s : St) : List (Nat × Tok) := if s.semi then [(s.ln, .op ';')] else []

/-- A character outside of words, literals and comments. -/
def top (s : St) (c : Char) : St × List (Nat × Tok) :=
  if c = '\n' then ({ ln := s.ln + 1 }, emitSemi s)
  else if c = ' ' ∨ c = '\t' ∨ c = '\r' then ({ s with pm := none, mode := .top }, [])
  else if wordChar c then ({ s with mode := .word [c] }, [])
  else if c = '/' then ({ s with mode := .slash }, [])
  else if c = '"' ∨ c = '`' ∨ c = '\'' then ({ s with mode := .quote c [] }, [])
  else if (c = '+' ∨ c = '-') ∧ s.pm = some c then ({ ln := s.ln, semi := true }, [(s.ln, .op c)])
  else ({ ln := s.ln, semi := c == ')' || c == ']' || c == '}', pm := if c = '+' ∨ c = '-' then some c else none }, [(s.ln, .op c)])

/-- The end of a word. -/
def endWord (s : St) (w : Str) : St × List (Nat × Tok) := ({ ln := s.ln, semi := endsStmt w }, [(s.ln, .word w)])

def next (s : St) (c : Char) : St × List (Nat × Tok) :=
  match s.mode with
  | .top => top s c
  | .word w =>
    if wordChar c then ({ s with mode := .word (w ++ [c]) }, [])
    else
      let e := endWord s w
      let t := top e.1 c
      (t.1, e.2 ++ t.2)
  | .slash =>
    if c = '/' then ({ s with mode := .line }, [])
    else if c = '*' then ({ s with mode := .block false }, [])
    else
      let t := top { ln := s.ln } c
      (t.1, (s.ln, .op '/') :: t.2)
  | .line => if c = '\n' then top { s with mode := .top } c else (s, [])
  | .block nl =>
    if c = '*' then ({ s with mode := .blockStar nl }, [])
    else if c = '\n' then ({ s with ln := s.ln + 1, mode := .block true }, [])
    else (s, [])
  | .blockStar nl =>
    if c = '/' then
      (if nl then ({ ln := s.ln }, emitSemi s) else ({ s with pm := none, mode := .top }, []))
    else if c = '*' then (s, [])
    else if c = '\n' then ({ s with ln := s.ln + 1, mode := .block true }, [])
    else ({ s with mode := .block nl }, [])
  | .quote q w =>
    if c = q then ({ ln := s.ln, semi := true }, [(s.ln, .lit q w)])
    else if c = '\\' ∧ q ≠ '`' then ({ s with mode := .quoteEsc q (w ++ [c]) }, [])
    else ({ s with ln := if c = '\n' then s.ln + 1 else s.ln, mode := .quote q (w ++ [c]) }, [])
  | .quoteEsc q w => ({ s with mode := .quote q (w ++ [c]) }, [])

def run (s : St) : Str → St × List (Nat × Tok)
  | [] => (s, [])
  | c :: r =>
    let a := next s c
    let b := run a.1 r
    (b.1, a.2 ++ b.2)

/-- The end of the text. -/
def finish (s : St) : List (Nat × Tok) :=
  match s.mode with
  | .word w => let e := endWord s w; e.2 ++ emitSemi e.1
  | .slash => [(s.ln, .op '/')]
  | _ => emitSemi s

/-- The tokens of a source text, each with its line. -/
def tokens (c : Str) : List (Nat × Tok) := (run {} c).2 ++ finish (run {} c).1

/-- Only comments and white space, not inside a comment at the end; `ln` is the line after it. -/
def Blank (pre : Str) (ln : Nat) : Prop := run {} pre = ({ ln := ln }, [])

/-- `package name`, ended. -/
def clause (ln : Nat) (name : Str) : List (Nat × Tok) :=
  [(ln, .word "package".toList), (ln, .word name), (ln, .op ';')]

/-- `import _ "github.com/xhd2015/xgo/runtime/trace"`, ended. -/
def importDecl (ln : Nat) : List (Nat × Tok) :=
  [(ln, .word "import".toList), (ln, .word "_".toList), (ln, .lit '"' "github.com/xhd2015/xgo/runtime/trace".toList), (ln, .op ';')]

/-- A name: word characters, no keyword. -/
def Name (w : Str) : Prop := w ≠ [] ∧ (∀ c ∈ w, wordChar c = true) ∧ w ∉ keywords

/-- A text that begins, after comments and white space, with a package clause alone on its line.  The line ends with LF and no
carriage return follows, or it ends with CRLF, or with the text; before it nothing reads `package `. -/
inductive Header : Str → Nat → Str → Prop where
  | lf {pre : Str} {ln : Nat} {name sp rest : Str} : Blank pre ln → ¬ "package ".toList <:+: pre → Name name →
      (∀ c ∈ sp, c = ' ' ∨ c = '\t') → '\r' ∉ rest → Header (pre ++ ("package ".toList ++ (name ++ (sp ++ '\n' :: rest)))) ln name
  | crlf {pre : Str} {ln : Nat} {name sp rest : Str} : Blank pre ln → ¬ "package ".toList <:+: pre → Name name →
      (∀ c ∈ sp, c = ' ' ∨ c = '\t') → Header (pre ++ ("package ".toList ++ (name ++ (sp ++ '\r' :: '\n' :: rest)))) ln name
  | eof {pre : Str} {ln : Nat} {name sp : Str} : Blank pre ln → ¬ "package ".toList <:+: pre → Name name →
      (∀ c ∈ sp, c = ' ' ∨ c = '\t') → Header (pre ++ ("package ".toList ++ (name ++ sp))) ln name

end Verif.Cmd.BlankImport.Spec
