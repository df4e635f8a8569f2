import Verif.Instrument.Load
/-
Specification of C68: loading one file after the other, without goroutines.
-/
namespace Verif.Instrument.Load.Spec

variable {σ : Type}

/-- What a file should look like after it was loaded. -/
inductive Loaded (σ : Type) where
  /-- it could not be read -/
  | unreadable (e : String)
  /-- it was read and given to the parser -/
  | parsed (content : List Char) (syn : Option σ) (err : Option String)

def load (read : String → Except String (List Char)) (parse : String → List Char → Option σ × Option String) (p : String) :
    Loaded σ :=
  match read p with
  | .error e => .unreadable e
  | .ok c => .parsed (normCRLF c) (parse p (normCRLF c)).1 (parse p (normCRLF c)).2

/-- A file that can be read and parsed. -/
def good (read : String → Except String (List Char)) (parse : String → List Char → Option σ × Option String) (p : String) : Bool :=
  match load read parse p with
  | .unreadable _ => false
  | .parsed _ _ err => err.isNone

/-- The object `c` holds what loading `p` gives. -/
def Holds (read : String → Except String (List Char)) (parse : String → List Char → Option σ × Option String) (p : String)
    (c : Cell σ) : Prop :=
  match load read parse p with
  | .unreadable e => c = { content := [], err := some e, syn := none }
  | .parsed content syn err => c = { content := content, err := err, syn := syn }

/-- Put a character in front of the first line. -/
def consHead (c : Char) : List (List Char) → List (List Char)
  | [] => [[c]]
  | l :: ls => (c :: l) :: ls

/-- The lines of a text. -/
def splitNL : List Char → List (List Char)
  | [] => [[]]
  | c :: r => if c = '\n' then [] :: splitNL r else consHead c (splitNL r)

/-- A line without a `\r` at its end. -/
def dropCR (l : List Char) : List Char := if l.getLast? = some '\r' then l.dropLast else l

/-- Change all elements but the last. -/
def mapInit {α : Type} (f : α → α) : List α → List α
  | [] => []
  | [a] => [a]
  | a :: b :: l => f a :: mapInit f (b :: l)

end Verif.Instrument.Load.Spec
