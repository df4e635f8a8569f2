import Verif.Instrument.CoverNotes
import Verif.Text.EditBufferSpec
/-
What is to come out when xgo and `go tool cover` both edit a file.
-/
namespace Verif.Instrument.CoverNotes.Spec
open Verif.Text

/-- Where a character of the program that is compiled comes from. Characters of the source that xgo removes are kept as
    `removed`. -/
inductive Tag
  | source | removed | xgo | counter
deriving DecidableEq

/-- The characters with these tags. -/
def keep (tags : List Tag) (t : List (Char × Tag)) : List Char := (t.filter fun x => tags.contains x.2).map (·.1)

/-- The cover tool of the Go distribution: it inserts its counters. -/
def plainCover (counters : List Char → List Char → List (Nat × List Char)) (name content : List Char) : Option (List Char) :=
  match addCounters (counters name content) (Buffer.mk' content) with
  | none => none
  | some b => b.bytes.1

end Verif.Instrument.CoverNotes.Spec
