/-
What the test explorer should show and run.
-/
import Verif.Cmd.TestExplorer

namespace Verif.Cmd.Explorer
open Verif.Support (Str)

def Nodes.toList : Nodes → List Node
  | .nil => []
  | .cons n l => n :: l.toList

def Node.name : Node → Str
  | .file n _ => n
  | .dir n _ _ => n

/-- The directory at the path below this one; no directory on the way, itself included, is a module of its own. -/
inductive At : Nodes → List Str → Nodes → Prop where
  | here {ns} : At ns [] ns
  | down {ns n es p t} : .dir n false es ∈ ns.toList → At es p t → At ns (n :: p) t

/-- The directory at this path is part of the project: not in another module, not in the vendor directory. -/
def InProject (root : Nodes) (p : List Str) (es : Nodes) : Prop := At root p es ∧ p.head? ≠ some "vendor".toList

mutual
/-- Different names in each directory. -/
def Node.Ok : Node → Prop
  | .file _ _ => True
  | .dir _ _ es => es.Ok
def Nodes.Ok : Nodes → Prop
  | .nil => True
  | .cons n rest => n.Ok ∧ rest.Ok ∧ ∀ m ∈ rest.toList, m.name ≠ n.name
end

/-- An item of the tree, at any depth. -/
inductive Within : Item → Item → Prop where
  | self {i} : Within i i
  | child {i j k} : j ∈ i.children.toList → Within k j → Within k i

/-- Characters that are no part of the syntax of regular expressions, or are escaped, and not `/`. All characters of Go
    identifiers are. -/
def Tame (c : Char) : Prop := c ∉ ".()+*?^$\\/".toList

instance (c : Char) : Decidable (Tame c) := by unfold Tame; infer_instance

/-- The elements of a name with `/` between them. -/
def joinSlash : List Str → Str
  | [] => []
  | [n] => n
  | n :: m :: l => n ++ '/' :: joinSlash (m :: l)

/-- The further elements of a name: each contains the wanted one, the last one ends with it. -/
def Follows : List Str → List Str → Prop
  | _, [] => True
  | [], _ => True
  | [z], n :: _ => z <:+ n
  | m :: ms, n :: ns => m <:+: n ∧ Follows ms ns

end Verif.Cmd.Explorer
