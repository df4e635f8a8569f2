/-
What copying a directory should do.
-/
import Verif.Support.FileCopy

namespace Verif.Support.FileCopy

/-- What an entry is. -/
inductive Kind where
  | dir
  | file (content : Path)
  | link (target : Path)
  | other
  deriving DecidableEq, Repr

mutual
/-- `IsAt node names k`: going down from `node` by the names there is an entry of kind `k`. -/
inductive IsAt : Node → List Path → Kind → Prop where
  | file {n c} : IsAt (.file n c) [n] (.file c)
  | link {n t} : IsAt (.link n t) [n] (.link t)
  | other {n} : IsAt (.other n) [n] .other
  | here {n cs} : IsAt (.dir n cs) [n] .dir
  | inside {n cs ns k} : Has cs ns k → IsAt (.dir n cs) (n :: ns) k
/-- The directory with these entries has an entry of kind `k` at the path with these names. -/
inductive Has : Nodes → List Path → Kind → Prop where
  | head {n rest ns k} : IsAt n ns k → Has (.cons n rest) ns k
  | tail {n rest ns k} : Has rest ns k → Has (.cons n rest) ns k
end

/-- The path with these names, separated by `/`. -/
def join : List Path → Path
  | [] => []
  | [n] => n
  | n :: m :: ns => n ++ '/' :: join (m :: ns)

/-- Some nonempty suffix in the list is a suffix of the path. -/
def EndsIn (ss : List Path) (p : Path) : Prop := ∃ s ∈ ss, s ≠ [] ∧ s <:+ p

/-- The entry at these names is wanted: neither it nor a directory above it is ignored, and its suffix is right unless it
    is a directory. -/
def Wanted (o : Options) (ns : List Path) (k : Kind) : Prop :=
  (∀ pre, pre <+: ns → pre ≠ [] → join pre ≠ [] → join pre ∉ o.ignoreSubPaths) ∧
  (k ≠ .dir → (o.includeSuffix = [] ∨ EndsIn o.includeSuffix (join ns)) ∧ ¬ EndsIn o.ignoreSuffix (join ns))

/-- What should be at the path of an entry of this kind afterwards. -/
def Kind.entry : Kind → Option Entry
  | .dir => some .dir
  | .file c => some (.file c)
  | .link t => some (.link t)
  | .other => none

mutual
/-- File systems: names are not empty, have no `/`, and are different within a directory. -/
def Node.Ok : Node → Prop
  | .file n _ => n ≠ [] ∧ '/' ∉ n
  | .link n _ => n ≠ [] ∧ '/' ∉ n
  | .other n => n ≠ [] ∧ '/' ∉ n
  | .dir n cs => (n ≠ [] ∧ '/' ∉ n) ∧ cs.Ok
def Nodes.Ok : Nodes → Prop
  | .nil => True
  | .cons n rest => n.Ok ∧ rest.Ok ∧ n.name ∉ rest.names
def Node.name : Node → Path
  | .file n _ => n
  | .link n _ => n
  | .other n => n
  | .dir n _ => n
def Nodes.names : Nodes → List Path
  | .nil => []
  | .cons n rest => n.name :: rest.names
end

/-- The files among what the walk has to do. -/
def sends {α : Type} : List (Todo α) → List α
  | [] => []
  | .own _ :: t => sends t
  | .send f :: t => f :: sends t

end Verif.Support.FileCopy
